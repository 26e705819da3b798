import Verif.Lemmas.RunFloat
import Verif.Lemmas.Underflow
import Verif.Props.MatrixRound
import Verif.Props.Limit
import Mathlib.Tactic.FinCases
import Mathlib.Data.Fin.VecNotation
/-!
C115: sampled states whose rates are infinite or undefined.
-/
namespace Verif
open Spec

variable {k : Nat}

/-- the matrices of the sampled states -/
abbrev matsF {n : Nat} (meth : Method) (R : ℚ → PyF) (states : List (ChemF n k)) : List NMatF :=
  states.map (fun s => (matrixF meth R s).toN)

theorem toN_blank {n : Nat} {M : MatF n} (h : ∀ a b, Blank (M a b)) (n' : Nat) : BlankMatrix M.toN n' := by
  intro i _ j _
  unfold MatF.toN
  split_ifs
  · exact h _ _
  · exact .inl rfl
  · exact .inl rfl

theorem toN_finite {n : Nat} {M : MatF n} (h : FiniteMatrix M.toN n) (n' : Nat) : FiniteMatrix M.toN n' := by
  intro i _ j _
  by_cases hi : i < n
  · by_cases hj : j < n
    · exact h i hi j hj
    · exact ⟨0, by simp [MatF.toN, hi, hj]⟩
  · exact ⟨0, by simp [MatF.toN, hi]⟩

theorem plain_zero {M : NMatF} {n : Nat} (h : BlankMatrix M n) : ∀ i < n, ∀ j < n, plain M i j = 0 := by
  intro i hi j hj
  unfold plain
  rcases h i hi j hj with e | e <;> rw [e]

theorem getElem?_lt {names : List String} {i : Nat} {s : String} (h : names[i]? = some s) :
    i < names.length := (List.getElem?_eq_some_iff.1 h).1

section
variable {names targets : List String} {M : NMat}

theorem zero_linked (h : ∀ i < names.length, ∀ j < names.length, M i j = 0) {t : ℚ} {s : String} :
    Linked M names targets t s ↔ s ∈ targets := by
  constructor
  · rintro ⟨x, hx, hr⟩
    cases hr with
    | refl => exact hx
    | tail _ h2 =>
        obtain ⟨i, j, hi, hj, -, h0⟩ := h2
        exact absurd (h i (getElem?_lt hi) j (getElem?_lt hj)) h0
  · exact fun hs => ⟨s, hs, .refl⟩

theorem zero_path {rnd : ℚ → ℚ} (h : ∀ i < names.length, ∀ j < names.length, M i j = 0) {a b : String}
    {x : ℚ} (hp : PathProduct rnd M names a x b) : a = b ∧ x = 1 := by
  cases hp with
  | nil _ => exact ⟨rfl, rfl⟩
  | step _ hi hj h0 => exact absurd (h _ (getElem?_lt hi) _ (getElem?_lt hj)) h0

end

/-- matrices of zeros do not matter, if there is another one -/
theorem kept_drop {c : Ctx} {sol : Mech} (S : Setting c sol) {Ms Ms' : List NMat} (hsub : ∀ M ∈ Ms', M ∈ Ms)
    (hne : Ms' ≠ []) (hz : ∀ M ∈ Ms, M ∉ Ms' → ∀ i < sol.names.length, ∀ j < sol.names.length, M i j = 0)
    (m : Method) (t : ℚ) (s : String) :
    Kept m { c with matrices := Ms' } sol t s ↔ Kept m { c with matrices := Ms } sol t s := by
  obtain ⟨M0, h0⟩ := List.exists_mem_of_ne_nil _ hne
  have kd : KeptDrg { c with matrices := Ms' } sol t s ↔ KeptDrg { c with matrices := Ms } sol t s := by
    constructor
    · rintro (⟨M, hM, hl⟩ | h)
      · exact .inl ⟨M, hsub M hM, hl⟩
      · exact .inr h
    · rintro (⟨M, hM, hl⟩ | h)
      · by_cases hin : M ∈ Ms'
        · exact .inl ⟨M, hin, hl⟩
        · exact .inl ⟨M0, h0, s, (zero_linked (hz M hM hin)).1 hl, .refl⟩
      · exact .inr h
  have kp : KeptPath { c with matrices := Ms' } sol t s ↔ KeptPath { c with matrices := Ms } sol t s := by
    constructor
    · rintro (⟨y, hy, hl⟩ | h)
      · refine .inl ⟨y, ?_, hl⟩
        rcases hy with hy | ⟨M, hM, x, hx, hp⟩
        · exact .inl hy
        · exact .inr ⟨M, hsub M hM, x, hx, hp⟩
      · exact .inr h
    · rintro (⟨y, hy, hl⟩ | h)
      · refine .inl ⟨y, ?_, hl⟩
        rcases hy with hy | ⟨M, hM, x, hx, hp⟩
        · exact .inl hy
        · by_cases hin : M ∈ Ms'
          · exact .inr ⟨M, hin, x, hx, hp⟩
          · obtain ⟨rfl, rfl⟩ := zero_path (hz M hM hin) hp
            exact .inr ⟨M0, h0, x, hx, .nil (S.targets x hx)⟩
      · exact .inr h
  cases m
  · exact kd
  · exact kp
  · exact kd

section
variable {pop : Pop String} {R : ℚ → PyF} {meth : Method} {c : Ctx} {sol : Mech}

theorem runMethod_sim (m : Method) (c : Ctx) : runMethodS m c c.sim = runMethod m c := by
  cases m <;> rfl

theorem sorted_states (hR : FloatRound R) {states : List (ChemF sol.names.length k)}
    (h : ∀ s ∈ states, BadRates s ∨ Ordinary meth R s) (n : Nat) : Sorted (matsF meth R states) n := by
  intro M hM
  obtain ⟨s, hs, rfl⟩ := List.mem_map.1 hM
  rcases h s hs with hb | ho
  · exact .inr (toN_blank (fun a b => bad_matrix meth hR hb a b) n)
  · exact .inl (toN_finite ho.finite n)

theorem usable_states (hR : FloatRound R) (S : Setting c sol) (ht : c.targets ≠ [])
    (hrm : meth = .drgep → RndOk c.rndMul) {states : List (ChemF sol.names.length k)}
    (h : ∀ s ∈ states, BadRates s ∨ Ordinary meth R s) (hne : states ≠ []) :
    Usable meth { c with matrices := (matsF meth R states).map plain } sol where
  nodup := S.nodup
  targets := S.targets
  noclash := S.noclash
  target := ht
  unit := by
    intro hm
    refine ⟨hrm hm, fun M hM => ?_⟩
    obtain ⟨N, hN, rfl⟩ := List.mem_map.1 hM
    obtain ⟨s, hs, rfl⟩ := List.mem_map.1 hN
    rcases h s hs with hb | ho
    · have := plain_zero (toN_blank (fun a b => bad_matrix meth hR hb a b) sol.names.length)
      intro i hi j hj
      rw [this i hi j hj]
      exact ⟨le_rfl, zero_le_one⟩
    · exact ho.unit hm
  upper := by
    intro _
    right
    simpa using hne

/-- **C115**: a sampled state in which some rate is infinite or undefined is ignored without a
message: the outcome is that of a run without the state.  For all methods, thresholds, models and
any number of such states, as long as one other state is left. -/
theorem C115_ignored_refuted (hp1 : TakesOne pop) (hp2 : TakesLeast pop) (hR : FloatRound R)
    (S : Setting c sol) (ht : c.targets ≠ []) (hrm : meth = .drgep → RndOk c.rndMul)
    {states good : List (ChemF sol.names.length k)} (hsub : ∀ s ∈ good, s ∈ states) (hne : good ≠ [])
    (hbad : ∀ s ∈ states, s ∉ good → BadRates s) (hord : ∀ s ∈ good, Ordinary meth R s)
    {limit : PyF} (hl : LimitOk c sol limit) (a : Arith) :
    ∃ N, ∀ dfuel ≥ N, ∀ fuel w w', w.fs c.modelFile = some sol → w'.fs c.modelFile = some sol →
      RunResult.view (runMethodF pop meth c (matsF meth R states) c.sim a.rnd limit dfuel fuel w) =
        RunResult.view (runMethodF pop meth c (matsF meth R good) c.sim a.rnd limit dfuel fuel w') := by
  have hall : ∀ s ∈ states, BadRates s ∨ Ordinary meth R s := by
    intro s hs
    by_cases hg : s ∈ good
    · exact .inr (hord s hg)
    · exact .inl (hbad s hs hg)
  have hgood : ∀ s ∈ good, BadRates s ∨ Ordinary meth R s := fun s hs => .inr (hord s hs)
  have hne' : states ≠ [] := by
    obtain ⟨s, hs⟩ := List.exists_mem_of_ne_nil _ hne
    exact List.ne_nil_of_mem (hsub s hs)
  have U := usable_states (c := c) hR S ht hrm hgood hne
  have U' := usable_states (c := c) hR S ht hrm hall hne'
  have hk := kept_drop S (Ms := (matsF meth R states).map plain) (Ms' := (matsF meth R good).map plain)
    (by
      intro M hM
      obtain ⟨N, hN, rfl⟩ := List.mem_map.1 hM
      obtain ⟨s, hs, rfl⟩ := List.mem_map.1 hN
      exact List.mem_map_of_mem (List.mem_map_of_mem (hsub s hs)))
    (by simpa using hne)
    (by
      intro M hM hnot
      obtain ⟨N, hN, rfl⟩ := List.mem_map.1 hM
      obtain ⟨s, hs, rfl⟩ := List.mem_map.1 hN
      have hb : BadRates s := hbad s hs (fun hg => hnot (List.mem_map_of_mem (List.mem_map_of_mem hg)))
      exact plain_zero (toN_blank (fun a b => bad_matrix meth hR hb a b) _))
    meth
  obtain ⟨N, hN⟩ := run_same_kept U U' ⟨rfl, rfl, rfl, rfl⟩ (fun t s _ => (hk t s).symm)
    (limit := limit) ⟨hl.nonneg, hl.full⟩ a
  refine ⟨max N (sol.names.length + 1), fun dfuel hd fuel w w' hw hw' => ?_⟩
  simp only [ge_iff_le, max_le_iff] at hd
  have hd2 : sol.names.length < dfuel := by omega
  rw [runMethodF_plain hp1 hp2 meth (sorted_states hR hall) a.rnd limit fuel hw hd2,
    runMethodF_plain hp1 hp2 meth (sorted_states hR hgood) a.rnd limit fuel hw' hd2]
  have := hN dfuel hd.1 fuel w' w hw' hw
  rw [← runMethod_sim, ← runMethod_sim] at this
  exact this

end

/-! ### rounding without overflow: every state is finite or bad -/

/-- the finite rates of a state -/
def ChemF.rates {n : Nat} (s : ChemF n k) : Chem n k :=
  ⟨s.prod, s.reac, fun r => match s.rop r with | .fin q => q | _ => 0⟩

theorem rates_toF {n : Nat} {s : ChemF n k} (h : ¬ BadRates s) : s.rates.toF = s := by
  unfold BadRates at h
  push Not at h
  obtain ⟨p, r, w⟩ := s
  simp only [ChemF.rates, Chem.toF, ChemF.mk.injEq, true_and]
  funext i
  obtain ⟨q, e⟩ := h i
  simp only at e
  rw [e]

theorem floatRound_fin {rnd : ℚ → ℚ} (hr : RndOk rnd) : FloatRound (fun q => .fin (rnd q)) :=
  ⟨by simp [hr.zero], fun q hq => .inr ⟨rnd q, RndOk_nonneg hr hq, rfl⟩⟩

theorem plain_fin {n : Nat} {MF : MatF n} {M : Mat n} (h : ∀ a b, MF a b = .fin (M a b)) :
    plain MF.toN = M.toN := by
  funext i j
  unfold plain MatF.toN Mat.toN
  split_ifs <;> simp [h]

theorem ordinary_of_finite {rnd : ℚ → ℚ} (hr : RndOk rnd) (hodd : ∀ x, rnd (-x) = -rnd x) (meth : Method)
    {n : Nat} {s : ChemF n k} (h : ¬ BadRates s) : Ordinary meth (fun q => .fin (rnd q)) s := by
  rw [← rates_toF h]
  refine ⟨fun i hi j hj => ?_, ?_⟩
  · simp only [MatF.toN, hi, hj, dif_pos]
    exact ⟨_, matrixF_fin meth _ _ _⟩
  · rintro rfl
    rw [plain_fin (M := drgepMatrixR rnd s.rates) (fun a b => matrixF_fin .drgep s.rates a b)]
    exact toN_unit _ (C84_drgep_range hr hodd _)

/-- **C115**: without overflow in the matrix functions no assumption on the states is left: every
run equals the run on those states whose rates are all finite, if there are any. -/
theorem C115_no_overflow_refuted {pop : Pop String} (hp1 : TakesOne pop) (hp2 : TakesLeast pop)
    {rnd : ℚ → ℚ} (hr : RndOk rnd) (hodd : ∀ x, rnd (-x) = -rnd x) (meth : Method) {c : Ctx} {sol : Mech}
    (S : Setting c sol) (ht : c.targets ≠ []) (hrm : RndOk c.rndMul)
    (states : List (ChemF sol.names.length k)) (hne : ∃ s ∈ states, ¬ BadRates s)
    {limit : PyF} (hl : LimitOk c sol limit) (a : Arith) :
    ∃ N, ∀ dfuel ≥ N, ∀ fuel w w', w.fs c.modelFile = some sol → w'.fs c.modelFile = some sol →
      RunResult.view (runMethodF pop meth c (matsF meth (fun q => .fin (rnd q)) states) c.sim a.rnd
          limit dfuel fuel w) =
        RunResult.view (runMethodF pop meth c (matsF meth (fun q => .fin (rnd q))
          (open Classical in states.filter (fun s => ¬ BadRates s))) c.sim a.rnd limit dfuel fuel w') := by
  classical
  obtain ⟨s0, h0, h1⟩ := hne
  refine C115_ignored_refuted hp1 hp2 (floatRound_fin hr) S ht (fun _ => hrm)
    (fun s hs => (List.mem_filter.1 hs).1)
    (List.ne_nil_of_mem (List.mem_filter.2 ⟨h0, by simpa using h1⟩))
    (fun s hs hn => ?_) (fun s hs => ?_) hl a
  · by_contra hb
    exact hn (List.mem_filter.2 ⟨hs, by simpa using hb⟩)
  · exact ordinary_of_finite hr hodd meth (by simpa using (List.mem_filter.1 hs).2)

/-- **C115**: on states with finite rates, computed without overflow, a run on floating-point
numbers is the run that the other properties are about. -/
theorem C115_finite_partial {pop : Pop String} (hp1 : TakesOne pop) (hp2 : TakesLeast pop)
    {rnd : ℚ → ℚ} (meth : Method) (c : Ctx) {sol : Mech} (states : List (Chem sol.names.length k))
    (sim : Mech → Except Err PyF) (rnd' : ℚ → ℚ) (limit : PyF) (dfuel fuel : Nat) (w : World)
    (hw : w.fs c.modelFile = some sol) (hd : sol.names.length < dfuel) :
    runMethodF pop meth c (matsF meth (fun q => .fin (rnd q)) (states.map Chem.toF)) sim rnd' limit
        dfuel fuel w =
      runMethodS meth { c with matrices := states.map (matrixOf meth rnd) } sim rnd' limit dfuel fuel w := by
  have hfin : ∀ s : Chem sol.names.length k, FiniteMatrix (matrixF meth (fun q => .fin (rnd q)) s.toF).toN
      sol.names.length := by
    intro s i hi j hj
    simp only [MatF.toN, hi, hj, dif_pos]
    exact ⟨_, matrixF_fin meth _ _ _⟩
  have hs : ∀ n, Sorted (matsF meth (fun q => .fin (rnd q)) (states.map Chem.toF)) n := by
    intro n M hM
    simp only [matsF, List.map_map, List.mem_map, Function.comp_apply] at hM
    obtain ⟨s, -, rfl⟩ := hM
    exact .inl (toN_finite (hfin s) n)
  rw [runMethodF_plain hp1 hp2 meth hs rnd' limit fuel hw hd]
  congr 2
  simp only [matsF, List.map_map]
  apply List.map_congr_left
  intro s _
  simp only [Function.comp_apply]
  cases meth
  · exact plain_fin (fun a b => matrixF_fin .drg s a b)
  · exact plain_fin (fun a b => matrixF_fin .drgep s a b)
  · exact plain_fin (fun a b => matrixF_fin .pfa s a b)

/-! ### only bad states -/

section
variable {pop : Pop String} {R : ℚ → PyF} {meth : Method} {c : Ctx} {sol : Mech}

/-- matrices of zeros: what is kept -/
theorem kept_zero (S : Setting c sol) (hne : c.matrices ≠ [])
    (hz : ∀ M ∈ c.matrices, ∀ i < sol.names.length, ∀ j < sol.names.length, M i j = 0)
    (m : Method) {t : ℚ} (h0 : 0 < t) (h1 : t ≤ 1) (s : String) :
    Kept m c sol t s ↔ s ∈ c.targets ∨ s ∈ c.safe := by
  obtain ⟨M0, hM0⟩ := List.exists_mem_of_ne_nil _ hne
  have kd : KeptDrg c sol t s ↔ s ∈ c.targets ∨ s ∈ c.safe := by
    constructor
    · rintro (⟨M, hM, hl⟩ | h)
      · exact .inl ((zero_linked (hz M hM)).1 hl)
      · exact .inr h
    · rintro (h | h)
      · exact .inl ⟨M0, hM0, s, h, .refl⟩
      · exact .inr h
  cases m
  · exact kd
  · constructor
    · rintro (⟨y, hy, hl⟩ | h)
      · rcases hy with rfl | ⟨M, hM, x, hx, hp⟩
        · exact absurd (lt_of_lt_of_le h0 hl) (lt_irrefl _)
        · obtain ⟨rfl, -⟩ := zero_path (hz M hM) hp
          exact .inl hx
      · exact .inr h
    · rintro (h | h)
      · exact .inl ⟨1, .inr ⟨M0, hM0, s, h, .nil (S.targets s h)⟩, h1⟩
      · exact .inr h
  · exact kd

/-- **C115**: when every sampled state has an infinite or undefined rate, a model that a run
returns consists of the targets and the retained species, whatever the chemistry is. -/
theorem C115_only_bad_refuted (hp1 : TakesOne pop) (hp2 : TakesLeast pop) (hR : FloatRound R)
    (S : Setting c sol) (ht : c.targets ≠ []) (hrm : meth = .drgep → RndOk c.rndMul)
    {states : List (ChemF sol.names.length k)} (hne : states ≠ []) (hbad : ∀ s ∈ states, BadRates s)
    {limit : PyF} (hl : LimitOk c sol limit) :
    ∃ N, ∀ dfuel ≥ N, ∀ fuel w r w', w.fs c.modelFile = some sol →
      runMethodF pop meth c (matsF meth R states) c.sim id limit dfuel fuel w = (some (.ok r), w') →
      meth = .drgep ∧ r.model = trim sol (sol.names.filter (fun s => !(c.targets ++ c.safe).contains s))
        ("reduced_".toList ++ c.modelFile) c.phase := by
  have hall : ∀ s ∈ states, BadRates s ∨ Ordinary meth R s := fun s hs => .inl (hbad s hs)
  have U := usable_states (c := c) hR S ht hrm hall hne
  have hz : ∀ M ∈ (matsF meth R states).map plain,
      ∀ i < sol.names.length, ∀ j < sol.names.length, M i j = 0 := by
    intro M hM
    obtain ⟨N, hN, rfl⟩ := List.mem_map.1 hM
    obtain ⟨s, hs, rfl⟩ := List.mem_map.1 hN
    exact plain_zero (toN_blank (fun a b => bad_matrix meth hR (hbad s hs) a b) _)
  obtain ⟨N, hN⟩ := C19_within_limit_partial U (limit := limit) ⟨hl.nonneg, hl.full⟩
  refine ⟨max N (sol.names.length + 1), fun dfuel hd fuel w r w' hw hrun => ?_⟩
  simp only [ge_iff_le, max_le_iff] at hd
  have hd2 : sol.names.length < dfuel := by omega
  rw [runMethodF_plain hp1 hp2 meth (sorted_states hR hall) id limit fuel hw hd2] at hrun
  obtain ⟨-, -, j, i, -, -, h4, h5, h6⟩ := hN dfuel hd.1 fuel w r w' hw
    (by rw [← runMethod_sim]; exact hrun)
  generalize hc : ({ c with matrices := (matsF meth R states).map plain } : Ctx) = c' at *
  have et : c'.targets = c.targets := by rw [← hc]
  have es : c'.safe = c.safe := by rw [← hc]
  have ef : c'.modelFile = c.modelFile := by rw [← hc]
  have ep : c'.phase = c.phase := by rw [← hc]
  have S' : Setting c' sol := U.toSetting
  have hne' : c'.matrices ≠ [] := by rw [← hc]; simpa using hne
  have hz' : ∀ M ∈ c'.matrices, ∀ i < sol.names.length, ∀ j < sol.names.length, M i j = 0 := by
    rw [← hc]; exact hz
  have hstep : (0 : ℚ) < 1 / 100 / 10 ^ j := by positivity
  -- candidates at two thresholds with the same kept species are the same
  have same : ∀ t t', (∀ s, Kept meth c' sol t s ↔ Kept meth c' sol t' s) →
      candidate c' sol (Kept meth c' sol) t = candidate c' sol (Kept meth c' sol) t' := by
    intro t t' h
    classical
    unfold candidate
    congr 1
    apply List.filter_congr
    intro s _
    simp [h s]
  have clash : ¬ (candidate c' sol (Kept meth c' sol) ((i + 1) * (1 / 100 / 10 ^ j)) =
      candidate c' sol (Kept meth c' sol) ((i + 2) * (1 / 100 / 10 ^ j))) := by
    intro e
    have m1 := h4 i le_rfl
    unfold Meets at m1
    unfold Exceeds at h5
    rw [e] at m1
    exact absurd h5 (by rw [PyF.not_lt_of_le m1]; simp)
  have hpos1 : (0 : ℚ) < (i + 1) * (1 / 100 / 10 ^ j) := by positivity
  have hmeth : meth = .drgep := by
    by_contra hm
    apply clash
    apply same
    have kd : ∀ t s, KeptDrg c' sol t s ↔ s ∈ c'.targets ∨ s ∈ c'.safe := by
      intro t s
      obtain ⟨M0, hM0⟩ := List.exists_mem_of_ne_nil _ hne'
      constructor
      · rintro (⟨M, hM, hl⟩ | h)
        · exact .inl ((zero_linked (hz' M hM)).1 hl)
        · exact .inr h
      · rintro (h | h)
        · exact .inl ⟨M0, hM0, s, h, .refl⟩
        · exact .inr h
    intro s
    cases meth
    · exact (kd _ s).trans (kd _ s).symm
    · exact absurd rfl hm
    · exact (kd _ s).trans (kd _ s).symm
  refine ⟨hmeth, ?_⟩
  have hle : ((i : ℚ) + 1) * (1 / 100 / 10 ^ j) ≤ 1 := by
    by_contra hgt
    push Not at hgt
    apply clash
    apply same
    intro s
    subst hmeth
    have hgt2 : 1 < ((i : ℚ) + 2) * (1 / 100 / 10 ^ j) := by nlinarith
    exact (keptPath_above_one (U.unit rfl).1 (U.unit rfl).2 hgt s).trans
      (keptPath_above_one (U.unit rfl).1 (U.unit rfl).2 hgt2 s).symm
  rw [h6]
  unfold candidate
  rw [ef, ep]
  congr 1
  apply List.filter_congr
  intro s _
  have := kept_zero S' hne' hz' meth hpos1 hle s
  rw [et, es] at this
  by_cases hk : Kept meth c' sol ((i + 1) * (1 / 100 / 10 ^ j)) s
  · have h := this.1 hk
    simp only [hk, not_true, decide_false, List.contains_eq_mem, List.mem_append, h, decide_true,
      Bool.not_true]
  · have h := mt this.2 hk
    simp only [hk, not_false_eq_true, decide_true, List.contains_eq_mem, List.mem_append, h,
      decide_false, Bool.not_false]

end

/-- **C115**: an infinite rate also spoils the species that take no part in the reaction: zero times
infinity is undefined, so their whole row of coefficients is NaN. -/
theorem C115_idle_refuted {n m : Nat} (meth : Method) {R : ℚ → PyF} (hR : FloatRound R) {c : ChemF n m} {r : Fin m}
    (h : ¬ Finite (c.rop r)) {a b : Fin n} (ha : c.prod a r = 0 ∧ c.reac a r = 0) (hab : a ≠ b) :
    matrixF meth R c a b = .nan := idle_row meth hR h (ha.1.trans ha.2.symm) hab

/-- binary64 with overflow meets the assumptions on rounding -/
theorem floatRound_rndInf : FloatRound rndInf := by
  refine ⟨by simp [rndInf, rndOk_rnd754.zero], fun q hq => ?_⟩
  unfold rndInf
  split_ifs with h1 h2
  · exact .inr ⟨_, RndOk_nonneg rndOk_rnd754 hq, rfl⟩
  · exact absurd h2 (not_lt.2 hq)
  · exact .inl rfl

theorem rndInf_large {q : ℚ} (h : 2 ^ 1024 ≤ |q|) : ¬ Finite (rndInf q) := by
  have pos : ∀ q : ℚ, 2 ^ 1024 ≤ q → 2 ^ 1024 ≤ rnd754 q := by
    intro q hq
    have h2 : rnd754 (2 ^ 1024) = 2 ^ 1024 := by
      have h3 := rnd64_zpow 1024 1
      rw [rndOk_rnd64.one, mul_one] at h3
      have h4 : (1 : ℚ) / 2 ^ 1022 ≤ |2 ^ 1024| := by
        rw [abs_of_pos (by positivity)]
        calc (1 : ℚ) / 2 ^ 1022 ≤ 1 := by
              rw [div_le_one (by positivity)]
              exact one_le_pow₀ (by norm_num)
          _ ≤ 2 ^ 1024 := one_le_pow₀ (by norm_num)
      rw [rnd754_normal h4]
      exact_mod_cast h3
    rw [← h2]
    exact rndOk_rnd754.mono _ _ hq
  have habs : 2 ^ 1024 ≤ |rnd754 q| := by
    rcases le_total 0 q with h0 | h0
    · rw [abs_of_nonneg h0] at h
      exact (pos q h).trans (le_abs_self _)
    · rw [abs_of_nonpos h0] at h
      have := pos _ h
      rw [rnd754_neg] at this
      exact this.trans (neg_le_abs _)
  unfold rndInf
  rw [if_neg (not_lt.2 habs)]
  split_ifs <;> simp [Spec.Finite]

/-- **C115**: rates that are finite can overflow when multiplied by a coefficient; then the species
has no interaction at all, although it takes part in the fastest reaction. -/
theorem C115_overflow_refuted {n m : Nat} {c : ChemF n m} {r : Fin m} {a : Fin n} {q : ℚ} (h : c.rop r = .fin q)
    (hf : rnd754 (c.prod a r - c.reac a r) = c.prod a r - c.reac a r) (hs : |c.prod a r - c.reac a r| < 2 ^ 1024)
    (hbig : 2 ^ 1024 ≤ |(c.prod a r - c.reac a r) * q|) (b : Fin n) :
    Blank (drgMatrixF rndInf c a b) ∧ Blank (drgepMatrixF rndInf c a b) := by
  have hb : ¬ Finite (c.base rndInf a r) := by
    have e : (PyF.fin (c.prod a r - c.reac a r)).rd rndInf = .fin (c.prod a r - c.reac a r) := by
      show rndInf _ = _
      unfold rndInf
      rw [hf, if_pos hs]
    unfold ChemF.base
    rw [e, h]
    exact rndInf_large hbig
  have hv : r ∈ c.valid := by
    have hq : q ≠ 0 := by
      rintro rfl
      rw [mul_zero, abs_zero] at hbig
      exact absurd hbig (not_le.2 (by positivity))
    simp [ChemF.valid, h, PyF.eq, hq]
  exact ⟨drg_row_blank floatRound_rndInf (wide_drgTotal hv hb) b,
    drgep_row_blank floatRound_rndInf (wide_netTotal floatRound_rndInf hv hb) b⟩

/-! ### the hypotheses are met -/

/-- the rational value of an entry -/
def lowerEntry (e : Entry String PyF) : Option (Entry String ℚ) :=
  match e.1 with
  | .fin q => some (q, e.2)
  | _ => none

/-- a heap that takes the smallest entry, or the first if some are not finite -/
def popEx : Pop String := fun l =>
  match l.mapM lowerEntry with
  | some l' => (popMin l').map (fun x => (liftEntry x.1, x.2.map liftEntry))
  | none => match l with
    | [] => none
    | e :: rest => some (e, rest)

theorem mapM_lift (l : List (Entry String ℚ)) : (l.map liftEntry).mapM lowerEntry = some l := by
  induction l with
  | nil => rfl
  | cons e l ih =>
      rw [List.map_cons, List.mapM_cons, ih]
      rfl

theorem lift_mapM {l : List (Entry String PyF)} {l' : List (Entry String ℚ)}
    (h : l.mapM lowerEntry = some l') : l = l'.map liftEntry := by
  induction l generalizing l' with
  | nil => cases h; rfl
  | cons e l ih =>
      rw [List.mapM_cons] at h
      obtain ⟨d, x⟩ := e
      cases d with
      | fin q =>
          rcases h2 : l.mapM lowerEntry with _ | l2
          · rw [h2] at h; cases h
          · rw [h2] at h
            cases h
            rw [ih h2]; rfl
      | inf => cases h
      | ninf => cases h
      | nan => cases h

theorem popEx_least : TakesLeast popEx := by
  intro l
  unfold popEx
  rw [mapM_lift]

theorem popEx_one : TakesOne popEx := by
  refine ⟨rfl, fun l hl => ?_⟩
  unfold popEx
  rcases h : l.mapM lowerEntry with _ | l'
  · obtain ⟨e, rest, rfl⟩ := List.exists_cons_of_ne_nil hl
    exact ⟨e, rest, rfl, List.Perm.refl _⟩
  · have e := lift_mapM h
    rcases hp : popMin l' with _ | ⟨x, r⟩
    · rw [popMin_none] at hp
      rw [hp] at e
      exact absurd e hl
    · refine ⟨liftEntry x, r.map liftEntry, by simp [hp], ?_⟩
      rw [e]
      exact (popMin_perm hp).map liftEntry

/-- species `A`, `B`, `C`, reactions `A → B`, `A → C`, `B → C` -/
def udChem (rop : Fin 3 → PyF) : ChemF 3 3 where
  prod := ![![0, 0, 0], ![1, 0, 0], ![0, 1, 1]]
  reac := ![![1, 1, 0], ![0, 0, 1], ![0, 0, 0]]
  rop := rop

def udSol : Mech where
  species := [⟨"A", 0⟩, ⟨"B", 0⟩, ⟨"C", 0⟩]
  reactions := []
  transport := 0
  tp := 0
  name := []

def udCtx : Ctx := { llCtx with errOf := fun _ => .fin 0 }

/-- first state: `A → B`; second state: `A → C`, and an undefined rate of `B → C` -/
def udStates : List (ChemF 3 3) :=
  [udChem ![.fin 1, .fin 0, .fin 0], udChem ![.fin 0, .fin 1, .nan]]

/-- the second state with a rate in place of NaN -/
def udStates' : List (ChemF 3 3) :=
  [udChem ![.fin 1, .fin 0, .fin 0], udChem ![.fin 0, .fin 1, .fin 0]]

/-- non-vacuity: `C` depends on the second state; all assumptions of `C115_no_overflow_refuted` hold -/
example (meth : Method) :
    Setting udCtx udSol ∧ udCtx.targets ≠ [] ∧ RndOk udCtx.rndMul ∧ LimitOk udCtx udSol (.fin 1) ∧
    (∃ s ∈ udStates, ¬ BadRates s) ∧ (∃ s ∈ udStates, BadRates s) ∧
    (meth ≠ .drgep →
      (retainedF (matsF meth (fun q => .fin (rnd64 q)) udStates) udSol.names ["A"] (1/2)).map
        (·.contains "C") = .ok false ∧
      (retainedF (matsF meth (fun q => .fin (rnd64 q)) udStates') udSol.names ["A"] (1/2)).map
        (·.contains "C") = .ok true) ∧
    (importanceF popEx (fun q => .fin (rnd64 q)) udSol.names ["A"]
      (matsF .drgep (fun q => .fin (rnd64 q)) udStates) 10).map (· "C") = .ok (some (.fin 0)) ∧
    (importanceF popEx (fun q => .fin (rnd64 q)) udSol.names ["A"]
      (matsF .drgep (fun q => .fin (rnd64 q)) udStates') 10).map (· "C") = .ok (some (.fin 1)) := by
  refine ⟨⟨by decide, by simp [udCtx, llCtx, udSol, Mech.names], (llCtx_usable .drg).noclash⟩,
    by simp [udCtx, llCtx], rndOk_id, ⟨by decide +kernel, by decide +kernel⟩, ?_, ?_, ?_,
    by decide +kernel, by decide +kernel⟩
  · refine ⟨_, List.mem_cons_self, ?_⟩
    rintro ⟨r, hr⟩
    apply hr
    fin_cases r <;> exact ⟨_, rfl⟩
  · refine ⟨_, List.mem_cons_of_mem _ List.mem_cons_self, 2, ?_⟩
    rintro ⟨q, hq⟩
    cases hq
  · intro hm
    cases meth
    · exact ⟨by decide +kernel, by decide +kernel⟩
    · exact absurd rfl hm
    · exact ⟨by decide +kernel, by decide +kernel⟩

/-- `A` takes no part in `B → C`; with a finite rate there its coefficients are defined -/
example : ¬ Finite ((udChem ![.fin 0, .fin 1, .inf]).rop 2) ∧ (udChem ![.fin 0, .fin 1, .inf]).prod 0 2 = 0 ∧
    (udChem ![.fin 0, .fin 1, .inf]).reac 0 2 = 0 ∧
    drgMatrixF rndInf (udChem ![.fin 0, .fin 1, .inf]) 0 2 = .nan ∧
    drgMatrixF rndInf (udChem ![.fin 0, .fin 1, .fin 5]) 0 2 = .fin 1 := by
  refine ⟨?_, by decide +kernel, by decide +kernel, by decide +kernel, by decide +kernel⟩
  rintro ⟨q, hq⟩
  cases hq

/-- a coefficient of two and a rate of `2^1023`; the coefficient of `A` is then NaN -/
def udTwo (q : ℚ) : ChemF 2 1 where
  prod := ![![0], ![1]]
  reac := ![![2], ![0]]
  rop := ![.fin q]

example : drgMatrixF rndInf (udTwo (2 ^ 1023)) 0 1 = .nan ∧ drgMatrixF rndInf (udTwo (2 ^ 1022)) 0 1 = .fin 1 ∧
    rnd754 ((udTwo 1).prod 0 0 - (udTwo 1).reac 0 0) = (udTwo 1).prod 0 0 - (udTwo 1).reac 0 0 :=
  ⟨by decide +kernel, by decide +kernel, by decide +kernel⟩

end Verif
