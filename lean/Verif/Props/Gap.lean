import Verif.Lemmas.Gap
import Verif.Props.Rerun
/-!
# C110: away from ties, binary64 runs reduce like the published methods with exact thresholds
-/
namespace Verif
open Spec

variable {ι π φ : Type} {K : Cantera ι π φ} {sol : Mech} {q : ReduceArgs ι π φ} {d : Disk}
  {meth : Method} {base : List PyF} {rows : List Row}

/-- a reported error within the limit means that the model reproduces the starting one -/
theorem reproduces_of_le (P : Physical K sol) (Q : Request q sol d) {b : Arith} {L : ℚ}
    (hL0 : 0 ≤ L) (hL1 : L < 100) (hsim : Simulated (K.sims b.rnd) sol q.conds base rows) {d' : Disk}
    {red : Mech} (h : (evalError (K.sims b.rnd) q d' base red).le (.fin L) = true) :
    Reproduces K q.conds sol red L := by
  rcases hr : evalError (K.sims b.rnd) q d' base red with e | _ | _ | _ <;> rw [hr] at h <;>
    simp [PyF.le] at h
  · exact Spec.Reproduces.mono P (reproduces_of_error P Q.par hsim hr (by linarith)) h
  · exfalso
    obtain ⟨os, hos, hpos⟩ := simulated_pos P hsim
    rw [evalError_eq] at hr
    split at hr
    · cases hr
    split at hr
    · cases hr
    rename_i t ht e hce
    rw [hos, hr] at hce
    exact calculateError_ne_ninf hpos hce

section
variable {m : Nat} {c : Ctx} {states : List (Chem sol.names.length m)} {limit : PyF} {j k : Nat}

/-- what binary64 decides at the thresholds of a search with gaps -/
theorem clearSearch_same (U : Usable meth c sol) (hM : c.matrices = states.map (matrixOf meth rnd64))
    (hr : c.rndMul = rnd64) (hj : j ≤ lastStart meth .binary64)
    (hc : ClearSearch meth sol.names c.targets states j k) :
    (∀ i < j, candidate c sol (Kept meth c sol) (startThr rnd64 i) =
      candidate c sol (KeptPublished meth sol.names c.targets c.safe states) (idealThr i 0)) ∧
    (∀ i ≤ k + 1, candidate c sol (Kept meth c sol) (gridThr rnd64 j i) =
      candidate c sol (KeptPublished meth sol.names c.targets c.safe states) (idealThr j i)) ∧
    candidate c sol (Kept meth c sol) (finalThr rnd64 j k) =
      candidate c sol (KeptPublished meth sol.names c.targets c.safe states) (idealThr j k) := by
  have hj4 : j ≤ 4 := by
    have : lastStart meth .binary64 ≤ 4 := by cases meth <;> decide
    omega
  have hsz := hc.size
  have wider : ∀ {i k : Nat}, ((k : ℚ) + 5) / 2 ^ 52 * idealThr i k ≤ (k + 17) / 2 ^ 52 * idealThr i k := by
    intro i k
    refine mul_le_mul_of_nonneg_right ?_ (idealThr_pos i k).le
    gcongr
    norm_num
  refine ⟨fun i hi => ?_, fun i hi => ?_, ?_⟩
  · exact kept_clear (k := 0) U.nodup U.targets hM hr (by omega) (hc.starts i hi)
      ((gridThr_close (j := i) (k := 0) (by omega) (by norm_num)).trans wider)
  · exact kept_clear U.nodup U.targets hM hr (by omega) (hc.grid i hi)
      ((gridThr_close hj4 (by omega)).trans wider)
  · exact kept_clear U.nodup U.targets hM hr (by omega) (hc.grid k (by omega))
      (finalThr_close hj4 (by omega))

end

/-- **C110**: when no published coefficient comes within rounding error of a threshold of the search,
the binary64 run returns the model that the published coefficients and exact thresholds select: the
last one within the limit. -/
theorem C110_returns (P : Physical K sol) (Q : Request q sol d) {L : ℚ} (hL : q.limit = .fin L)
    (hL0 : 0 ≤ L) (hL1 : L < 100)
    (hsame : SameBehaviour K sol (trim sol [] ("reduced_".toList ++ q.modelFile) q.phase))
    (hs : (sample (K.sims rnd64) sol q.conds q.par d).result = .ok (base, rows)) {j k : Nat}
    (hj : j ≤ lastStart meth .binary64) :
    let evs := (sample (K.sims rnd64) sol q.conds q.par d).evs
    let c := fullCtx K meth rnd64 q (applyEvs d evs) sol base rows
    let states := rows.map (K.chem sol)
    PublishedSearch meth c sol states q.limit j k → ClearSearch meth sol.names q.targets states j k →
    ∃ N, ∀ dfuel ≥ N, ∀ fuel ≥ j + k + 3, ∀ w, w.fs q.modelFile = some sol →
      ∃ r w', fullRun K meth rnd64 rnd64 q d dfuel fuel w = ((some (.ok r), w'), evs) ∧
        r.model = candidate c sol (KeptPublished meth sol.names q.targets q.safe states) (idealThr j k) ∧
        Reproduces K q.conds sol r.model L := by
  intro evs c states hp hc
  have hlim : (PyF.fin 0).le q.limit = true := by rw [hL]; simpa [PyF.le] using hL0
  obtain ⟨hsim, -, U⟩ := fullCtx_usable (meth := meth) P .binary64 Q hs (applyEvs d evs)
  have hl := limitOk_full (meth := meth) P Q .binary64 hlim hsame hsim (applyEvs d evs)
  have hM : c.matrices = states.map (matrixOf meth rnd64) := by
    show rows.map _ = _; rw [List.map_map]; rfl
  obtain ⟨s1, s2, s3⟩ := clearSearch_same (c := c) (states := states) U hM rfl hj hc
  obtain ⟨N, hN⟩ := C19_returns (c := c) U hl .binary64 (j := j) (k := k) hj
    (fun i hi => by
      show q.limit.lt (c.errOf (candidate c sol (Kept meth c sol) (startThr rnd64 i))) = true
      rw [s1 i hi]; exact hp.starts i hi)
    (fun i hi => by
      show (c.errOf (candidate c sol (Kept meth c sol) (gridThr rnd64 j i))).le q.limit = true
      rw [s2 i (by omega)]; exact hp.accepted i hi)
    (by
      show q.limit.lt (c.errOf (candidate c sol (Kept meth c sol) (gridThr rnd64 j (k + 1)))) = true
      rw [s2 (k + 1) le_rfl]; exact hp.rejected)
  obtain ⟨N', hN'⟩ := C19_returned (c := c) U hl .binary64
  refine ⟨max N N', fun dfuel hd fuel hf w hw => ?_⟩
  obtain ⟨r, w', g1, g2⟩ := hN dfuel (le_of_max_le_left hd) fuel hf w hw
  have g2' : r.model = candidate c sol (KeptPublished meth sol.names q.targets q.safe states)
      (idealThr j k) := g2.trans s3
  have herr : r.error = c.errOf r.model := by
    obtain ⟨_, _, -, -, -, -, -, h⟩ := hN' dfuel (le_of_max_le_right hd) fuel w r w' hw g1
    exact h
  have hle : (c.errOf r.model).le q.limit = true := by
    rw [g2']; exact hp.accepted k le_rfl
  refine ⟨r, w', ?_, g2', reproduces_of_le P Q (b := .binary64) hL0 hL1 hsim (by rw [hL] at hle; exact hle)⟩
  have hload : loadModel w q.modelFile = .ok sol := by unfold loadModel; rw [hw]
  unfold fullRun
  rw [hload]
  dsimp only
  rw [if_neg Q.target, hs]
  dsimp only
  have hrel := runMethod_rel meth c (evalSim (K.sims rnd64) q (applyEvs d evs) base) rnd64 q.limit dfuel fuel w
  have ht : c.total (evalSim (K.sims rnd64) q (applyEvs d evs) base) = c := rfl
  rw [ht] at hrel
  have g1' : runMethod meth c rnd64 q.limit dfuel fuel w = (some (.ok r), w') := g1
  rw [g1'] at hrel
  rcases hrel with h | ⟨e, w1, -, -, -, -, h | ⟨e', h⟩ | ⟨r', h, h2, h3⟩⟩
  · rw [show runMethodS meth (fullCtx K meth rnd64 q (applyEvs d evs) sol base rows)
      (evalSim (K.sims rnd64) q (applyEvs d evs) base) rnd64 q.limit dfuel fuel w = _ from h]
  · cases h
  · cases h
  · cases h
    exfalso
    rw [herr] at h2
    rw [h2] at hle
    rw [hL] at hle
    simp [PyF.le] at hle

/-- **C110**: conversely, a binary64 run that returned stopped at some place of the search; if no
published coefficient comes within rounding error of a threshold up to there, then the search with
published coefficients and exact thresholds stops there too, the returned model is the last one
within the limit, and it reproduces the starting model within the limit. -/
theorem C110_returned (P : Physical K sol) (Q : Request q sol d) {L : ℚ} (hL : q.limit = .fin L)
    (hL0 : 0 ≤ L) (hL1 : L < 100)
    (hsame : SameBehaviour K sol (trim sol [] ("reduced_".toList ++ q.modelFile) q.phase)) :
    ∃ N, ∀ dfuel ≥ N, ∀ fuel w w' r evs, w.fs q.modelFile = some sol →
      fullRun K meth rnd64 rnd64 q d dfuel fuel w = ((some (.ok r), w'), evs) →
      ∃ base rows j k, Simulated (K.sims rnd64) sol q.conds base rows ∧ j ≤ lastStart meth .binary64 ∧
        let c := fullCtx K meth rnd64 q (applyEvs d evs) sol base rows
        let states := rows.map (K.chem sol)
        (ClearSearch meth sol.names q.targets states j k →
          PublishedSearch meth c sol states q.limit j k ∧
          r.model = candidate c sol (KeptPublished meth sol.names q.targets q.safe states) (idealThr j k) ∧
          Reproduces K q.conds sol r.model L) := by
  have hlim : (PyF.fin 0).le q.limit = true := by rw [hL]; simpa [PyF.le] using hL0
  rcases hs : (sample (K.sims rnd64) sol q.conds q.par d).result with er | ⟨base, rows⟩
  · refine ⟨0, fun dfuel _ fuel w w' r evs hw h => ?_⟩
    obtain ⟨base, rows, h1, -⟩ := fullRun_ok hw h
    rw [hs] at h1; cases h1
  · obtain ⟨hsim, -, U⟩ := fullCtx_usable (meth := meth) P .binary64 Q hs
      (applyEvs d (sample (K.sims rnd64) sol q.conds q.par d).evs)
    have hl := limitOk_full (meth := meth) P Q .binary64 hlim hsame hsim
      (applyEvs d (sample (K.sims rnd64) sol q.conds q.par d).evs)
    obtain ⟨N, hN⟩ := C19_returned U hl .binary64
    refine ⟨N, fun dfuel hd fuel w w' r evs hw h => ?_⟩
    obtain ⟨base', rows', h1, h2, h3⟩ := fullRun_ok hw h
    rw [hs] at h1
    cases h1
    rw [h2] at h3
    obtain ⟨j, k, hj, a1, a2, a3, a4, a5⟩ := hN dfuel hd fuel w r w' hw h3
    refine ⟨base, rows, j, k, hsim, hj, ?_⟩
    intro c states hc
    rw [← h2] at a1 a2 a3 a4 a5 U
    obtain ⟨s1, s2, s3⟩ := clearSearch_same (c := c) (states := states) U (by
      show rows.map _ = _; rw [List.map_map]; rfl) rfl hj hc
    have hp : PublishedSearch meth c sol states q.limit j k := {
      starts := fun i hi => by
        have := a1 i hi
        unfold Exceeds at this ⊢
        rw [← s1 i hi]; exact this
      accepted := fun i hi => by
        have := a2 i hi
        unfold Meets at this ⊢
        rw [← s2 i (by omega)]; exact this
      rejected := by
        unfold Exceeds at a3 ⊢
        rw [← s2 (k + 1) le_rfl]; exact a3 }
    have hm := a4.trans s3
    refine ⟨hp, hm, reproduces_of_le P Q (b := .binary64) (d' := applyEvs d evs) hL0 hL1 hsim ?_⟩
    have := hp.accepted k le_rfl
    unfold Meets at this
    rw [← hm, hL] at this
    exact this

/-! ### a case -/

/-- a set of species that no coefficient of `t` or more leaves contains what is linked -/
theorem linked_closed {M : NMat} {names targets : List String} {t : ℚ} {s : String} {S : String → Prop}
    (h0 : ∀ x ∈ targets, S x)
    (h : ∀ i j a b, names[i]? = some a → names[j]? = some b → S a → ¬ S b → M i j < t)
    (hl : Linked M names targets t s) : S s := by
  obtain ⟨a, ha, hp⟩ := hl
  induction hp with
  | refl => exact h0 _ ha
  | tail _ e ih =>
    obtain ⟨i, j, hi, hj, h1, -⟩ := e
    by_contra hb
    have := h i j _ _ hi hj ih hb
    linarith

/-- values that no coefficient can raise bound the products along paths -/
theorem path_bounded {M : NMat} {names : List String} {v : String → ℚ} {a s : String} {x : ℚ}
    (h0 : 1 ≤ v a) (hM : ∀ i < names.length, ∀ j < names.length, 0 ≤ M i j)
    (h : ∀ i j a b, names[i]? = some a → names[j]? = some b → v a * M i j ≤ v b)
    (hp : PathProduct id M names a x s) : x ≤ v s := by
  induction hp with
  | nil _ => exact h0
  | step _ hi hj _ ih =>
    refine le_trans ?_ (h _ _ _ _ hi hj)
    exact mul_le_mul_of_nonneg_right ih (hM _ (List.getElem?_eq_some_iff.1 hi).1 _ (List.getElem?_eq_some_iff.1 hj).1)

/-- as `e2eK`, with rates 900, 50 and 1/3 -/
def gapK : Cantera Unit Unit Unit :=
  { e2eK with
    chem := fun m _ =>
      { prod := fun a r => coefficient m.reactions[r].products m.names[a]
        reac := fun a r => coefficient m.reactions[r].reactants m.names[a]
        rop := fun r => ([900, 50, 1 / 3] : List ℚ).getD r 0 } }

theorem gap_physical : Physical gapK e2eSol where
  ignStart := e2e_physical.ignStart
  ignTime := e2e_physical.ignTime
  ignWidth := e2e_physical.ignWidth
  psr := e2e_physical.psr
  flame := e2e_physical.flame

theorem gap_same : SameBehaviour gapK e2eSol
    (trim e2eSol [] ("reduced_".toList ++ e2eArgs.modelFile) e2eArgs.phase) :=
  ⟨e2e_same.1, e2e_same.2, e2e_same.3⟩

def gapChem : Chem e2eSol.names.length e2eSol.reactions.length := gapK.chem e2eSol []

/-- coefficients in terms of names -/
theorem gap_entry {meth : Method} {P : String → String → ℚ → Prop}
    (h : ∀ i j : Fin e2eSol.names.length, P e2eSol.names[i] e2eSol.names[j] (published meth gapChem i j))
    {i j : Nat} {a b : String} (hi : e2eSol.names[i]? = some a) (hj : e2eSol.names[j]? = some b) :
    P a b ((published meth gapChem).toN i j) := by
  obtain ⟨hi', rfl⟩ := List.getElem?_eq_some_iff.1 hi
  obtain ⟨hj', rfl⟩ := List.getElem?_eq_some_iff.1 hj
  have := h ⟨i, hi'⟩ ⟨j, hj'⟩
  have e : (published meth gapChem).toN i j = published meth gapChem ⟨i, hi'⟩ ⟨j, hj'⟩ := by
    simp [Mat.toN, hi', hj']
  rw [e]
  exact this

/-- published importance of the species -/
def gapValue (s : String) : ℚ :=
  if s = "A" then 1 else if s = "B" then 1 / 19 else if s = "C" then 1 / 2850 else 18 / 19

theorem gap_greatest {states : List (Chem e2eSol.names.length e2eSol.reactions.length)}
    (hne : states ≠ []) (hst : ∀ x ∈ states, x = gapChem) (s : String) (hs : s ∈ e2eSol.names) :
    IsGreatest (Candidates id e2eSol.names e2eArgs.targets
      (states.map (fun c => (published .drgep c).toN)) s) (gapValue s) := by
  constructor
  · right
    obtain ⟨x, hx⟩ := List.exists_mem_of_ne_nil _ hne
    have := hst x hx
    subst this
    refine ⟨_, List.mem_map.2 ⟨_, hx, rfl⟩, "A", by decide, ?_⟩
    have pA : PathProduct id (published .drgep gapChem).toN e2eSol.names "A" 1 "A" := .nil (by decide)
    have pB := pA.step (i := 0) (j := 1) (c := "B") (by decide) (by decide) (by decide +kernel)
    have pC := pB.step (i := 1) (j := 2) (c := "C") (by decide) (by decide) (by decide +kernel)
    have pD := pA.step (i := 0) (j := 3) (c := "D") (by decide) (by decide) (by decide +kernel)
    have eB : id (1 * (published .drgep gapChem).toN 0 1) = 1 / 19 := by decide +kernel
    have eC : id (1 / 19 * (published .drgep gapChem).toN 1 2) = 1 / 2850 := by decide +kernel
    have eD : id (1 * (published .drgep gapChem).toN 0 3) = 18 / 19 := by decide +kernel
    rw [eB] at pB
    rw [eB, eC] at pC
    rw [eD] at pD
    have : s = "A" ∨ s = "B" ∨ s = "C" ∨ s = "D" := by
      simpa [e2eSol, Mech.names] using hs
    rcases this with rfl | rfl | rfl | rfl
    · exact pA
    · exact pB
    · exact pC
    · exact pD
  · rintro y (rfl | ⟨M, hM, t, ht, hp⟩)
    · unfold gapValue; split_ifs <;> norm_num
    · obtain ⟨x, hx, rfl⟩ := List.mem_map.1 hM
      have := hst x hx
      subst this
      obtain rfl : t = "A" := by simpa [e2eArgs] using ht
      refine path_bounded (v := gapValue) (by decide +kernel) (fun i hi j hj => (published_unit _ i hi j hj).1) ?_ hp
      intro i j a b hi hj
      exact gap_entry (P := fun a b x => gapValue a * x ≤ gapValue b) (by decide +kernel) hi hj

/-- `C` is below 1/100, `B` between 5/100 and 6/100, `A` and `D` above -/
theorem gap_kept {meth : Method} {states : List (Chem e2eSol.names.length e2eSol.reactions.length)}
    (hne : states ≠ []) (hst : ∀ x ∈ states, x = gapChem) {t : ℚ} (h1 : 1 / 100 ≤ t)
    (hB : t ≤ 5 / 100 ∨ t = 6 / 100) (s : String) (hs : s ∈ e2eSol.names) :
    KeptPublished meth e2eSol.names e2eArgs.targets e2eArgs.safe states t s ↔
      s = "A" ∨ s = "D" ∨ (s = "B" ∧ t ≤ 5 / 100) := by
  have hcases : s = "A" ∨ s = "B" ∨ s = "C" ∨ s = "D" := by
    simpa [e2eSol, Mech.names] using hs
  have main : ∀ meth' : Method,
      (∀ i j : Fin e2eSol.names.length, e2eSol.names[j] = "C" → published meth' gapChem i j < 1 / 100 ∨
        e2eSol.names[i] = "C") →
      (∀ i j : Fin e2eSol.names.length, e2eSol.names[j] = "B" → published meth' gapChem i j < 6 / 100 ∨
        e2eSol.names[i] = "C") →
      5 / 100 ≤ (published meth' gapChem).toN 0 1 → 6 / 100 ≤ (published meth' gapChem).toN 0 3 →
      ((∃ c ∈ states, Linked (published meth' c).toN e2eSol.names e2eArgs.targets t s) ↔
        s = "A" ∨ s = "D" ∨ (s = "B" ∧ t ≤ 5 / 100)) := by
    intro meth' c1 c2 c3 c4
    constructor
    · rintro ⟨x, hx, hl⟩
      have := hst x hx
      subst this
      refine linked_closed (S := fun s => s = "A" ∨ s = "D" ∨ (s = "B" ∧ t ≤ 5 / 100)) ?_ ?_ hl
      · intro y hy
        left
        simpa [e2eArgs] using hy
      · intro i j a b hi hj ha hb
        have d1 := gap_entry (meth := meth') (P := fun a b x => b = "C" → x < 1 / 100 ∨ a = "C") c1 hi hj
        have d2 := gap_entry (meth := meth') (P := fun a b x => b = "B" → x < 6 / 100 ∨ a = "C") c2 hi hj
        have haC : a ≠ "C" := by rintro rfl; simp at ha
        have hb' : b = "A" ∨ b = "B" ∨ b = "C" ∨ b = "D" := by
          have := List.mem_of_getElem? hj
          simpa [e2eSol, Mech.names] using this
        rcases hb' with rfl | rfl | rfl | rfl
        · simp at hb
        · have := (d2 rfl).resolve_right haC
          have ht : ¬ t ≤ 5 / 100 := by
            intro ht; exact hb (.inr (.inr ⟨rfl, ht⟩))
          rw [hB.resolve_left ht]
          exact this
        · exact lt_of_lt_of_le ((d1 rfl).resolve_right haC) h1
        · simp at hb
    · intro h
      obtain ⟨x, hx⟩ := List.exists_mem_of_ne_nil _ hne
      have := hst x hx
      subst this
      refine ⟨_, hx, "A", by decide, ?_⟩
      rcases h with rfl | rfl | ⟨rfl, ht⟩
      · exact .refl
      · refine .single ⟨0, 3, by decide, by decide, ?_, ?_⟩
        · rcases hB with h | h <;> linarith
        · intro h0
          rw [h0] at c4
          norm_num at c4
      · refine .single ⟨0, 1, by decide, by decide, ?_, ?_⟩
        · linarith
        · intro h0
          rw [h0] at c3
          norm_num at c3
  have hsafe : s ∉ e2eArgs.safe := by simp [e2eArgs]
  cases meth with
  | drg =>
    refine Iff.trans (or_iff_left hsafe) (main .drg ?_ ?_ ?_ ?_) <;> decide +kernel
  | pfa =>
    refine Iff.trans (or_iff_left hsafe) (main .pfa ?_ ?_ ?_ ?_) <;> decide +kernel
  | drgep =>
    refine Iff.trans (or_iff_left hsafe) ?_
    have hg := gap_greatest hne hst s hs
    have : (∃ y ∈ Candidates id e2eSol.names e2eArgs.targets
        (states.map (fun c => (published .drgep c).toN)) s, t ≤ y) ↔ t ≤ gapValue s :=
      ⟨fun ⟨y, hy, h⟩ => h.trans (hg.2 hy), fun h => ⟨_, hg.1, h⟩⟩
    rw [this]
    rcases hcases with rfl | rfl | rfl | rfl <;> simp [gapValue] <;> rcases hB with h | h <;>
      first | linarith | (constructor <;> intro _ <;> linarith) | skip

/-- what sampling the starting model gives -/
def gapOut : List PyF × List Row :=
  match (sample (gapK.sims rnd64) e2eSol e2eArgs.conds e2eArgs.par (fun _ => none)).result with
  | .ok p => p
  | .error _ => ([], [])

theorem gap_sample : (sample (gapK.sims rnd64) e2eSol e2eArgs.conds e2eArgs.par (fun _ => none)).result =
    .ok (gapOut.1, gapOut.2) := by
  have h : (match (sample (gapK.sims rnd64) e2eSol e2eArgs.conds e2eArgs.par (fun _ => none)).result with
    | .ok _ => true
    | .error _ => false) = true := by decide +kernel
  unfold gapOut
  split at h
  · rename_i p hp; rw [hp]
  · cases h

def gapCtx (meth : Method) : Ctx := fullCtx gapK meth rnd64 e2eArgs
  (applyEvs (fun _ => none) (sample (gapK.sims rnd64) e2eSol e2eArgs.conds e2eArgs.par (fun _ => none)).evs)
  e2eSol gapOut.1 gapOut.2

theorem gap_states : gapOut.2.map (gapK.chem e2eSol) ≠ [] ∧
    ∀ x ∈ gapOut.2.map (gapK.chem e2eSol), x = gapChem := by
  refine ⟨?_, fun x hx => ?_⟩
  · have : gapOut.2.length ≠ 0 := by decide +kernel
    intro h
    rw [List.map_eq_nil_iff] at h
    exact this (by rw [h]; rfl)
  · obtain ⟨r, -, rfl⟩ := List.mem_map.1 hx
    rfl

theorem gap_search (meth : Method) : PublishedSearch meth (gapCtx meth) e2eSol
    (gapOut.2.map (gapK.chem e2eSol)) e2eArgs.limit 0 4 := by
  have hk := fun {t} => gap_kept (meth := meth) (t := t) gap_states.1 gap_states.2
  have c1 : ∀ i ≤ 4, candidate (gapCtx meth) e2eSol (KeptPublished meth e2eSol.names (gapCtx meth).targets
      (gapCtx meth).safe (gapOut.2.map (gapK.chem e2eSol))) (idealThr 0 i) =
      trim e2eSol ["C"] ("reduced_".toList ++ (gapCtx meth).modelFile) (gapCtx meth).phase := by
    intro i hi
    have hi' : (i : ℚ) ≤ 4 := by exact_mod_cast hi
    have h0 : (0 : ℚ) ≤ i := by positivity
    have ht : idealThr 0 i ≤ 5 / 100 := by unfold idealThr; linarith
    classical
    rw [candidate_eq]
    congr 1
    have : e2eSol.names.filter (fun s => decide (s ∈ ["C"])) = ["C"] := by decide
    rw [← this]
    apply List.filter_congr
    intro s hs
    have := (hk (t := idealThr 0 i) (by unfold idealThr; linarith) (.inl ht) s hs)
    have hc : s = "A" ∨ s = "B" ∨ s = "C" ∨ s = "D" := by
      simpa [e2eSol, Mech.names] using hs
    change decide (¬ KeptPublished meth e2eSol.names e2eArgs.targets e2eArgs.safe _ _ s) = _
    rw [this]
    rcases hc with rfl | rfl | rfl | rfl <;> simp [ht]
  have c2 : candidate (gapCtx meth) e2eSol (KeptPublished meth e2eSol.names (gapCtx meth).targets
      (gapCtx meth).safe (gapOut.2.map (gapK.chem e2eSol))) (idealThr 0 5) =
      trim e2eSol ["B", "C"] ("reduced_".toList ++ (gapCtx meth).modelFile) (gapCtx meth).phase := by
    have ht : ¬ idealThr 0 5 ≤ 5 / 100 := by unfold idealThr; norm_num
    classical
    rw [candidate_eq]
    congr 1
    have : e2eSol.names.filter (fun s => decide (s ∈ ["B", "C"])) = ["B", "C"] := by decide
    rw [← this]
    apply List.filter_congr
    intro s hs
    have := (hk (t := idealThr 0 5) (by unfold idealThr; norm_num) (.inr (by unfold idealThr; norm_num)) s hs)
    have hc : s = "A" ∨ s = "B" ∨ s = "C" ∨ s = "D" := by
      simpa [e2eSol, Mech.names] using hs
    change decide (¬ KeptPublished meth e2eSol.names e2eArgs.targets e2eArgs.safe _ _ s) = _
    rw [this]
    rcases hc with rfl | rfl | rfl | rfl <;> simp [ht]
  refine ⟨fun i hi => absurd hi (by omega), fun i hi => ?_, ?_⟩
  · unfold Meets
    rw [c1 i hi]
    cases meth <;> decide +kernel
  · unfold Exceeds
    rw [c2]
    cases meth <;> decide +kernel

theorem gap_clear (meth : Method) : ClearSearch meth e2eSol.names e2eArgs.targets
    (gapOut.2.map (gapK.chem e2eSol)) 0 4 := by
  refine ⟨by decide, fun i hi => absurd hi (by omega), fun i hi => ?_⟩
  have main : ∀ meth' : Method, (∀ i < 6, ∀ a b : Fin e2eSol.names.length,
      margin meth' 4 3 0 i < |published meth' gapChem a b - idealThr 0 i|) →
      ∀ x ∈ gapOut.2.map (gapK.chem e2eSol), ∀ a b,
        margin meth' 4 3 0 i < |published meth' x a b - idealThr 0 i| := by
    intro meth' h x hx a b
    have := gap_states.2 x hx
    subst this
    exact h i (by omega) a b
  cases meth with
  | drg => exact main .drg (by decide +kernel)
  | pfa => exact main .pfa (by decide +kernel)
  | drgep =>
    intro s hs x hx
    have hg := gap_greatest gap_states.1 gap_states.2 s hs
    have : x = gapValue s := IsGreatest.unique hx hg
    subst this
    have h : ∀ i < 6, ∀ s ∈ e2eSol.names, margin .drgep 4 3 0 i < |gapValue s - idealThr 0 i| := by
      decide +kernel
    exact h i (by omega) s hs

/-- each method returns the model without `C` in binary64, as exact arithmetic would -/
example (meth : Method) : ∃ N, ∀ dfuel ≥ N, ∀ fuel ≥ 7, ∀ w, w.fs e2eArgs.modelFile = some e2eSol →
    ∃ r w' evs, fullRun gapK meth rnd64 rnd64 e2eArgs (fun _ => none) dfuel fuel w = ((some (.ok r), w'), evs) ∧
      Reproduces gapK e2eArgs.conds e2eSol r.model 5 := by
  obtain ⟨N, hN⟩ := C110_returns (meth := meth) gap_physical e2e_request (L := 5) rfl (by norm_num)
    (by norm_num) gap_same gap_sample (j := 0) (k := 4) (Nat.zero_le _) (gap_search meth) (gap_clear meth)
  refine ⟨N, fun dfuel hd fuel hf w hw => ?_⟩
  obtain ⟨r, w', h1, -, h2⟩ := hN dfuel hd fuel hf w hw
  exact ⟨r, w', _, h1, h2⟩

end Verif
