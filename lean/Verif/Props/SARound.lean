import Verif.Lemmas.SARound
import Verif.Props.SAOrder
import Verif.Props.ErrorRound
/-!
# C120: rounding in sensitivity analysis
-/
namespace Verif
open Spec

variable {R : ℚ → PyF} {c : SACtx} {w : World} {sol : Mech} {limbo : List String} {fuel : Nat}
  {r : SAResult} {initial : List PyF} {L e0 : ℚ}

theorem tmpOk_rounded (T : TmpOk c) : TmpOk (c.rounded R) :=
  ⟨T.tmp_ne, T.tmp_last, T.eval_ne, T.eval_last, T.model_tmp, T.model_eval, T.apart⟩

/-- **C120**: with rounding, every step tries a candidate whose error is nearest to the current
error up to rounding, and accepts, rejects and stops rightly up to rounding; the returned error is
the exact error of the returned model to 15 digits. -/
theorem C120_course (hR : RoundsF R) (hc : Exact c) (T : TmpOk c) (hw : w.fs c.modelFile = some sol)
    (hi : c.initial sol = .ok initial) (hb : ∀ x ∈ initial, Moderate x)
    (hord : OrdinaryErrors c sol initial (saLimbo c.safe sol limbo)) (hL : c.limit = .fin L)
    (hs : c.startErr = .fin e0) (he0 : 0 ≤ e0) (he1 : e0 ≤ 2 ^ 100)
    (h : runSA (c.rounded R) limbo fuel w = some r) {rm : RModel} (hr : r.result = .ok rm) :
    ∃ acc e e', NearCourse c initial L sol sol e0 (saLimbo c.safe sol limbo) acc rm.model e r.limbo ∧
      rm.error = .fin e' ∧ |e' - e| ≤ e / 2 ^ 51 + 1 / 2 ^ 140 := by
  obtain ⟨initial', acc, hi', q, -⟩ := runSA_course (tmpOk_rounded T) hw h hr
  obtain rfl : initial = initial' := by
    change c.initial sol = _ at hi'; rw [hi] at hi'; cases hi'; rfl
  obtain ⟨e, e', h1, h2, h3⟩ := course_near hR hc hb hord hL q (.start _ _) (.start _ _) (fun x hx => hx) hs
    (.refl he0) he1
  exact ⟨acc, e, e', h3, h1, h2.2⟩

/-- **C120**: the exact error of a returned model exceeds the limit by at most rounding, unless
nothing was removed. -/
theorem C120_within_limit (hR : RoundsF R) (hc : Exact c) (T : TmpOk c) (hw : w.fs c.modelFile = some sol)
    (hi : c.initial sol = .ok initial) (hb : ∀ x ∈ initial, Moderate x)
    (hord : OrdinaryErrors c sol initial (saLimbo c.safe sol limbo)) (hL : c.limit = .fin L)
    (h0 : 0 ≤ L) (h : runSA (c.rounded R) limbo fuel w = some r) {rm : RModel} (hr : r.result = .ok rm) :
    rm.model = sol ∨ ∃ e, saErr c initial rm.model = .ok (.fin e) ∧ e ≤ L + L / 2 ^ 50 + 1 / 2 ^ 130 := by
  obtain ⟨acc, -, h1, -, h2⟩ := C30_only_candidates (tmpOk_rounded T) hw h hr
  rcases C29_within_limit (tmpOk_rounded T) hw h hr with h3 | ⟨initial', hi', h3, h4⟩
  · exact .inl h3.1
  obtain rfl : initial = initial' := by
    change c.initial sol = _ at hi'; rw [hi] at hi'; cases hi'; rfl
  by_cases ha : acc = []
  · left; rw [h1, ha]; rfl
  right
  obtain ⟨x, k1, k2⟩ := (saErr_rounded hR hc hb rm.model).of_ok h3
  obtain ⟨e, rfl, k3⟩ := hord acc ha h2 x (by rw [h1] at k1; exact k1)
  obtain ⟨e', k4, k5⟩ := k2.nearQ k3
  refine ⟨e, k1, ?_⟩
  have h5 : e' ≤ L := by
    change ¬ c.limit.lt _ = true at h4
    rw [hL, k4] at h4
    simpa [PyF.lt] using h4
  have h6 := (abs_le.1 k5.2).1
  norm_num at h6 ⊢
  linarith

theorem evalLoop_startErr (x : PyF) (initial : List PyF) (file dir : Text) (limbo : List String) (w : World) :
    evalLoop { c with startErr := x } initial file dir limbo w = evalLoop c initial file dir limbo w := by
  induction limbo generalizing w with
  | nil => rfl
  | cons sp rest ih =>
    unfold evalLoop
    simp only [ih]
    rfl

/-- the loop does not look at the error the analysis started with -/
theorem saLoop_startErr (x : PyF) (initial : List PyF) (fuel : Nat) (s : SAState) :
    saLoop { c with startErr := x } initial fuel s = saLoop c initial fuel s := by
  have hev : ∀ file limbo w, evalSpecies { c with startErr := x } initial file limbo w =
      evalSpecies c initial file limbo w := by
    intro file limbo w
    unfold evalSpecies
    dsimp only
    rw [evalLoop_startErr]
  have hst : ∀ s, saStep { c with startErr := x } initial s = saStep c initial s := by
    intro s
    unfold saStep
    simp only [hev]
    rfl
  induction fuel generalizing s with
  | zero => rfl
  | succ n ih =>
    unfold saLoop
    simp only [hst, ih]

/-- `C120_same` for analyses that start with errors that agree up to rounding -/
theorem runSA_same (hR : RoundsF R) (hc : Exact c) (T : TmpOk c) (hw : w.fs c.modelFile = some sol)
    (hi : c.initial sol = .ok initial) (hb : ∀ x ∈ initial, Moderate x)
    (hord : OrdinaryErrors c sol initial (saLimbo c.safe sol limbo)) (hL : c.limit = .fin L)
    (h0 : 0 ≤ L) (h1 : L ≤ 2 ^ 100) (hs : c.startErr = .fin e0) (he1 : e0 ≤ 2 ^ 100)
    {x' : PyF} (hx : NearError c.startErr x')
    (hcl : ClearCourse c initial L sol sol e0 (saLimbo c.safe sol limbo)) (fuel : Nat) :
    (runSA c limbo fuel w = none ∧ runSA { c.rounded R with startErr := x' } limbo fuel w = none) ∨
      ∃ r r', runSA c limbo fuel w = some r ∧ runSA { c.rounded R with startErr := x' } limbo fuel w = some r' ∧
        r'.w = r.w ∧ r'.limbo = r.limbo ∧ SameResult r.result r'.result := by
  have hlm : loadModel w c.modelFile = .ok sol := by unfold loadModel; rw [hw]
  unfold runSA
  have hev : ∀ initial file limbo w, evalSpecies { c.rounded R with startErr := x' } initial file limbo w =
      evalSpecies (c.rounded R) initial file limbo w := by
    intro initial file limbo w
    unfold evalSpecies
    dsimp only
    rw [evalLoop_startErr]
  simp only [saLoop_startErr, hev]
  rw [show (c.rounded R).modelFile = c.modelFile from rfl, hlm]
  dsimp only
  rw [show (c.rounded R).initial sol = c.initial sol from rfl, hi]
  dsimp only
  rw [show (c.rounded R).safe = c.safe from rfl,
    show (c.rounded R).tmpDir = c.tmpDir from rfl, show (c.rounded R).path = c.path from rfl]
  obtain ⟨k1, k2, e1⟩ := evalSpecies_spec T initial T.model_eval (saLimbo c.safe sol limbo) hw
  obtain ⟨k1', k2', e1'⟩ := evalSpecies_spec (tmpOk_rounded (R := R) T) initial T.model_eval
    (saLimbo c.safe sol limbo) hw
  obtain ⟨v1, v2⟩ := evalSpecies_rounded hR hc hb c.modelFile (saLimbo c.safe sol limbo) w
  change (evalSpecies (c.rounded R) initial c.modelFile (saLimbo c.safe sol limbo) w).1 = _ at e1'
  change Kept _ _ (evalSpecies (c.rounded R) initial c.modelFile (saLimbo c.safe sol limbo) w).2 at k2'
  generalize evalSpecies c initial c.modelFile (saLimbo c.safe sol limbo) w = A at k1 k2 e1 v1 v2 ⊢
  generalize evalSpecies (c.rounded R) initial c.modelFile (saLimbo c.safe sol limbo) w = A' at e1' k2' v1 v2 ⊢
  obtain ⟨a, w1⟩ := A
  obtain ⟨a', w1'⟩ := A'
  dsimp only at k1 k2 e1 e1' v1 v2 k2'
  subst v2
  cases v1 with
  | error e => exact .inr ⟨_, _, rfl, rfl, rfl, rfl, .raised e⟩
  | @ok errs errs' hf =>
    dsimp only
    have hfile : w1'.fs c.modelFile = some sol := by
      rw [k1.2 _ (fun ⟨n, hn⟩ => T.model_eval n hn)]; exact hw
    have hm : SameModel ⟨sol, c.modelFile, c.startErr, none⟩ ⟨sol, c.modelFile, x', none⟩ :=
      ⟨rfl, rfl, rfl, hx⟩
    have hloop := saLoop_rounded hR hc hb hord hL h0 h1 T (w0 := w) fuel (base := sol)
      (s := ⟨⟨sol, c.modelFile, c.startErr, none⟩, saLimbo c.safe sol limbo, errs, w1'⟩)
      (s' := ⟨⟨sol, c.modelFile, x', none⟩, saLimbo c.safe sol limbo, errs', w1'⟩)
      ⟨hfile, T.model_eval, serialMap_ok_iff.1 e1.symm, fun _ => rfl, k2⟩
      ⟨hfile, T.model_eval, serialMap_ok_iff.1 e1'.symm, fun _ => rfl, k2'⟩ ⟨hm, rfl, hf, rfl⟩
      (.start _ _) (.start _ _) (fun x hx => hx) hs he1 hcl
    generalize saLoop c initial fuel _ = B at hloop ⊢
    generalize saLoop (c.rounded R) initial fuel _ = B' at hloop ⊢
    cases hloop with
    | none => exact .inl ⟨rfl, rfl⟩
    | @some x s s' h =>
      right
      rcases x with e | u
      · exact ⟨_, _, rfl, rfl, by dsimp only; rw [h.w], h.limbo, .raised e⟩
      · refine ⟨_, _, rfl, rfl, ?_, h.limbo, .returned ⟨h.cur.model, ?_, rfl, h.cur.error⟩⟩
        · dsimp only; rw [h.w, h.cur.model]
        · dsimp only; rw [h.cur.model]

/-- **C120**: when no choice among the candidates and no comparison with the limit is within
rounding of going the other way, rounding changes nothing but the last digits of the reported
error: same model, same files, same exception, same species left.  Candidates that simulate exactly
alike may tie. -/
theorem C120_same (hR : RoundsF R) (hc : Exact c) (T : TmpOk c) (hw : w.fs c.modelFile = some sol)
    (hi : c.initial sol = .ok initial) (hb : ∀ x ∈ initial, Moderate x)
    (hord : OrdinaryErrors c sol initial (saLimbo c.safe sol limbo)) (hL : c.limit = .fin L)
    (h0 : 0 ≤ L) (h1 : L ≤ 2 ^ 100) (hs : c.startErr = .fin e0) (he0 : 0 ≤ e0) (he1 : e0 ≤ 2 ^ 100)
    (hcl : ClearCourse c initial L sol sol e0 (saLimbo c.safe sol limbo)) (fuel : Nat) :
    (runSA c limbo fuel w = none ∧ runSA (c.rounded R) limbo fuel w = none) ∨
      ∃ r r', runSA c limbo fuel w = some r ∧ runSA (c.rounded R) limbo fuel w = some r' ∧
        r'.w = r.w ∧ r'.limbo = r.limbo ∧ SameResult r.result r'.result := by
  have := runSA_same hR hc T hw hi hb hord hL h0 h1 hs he1
    (x' := c.startErr) (by rw [hs]; exact (NearQ.refl he0).nearError) hcl fuel
  exact this

/-! ### cases -/

theorem exSA_exact (limit : PyF) (greedy : Bool) (path : Text) : Exact (exSA limit greedy path) :=
  ⟨rfl, fun _ _ => rfl⟩

theorem exSA_ordinary (limit : PyF) (greedy : Bool) (path : Text) (sol : Mech) (species : List String) :
    OrdinaryErrors (exSA limit greedy path) sol [.fin 1] species := by
  intro l _ _ x hx
  generalize l.foldl (without (exSA limit greedy path)) sol = m at hx
  change (match saMetric m with
    | .error e => Except.error e
    | .ok t => calculateError [.fin 1] t) = .ok x at hx
  unfold saMetric at hx
  dsimp only at hx
  have h1 : calculateError [.fin 1] [.fin 1] = .ok (.fin 0) := by decide +kernel
  have h2 : calculateError [.fin 1] [.fin (105/100)] = .ok (.fin 5) := by decide +kernel
  have h3 : calculateError [.fin 1] [.fin (110/100)] = .ok (.fin 10) := by decide +kernel
  have h4 : calculateError [.fin 1] [.fin (130/100)] = .ok (.fin 30) := by decide +kernel
  split_ifs at hx
  · rw [h1] at hx; cases hx; exact ⟨_, rfl, by norm_num⟩
  · rw [h2] at hx; cases hx; exact ⟨_, rfl, by norm_num⟩
  · rw [h3] at hx; cases hx; exact ⟨_, rfl, by norm_num⟩
  · rw [h4] at hx; cases hx; exact ⟨_, rfl, by norm_num⟩

/-- the example makes clear choices -/
theorem exSA_clear (greedy : Bool) :
    ClearCourse (exSA (.fin 20) greedy []) [.fin 1] 20 saSol saSol 1 ["B", "C"] := by
  have hB : saErr (exSA (.fin 20) greedy []) [.fin 1] (without (exSA (.fin 20) greedy []) saSol "B") =
      .ok (.fin 5) := by cases greedy <;> decide +kernel
  have hC : saErr (exSA (.fin 20) greedy []) [.fin 1] (without (exSA (.fin 20) greedy []) saSol "C") =
      .ok (.fin 10) := by cases greedy <;> decide +kernel
  have hBC : saErr (exSA (.fin 20) greedy []) [.fin 1] (without (exSA (.fin 20) greedy [])
      (without (exSA (.fin 20) greedy []) saSol "B") "C") = .ok (.fin 30) := by
    cases greedy <;> decide +kernel
  have d5 : Decided 20 (.fin 5) := decided_of_B (by decide +kernel)
  have d30 : Decided 20 (.fin 30) := decided_of_B (by decide +kernel)
  refine .step 0 "B" rfl ⟨"B", 5, rfl, hB, ?_⟩ ?_ ?_ ?_
  · intro j s hj hs
    obtain rfl : j = 1 := by
      have := (List.getElem?_eq_some_iff.1 hs).1
      simp at this
      omega
    cases hs
    exact .inr ⟨10, hC, by unfold slack; norm_num [abs_of_pos]⟩
  · intro x hx; rw [hB] at hx; cases hx; exact d5
  · intro _ e' _ _ s hs x hx
    obtain rfl : s = "C" := by simpa using hs
    rw [hBC] at hx; cases hx; exact d30
  · intro e' he' _
    rw [hB] at he'
    cases he'
    have only : ∀ {b : Mech} {a : ℚ}, saErr (exSA (.fin 20) greedy []) [.fin 1]
        (without (exSA (.fin 20) greedy []) b "C") = .ok (.fin a) →
        ClearChoice (exSA (.fin 20) greedy []) [.fin 1] b 5 ["C"] 0 := by
      intro b a h
      refine ⟨"C", a, rfl, h, fun j s hj hs => ?_⟩
      have := (List.getElem?_eq_some_iff.1 hs).1
      simp at this
      omega
    refine .step 0 "C" rfl ?_ ?_ ?_ ?_
    · cases greedy with
      | false => exact only hC
      | true => exact only hBC
    · intro x hx; rw [hBC] at hx; cases hx; exact d30
    · intro _ e2 he2 hle
      rw [hBC] at he2; cases he2; norm_num at hle
    · intro e2 he2 hle
      rw [hBC] at he2; cases he2; norm_num at hle

/-- The hypotheses of `C120_same` and `C120_course` are met by both algorithms in binary64
arithmetic. -/
example (greedy : Bool) : ∃ r r', runSA (exSA (.fin 20) greedy []) [] 4 saWorld = some r ∧
    runSA ((exSA (.fin 20) greedy []).rounded rndInf) [] 4 saWorld = some r' ∧
    r'.w = r.w ∧ r'.limbo = r.limbo ∧ SameResult r.result r'.result ∧
    ∃ rm, r.result = .ok rm ∧ rm.model.names = ["A", "C"] ∧ rm.error = .fin 5 := by
  have hb : ∀ x ∈ ([.fin 1] : List PyF), Moderate x := by
    intro x hx
    rw [List.mem_singleton.1 hx]
    exact ⟨1, rfl, by norm_num, by norm_num⟩
  have hlim : saLimbo (exSA (.fin 20) greedy []).safe saSol [] = ["B", "C"] := by
    cases greedy <;> decide +kernel
  have hrun : (match runSA (exSA (.fin 20) greedy []) [] 4 saWorld with
      | some r => (match r.result with | .ok rm => some (rm.model.names, rm.error) | _ => none)
      | none => none) = some (["A", "C"], .fin 5) := by cases greedy <;> decide +kernel
  rcases C120_same (R := rndInf) (c := exSA (.fin 20) greedy []) (w := saWorld) (sol := saSol) (limbo := [])
      (initial := [.fin 1]) (L := 20) (e0 := 1) roundsF_rndInf (exSA_exact _ _ _) (exSA_tmp _ _ _) rfl
      (by cases greedy <;> decide +kernel) hb (exSA_ordinary _ _ _ _ _) rfl (by norm_num) (by norm_num) rfl
      (by norm_num) (by norm_num) (by rw [hlim]; exact exSA_clear greedy) 4 with ⟨h, -⟩ | ⟨r, r', h1, h2, h3, h4, h5⟩
  · rw [h] at hrun; cases hrun
  · refine ⟨r, r', h1, h2, h3, h4, h5, ?_⟩
    rw [h1] at hrun
    dsimp only at hrun
    rcases hr : r.result with e | rm <;> rw [hr] at hrun
    · cases hrun
    · simp only [Option.some.injEq, Prod.mk.injEq] at hrun
      exact ⟨rm, rfl, hrun⟩

/-- metrics for which the removal of `B` and that of `C` have errors at the same distance from
37.5 % -/
def splitMetric (m : Mech) : Except Err (List PyF) :=
  .ok [.fin (if m.names = ["A", "B", "C"] then 1 else if m.names = ["A", "C"] then 3 / 2 + 3 / 2 ^ 52
    else if m.names = ["A", "B"] then 5 / 4 - 3 / 2 ^ 52 else 3)]

def splitSA (greedy : Bool) : SACtx :=
  { exSA (.fin 60) greedy [] with initial := splitMetric, metrics := splitMetric, startErr := .fin (75 / 2) }

def namesOf (r : Option SAResult) : Option (List String) :=
  match r with
  | some r => (match r.result with | .ok rm => some rm.model.names | .error _ => none)
  | none => none

/-- **C120** is false without clear choices: there are metrics, all of them binary64 numbers, for
which two removals tie exactly while their computed errors differ, so that binary64 arithmetic
removes another species than exact arithmetic. -/
theorem C120_tie_refuted (greedy : Bool) : ∃ c : SACtx, c.greedy = greedy ∧ Exact c ∧ TmpOk c ∧
    (∀ m, ∃ t : ℚ, c.metrics m = .ok [.fin t] ∧ rndInf t = .fin t) ∧
    namesOf (runSA c ["C", "B"] 3 saWorld) = some ["A", "B"] ∧
    namesOf (runSA (c.rounded rndInf) ["C", "B"] 3 saWorld) = some ["A", "C"] := by
  have T := exSA_tmp (.fin 60) greedy []
  refine ⟨splitSA greedy, rfl, ⟨rfl, fun _ _ => rfl⟩,
    ⟨T.tmp_ne, T.tmp_last, T.eval_ne, T.eval_last, T.model_tmp, T.model_eval, T.apart⟩, fun m => ?_, ?_, ?_⟩
  · refine ⟨_, rfl, ?_⟩
    split_ifs <;> decide +kernel
  · cases greedy <;> decide +kernel
  · cases greedy <;> decide +kernel

end Verif
