import Verif.Model.MainRound
import Verif.Props.FullMain
import Verif.Props.SARound
/-!
# C121: `main` as a whole in floating-point arithmetic
-/
namespace Verif
open Spec

variable {ι π φ : Type} {K : Cantera ι π φ} {sol : Mech} {q : MainArgs ι π φ} {d : Disk}
  {meth : Method} {R : ℚ → PyF}

theorem mainInR_ctx (rnd rndThr : ℚ → ℚ) (d : Disk) (base : List PyF) (rows : List Row) (dfuel fuel saFuel : Nat) :
    (mainInR R K rnd rndThr q d (rows.map (fun r => matrixOf meth rnd (K.chem sol r))) base dfuel fuel saFuel).ctx meth =
      (fullCtx K meth rnd (stageArgs meth q) d sol base rows).total
        (evalSimR R (K.sims rnd) (stageArgs meth q) d base) := by
  unfold MainIn.ctx fullCtx mainInR mainIn stageArgs Ctx.total
  congr 1

/-- a graph-based run that returned has sampled the starting model and run its stages -/
theorem fullMainR_ok {rnd rndThr : ℚ → ℚ} {dfuel fuel saFuel : Nat} {w w' : World} {r : RModel}
    {evs : List Ev} (hm : q.method.bind methodOf = some meth)
    (hw : w.fs q.modelFile = some sol)
    (h : fullMainR R K rnd rndThr q d dfuel fuel saFuel w = ((some (.ok r), w'), evs)) :
    ∃ base rows, (sample (K.sims rnd) sol q.conds q.par d).result = .ok (base, rows) ∧
      evs = (sample (K.sims rnd) sol q.conds q.par d).evs ∧
      runMain (mainInR R K rnd rndThr q (applyEvs d evs) (rows.map (fun r => matrixOf meth rnd (K.chem sol r)))
        base dfuel fuel saFuel) w = (some (.ok r), w') := by
  have hload : loadModel w q.modelFile = .ok sol := by unfold loadModel; rw [hw]
  unfold fullMainR at h
  by_cases h1 : ((q.method.bind methodOf).isSome && decide (q.targets = [])) = true
  · rw [if_pos h1] at h; cases h
  rw [if_neg h1] at h
  by_cases h2 : ((decide (q.method = none) || decide (q.method = some "")) && !q.sensitivity) = true
  · rw [if_pos h2] at h; cases h
  rw [if_neg h2, hm] at h
  dsimp only at h
  rw [hload] at h
  dsimp only at h
  rcases hs : (sample (K.sims rnd) sol q.conds q.par d).result with e | ⟨base, rows⟩ <;> rw [hs] at h
  · cases h
  · simp only [Prod.mk.injEq] at h
    obtain ⟨h1, h2⟩ := h
    refine ⟨base, rows, rfl, h2.symm, ?_⟩
    rw [← h2]
    exact h1

theorem tmpDirs_rounded {rnd rndThr : ℚ → ℚ}
    (T : ∀ d' Ms base x y z, TmpDirs (mainIn K rnd q d' Ms base x y z)) (d' : Disk) (Ms : List NMat)
    (base : List PyF) (x y z : Nat) : TmpDirs (mainInR R K rnd rndThr q d' Ms base x y z) := by
  intro n e
  have := T d' Ms base x y z n e
  exact ⟨this.tmp_ne, this.tmp_last, this.eval_ne, this.eval_last, this.model_tmp, this.model_eval, this.apart⟩

/-- what a run in floating-point arithmetic that returned a model computed for it: the error
against the starting model; with exact thresholds it is not above the limit -/
theorem mainR_error (hR : RoundsF R) (P : Physical K sol) (Q : Request q.toReduceArgs sol d)
    (hm : q.method.bind methodOf = some meth) (b a : Arith)
    (hlim : (PyF.fin 0).le q.limit = true)
    (T : ∀ d' Ms base x y z, TmpDirs (mainIn K b.rnd q d' Ms base x y z))
    (hsame : SameBehaviour K sol (trim sol [] ("reduced_".toList ++ q.modelFile) q.phase)) :
    ∃ N, ∀ dfuel ≥ N, ∀ fuel saFuel w w' r evs, w.fs q.modelFile = some sol →
      fullMainR R K b.rnd a.rnd q d dfuel fuel saFuel w = ((some (.ok r), w'), evs) →
      ∃ base rows, (sample (K.sims b.rnd) sol q.conds q.par d).result = .ok (base, rows) ∧
        Simulated (K.sims b.rnd) sol q.conds base rows ∧
        evalSimR R (K.sims b.rnd) q.toReduceArgs (applyEvs d evs) base r.model = .ok r.error ∧
        (a = .exact → q.limit.lt r.error = false) := by
  rcases hsm : (sample (K.sims b.rnd) sol q.conds q.par d).result with er | ⟨base, rows⟩
  · refine ⟨0, fun dfuel _ fuel saFuel w w' r evs hw h => ?_⟩
    obtain ⟨base, rows, h1, -⟩ := fullMainR_ok hm hw h
    rw [hsm] at h1; cases h1
  have Q' := stage_request (meth := meth) Q
  have hsm' : (sample (K.sims b.rnd) sol (stageArgs meth q).conds (stageArgs meth q).par d).result
    = .ok (base, rows) := hsm
  obtain ⟨hsim, -, U⟩ := fullCtx_usable (meth := meth) P b Q' hsm'
    (applyEvs d (sample (K.sims b.rnd) sol q.conds q.par d).evs)
  generalize hev : (sample (K.sims b.rnd) sol q.conds q.par d).evs = ev at U
  have U' : Usable meth ((fullCtx K meth b.rnd (stageArgs meth q) (applyEvs d ev) sol base rows).total
      (evalSimR R (K.sims b.rnd) (stageArgs meth q) (applyEvs d ev) base)) sol :=
    ⟨⟨U.nodup, U.targets, U.noclash⟩, U.target, U.unit, U.upper⟩
  have hl : LimitOk ((fullCtx K meth b.rnd (stageArgs meth q) (applyEvs d ev) sol base rows).total
      (evalSimR R (K.sims b.rnd) (stageArgs meth q) (applyEvs d ev) base)) sol q.limit := by
    refine ⟨hlim, ?_⟩
    show (simError (evalSimR R (K.sims b.rnd) (stageArgs meth q) _ base)
      (trim sol [] ("reduced_".toList ++ q.modelFile) q.phase)).le q.limit = true
    rw [simErrorR_same hR P b Q' hsim hsame]
    exact hlim
  rw [← mainInR_ctx b.rnd a.rnd _ base rows 0 0 0] at U' hl
  generalize hp : mainInR R K b.rnd a.rnd q (applyEvs d ev)
    (rows.map (fun r => matrixOf meth b.rnd (K.chem sol r))) base 0 0 0 = p at U' hl
  have hpm : p.method.bind methodOf = some meth := by rw [← hp]; exact hm
  have hpr : p.rnd = a.rnd := by rw [← hp]; rfl
  have hpl : p.limit = q.limit := by rw [← hp]; rfl
  have hpf : p.modelFile = q.modelFile := by rw [← hp]; rfl
  have hps : p.sensitivity = q.sensitivity := by rw [← hp]; rfl
  have hpsim : p.sim = evalSimR R (K.sims b.rnd) q.toReduceArgs (applyEvs d ev) base := by rw [← hp]; rfl
  have hrun : ∀ dfuel fuel saFuel, mainInR R K b.rnd a.rnd q (applyEvs d ev)
      (rows.map (fun r => matrixOf meth b.rnd (K.chem sol r))) base dfuel fuel saFuel =
      { p with dfuel := dfuel, fuel := fuel, saFuel := saFuel } := by
    intro x y z; rw [← hp]; rfl
  have hT : TmpDirs p := by rw [← hp]; exact tmpDirs_rounded T _ _ _ _ _ _
  rw [← hpl] at hl
  by_cases hs : q.sensitivity = true
  swap
  · obtain ⟨N, hN⟩ := C19_returned U' hl a
    obtain ⟨N', hN'⟩ := C19_within_limit_partial U' hl
    refine ⟨max N N', fun dfuel hd fuel saFuel w w' rm evs hw h => ?_⟩
    obtain ⟨base', rows', h1, h2, h3⟩ := fullMainR_ok hm hw h
    rw [hsm] at h1
    cases h1
    rw [h2, hev, hrun] at h3
    rw [runMain_method (by exact hpm) (by rw [← hps] at hs; simpa using hs)
      (by rw [← hp]; exact Q.target)] at h3
    have h3 : runMethodS meth (p.ctx meth) p.sim p.rnd p.limit dfuel fuel w = (some (.ok rm), w') := h3
    refine ⟨base, rows, rfl, hsim, ?_, fun ha => ?_⟩
    · have := runMethodS_simulated h3
      rw [hpsim] at this
      rw [h2, hev]
      exact this
    · have h4 := runMethodS_ok h3
      rw [hpr, ha] at h4
      rw [← hpl]
      exact PyF.not_lt_of_le (hN' dfuel (le_of_max_le_right hd) fuel w rm w' (by rw [← hpf] at hw; exact hw) h4).1
  obtain ⟨N, hN⟩ := C88_two_stages (p := p) hpm (by rw [hps]; exact hs) a hpr U' hl hT
  obtain ⟨N', hN'⟩ : ∃ N', a = .exact → ∀ dfuel ≥ N', ∀ fuel saFuel w w' rm, w.fs p.modelFile = some sol →
      runMain { p with dfuel := dfuel, fuel := fuel, saFuel := saFuel } w = (some (.ok rm), w') →
      p.limit.lt rm.error = false := by
    by_cases ha : a = .exact
    · obtain ⟨N', hN'⟩ := C88_within_limit (p := p) hpm (by rw [hps]; exact hs) (by rw [hpr, ha]; rfl) U' hl hT
      exact ⟨N', fun _ => hN'⟩
    · exact ⟨0, fun h => absurd h ha⟩
  refine ⟨max N N', fun dfuel hd fuel saFuel w w' rm evs hw h => ?_⟩
  obtain ⟨base', rows', h1, h2, h3⟩ := fullMainR_ok hm hw h
  rw [hsm] at h1
  cases h1
  rw [h2, hev, hrun] at h3
  rw [h2, hev]
  obtain ⟨-, r, w1, t, acc, g1, g2, g3, -, -, H⟩ := hN dfuel (le_of_max_le_left hd) fuel saFuel w w' rm
    (by rw [← hpf] at hw; exact hw) h3
  refine ⟨base, rows, rfl, hsim, ?_, fun ha => by
    rw [← hpl]
    exact hN' ha dfuel (le_of_max_le_right hd) fuel saFuel w w' rm (by rw [← hpf] at hw; exact hw) h3⟩
  rcases H with ⟨-, h7, h8⟩ | ⟨-, -, initial, metrics, h7, h8, h9⟩
  · rw [h7, h8, ← hpsim]
    exact g3
  · have h7' : sampleMetrics (K.sims b.rnd) r.model q.conds q.par true (applyEvs d ev) = .ok initial := by
      rw [← hp] at h7; exact h7
    have h8' : sampleMetrics (K.sims b.rnd) rm.model q.conds q.par false (applyEvs d ev) = .ok metrics := by
      rw [← hp] at h8; exact h8
    have h9' : calculateErrorR R initial metrics = .ok rm.error := by
      rw [← hp] at h9; exact h9
    have := (C69_metrics_after_sample (simsOk (b := b) P) Q.par hsm).2 r.model q.par
    rw [hev] at this
    rw [this] at h7'
    cases h7'
    unfold evalSimR
    rw [h8']
    exact h9'

/-- **C121**: `main` in floating-point arithmetic, with one stage or both: when it returns a model
and reports an error below 99 percent, that model reproduces the starting model under every
condition within the reported error and a few units in its last place. -/
theorem C121_reported (hR : RoundsF R) (P : Physical K sol) (Q : Request q.toReduceArgs sol d)
    (hm : q.method.bind methodOf = some meth) (b a : Arith)
    (hlim : (PyF.fin 0).le q.limit = true)
    (T : ∀ d' Ms base x y z, TmpDirs (mainIn K b.rnd q d' Ms base x y z))
    (hsame : SameBehaviour K sol (trim sol [] ("reduced_".toList ++ q.modelFile) q.phase))
    (hord : ∀ base rows, (sample (K.sims b.rnd) sol q.conds q.par d).result = .ok (base, rows) →
      ∀ x ∈ base, Moderate x) :
    ∃ N, ∀ dfuel ≥ N, ∀ fuel saFuel w w' r evs e, w.fs q.modelFile = some sol →
      fullMainR R K b.rnd a.rnd q d dfuel fuel saFuel w = ((some (.ok r), w'), evs) →
      r.error = .fin e → e < 99 → Reproduces K q.conds sol r.model (e + e / 2 ^ 50 + 1 / 2 ^ 130) := by
  obtain ⟨N, hN⟩ := mainR_error hR P Q hm b a hlim T hsame
  refine ⟨N, fun dfuel hd fuel saFuel w w' r evs e hw h he h100 => ?_⟩
  obtain ⟨base, rows, h1, hsim, h2, -⟩ := hN dfuel hd fuel saFuel w w' r evs hw h
  obtain ⟨e0, g1, g2⟩ := exact_of_computed (m := r.model) (e := e) hR (hord base rows h1)
    (d' := applyEvs d evs) (q := q.toReduceArgs) (by unfold simError; rw [h2, he])
  obtain ⟨b1, b2⟩ := abs_le.1 g2
  refine Spec.Reproduces.mono P (reproduces_of_error P Q.par hsim g1 ?_) ?_
  · norm_num at b1; linarith
  · norm_num at b1 b2 ⊢; linarith

/-- **C121**: with exact thresholds and a limit below 99 percent, the model returned by `main`
reproduces the starting model within the limit and a few units in its last place, unless its
reported error is NaN. -/
theorem C121_within_limit (hR : RoundsF R) (P : Physical K sol) (Q : Request q.toReduceArgs sol d)
    (hm : q.method.bind methodOf = some meth) (b : Arith) {L : ℚ}
    (hL : q.limit = .fin L) (hL0 : 0 ≤ L) (hL1 : L < 99)
    (T : ∀ d' Ms base x y z, TmpDirs (mainIn K b.rnd q d' Ms base x y z))
    (hsame : SameBehaviour K sol (trim sol [] ("reduced_".toList ++ q.modelFile) q.phase))
    (hord : ∀ base rows, (sample (K.sims b.rnd) sol q.conds q.par d).result = .ok (base, rows) →
      ∀ x ∈ base, Moderate x) :
    ∃ N, ∀ dfuel ≥ N, ∀ fuel saFuel w w' r evs, w.fs q.modelFile = some sol →
      fullMainR R K b.rnd id q d dfuel fuel saFuel w = ((some (.ok r), w'), evs) →
      r.error = .nan ∨ Reproduces K q.conds sol r.model (L + L / 2 ^ 50 + 1 / 2 ^ 130) := by
  have hlim : (PyF.fin 0).le q.limit = true := by rw [hL]; simpa [PyF.le] using hL0
  obtain ⟨N, hN⟩ := mainR_error hR P Q hm b .exact hlim T hsame
  obtain ⟨N', hN'⟩ := C121_reported hR P Q hm b .exact hlim T hsame hord
  refine ⟨max N N', fun dfuel hd fuel saFuel w w' r evs hw h => ?_⟩
  obtain ⟨base, rows, h1, hsim, h2, h3⟩ := hN dfuel (le_of_max_le_left hd) fuel saFuel w w' r evs hw h
  have h3 := h3 rfl
  rcases hr : r.error with e | _ | _ | _
  · right
    rw [hr, hL] at h3
    have hle : e ≤ L := by simpa [PyF.lt] using h3
    refine Spec.Reproduces.mono P
      (hN' dfuel (le_of_max_le_right hd) fuel saFuel w w' r evs e hw h hr (by linarith)) ?_
    norm_num
    linarith
  · rw [hr, hL] at h3; simp [PyF.lt] at h3
  · exfalso
    rw [hr] at h2
    unfold evalSimR at h2
    generalize sampleMetrics (K.sims b.rnd) r.model q.conds q.par false _ = y at h2
    rcases y with e1 | t
    · cases h2
    · dsimp only at h2
      rcases calculateErrorR_near hR (test := t) (hord base rows h1) with ⟨e1, g1, g2⟩ | ⟨x, x', g1, g2, g3⟩ <;>
        rw [g2] at h2
      · cases h2
      · cases h2
        cases g3
  · exact .inl rfl

/-- **C121**: when no simulation gives an undefined number, that exception does not occur. -/
theorem C121_numeric (hR : RoundsF R) (P : Physical K sol) (D : Numerical K)
    (Q : Request q.toReduceArgs sol d)
    (hm : q.method.bind methodOf = some meth) (b : Arith) {L : ℚ}
    (hL : q.limit = .fin L) (hL0 : 0 ≤ L) (hL1 : L < 99)
    (T : ∀ d' Ms base x y z, TmpDirs (mainIn K b.rnd q d' Ms base x y z))
    (hsame : SameBehaviour K sol (trim sol [] ("reduced_".toList ++ q.modelFile) q.phase))
    (hord : ∀ base rows, (sample (K.sims b.rnd) sol q.conds q.par d).result = .ok (base, rows) →
      ∀ x ∈ base, Moderate x) :
    ∃ N, ∀ dfuel ≥ N, ∀ fuel saFuel w w' r evs, w.fs q.modelFile = some sol →
      fullMainR R K b.rnd id q d dfuel fuel saFuel w = ((some (.ok r), w'), evs) →
      Reproduces K q.conds sol r.model (L + L / 2 ^ 50 + 1 / 2 ^ 130) := by
  have hlim : (PyF.fin 0).le q.limit = true := by rw [hL]; simpa [PyF.le] using hL0
  obtain ⟨N, hN⟩ := mainR_error hR P Q hm b .exact hlim T hsame
  obtain ⟨N', hN'⟩ := C121_within_limit hR P Q hm b hL hL0 hL1 T hsame hord
  refine ⟨max N N', fun dfuel hd fuel saFuel w w' r evs hw h => ?_⟩
  obtain ⟨base, rows, h1, hsim, h2, -⟩ := hN dfuel (le_of_max_le_left hd) fuel saFuel w w' r evs hw h
  rcases hN' dfuel (le_of_max_le_right hd) fuel saFuel w w' r evs hw h with hr | hr
  swap
  · exact hr
  exfalso
  rw [hr] at h2
  unfold evalSimR at h2
  rcases ht : sampleMetrics (K.sims b.rnd) r.model q.conds q.par false (applyEvs d evs) with e1 | t <;> rw [ht] at h2
  · cases h2
  · dsimp only at h2
    obtain ⟨os, hos, hpos⟩ := simulated_pos P hsim
    rcases calculateErrorR_near hR (test := t) (hord base rows h1) with ⟨e1, g1, g2⟩ | ⟨x, x', g1, g2, g3⟩ <;>
      rw [g2] at h2
    · cases h2
    · cases h2
      cases g3
      rw [hos] at g1
      exact calculateError_number hpos (metrics_numbers (b := b) D Q.par ht) g1

/-! ### the same run -/

/-- the sensitivity stage with and without rounding -/
theorem saStage_same (hR : RoundsF R) {p p' : MainIn} {file : Text} {x x' : PyF}
    (hp : p'.saCtx file x' = { (p.saCtx file x).rounded R with startErr := x' })
    (hf : p'.saFuel = p.saFuel) (hc : Exact (p.saCtx file x)) (T : TmpOk (p.saCtx file x)) {w : World}
    {m : Mech} (hw : w.fs file = some m) {initial : List PyF} (hi : p.initial m = .ok initial)
    (hb : ∀ x ∈ initial, Moderate x) {limbo : List String}
    (hord : OrdinaryErrors (p.saCtx file x) m initial (saLimbo (p.targets ++ p.safe) m limbo)) {L e0 : ℚ}
    (hL : p.limit = .fin L) (h0 : 0 ≤ L) (h1 : L ≤ 2 ^ 100) (hs : x = .fin e0) (he1 : e0 ≤ 2 ^ 100)
    (hx : NearError x x')
    (hcl : ClearCourse (p.saCtx file x) initial L m m e0 (saLimbo (p.targets ++ p.safe) m limbo)) (b : Bool) :
    SameRun (saStage p file x limbo b w) (saStage p' file x' limbo b w) := by
  unfold saStage
  rw [hp, hf]
  rcases runSA_same hR hc T (initial := initial) (sol := m) hw hi hb hord hL h0 h1 hs he1 hx hcl p.saFuel with
    ⟨g1, g2⟩ | ⟨r, r', g1, g2, g3, g4, g5⟩ <;> rw [g1, g2]
  · exact .running w
  · dsimp only
    rw [g3, g4]
    generalize r.result = a at g5 ⊢
    generalize r'.result = a' at g5 ⊢
    cases g5 with
    | raised e => exact .raised e _
    | returned h => exact .returned _ h

/-- the sensitivity stage of `main` after a method returned `r`; `base` are the starting metrics -/
def Spec.secondStage (K : Cantera ι π φ) (rnd : ℚ → ℚ) (q : MainArgs ι π φ) (d : Disk) (base : List PyF)
    (r : RModel) : SACtx :=
  (mainIn K rnd q d [] base 0 0 0).saCtx r.filename r.error

/-- nothing that `main` decides in exact arithmetic is within rounding of going the other way -/
structure Spec.ClearRun (K : Cantera ι π φ) (meth : Method) (rnd : ℚ → ℚ) (q : MainArgs ι π φ) (d : Disk)
    (sol : Mech) (L : ℚ) (dfuel fuel : Nat) (w : World) (base : List PyF) : Prop where
  /-- the metrics of the starting model are of ordinary size -/
  ordinary : ∀ x ∈ base, Moderate x
  /-- no candidate of the method has an error close to the limit -/
  method : ∀ removed, Decided L (evalError (K.sims rnd) q.toReduceArgs
    (applyEvs d (sample (K.sims rnd) sol q.conds q.par d).evs) base
    (trim sol removed ("reduced_".toList ++ q.modelFile) q.phase))
  /-- the sensitivity stage makes clear choices -/
  sa : q.sensitivity = true → ∀ r w1 evs,
    fullRun K meth rnd rnd (stageArgs meth q) d dfuel fuel w = ((some (.ok r), w1), evs) →
    ∃ e0, r.error = .fin e0 ∧ e0 ≤ 2 ^ 100 ∧
      OrdinaryErrors (secondStage K rnd q (applyEvs d evs) base r) r.model base
        (saLimbo (q.targets ++ q.safe) r.model (r.limboList w1)) ∧
      ClearCourse (secondStage K rnd q (applyEvs d evs) base r) base L r.model r.model e0
        (saLimbo (q.targets ++ q.safe) r.model (r.limboList w1))

/-- **C121**: when no decision of either stage is within rounding of going the other way, rounding
of errors changes nothing but the last digits of the error that `main` reports: same model, same
files, same exceptions. -/
theorem C121_same (hR : RoundsF R) (P : Physical K sol) (Q : Request q.toReduceArgs sol d)
    (hm : q.method.bind methodOf = some meth) (b : Arith) {L : ℚ}
    (hL : q.limit = .fin L) (hL0 : 0 ≤ L) (hL1 : L ≤ 2 ^ 100)
    (T : ∀ d' Ms base x y z, TmpDirs (mainIn K b.rnd q d' Ms base x y z))
    (dfuel fuel saFuel : Nat) {w : World} (hw : w.fs q.modelFile = some sol)
    (h : ∀ base rows, (sample (K.sims b.rnd) sol q.conds q.par d).result = .ok (base, rows) →
      ClearRun K meth b.rnd q d sol L dfuel fuel w base) :
    SameRun (fullMain K b.rnd q d dfuel fuel saFuel w).1
      (fullMainR R K b.rnd b.rnd q d dfuel fuel saFuel w).1 ∧
    (fullMainR R K b.rnd b.rnd q d dfuel fuel saFuel w).2 = (fullMain K b.rnd q d dfuel fuel saFuel w).2 := by
  have hload : loadModel w q.modelFile = .ok sol := by unfold loadModel; rw [hw]
  have hne : q.method ≠ none ∧ q.method ≠ some "" := by
    constructor <;> intro h <;> rw [h] at hm <;> cases hm
  have g1 : ¬ ((q.method.bind methodOf).isSome && decide (q.targets = [])) = true := by simp [Q.target]
  have g2 : ¬ ((decide (q.method = none) || decide (q.method = some "")) && !q.sensitivity) = true := by
    simp [hne]
  unfold fullMain fullMainR
  rw [if_neg g1, if_neg g1, if_neg g2, if_neg g2, hm]
  dsimp only
  rw [hload]
  dsimp only
  have Q' := stage_request (meth := meth) Q
  have key := C117_decisions (meth := meth) (K := K) hR b.rnd b.rnd Q' (L := L) hL hL0 hL1
    (fun base rows hs => ⟨(h base rows hs).ordinary, (h base rows hs).method⟩) dfuel fuel (w := w) hw
  replace key := key.1
  rcases hs : (sample (K.sims b.rnd) sol q.conds q.par d).result with e | ⟨base, rows⟩
  · exact ⟨.raised e w, rfl⟩
  dsimp only
  refine ⟨?_, rfl⟩
  obtain ⟨c1, c2, c3⟩ := h base rows hs
  have hini := (C69_metrics_after_sample (simsOk (b := b) P) Q.par hs).2
  generalize hev : (sample (K.sims b.rnd) sol q.conds q.par d).evs = ev at hini ⊢
  have f1 : fullRun K meth b.rnd b.rnd (stageArgs meth q) d dfuel fuel w =
      (runMethodS meth (fullCtx K meth b.rnd (stageArgs meth q) (applyEvs d ev) sol base rows)
        (evalSim (K.sims b.rnd) (stageArgs meth q) (applyEvs d ev) base) b.rnd q.limit dfuel fuel w, ev) := by
    unfold fullRun
    rw [show (stageArgs meth q).modelFile = q.modelFile from rfl, hload]
    dsimp only
    rw [if_neg Q'.target]
    rw [show (sample (K.sims b.rnd) sol (stageArgs meth q).conds (stageArgs meth q).par d) =
      sample (K.sims b.rnd) sol q.conds q.par d from rfl, hs, hev]
    rfl
  have f2 : fullRunR R K meth b.rnd b.rnd (stageArgs meth q) d dfuel fuel w =
      (runMethodS meth (fullCtx K meth b.rnd (stageArgs meth q) (applyEvs d ev) sol base rows)
        (evalSimR R (K.sims b.rnd) (stageArgs meth q) (applyEvs d ev) base) b.rnd q.limit dfuel fuel w, ev) := by
    unfold fullRunR
    rw [show (stageArgs meth q).modelFile = q.modelFile from rfl, hload]
    dsimp only
    rw [if_neg Q'.target]
    rw [show (sample (K.sims b.rnd) sol (stageArgs meth q).conds (stageArgs meth q).par d) =
      sample (K.sims b.rnd) sol q.conds q.par d from rfl, hs, hev]
    rfl
  rw [f1] at c3
  rw [f1, f2] at key
  dsimp only at key
  generalize hp : mainIn K b.rnd q (applyEvs d ev) (rows.map (fun r => matrixOf meth b.rnd (K.chem sol r)))
    base dfuel fuel saFuel = p
  generalize hp' : mainInR R K b.rnd b.rnd q (applyEvs d ev)
    (rows.map (fun r => matrixOf meth b.rnd (K.chem sol r))) base dfuel fuel saFuel = p'
  have e1 : runMethodS meth (p.ctx meth) p.sim p.rnd p.limit p.dfuel p.fuel w =
      runMethodS meth (fullCtx K meth b.rnd (stageArgs meth q) (applyEvs d ev) sol base rows)
        (evalSim (K.sims b.rnd) (stageArgs meth q) (applyEvs d ev) base) b.rnd q.limit dfuel fuel w := by
    rw [← hp, mainIn_ctx]; rfl
  have e2 : runMethodS meth (p'.ctx meth) p'.sim p'.rnd p'.limit p'.dfuel p'.fuel w =
      runMethodS meth (fullCtx K meth b.rnd (stageArgs meth q) (applyEvs d ev) sol base rows)
        (evalSimR R (K.sims b.rnd) (stageArgs meth q) (applyEvs d ev) base) b.rnd q.limit dfuel fuel w := by
    rw [← hp', mainInR_ctx]
    rfl
  have m1 : p.method = q.method ∧ p.targets = q.targets ∧ p.sensitivity = q.sensitivity := by
    rw [← hp]; exact ⟨rfl, rfl, rfl⟩
  have m2 : p'.method = q.method ∧ p'.targets = q.targets ∧ p'.sensitivity = q.sensitivity := by
    rw [← hp']; exact ⟨rfl, rfl, rfl⟩
  unfold runMain
  rw [m1.1, m1.2.1, m1.2.2, m2.1, m2.2.1, m2.2.2, if_neg g1, if_neg g1, if_neg g2, if_neg g2, hm]
  dsimp only
  rw [e1, e2]
  generalize runMethodS meth (fullCtx K meth b.rnd (stageArgs meth q) (applyEvs d ev) sol base rows)
    (evalSim _ _ _ _) b.rnd q.limit dfuel fuel w = A at key c3 e1 ⊢
  generalize runMethodS meth (fullCtx K meth b.rnd (stageArgs meth q) (applyEvs d ev) sol base rows)
    (evalSimR _ _ _ _ _) b.rnd q.limit dfuel fuel w = A' at key ⊢
  cases key with
  | running w => exact .running w
  | raised e w => exact .raised e w
  | @returned r r' w1 hr =>
    dsimp only
    by_cases hsens : q.sensitivity = true
    swap
    · rw [if_neg hsens, if_neg hsens]
      exact .returned w1 hr
    rw [if_pos hsens, if_pos hsens]
    obtain ⟨e0, k1, k2, k3, k4⟩ := c3 hsens r w1 ev rfl
    have hlim : r'.limboList w1 = r.limboList w1 := by unfold RModel.limboList; rw [hr.limbo]
    obtain ⟨v1, v2⟩ := C22_file_holds_model (runMethodS_ok e1)
    rw [hr.filename, hr.limbo, hlim]
    refine saStage_same hR ?_ ?_ ?_ ?_ v1 (initial := base) ?_ c1 ?_ (L := L) (e0 := e0) ?_ hL0 hL1 k1 k2
      hr.error ?_ _
    · rw [← hp, ← hp']; rfl
    · rw [← hp, ← hp']; rfl
    · rw [← hp]; exact ⟨rfl, fun _ _ => rfl⟩
    · rw [v2, ← hp]; exact T _ _ _ _ _ _ _ _
    · rw [← hp]; exact hini r.model q.par
    · rw [← hp]; exact k3
    · rw [← hp]; exact hL
    · rw [← hp]; exact k4

/-- **C121**: the same for sensitivity analysis without a method, which starts from saved metrics
(see `C94_alone` for a directory without them). -/
theorem C121_alone (hR : RoundsF R) (hm : q.method.bind methodOf = none) (rnd : ℚ → ℚ) {L : ℚ}
    (hL : q.limit = .fin L) (hL0 : 0 ≤ L) (hL1 : L ≤ 2 ^ 100) (dfuel fuel saFuel : Nat)
    (T : TmpOk ((mainIn K rnd q d [] [] dfuel fuel saFuel).saCtx q.modelFile (.fin 0)))
    {w : World} (hw : w.fs q.modelFile = some sol) {base : List PyF}
    (hi : sampleMetrics (K.sims rnd) sol q.conds q.par true d = .ok base) (hb : ∀ x ∈ base, Moderate x)
    (hord : OrdinaryErrors (secondStage K rnd q d [] ⟨sol, q.modelFile, .fin 0, none⟩) sol base
      (saLimbo (q.targets ++ q.safe) sol []))
    (hcl : ClearCourse (secondStage K rnd q d [] ⟨sol, q.modelFile, .fin 0, none⟩) base L sol sol 0
      (saLimbo (q.targets ++ q.safe) sol [])) :
    SameRun (fullMain K rnd q d dfuel fuel saFuel w).1 (fullMainR R K rnd rnd q d dfuel fuel saFuel w).1 ∧
      (fullMainR R K rnd rnd q d dfuel fuel saFuel w).2 = (fullMain K rnd q d dfuel fuel saFuel w).2 := by
  unfold fullMain fullMainR
  rw [hm]
  by_cases h2 : ((decide (q.method = none) || decide (q.method = some "")) && !q.sensitivity) = true
  · rw [if_neg (by simp), if_pos h2, if_neg (by simp), if_pos h2]
    exact ⟨.raised _ w, rfl⟩
  rw [if_neg (by simp), if_neg h2, if_neg (by simp), if_neg h2]
  dsimp only
  refine ⟨?_, rfl⟩
  unfold runMain
  rw [show (mainInR R K rnd rnd q d [] [] dfuel fuel saFuel).method = q.method from rfl,
    show (mainIn K rnd q d [] [] dfuel fuel saFuel).method = q.method from rfl,
    show (mainInR R K rnd rnd q d [] [] dfuel fuel saFuel).sensitivity = q.sensitivity from rfl,
    show (mainIn K rnd q d [] [] dfuel fuel saFuel).sensitivity = q.sensitivity from rfl, hm]
  simp only [Option.isSome_none, Bool.false_and, Bool.false_eq_true, if_false, if_neg h2]
  by_cases hs : q.sensitivity = true
  swap
  · rw [if_neg hs, if_neg hs]
    exact .raised _ w
  rw [if_pos hs, if_pos hs]
  exact saStage_same (p := mainIn K rnd q d [] [] dfuel fuel saFuel) (p' := mainInR R K rnd rnd q d [] [] dfuel fuel saFuel) (x' := .fin 0) hR rfl rfl ⟨rfl, fun _ _ => rfl⟩ T hw
    (initial := base) hi hb hord (L := L) (e0 := 0) hL hL0 hL1 rfl (by norm_num) (.fin le_rfl (by norm_num)) hcl false

/-! ### a concrete run -/

/-- the run of `Props/FullMain.lean` in binary64 arithmetic throughout -/
example : runView (fullMainR rndInf e2eK rnd64 rnd64 (e2eMain "DRG") (fun _ => none) 50 20 20 e2eWorld).1 =
    some (.ok (["A", "B"], .fin 1)) ∧
    runView (fullMainR rndInf e2eK rnd64 rnd64 (e2eMain "PFA") (fun _ => none) 50 20 20 e2eWorld).1 =
    some (.ok (["A", "B"], .fin 1)) := by
  decide +kernel

def e2eBase : List PyF := [.fin 100, .fin 1, .fin 1000, .fin 1600, .fin 1]

def e2eSaved : Disk :=
  applyEvs (fun _ => none) (sample (e2eK.sims id) e2eSol e2eArgs.conds e2eArgs.par (fun _ => none)).evs

theorem e2e_saErr_names {m m' : Mech} (h : m.names = m'.names) (r r' : RModel) :
    saErr (secondStage e2eK id (e2eMain "DRG") e2eSaved e2eBase r) e2eBase m =
      saErr (secondStage e2eK id (e2eMain "DRG") e2eSaved e2eBase r') e2eBase m' := by
  have h1 : (e2eK.sims id).ign.metric m = (e2eK.sims id).ign.metric m' := by
    simp only [Cantera.sims, Cantera.ignSims, e2eK, h]
  have h2 : (e2eK.sims id).psr.metric m = (e2eK.sims id).psr.metric m' := by
    simp only [Cantera.sims, Cantera.psrSims, e2eK, h]
  have h3 : (e2eK.sims id).flame.metric m = (e2eK.sims id).flame.metric m' := by
    simp only [Cantera.sims, Cantera.flameSims, e2eK, h]
  unfold saErr secondStage MainIn.saCtx mainIn sampleMetrics metricsPart
  simp only [h1, h2, h3]

/-- without `C` the error is one percent, and fifty when `B` is removed as well -/
theorem e2e_saErr {m : Mech} (hm : m.names = ["A", "B", "D"]) (r : RModel) (l : List String) :
    saErr (secondStage e2eK id (e2eMain "DRG") e2eSaved e2eBase r) e2eBase
      (l.foldl (without (secondStage e2eK id (e2eMain "DRG") e2eSaved e2eBase r)) m) =
      .ok (.fin (if l.contains "B" then 50 else 1)) := by
  have hn : (l.foldl (without (secondStage e2eK id (e2eMain "DRG") e2eSaved e2eBase r)) m).names =
      (trim e2eSol (["C"] ++ (if l.contains "A" then ["A"] else []) ++ (if l.contains "B" then ["B"] else []) ++
        (if l.contains "D" then ["D"] else [])) [] []).names := by
    rw [foldl_without_names, hm, trim_names]
    show _ = List.filter _ ["A", "B", "C", "D"]
    simp only [List.filter_cons, List.filter_nil]
    cases l.contains "A" <;> cases l.contains "B" <;> cases l.contains "D" <;> rfl
  rw [e2e_saErr_names hn r ⟨e2eSol, [], .fin 0, none⟩]
  have : ∀ a b d : Bool, saErr (secondStage e2eK id (e2eMain "DRG") e2eSaved e2eBase ⟨e2eSol, [], .fin 0, none⟩)
      e2eBase (trim e2eSol (["C"] ++ (if a then ["A"] else []) ++ (if b then ["B"] else []) ++
        (if d then ["D"] else [])) [] []) = .ok (.fin (if b then 50 else 1)) := by
    decide +kernel
  exact this _ _ _

/-- the choices of the sensitivity stage are clear -/
theorem e2e_clear {m : Mech} (hm : m.names = ["A", "B", "D"]) (r : RModel) :
    ClearCourse (secondStage e2eK id (e2eMain "DRG") e2eSaved e2eBase r) e2eBase 5 m m 1 ["B", "D"] := by
  have hB := e2e_saErr hm r ["B"]
  have hD := e2e_saErr hm r ["D"]
  have hDB := e2e_saErr hm r ["D", "B"]
  have hg : (secondStage e2eK id (e2eMain "DRG") e2eSaved e2eBase r).greedy = false := rfl
  generalize secondStage e2eK id (e2eMain "DRG") e2eSaved e2eBase r = c at *
  simp only [List.foldl_cons, List.foldl_nil] at hB hD hDB
  change _ = Except.ok (PyF.fin 50) at hB
  change _ = Except.ok (PyF.fin 1) at hD
  change _ = Except.ok (PyF.fin 50) at hDB
  have d1 : Decided 5 (.fin 1) := decided_of_B (by decide +kernel)
  have d50 : Decided 5 (.fin 50) := decided_of_B (by decide +kernel)
  refine .step 1 "D" rfl ⟨"D", 1, rfl, hD, ?_⟩ ?_ ?_ ?_
  · intro j s hj hs
    obtain rfl : j = 0 := by
      have := (List.getElem?_eq_some_iff.1 hs).1
      simp at this
      omega
    cases hs
    exact .inr ⟨50, hB, by unfold slack; norm_num [abs_of_pos]⟩
  · intro x hx; rw [hD] at hx; cases hx; exact d1
  · intro h; rw [hg] at h; cases h
  · intro e' he' _
    rw [hD] at he'
    cases he'
    rw [hg]
    refine .step 0 "B" rfl ⟨"B", 50, rfl, hB, fun j s hj hs => ?_⟩ ?_ ?_ ?_
    · have := (List.getElem?_eq_some_iff.1 hs).1
      simp at this
      omega
    · intro x hx; rw [hDB] at hx; cases hx; exact d50
    · intro h; rw [hg] at h; cases h
    · intro e2 he2 hle
      rw [hDB] at he2; cases he2; norm_num at hle

/-- what the sensitivity stage starts from -/
def stageView : RunResult × List Ev → Option (List String × PyF × List String)
  | ((some (.ok r), w), _) => some (r.model.names, r.error, r.limboList w)
  | _ => none

/-- the hypotheses of `C121_same` hold for the example run, which uses both stages -/
example : SameRun (fullMain e2eK id (e2eMain "DRG") (fun _ => none) 50 20 20 e2eWorld).1
    (fullMainR rndInf e2eK id id (e2eMain "DRG") (fun _ => none) 50 20 20 e2eWorld).1 := by
  refine (C121_same (meth := .drg) roundsF_rndInf e2e_physical e2e_request rfl .exact (L := 5) rfl (by norm_num)
    (by norm_num) (fun _ _ _ _ _ _ => e2eMain_tmp _ _ _ _ _ _ _ _) 50 20 20 rfl (fun base rows hs => ?_)).1
  obtain rfl : base = e2eBase := e2e_base hs
  refine ⟨e2e_ordinary, e2e_decided, fun _ r w1 evs hr => ?_⟩
  have hv : stageView (fullRun e2eK .drg id id (stageArgs .drg (e2eMain "DRG")) (fun _ => none) 50 20 e2eWorld) =
    some (["A", "B", "D"], .fin 1, []) := by decide +kernel
  obtain ⟨-, -, -, he, -⟩ := fullRun_ok (sol := e2eSol) rfl hr
  have hd : applyEvs (fun _ => none) evs = e2eSaved := by rw [he]; rfl
  rw [show fullRun e2eK .drg id id (stageArgs .drg (e2eMain "DRG")) (fun _ => none) 50 20 e2eWorld = _ from hr] at hv
  simp only [stageView, Option.some.injEq, Prod.mk.injEq] at hv
  obtain ⟨h1, h2, h3⟩ := hv
  have hl : saLimbo ((e2eMain "DRG").targets ++ (e2eMain "DRG").safe) r.model (r.limboList w1) = ["B", "D"] := by
    rw [h3]
    unfold saLimbo
    rw [if_pos rfl, h1]
    decide +kernel
  rw [hl, show applyEvs (fun _ => none) evs = e2eSaved from hd]
  refine ⟨1, h2, by norm_num, ?_, e2e_clear h1 r⟩
  intro l _ _ x hx
  have hx' := (e2e_saErr h1 r l).symm.trans hx
  cases hx'
  refine ⟨_, rfl, ?_⟩
  split_ifs <;> norm_num

end Verif
