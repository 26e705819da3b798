import Verif.Model.FullMain
import Verif.Props.Rerun
import Verif.Props.Main
/-!
# `main` as a whole: both stages (C93)
-/
namespace Verif
open Spec

variable {ι π φ : Type} {K : Cantera ι π φ} {sol : Mech} {q : MainArgs ι π φ} {d : Disk}
  {meth : Method}

/-- what the method stage of `main` asks for: PFA gets no upper threshold -/
def Spec.stageArgs (meth : Method) (q : MainArgs ι π φ) : ReduceArgs ι π φ :=
  { q.toReduceArgs with upper := match meth with | .pfa => none | _ => q.upper }

theorem mainIn_ctx (rnd : ℚ → ℚ) (d : Disk) (base : List PyF) (rows : List Row) (dfuel fuel saFuel : Nat) :
    (mainIn K rnd q d (rows.map (fun r => matrixOf meth rnd (K.chem sol r))) base dfuel fuel saFuel).ctx meth =
      fullCtx K meth rnd (stageArgs meth q) d sol base rows := by
  unfold MainIn.ctx fullCtx mainIn stageArgs
  congr 1

theorem stage_request (Q : Request q.toReduceArgs sol d) : Request (stageArgs meth q) sol d :=
  ⟨Q.nodup, Q.targets, Q.target, Q.noclash, Q.cond, Q.par, Q.freshIgn, Q.freshPsr, Q.freshFlame⟩

/-- a graph-based run of `main` that returned has sampled the starting model and run its stages -/
theorem fullMain_ok {rnd : ℚ → ℚ} {dfuel fuel saFuel : Nat} {w w' : World} {r : RModel}
    {evs : List Ev} (hm : q.method.bind methodOf = some meth)
    (hw : w.fs q.modelFile = some sol)
    (h : fullMain K rnd q d dfuel fuel saFuel w = ((some (.ok r), w'), evs)) :
    ∃ base rows, (sample (K.sims rnd) sol q.conds q.par d).result = .ok (base, rows) ∧
      evs = (sample (K.sims rnd) sol q.conds q.par d).evs ∧
      runMain (mainIn K rnd q (applyEvs d evs) (rows.map (fun r => matrixOf meth rnd (K.chem sol r)))
        base dfuel fuel saFuel) w = (some (.ok r), w') := by
  have hload : loadModel w q.modelFile = .ok sol := by unfold loadModel; rw [hw]
  unfold fullMain at h
  by_cases h1 : ((q.method.bind methodOf).isSome && decide (q.targets = [])) = true
  · rw [if_pos h1] at h; cases h
  rw [if_neg h1] at h
  by_cases h2 : ((decide (q.method = none) || decide (q.method = some "")) && !q.sensitivity) = true
  · rw [if_pos h2] at h; cases h
  rw [if_neg h2, hm] at h
  dsimp only at h
  rw [hload] at h
  dsimp only at h
  rcases hs : (sample (K.sims rnd) sol q.conds q.par d).result with e | ⟨base, rows⟩ <;> rw [hs] at h
  · cases h
  · simp only [Prod.mk.injEq] at h
    obtain ⟨h1, h2⟩ := h
    refine ⟨base, rows, rfl, h2.symm, ?_⟩
    rw [← h2]
    exact h1

theorem runMain_method {p : MainIn} {m : Method} {w : World} (hm : p.method.bind methodOf = some m)
    (hs : p.sensitivity = false) (ht : p.targets ≠ []) :
    runMain p w = runMethodS m (p.ctx m) p.sim p.rnd p.limit p.dfuel p.fuel w := by
  have hne : p.method ≠ none ∧ p.method ≠ some "" := by
    constructor <;> intro h <;> rw [h] at hm <;> cases hm
  unfold runMain
  rw [if_neg (by simp [ht]), if_neg (by simp [hne]), hm]
  dsimp only
  rcases runMethodS m (p.ctx m) p.sim p.rnd p.limit p.dfuel p.fuel w with ⟨_ | _ | r, w1⟩
  · rfl
  · rfl
  · simp [hs]

/-- without sensitivity analysis `main` is the run of the method -/
theorem fullMain_method {rnd : ℚ → ℚ} {dfuel fuel saFuel : Nat} {w : World}
    (hm : q.method.bind methodOf = some meth) (hs : q.sensitivity = false)
    (ht : q.targets ≠ []) (hw : w.fs q.modelFile = some sol) :
    fullMain K rnd q d dfuel fuel saFuel w =
      fullRun K meth rnd rnd (stageArgs meth q) d dfuel fuel w := by
  have hload : loadModel w q.modelFile = .ok sol := by unfold loadModel; rw [hw]
  have hload' : loadModel w (stageArgs meth q).modelFile = .ok sol := hload
  unfold fullMain fullRun
  have hne : q.method ≠ none ∧ q.method ≠ some "" := by
    constructor <;> intro h <;> rw [h] at hm <;> cases hm
  have ht' : (stageArgs meth q).targets ≠ [] := ht
  rw [if_neg (by simp [ht]), if_neg (by simp [hne]), hm, hload']
  dsimp only
  rw [hload, if_neg ht']
  dsimp only
  show _ = (match (sample (K.sims rnd) sol q.conds q.par d).result with
    | .error e => ((some (.error e), w), (sample (K.sims rnd) sol q.conds q.par d).evs)
    | .ok (base, rows) => (runMethodS meth (fullCtx K meth rnd (stageArgs meth q)
        (applyEvs d (sample (K.sims rnd) sol q.conds q.par d).evs) sol base rows)
        (evalSim (K.sims rnd) (stageArgs meth q)
          (applyEvs d (sample (K.sims rnd) sol q.conds q.par d).evs) base) rnd q.limit dfuel
        fuel w, (sample (K.sims rnd) sol q.conds q.par d).evs) : RunResult × List Ev)
  rcases (sample (K.sims rnd) sol q.conds q.par d).result with e | ⟨base, rows⟩
  · rfl
  · dsimp only
    rw [runMain_method (p := mainIn K rnd q (applyEvs d (sample (K.sims rnd) sol q.conds q.par d).evs)
      (rows.map (fun r => matrixOf meth rnd (K.chem sol r))) base dfuel fuel saFuel) hm hs ht, mainIn_ctx]
    rfl

theorem evalSim_of_sa {rnd : ℚ → ℚ} {q : ReduceArgs ι π φ} {base t : List PyF} {m : Mech} {e : PyF}
    (h1 : sampleMetrics (K.sims rnd) m q.conds q.par false d = .ok t)
    (h2 : calculateError base t = .ok e) : evalSim (K.sims rnd) q d base m = .ok e := by
  unfold evalSim
  rw [h1]
  exact h2

theorem evalError_of_sim {S : AllSims ι π φ} {q : ReduceArgs ι π φ} {base : List PyF} {m : Mech} {e : PyF}
    (h : evalSim S q d base m = .ok e) : evalError S q d base m = e := by
  unfold evalError simError
  rw [h]

theorem evalError_of_sa {rnd : ℚ → ℚ} {q : ReduceArgs ι π φ} {base t : List PyF} {m : Mech} {e : PyF}
    (h1 : sampleMetrics (K.sims rnd) m q.conds q.par false d = .ok t)
    (h2 : calculateError base t = .ok e) : evalError (K.sims rnd) q d base m = e :=
  evalError_of_sim (evalSim_of_sa h1 h2)

/-- **C93**: a method followed by sensitivity analysis: when the whole run returns a model and
reports an error below 100 percent, that model reproduces the *starting* model (not only the
method's result) under every condition within the reported error, in exact and in binary64
arithmetic. -/
theorem C93_reported (P : Physical K sol) (Q : Request q.toReduceArgs sol d)
    (hm : q.method.bind methodOf = some meth) (hs : q.sensitivity = true) (a : Arith)
    (hlim : (PyF.fin 0).le q.limit = true)
    (T : ∀ d' Ms base x y z, TmpDirs (mainIn K a.rnd q d' Ms base x y z))
    (hsame : SameBehaviour K sol (trim sol [] ("reduced_".toList ++ q.modelFile) q.phase)) :
    ∃ N, ∀ dfuel ≥ N, ∀ fuel saFuel w w' r evs e, w.fs q.modelFile = some sol →
      fullMain K a.rnd q d dfuel fuel saFuel w = ((some (.ok r), w'), evs) →
      r.error = .fin e → e < 100 → Reproduces K q.conds sol r.model e := by
  rcases hsm : (sample (K.sims a.rnd) sol q.conds q.par d).result with er | ⟨base, rows⟩
  · refine ⟨0, fun dfuel _ fuel saFuel w w' r evs e hw h => ?_⟩
    obtain ⟨base, rows, h1, -⟩ := fullMain_ok hm hw h
    rw [hsm] at h1; cases h1
  have Q' := stage_request (meth := meth) Q
  have hsm' : (sample (K.sims a.rnd) sol (stageArgs meth q).conds (stageArgs meth q).par d).result
    = .ok (base, rows) := hsm
  obtain ⟨hsim, -, U⟩ := fullCtx_usable (meth := meth) P a Q' hsm'
    (applyEvs d (sample (K.sims a.rnd) sol q.conds q.par d).evs)
  have hl := limitOk_full (meth := meth) P Q' a hlim hsame hsim
    (applyEvs d (sample (K.sims a.rnd) sol q.conds q.par d).evs)
  rw [← mainIn_ctx a.rnd _ base rows 0 0 0] at U hl
  obtain ⟨N, hN⟩ := C88_two_stages (p := mainIn K a.rnd q
    (applyEvs d (sample (K.sims a.rnd) sol q.conds q.par d).evs)
    (rows.map (fun r => matrixOf meth a.rnd (K.chem sol r))) base 0 0 0) hm hs a rfl U hl (T _ _ _ _ _ _)
  refine ⟨N, fun dfuel hd fuel saFuel w w' rm evs e hw h he h100 => ?_⟩
  obtain ⟨base', rows', h1, h2, h3⟩ := fullMain_ok hm hw h
  rw [hsm] at h1
  cases h1
  rw [h2] at h3
  obtain ⟨-, r, w1, t, acc, g1, g2, g3, -, -, H⟩ := hN dfuel hd fuel saFuel w w' rm hw h3
  rcases H with ⟨-, h7, h8⟩ | ⟨-, -, initial, metrics, h7, h8, h9⟩
  · rw [h7]
    rw [← h8, he] at g3
    exact reproduces_of_error P Q.par hsim (evalError_of_sim g3) h100
  · have hbase : initial = base := by
      have := (C69_metrics_after_sample (simsOk (b := a) P) Q.par hsm).2 r.model q.par
      have h7' : sampleMetrics (K.sims a.rnd) r.model q.conds q.par true
        (applyEvs d (sample (K.sims a.rnd) sol q.conds q.par d).evs) = .ok initial := h7
      rw [this] at h7'
      exact (Except.ok.inj h7').symm
    rw [hbase, he] at h9
    exact reproduces_of_error P Q.par hsim (evalError_of_sa (q := q.toReduceArgs) h8 h9) h100

/-- **C93**: in exact arithmetic and with a limit below 100 percent, the model returned by both
stages reproduces the starting model within the limit, unless its reported error is NaN (the
sensitivity stage accepts undefined errors, C71). -/
theorem C93_within_limit (P : Physical K sol) (Q : Request q.toReduceArgs sol d)
    (hm : q.method.bind methodOf = some meth) (hs : q.sensitivity = true) {L : ℚ}
    (hL : q.limit = .fin L) (hL0 : 0 ≤ L) (hL1 : L < 100)
    (T : ∀ d' Ms base x y z, TmpDirs (mainIn K id q d' Ms base x y z))
    (hsame : SameBehaviour K sol (trim sol [] ("reduced_".toList ++ q.modelFile) q.phase)) :
    ∃ N, ∀ dfuel ≥ N, ∀ fuel saFuel w w' r evs, w.fs q.modelFile = some sol →
      fullMain K id q d dfuel fuel saFuel w = ((some (.ok r), w'), evs) →
      r.error = .nan ∨ Reproduces K q.conds sol r.model L := by
  have hlim : (PyF.fin 0).le q.limit = true := by rw [hL]; simpa [PyF.le] using hL0
  obtain ⟨N1, hN1⟩ := C93_reported P Q hm hs .exact hlim T hsame
  rcases hsm : (sample (K.sims id) sol q.conds q.par d).result with er | ⟨base, rows⟩
  · refine ⟨0, fun dfuel _ fuel saFuel w w' r evs hw h => ?_⟩
    obtain ⟨base, rows, h1, -⟩ := fullMain_ok hm hw h
    rw [hsm] at h1; cases h1
  have Q' := stage_request (meth := meth) Q
  have hsm' : (sample (K.sims Arith.exact.rnd) sol (stageArgs meth q).conds (stageArgs meth q).par d).result
    = .ok (base, rows) := hsm
  obtain ⟨hsim, -, U⟩ := fullCtx_usable (meth := meth) P .exact Q' hsm'
    (applyEvs d (sample (K.sims id) sol q.conds q.par d).evs)
  have hl := limitOk_full (meth := meth) P Q' .exact hlim hsame hsim
    (applyEvs d (sample (K.sims id) sol q.conds q.par d).evs)
  rw [← mainIn_ctx Arith.exact.rnd _ base rows 0 0 0] at U hl
  obtain ⟨N2, hN2⟩ := C88_within_limit (p := mainIn K id q
    (applyEvs d (sample (K.sims id) sol q.conds q.par d).evs)
    (rows.map (fun r => matrixOf meth id (K.chem sol r))) base 0 0 0) hm hs rfl U hl (T _ _ _ _ _ _)
  obtain ⟨N3, hN3⟩ := C88_two_stages (p := mainIn K id q
    (applyEvs d (sample (K.sims id) sol q.conds q.par d).evs)
    (rows.map (fun r => matrixOf meth id (K.chem sol r))) base 0 0 0) hm hs .exact rfl U hl (T _ _ _ _ _ _)
  refine ⟨max N1 (max N2 N3), fun dfuel hd fuel saFuel w w' rm evs hw h => ?_⟩
  have hd1 := le_trans (le_max_left _ _) hd
  have hd2 := le_trans (le_max_left _ _) (le_trans (le_max_right _ _) hd)
  have hd3 := le_trans (le_max_right _ _) (le_trans (le_max_right _ _) hd)
  obtain ⟨base', rows', h1, h2, h3⟩ := fullMain_ok hm hw h
  rw [hsm] at h1
  cases h1
  rw [h2] at h3
  have g1 : q.limit.lt rm.error = false := hN2 dfuel hd2 fuel saFuel w w' rm hw h3
  rcases hr : rm.error with e | _ | _ | _
  · right
    rw [hr, hL] at g1
    have hle : e ≤ L := by simpa [PyF.lt] using g1
    exact Spec.Reproduces.mono P (hN1 dfuel hd1 fuel saFuel w w' rm evs e hw h hr (by linarith)) hle
  · rw [hr, hL] at g1; simp [PyF.lt] at g1
  · exfalso
    obtain ⟨os, hos, hpos⟩ := simulated_pos P hsim
    obtain ⟨-, r, w1, t, acc, -, -, g3, -, -, H⟩ := hN3 dfuel hd3 fuel saFuel w w' rm hw h3
    rcases H with ⟨-, h7, h8⟩ | ⟨-, -, initial, metrics, h7, h8, h9⟩
    · rw [← h8, hr] at g3
      have g3 : evalSim (K.sims id) q.toReduceArgs _ base r.model = .ok .ninf := g3
      unfold evalSim at g3
      split at g3
      · cases g3
      rw [hos] at g3
      exact calculateError_ne_ninf hpos g3
    · have := (C69_metrics_after_sample (simsOk (b := .exact) P) Q.par hsm).2 r.model q.par
      have h7' : sampleMetrics (K.sims id) r.model q.conds q.par true
        (applyEvs d (sample (K.sims id) sol q.conds q.par d).evs) = .ok initial := h7
      have hb : initial = base := by
        have h10 : Except.ok base = Except.ok initial := this.symm.trans h7'
        exact (Except.ok.inj h10).symm
      rw [hb, hos, hr] at h9
      exact calculateError_ne_ninf hpos h9
  · exact .inl rfl

/-- **C93**: when no simulation gives an undefined number, both stages together keep the limit
without exception. -/
theorem C93_numeric (P : Physical K sol) (D : Numerical K) (Q : Request q.toReduceArgs sol d)
    (hm : q.method.bind methodOf = some meth) (hs : q.sensitivity = true) {L : ℚ}
    (hL : q.limit = .fin L) (hL0 : 0 ≤ L) (hL1 : L < 100)
    (T : ∀ d' Ms base x y z, TmpDirs (mainIn K id q d' Ms base x y z))
    (hsame : SameBehaviour K sol (trim sol [] ("reduced_".toList ++ q.modelFile) q.phase)) :
    ∃ N, ∀ dfuel ≥ N, ∀ fuel saFuel w w' r evs, w.fs q.modelFile = some sol →
      fullMain K id q d dfuel fuel saFuel w = ((some (.ok r), w'), evs) →
      Reproduces K q.conds sol r.model L := by
  have hlim : (PyF.fin 0).le q.limit = true := by rw [hL]; simpa [PyF.le] using hL0
  obtain ⟨N1, hN1⟩ := C93_within_limit P Q hm hs hL hL0 hL1 T hsame
  rcases hsm : (sample (K.sims id) sol q.conds q.par d).result with er | ⟨base, rows⟩
  · refine ⟨0, fun dfuel _ fuel saFuel w w' r evs hw h => ?_⟩
    obtain ⟨base, rows, h1, -⟩ := fullMain_ok hm hw h
    rw [hsm] at h1; cases h1
  have Q' := stage_request (meth := meth) Q
  have hsm' : (sample (K.sims Arith.exact.rnd) sol (stageArgs meth q).conds (stageArgs meth q).par d).result
    = .ok (base, rows) := hsm
  obtain ⟨hsim, -, U⟩ := fullCtx_usable (meth := meth) P .exact Q' hsm'
    (applyEvs d (sample (K.sims id) sol q.conds q.par d).evs)
  have hl := limitOk_full (meth := meth) P Q' .exact hlim hsame hsim
    (applyEvs d (sample (K.sims id) sol q.conds q.par d).evs)
  rw [← mainIn_ctx Arith.exact.rnd _ base rows 0 0 0] at U hl
  obtain ⟨N3, hN3⟩ := C88_two_stages (p := mainIn K id q
    (applyEvs d (sample (K.sims id) sol q.conds q.par d).evs)
    (rows.map (fun r => matrixOf meth id (K.chem sol r))) base 0 0 0) hm hs .exact rfl U hl (T _ _ _ _ _ _)
  refine ⟨max N1 N3, fun dfuel hd fuel saFuel w w' rm evs hw h => ?_⟩
  rcases hN1 dfuel (le_trans (le_max_left _ _) hd) fuel saFuel w w' rm evs hw h with hr | hr
  swap
  · exact hr
  exfalso
  obtain ⟨base', rows', h1, h2, h3⟩ := fullMain_ok hm hw h
  rw [hsm] at h1
  cases h1
  rw [h2] at h3
  obtain ⟨os, hos, hpos⟩ := simulated_pos P hsim
  obtain ⟨-, r, w1, t, acc, -, -, g3, -, -, H⟩ :=
    hN3 dfuel (le_trans (le_max_right _ _) hd) fuel saFuel w w' rm hw h3
  rcases H with ⟨-, h7, h8⟩ | ⟨-, -, initial, metrics, h7, h8, h9⟩
  · rw [← h8, hr] at g3
    have g3 : evalSim (K.sims id) q.toReduceArgs _ base r.model = .ok .nan := g3
    unfold evalSim at g3
    split at g3
    · cases g3
    rename_i t' ht'
    rw [hos] at g3
    exact calculateError_number hpos (metrics_numbers (b := .exact) D Q.par ht') g3
  · have := (C69_metrics_after_sample (simsOk (b := .exact) P) Q.par hsm).2 r.model q.par
    have h7' : sampleMetrics (K.sims id) r.model q.conds q.par true
      (applyEvs d (sample (K.sims id) sol q.conds q.par d).evs) = .ok initial := h7
    have hb : initial = base := by
      have h10 : Except.ok base = Except.ok initial := this.symm.trans h7'
      exact (Except.ok.inj h10).symm
    rw [hb, hos, hr] at h9
    exact calculateError_number hpos (metrics_numbers (b := .exact) D Q.par h8) h9

/-! ### a concrete run -/

theorem e2e_numeric : Numerical e2eK where
  ign := by
    intro m x R k p h hp
    cases h
    cases hp
    exact ⟨_, rfl⟩
  psr := by
    intro m x r h
    cases h
    exact ⟨⟨_, rfl⟩, ⟨_, rfl⟩, ⟨_, rfl⟩⟩
  flame := by
    intro m x f h
    cases h
    exact ⟨_, rfl⟩

/-- the reduction of `Props/EndToEnd.lean` followed by sensitivity analysis -/
def e2eMain (method : String) : MainArgs Unit Unit Unit where
  toReduceArgs := e2eArgs
  method := some method
  sensitivity := true
  sensitivityType := "initial"
  tmpDir := "/tmp/a".toList
  evalDir := fun _ => "/tmp/b".toList

/-- the method removes `C` (one percent), sensitivity analysis then `D` (no change) and keeps `B` -/
example : runView (fullMain e2eK id (e2eMain "DRG") (fun _ => none) 50 20 20 e2eWorld).1 =
    some (.ok (["A", "B"], .fin 1)) ∧
    runView (fullMain e2eK rnd64 (e2eMain "DRGEP") (fun _ => none) 50 20 20 e2eWorld).1 =
    some (.ok (["A", "B"], .fin 1)) := by
  decide +kernel

theorem e2eMain_tmp (s : String) (rnd : ℚ → ℚ) (d : Disk) (Ms : List NMat) (base : List PyF) (x y z : Nat) :
    TmpDirs (mainIn e2eK rnd (e2eMain s) d Ms base x y z) := by
  intro n e
  have hpre : ∀ (d : Text), d.head? = some '/' → ¬ d ++ ['/'] <+: joinPath [] (reducedName n) := by
    rintro d hd ⟨x, hx⟩
    have := congrArg List.head? hx
    rw [joinPath_nil, reducedName_head] at this
    cases d with
    | nil => simp at hd
    | cons c d => simp at hd this; rw [hd] at this; exact absurd this (by decide)
  exact
  { tmp_ne := by show "/tmp/a".toList ≠ []; decide
    tmp_last := by show "/tmp/a".toList.getLast? ≠ some '/'; decide
    eval_ne := fun _ => by show "/tmp/b".toList ≠ []; decide
    eval_last := fun _ => by show "/tmp/b".toList.getLast? ≠ some '/'; decide
    model_tmp := hpre _ rfl
    model_eval := fun _ => hpre _ rfl
    apart := (exSA_tmp (.fin 0) false []).apart }

/-- all hypotheses of C93 hold here -/
example : Physical e2eK e2eSol ∧ Request (e2eMain "DRG").toReduceArgs e2eSol (fun _ => none) ∧
    (e2eMain "DRG").method.bind methodOf = some .drg ∧ (e2eMain "DRG").limit = .fin 5 ∧
    e2eWorld.fs (e2eMain "DRG").modelFile = some e2eSol :=
  ⟨e2e_physical, e2e_request, rfl, rfl, rfl⟩

end Verif
