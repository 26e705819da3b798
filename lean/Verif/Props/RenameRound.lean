import Verif.Props.Rename
import Verif.Props.MainRound
/-!
# C130 in floating-point arithmetic
-/
namespace Verif
open Spec

variable {σ : String ≃ String} {ι π φ : Type} {fi : ι → ι} {fp : π → π} {ff : φ → φ} {K K' : Cantera ι π φ}

theorem evalSimR_ren (R : RenCantera σ fi fp ff K K') {m m' : Mech} (h : Named σ m m') (rndE : ℚ → PyF) (rnd : ℚ → ℚ)
    {q q' : ReduceArgs ι π φ} (hc : q'.conds = renConds fi fp ff q.conds) (hp : q'.par = q.par) (d : Disk)
    (base : List PyF) :
    evalSimR rndE (K'.sims rnd) q' d base m' = evalSimR rndE (K.sims rnd) q d base m := by
  unfold evalSimR
  rw [hc, hp, sampleMetrics_ren R h]

theorem mainInR_ren (R : RenCantera σ fi fp ff K K') (rndE : ℚ → PyF) (rnd rndThr : ℚ → ℚ) (q : MainArgs ι π φ) (d : Disk)
    (Ms : List NMat) (base : List PyF) (dfuel fuel k k' : Nat) :
    RenMain σ (mainInR rndE K rnd rndThr q d Ms base dfuel fuel k)
      (mainInR rndE K' rnd rndThr (renMainArgs σ fi fp ff q) d Ms base dfuel fuel k') where
  modelFile := rfl
  limit := rfl
  method := rfl
  targets := rfl
  safe := rfl
  phase := rfl
  sensitivity := rfl
  upper := rfl
  sensitivityType := rfl
  path := rfl
  matrices := rfl
  sim := fun h => evalSimR_ren R h rndE rnd (q := q.toReduceArgs) (q' := (renMainArgs σ fi fp ff q).toReduceArgs) rfl rfl d base
  initial := fun h => sampleMetrics_ren R h rnd q.conds q.par true d
  metrics := fun h => sampleMetrics_ren R h rnd q.conds q.par false d
  tmpDir := rfl
  evalDir := rfl
  rnd := rfl
  dfuel := rfl
  fuel := rfl
  errFun := rfl
  dist := rfl
  rndMul := rfl

/-- **C130** (`main`, rounded): the same when every operation on data, matrices, path products, thresholds and errors
is rounded: `rnd` rounds the data, `rndThr` the thresholds and `rndE` the errors, each as it likes. -/
theorem C130_main_rounded (R : RenCantera σ fi fp ff K K') (rndE : ℚ → PyF) (rnd rndThr : ℚ → ℚ) (q : MainArgs ι π φ) (d : Disk)
    (T : ∀ d' Ms base x y z, TmpDirs (mainInR rndE K rnd rndThr q d' Ms base x y z) ∧
      TmpOk ((mainInR rndE K rnd rndThr q d' Ms base x y z).saCtx q.modelFile (.fin 0)))
    {dfuel fuel saFuel : Nat} {w w' : World} {r : RModel} {evs : List Ev}
    (h : fullMainR rndE K rnd rndThr q d dfuel fuel saFuel w = ((some (.ok r), w'), evs)) :
    ∃ N, ∀ k ≥ N, ∃ r' w'',
      fullMainR rndE K' rnd rndThr (renMainArgs σ fi fp ff q) d dfuel fuel k (renWorld σ w) = ((some (.ok r'), w''), evs) ∧
      Named σ r.model r'.model ∧ r'.error = r.error ∧ r'.filename = r.filename := by
  unfold fullMainR at h
  by_cases h1 : ((q.method.bind methodOf).isSome && decide (q.targets = [])) = true
  · rw [if_pos h1] at h; cases h
  rw [if_neg h1] at h
  by_cases h2 : ((decide (q.method = none) || decide (q.method = some "")) && !q.sensitivity) = true
  · rw [if_pos h2] at h; cases h
  rw [if_neg h2] at h
  have h1' : ¬ (((renMainArgs σ fi fp ff q).method.bind methodOf).isSome &&
      decide ((renMainArgs σ fi fp ff q).targets = [])) = true := by
    show ¬ ((q.method.bind methodOf).isSome && decide (q.targets.map σ = [])) = true
    simpa using h1
  have h2' : ¬ ((decide ((renMainArgs σ fi fp ff q).method = none) || decide ((renMainArgs σ fi fp ff q).method = some "")) &&
      !(renMainArgs σ fi fp ff q).sensitivity) = true := h2
  have hq : (renMainArgs σ fi fp ff q).method = q.method := rfl
  unfold fullMainR
  simp only [if_neg h1', if_neg h2']
  rw [hq]
  generalize hm : q.method.bind methodOf = om at h ⊢
  cases om with
  | none =>
    dsimp only at h ⊢
    simp only [Prod.mk.injEq] at h
    obtain ⟨h, rfl⟩ := h
    obtain ⟨N, hN⟩ := runMain_ren (σ := σ) (T _ _ _ _ _ _).1 (T _ _ _ _ _ _).2 h
    refine ⟨N, fun k hk => ?_⟩
    obtain ⟨r', w'', g, g'⟩ := hN _ (mainInR_ren R rndE rnd rndThr q d [] [] dfuel fuel saFuel k) hk
    exact ⟨r', w'', by rw [g], g'⟩
  | some m =>
    dsimp only at h ⊢
    rw [show (renMainArgs σ fi fp ff q).modelFile = q.modelFile from rfl, loadModel_ren]
    generalize hL : loadModel w q.modelFile = L at h ⊢
    cases L with
    | error e => cases h
    | ok sol =>
      dsimp only [Except.map] at h ⊢
      rw [show (renMainArgs σ fi fp ff q).conds = renConds fi fp ff q.conds from rfl,
        show (renMainArgs σ fi fp ff q).par = q.par from rfl, sample_ren R (Named.ren sol)]
      generalize hS : (sample (K.sims rnd) sol q.conds q.par d) = S at h ⊢
      generalize hA : S.result = A at h ⊢
      cases A with
      | error e => cases h
      | ok x =>
        obtain ⟨base, rows⟩ := x
        dsimp only at h ⊢
        simp only [Prod.mk.injEq] at h
        obtain ⟨h, rfl⟩ := h
        obtain ⟨N, hN⟩ := runMain_ren (σ := σ) (T _ _ _ _ _ _).1 (T _ _ _ _ _ _).2 h
        refine ⟨N, fun k hk => ?_⟩
        have hM : (rows.map (fun r => matrixOf m rnd (K'.chem (renMech σ sol) r))) =
            rows.map (fun r => matrixOf m rnd (K.chem sol r)) := by
          apply List.map_congr_left
          intro r _
          exact matrix_ren R (Named.ren sol) m rnd r
        obtain ⟨r', w'', g, g'⟩ := hN _ (mainInR_ren R rndE rnd rndThr q _ _ base dfuel fuel saFuel k) hk
        exact ⟨r', w'', by rw [hM, g], g'⟩

/-- the run of `Props/FullMain.lean` in binary64 meets the hypotheses and returns a model -/
example : ∃ r w' evs, fullMainR rndInf e2eK rnd64 rnd64 (e2eMain "DRG") (fun _ => none) 50 20 20 e2eWorld =
    ((some (.ok r), w'), evs) ∧ ∀ d' Ms base x y z,
      TmpDirs (mainInR rndInf e2eK rnd64 rnd64 (e2eMain "DRG") d' Ms base x y z) ∧
      TmpOk ((mainInR rndInf e2eK rnd64 rnd64 (e2eMain "DRG") d' Ms base x y z).saCtx (e2eMain "DRG").modelFile (.fin 0)) := by
  have h : runView (fullMainR rndInf e2eK rnd64 rnd64 (e2eMain "DRG") (fun _ => none) 50 20 20 e2eWorld).1 =
      some (.ok (["A", "B"], .fin 1)) := by decide +kernel
  obtain ⟨r, w', hr, -⟩ := runView_ok h
  refine ⟨r, w', _, Prod.ext hr rfl, fun d' Ms base x y z => ?_⟩
  obtain ⟨t1, t2⟩ := exNames_tmp "DRG" rnd64 d' Ms base x y z
  exact ⟨fun n e => ⟨(t1 n e).tmp_ne, (t1 n e).tmp_last, (t1 n e).eval_ne, (t1 n e).eval_last, (t1 n e).model_tmp,
    (t1 n e).model_eval, (t1 n e).apart⟩, ⟨t2.tmp_ne, t2.tmp_last, t2.eval_ne, t2.eval_last, t2.model_tmp, t2.model_eval, t2.apart⟩⟩

example : runView (fullMainR rndInf (backK exNames e2eK) rnd64 rnd64 (renMainArgs exNames id id id (e2eMain "DRG"))
    (fun _ => none) 50 20 20 (renWorld exNames e2eWorld)).1 = some (.ok (["X", "B"], .fin 1)) := by
  decide +kernel

end Verif
