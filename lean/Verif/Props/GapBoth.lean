import Verif.Props.Gap
import Verif.Props.TwoThresholds
/-!
# C110 with sensitivity analysis
-/
namespace Verif
open Spec

variable {ι π φ : Type} {K : Cantera ι π φ} {sol : Mech} {q : MainArgs ι π φ} {d : Disk} {meth : Method}

/-- **C110** with sensitivity analysis: when both stages returned and no published coefficient comes within rounding error of a
threshold of the search, the binary64 run has the species that the published coefficients select at the exact threshold where the
search with exact numbers stops, without some of the candidates that the method hands over (C51: none of them protected, except
as stated there); and it reproduces the starting model within the
limit, unless the reported error is NaN. -/
theorem C110_both (P : Physical K sol) (Q : Request q.toReduceArgs sol d)
    (hm : q.method.bind methodOf = some meth) (hs : q.sensitivity = true)
    {L : ℚ} (hL : q.limit = .fin L) (hL0 : 0 ≤ L) (hL1 : L < 100)
    (T : ∀ d' Ms base x y z, TmpDirs (mainIn K rnd64 q d' Ms base x y z))
    (hsame : SameBehaviour K sol (trim sol [] ("reduced_".toList ++ q.modelFile) q.phase)) :
    ∃ N, ∀ dfuel ≥ N, ∀ fuel saFuel w w' rm evs, w.fs q.modelFile = some sol →
      fullMain K rnd64 q d dfuel fuel saFuel w = ((some (.ok rm), w'), evs) →
      ∃ base rows j k r w1, ∃ acc : List String, Simulated (K.sims rnd64) sol q.conds base rows ∧ j ≤ lastStart meth .binary64 ∧
        runMethod meth (stageCtx K meth rnd64 q d sol base rows) rnd64 q.limit dfuel fuel w = (some (.ok r), w1) ∧
        (∀ x ∈ acc, x ∈ saLimbo (q.targets ++ q.safe) r.model (r.limboList w1)) ∧
        (ClearSearch meth sol.names q.targets (rows.map (K.chem sol)) j k →
          PublishedSearch meth (stageCtx K meth rnd64 q d sol base rows) sol (rows.map (K.chem sol)) q.limit j k ∧
          (∀ s, s ∈ rm.model.names ↔ s ∈ sol.names ∧
            KeptPublished meth sol.names q.targets q.safe (rows.map (K.chem sol)) (idealThr j k) s ∧ s ∉ acc) ∧
          (rm.error = .nan ∨ Reproduces K q.conds sol rm.model L)) := by
  have hlim : (PyF.fin 0).le q.limit = true := by rw [hL]; simpa [PyF.le] using hL0
  rcases hsm : (sample (K.sims rnd64) sol q.conds q.par d).result with er | ⟨base, rows⟩
  · refine ⟨0, fun dfuel _ fuel saFuel w w' r evs hw h => ?_⟩
    obtain ⟨base, rows, h1, -⟩ := fullMain_ok hm hw h
    rw [hsm] at h1; cases h1
  have Q' := stage_request (meth := meth) Q
  have hsm' : (sample (K.sims Arith.binary64.rnd) sol (stageArgs meth q).conds (stageArgs meth q).par d).result
    = .ok (base, rows) := hsm
  obtain ⟨hsim, -, U⟩ := fullCtx_usable (meth := meth) P .binary64 Q' hsm'
    (applyEvs d (sample (K.sims rnd64) sol q.conds q.par d).evs)
  have hl := limitOk_full (meth := meth) P Q' .binary64 hlim hsame hsim
    (applyEvs d (sample (K.sims rnd64) sol q.conds q.par d).evs)
  obtain ⟨N', hN'⟩ := C19_returned U hl .binary64
  have hc := mainIn_ctx (K := K) (q := q) (sol := sol) (meth := meth) rnd64
    (applyEvs d (sample (K.sims rnd64) sol q.conds q.par d).evs) base rows 0 0 0
  have U' : Usable meth ((mainIn K rnd64 q (applyEvs d (sample (K.sims rnd64) sol q.conds q.par d).evs)
    (rows.map (fun r => matrixOf meth rnd64 (K.chem sol r))) base 0 0 0).ctx meth) sol := by rw [hc]; exact U
  have hl' : LimitOk ((mainIn K rnd64 q (applyEvs d (sample (K.sims rnd64) sol q.conds q.par d).evs)
    (rows.map (fun r => matrixOf meth rnd64 (K.chem sol r))) base 0 0 0).ctx meth) sol q.limit := by rw [hc]; exact hl
  obtain ⟨N, hN⟩ := C88_two_stages (p := mainIn K rnd64 q
    (applyEvs d (sample (K.sims rnd64) sol q.conds q.par d).evs)
    (rows.map (fun r => matrixOf meth rnd64 (K.chem sol r))) base 0 0 0) hm hs .binary64 rfl U' hl' (T _ _ _ _ _ _)
  refine ⟨max N N', fun dfuel hd fuel saFuel w w' rm evs hw h => ?_⟩
  obtain ⟨base', rows', h1, h2, h3⟩ := fullMain_ok hm hw h
  rw [hsm] at h1
  cases h1
  rw [h2] at h3
  obtain ⟨-, r, w1, t, acc, g1, -, g3, g4, g5, H⟩ := hN dfuel (le_trans (le_max_left _ _) hd) fuel saFuel w w' rm hw h3
  have g1' := runMethodS_ok g1
  rw [hc] at g1'
  obtain ⟨j, k, hj, a1, a2, a3, a4, -⟩ := hN' dfuel (le_trans (le_max_right _ _) hd) fuel w r w1 hw g1'
  refine ⟨base, rows, j, k, r, w1, acc, hsim, hj, g1', g4, fun hclear => ?_⟩
  · obtain ⟨s1, s2, s3⟩ := clearSearch_same (c := stageCtx K meth rnd64 q d sol base rows) (states := rows.map (K.chem sol)) U (by
      show rows.map _ = _; rw [List.map_map]; rfl) rfl hj hclear
    have hp : PublishedSearch meth (stageCtx K meth rnd64 q d sol base rows) sol (rows.map (K.chem sol)) q.limit j k := {
      starts := fun i hi => by
        have := a1 i hi
        unfold Exceeds at this ⊢
        rw [← s1 i hi]; exact this
      accepted := fun i hi => by
        have := a2 i hi
        unfold Meets at this ⊢
        rw [← s2 i (by omega)]; exact this
      rejected := by
        unfold Exceeds at a3 ⊢
        rw [← s2 (k + 1) le_rfl]; exact a3 }
    have hmod := a4.trans s3
    refine ⟨hp, fun s => ?_, ?_⟩
    · rw [g5, List.mem_filter, hmod, mem_candidate_names]
      simp only [and_assoc, List.contains_eq_mem, Bool.not_eq_true, decide_eq_false_iff_not, Bool.not_eq_eq_eq_not, Bool.not_true]
      exact Iff.rfl
    · rcases H with ⟨-, h7, -⟩ | ⟨-, h7, initial, metrics, h8, h9, h10⟩
      · right
        rw [h7]
        refine reproduces_of_le P Q' (b := .binary64)
          (d' := applyEvs d (sample (K.sims rnd64) sol q.conds q.par d).evs) hL0 hL1 hsim ?_
        have := hp.accepted k le_rfl
        unfold Meets at this
        rw [← hmod, hL] at this
        exact this
      · have hbase : initial = base := by
          have := (C69_metrics_after_sample (simsOk (b := .binary64) P) Q.par hsm).2 r.model q.par
          have h8' : sampleMetrics (K.sims Arith.binary64.rnd) r.model q.conds q.par true
            (applyEvs d (sample (K.sims rnd64) sol q.conds q.par d).evs) = .ok initial := h8
          rw [show applyEvs d (sample (K.sims rnd64) sol q.conds q.par d).evs =
            applyEvs d (sample (K.sims Arith.binary64.rnd) sol q.conds q.par d).evs from rfl, this] at h8'
          exact (Except.ok.inj h8').symm
        rw [hbase] at h10
        have herr := evalError_of_sa (q := q.toReduceArgs) h9 h10
        rcases hr : rm.error with e | _ | _ | _
        all_goals try exact .inl rfl
        all_goals
          right
          refine reproduces_of_le P Q (b := .binary64) hL0 hL1 hsim (red := rm.model)
            (d' := applyEvs d (sample (K.sims rnd64) sol q.conds q.par d).evs) ?_
          rw [show evalError (K.sims Arith.binary64.rnd) q.toReduceArgs _ base rm.model = rm.error from herr, hr]
          rw [show (mainIn K rnd64 q _ _ base 0 0 0).limit = q.limit from rfl, hL, hr] at h7
          simp [PyF.lt, PyF.le] at h7 ⊢
          try exact h7

/-- Both stages return, and the search of `gapK` is clear (`gap_clear`). -/
example (meth : Method) : runView (fullMain gapK rnd64 (e2eMain "DRG") (fun _ => none) 50 20 20 e2eWorld).1 =
      some (.ok (["A", "B"], .fin 1)) ∧
    Physical gapK e2eSol ∧ Request (e2eMain "DRG").toReduceArgs e2eSol (fun _ => none) ∧
    (e2eMain "DRG").limit = .fin 5 ∧
    SameBehaviour gapK e2eSol (trim e2eSol [] ("reduced_".toList ++ (e2eMain "DRG").modelFile) (e2eMain "DRG").phase) ∧
    (∀ d' Ms base x y z, TmpDirs (mainIn gapK rnd64 (e2eMain "DRG") d' Ms base x y z)) ∧
    ClearSearch meth e2eSol.names (e2eMain "DRG").targets (gapOut.2.map (gapK.chem e2eSol)) 0 4 := by
  refine ⟨by decide +kernel, gap_physical, e2e_request, rfl, gap_same, fun d' Ms base x y z n e => ?_, gap_clear meth⟩
  have h := e2eMain_tmp "DRG" rnd64 d' Ms base x y z n e
  exact ⟨h.tmp_ne, h.tmp_last, h.eval_ne, h.eval_last, h.model_tmp, h.model_eval, h.apart⟩

end Verif
