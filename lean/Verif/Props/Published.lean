import Verif.Props.Accuracy
import Verif.Props.EndToEnd
/-!
# C108: whole runs keep the species that the published coefficients of the sampled states select
-/
namespace Verif
open Spec

variable {ι π φ : Type} {K : Cantera ι π φ} {sol : Mech} {q : ReduceArgs ι π φ} {d : Disk}
  {meth : Method}

/-- without rounding, the matrices are the published coefficients -/
theorem matrixOf_id {n m : Nat} (meth : Method) (c : Chem n m) :
    matrixOf meth id c = (published meth c).toN := by
  obtain ⟨h1, h2, h3⟩ := matrices_id c
  have e1 : drgMatrix c = published .drg c := by funext a b; rw [drgMatrix_eq]; rfl
  have e2 : drgepMatrix c = published .drgep c := by funext a b; rw [drgepMatrix_eq]; rfl
  have e3 : pfaMatrix c = published .pfa c := by funext a b; rw [pfaMatrix_eq]; rfl
  cases meth
  · show (drgMatrixR id c).toN = _; rw [h1, e1]
  · show (drgepMatrixR id c).toN = _; rw [h2, e2]
  · show (pfaMatrixR id c).toN = _; rw [h3, e3]

/-- what is kept without rounding -/
theorem kept_exact {m : Nat} {c : Ctx} {states : List (Chem sol.names.length m)} {t : ℚ} {s : String}
    (hM : c.matrices = states.map (matrixOf meth id)) (hr : c.rndMul = id) :
    Kept meth c sol t s ↔ KeptPublished meth sol.names c.targets c.safe states t s := by
  have hf : matrixOf (n := sol.names.length) (m := m) meth id = fun x => (published meth x).toN :=
    funext (matrixOf_id meth)
  rw [hf] at hM
  cases meth
  · show KeptDrg c sol t s ↔ _
    unfold KeptDrg KeptPublished
    rw [hM]
    simp
  · show KeptPath c sol t s ↔ _
    unfold KeptPath KeptPublished
    rw [hM, hr]
  · show KeptDrg c sol t s ↔ _
    unfold KeptDrg KeptPublished
    rw [hM]
    simp

/-- what is kept in binary64 -/
theorem kept_binary64 {m : Nat} {c : Ctx} {states : List (Chem sol.names.length m)} {t : ℚ} {s : String}
    (hm : 4 * m + sol.names.length + 14 ≤ 2 ^ 51)
    (hM : c.matrices = states.map (matrixOf meth rnd64)) (hr : c.rndMul = rnd64) :
    (KeptPublished meth sol.names c.targets c.safe states (above meth sol.names.length m t) s →
      Kept meth c sol t s) ∧
    (Kept meth c sol t s →
      KeptPublished meth sol.names c.targets c.safe states (below meth sol.names.length m t) s) := by
  cases meth
  · exact C107_kept (by decide) hm hM
  · exact C107_kept_drgep (by omega) hM hr
  · exact C107_kept (by decide) hm hM

/-- a returned model and the threshold it belongs to -/
theorem fullRun_candidate (P : Physical K sol) (Q : Request q sol d) (b a : Arith)
    (hlim : (PyF.fin 0).le q.limit = true)
    (hsame : SameBehaviour K sol (trim sol [] ("reduced_".toList ++ q.modelFile) q.phase)) :
    ∃ N, ∀ dfuel ≥ N, ∀ fuel w w' r evs, w.fs q.modelFile = some sol →
      fullRun K meth b.rnd a.rnd q d dfuel fuel w = ((some (.ok r), w'), evs) →
      ∃ base rows j k, Simulated (K.sims b.rnd) sol q.conds base rows ∧ j ≤ lastStart meth a ∧
        ∀ s, s ∈ r.model.names ↔ s ∈ sol.names ∧
          Kept meth (fullCtx K meth b.rnd q (applyEvs d evs) sol base rows) sol (finalThr a.rnd j k) s := by
  rcases hs : (sample (K.sims b.rnd) sol q.conds q.par d).result with er | ⟨base, rows⟩
  · refine ⟨0, fun dfuel _ fuel w w' r evs hw h => ?_⟩
    obtain ⟨base, rows, h1, -⟩ := fullRun_ok hw h
    rw [hs] at h1; cases h1
  · obtain ⟨hsim, -, U⟩ := fullCtx_usable (meth := meth) P b Q hs
      (applyEvs d (sample (K.sims b.rnd) sol q.conds q.par d).evs)
    have hl : LimitOk (fullCtx K meth b.rnd q
        (applyEvs d (sample (K.sims b.rnd) sol q.conds q.par d).evs) sol base rows) sol q.limit := by
      refine ⟨hlim, ?_⟩
      show (evalError (K.sims b.rnd) q _ base
        (trim sol [] ("reduced_".toList ++ q.modelFile) q.phase)).le q.limit = true
      rw [evalError_same P b Q hsim hsame]
      exact hlim
    obtain ⟨N, hN⟩ := C19_returned U hl a
    refine ⟨N, fun dfuel hd fuel w w' r evs hw h => ?_⟩
    obtain ⟨base', rows', h1, h2, h3⟩ := fullRun_ok hw h
    rw [hs] at h1
    cases h1
    rw [h2] at h3
    obtain ⟨j, k, hj, -, -, -, h4, -⟩ := hN dfuel hd fuel w r w' hw h3
    refine ⟨base, rows, j, k, hsim, hj, fun s => ?_⟩
    rw [h4, mem_candidate_names, h2]

/-- **C108**: in exact arithmetic, a whole run that returns keeps exactly the species that the
published coefficients at the sampled states select at some threshold of the search. -/
theorem C108_exact (P : Physical K sol) (Q : Request q sol d) (a : Arith)
    (hlim : (PyF.fin 0).le q.limit = true)
    (hsame : SameBehaviour K sol (trim sol [] ("reduced_".toList ++ q.modelFile) q.phase)) :
    ∃ N, ∀ dfuel ≥ N, ∀ fuel w w' r evs, w.fs q.modelFile = some sol →
      fullRun K meth id a.rnd q d dfuel fuel w = ((some (.ok r), w'), evs) →
      ∃ base rows j k, Simulated (K.sims id) sol q.conds base rows ∧ j ≤ lastStart meth a ∧
        ∀ s, s ∈ r.model.names ↔ s ∈ sol.names ∧
          KeptPublished meth sol.names q.targets q.safe (rows.map (K.chem sol)) (finalThr a.rnd j k) s := by
  obtain ⟨N, hN⟩ := fullRun_candidate (meth := meth) P Q .exact a hlim hsame
  refine ⟨N, fun dfuel hd fuel w w' r evs hw h => ?_⟩
  obtain ⟨base, rows, j, k, h1, h2, h3⟩ := hN dfuel hd fuel w w' r evs hw h
  refine ⟨base, rows, j, k, h1, h2, fun s => (h3 s).trans (and_congr_right fun _ => ?_)⟩
  exact kept_exact (states := rows.map (K.chem sol)) (by
    show rows.map _ = _; rw [List.map_map]; rfl) rfl

/-- **C108**: in binary64, species that the published coefficients select at a threshold a shade
above the one of the returned model are in it, and the species in it are selected by the published
coefficients at a threshold a shade below. -/
theorem C108_binary64 (P : Physical K sol) (Q : Request q sol d)
    (hsize : 4 * sol.reactions.length + sol.names.length + 14 ≤ 2 ^ 51)
    (hlim : (PyF.fin 0).le q.limit = true)
    (hsame : SameBehaviour K sol (trim sol [] ("reduced_".toList ++ q.modelFile) q.phase)) :
    ∃ N, ∀ dfuel ≥ N, ∀ fuel w w' r evs, w.fs q.modelFile = some sol →
      fullRun K meth rnd64 rnd64 q d dfuel fuel w = ((some (.ok r), w'), evs) →
      ∃ base rows j k, Simulated (K.sims rnd64) sol q.conds base rows ∧ j ≤ lastStart meth .binary64 ∧
        (∀ s ∈ sol.names, KeptPublished meth sol.names q.targets q.safe (rows.map (K.chem sol))
          (above meth sol.names.length sol.reactions.length (finalThr rnd64 j k)) s → s ∈ r.model.names) ∧
        ∀ s ∈ r.model.names, s ∈ sol.names ∧
          KeptPublished meth sol.names q.targets q.safe (rows.map (K.chem sol))
            (below meth sol.names.length sol.reactions.length (finalThr rnd64 j k)) s := by
  obtain ⟨N, hN⟩ := fullRun_candidate (meth := meth) P Q .binary64 .binary64 hlim hsame
  refine ⟨N, fun dfuel hd fuel w w' r evs hw h => ?_⟩
  obtain ⟨base, rows, j, k, h1, h2, h3⟩ := hN dfuel hd fuel w w' r evs hw h
  have key := fun s => kept_binary64 (meth := meth) (c := fullCtx K meth rnd64 q (applyEvs d evs) sol base rows)
    (states := rows.map (K.chem sol)) (t := finalThr rnd64 j k) (s := s) hsize (by
      show rows.map _ = _; rw [List.map_map]; rfl) rfl
  refine ⟨base, rows, j, k, h1, h2, fun s hs hk => (h3 s).2 ⟨hs, (key s).1 hk⟩, fun s hs => ?_⟩
  obtain ⟨g1, g2⟩ := (h3 s).1 hs
  exact ⟨g1, (key s).2 g2⟩

theorem e2e_same : SameBehaviour e2eK e2eSol
    (trim e2eSol [] ("reduced_".toList ++ e2eArgs.modelFile) e2eArgs.phase) :=
  have h : (trim e2eSol [] ("reduced_".toList ++ e2eArgs.modelFile) e2eArgs.phase).names = e2eSol.names := by
    decide +kernel
  ⟨fun _ => by simp only [e2eK, h], fun _ => by simp only [e2eK, h], fun _ => by simp only [e2eK, h]⟩

/-- the runs of C89 remove a species and return -/
example : ∃ N, ∀ dfuel ≥ N, ∀ fuel w w' r evs, w.fs e2eArgs.modelFile = some e2eSol →
    fullRun e2eK .drgep rnd64 rnd64 e2eArgs (fun _ => none) dfuel fuel w = ((some (.ok r), w'), evs) →
    ∃ base rows j k, Simulated (e2eK.sims rnd64) e2eSol e2eArgs.conds base rows ∧
      j ≤ lastStart .drgep .binary64 ∧
      (∀ s ∈ e2eSol.names, KeptPublished .drgep e2eSol.names e2eArgs.targets e2eArgs.safe
        (rows.map (e2eK.chem e2eSol)) (above .drgep e2eSol.names.length e2eSol.reactions.length
          (finalThr rnd64 j k)) s → s ∈ r.model.names) ∧
      ∀ s ∈ r.model.names, s ∈ e2eSol.names ∧ KeptPublished .drgep e2eSol.names e2eArgs.targets
        e2eArgs.safe (rows.map (e2eK.chem e2eSol)) (below .drgep e2eSol.names.length
          e2eSol.reactions.length (finalThr rnd64 j k)) s :=
  C108_binary64 e2e_physical e2e_request (by decide) (by decide +kernel) e2e_same

end Verif
