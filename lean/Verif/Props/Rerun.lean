import Verif.Lemmas.Rerun
/-!
# Whole runs: number of processes (C90), repeated runs (C91), protected species and files (C92)
-/
namespace Verif
open Spec

variable {ι π φ : Type} {K : Cantera ι π φ} {sol : Mech} {q : ReduceArgs ι π φ} {d : Disk}
  {meth : Method}

/-- two numbers of processes and completion orders: the same run, or both raise -/
theorem fullRun_par {p' : Par} (hp : ParOk q.par) (hp' : ParOk p') (rnd rndThr : ℚ → ℚ)
    (dfuel fuel : Nat) (w : World) :
    BothRun (fullRun K meth rnd rndThr q d dfuel fuel w).1
      (fullRun K meth rnd rndThr { q with par := p' } d dfuel fuel w).1 ∧
    (fullRun K meth rnd rndThr q d dfuel fuel w).2 =
      (fullRun K meth rnd rndThr { q with par := p' } d dfuel fuel w).2 := by
  unfold fullRun
  dsimp only
  rcases loadModel w q.modelFile with e | sol
  · exact ⟨.inl rfl, rfl⟩
  dsimp only
  by_cases ht : q.targets = []
  · rw [if_pos ht, if_pos ht]; exact ⟨.inl rfl, rfl⟩
  rw [if_neg ht, if_neg ht]
  obtain ⟨s1, s2, -⟩ := sample_same (S := K.sims rnd) (m := sol) (c := q.conds)
    ⟨rfl, rfl, rfl⟩ hp hp' d
  rw [← s2]
  rcases s1.cases with ⟨⟨base, rows⟩, h1, h2⟩ | ⟨e, e', h1, h2⟩ <;> rw [h1, h2]
  · dsimp only
    rw [← fullCtx_par hp hp']
    exact ⟨runMethodS_same (fun m => evalSim_par hp hp' _ base m) _ _ _ _ _ _ _, rfl⟩
  · exact ⟨.inr ⟨e, e', w, rfl, rfl⟩, rfl⟩

/-- **C90**: a run that returns with some number of processes and some completion order does
exactly the same with every other: same model, same error, same files, same saved samples. -/
theorem C90_processes {p' : Par} (hp : ParOk q.par) (hp' : ParOk p') (rnd rndThr : ℚ → ℚ)
    {dfuel fuel : Nat} {w w' : World} {r : RModel} {evs : List Ev}
    (h : fullRun K meth rnd rndThr q d dfuel fuel w = ((some (.ok r), w'), evs)) :
    fullRun K meth rnd rndThr { q with par := p' } d dfuel fuel w = ((some (.ok r), w'), evs) := by
  obtain ⟨h1, h2⟩ := fullRun_par (K := K) (meth := meth) (d := d) hp hp' rnd rndThr dfuel fuel w
  rw [h] at h1 h2
  rcases h1 with h1 | ⟨e, e', w1, h1, -⟩
  · exact Prod.ext h1.symm h2.symm
  · cases h1

/-- **C90**: whether a run raises does not depend on them either, and the files it leaves then are
the same. -/
theorem C90_raises {p' : Par} (hp : ParOk q.par) (hp' : ParOk p') (rnd rndThr : ℚ → ℚ)
    {dfuel fuel : Nat} {w w' : World} {e : Err} {evs : List Ev}
    (h : fullRun K meth rnd rndThr q d dfuel fuel w = ((some (.error e), w'), evs)) :
    ∃ e', fullRun K meth rnd rndThr { q with par := p' } d dfuel fuel w =
      ((some (.error e'), w'), evs) := by
  obtain ⟨h1, h2⟩ := fullRun_par (K := K) (meth := meth) (d := d) hp hp' rnd rndThr dfuel fuel w
  rw [h] at h1 h2
  rcases h1 with h1 | ⟨e1, e2, w1, h1, h3⟩
  · exact ⟨e, Prod.ext h1.symm h2.symm⟩
  · cases h1
    exact ⟨e2, Prod.ext h3 h2.symm⟩

/-- reversed completion order on seven processes -/
example : ParOk ⟨7, 1, fun _ n => (List.range n).reverse⟩ :=
  ⟨by decide, fun _ n => List.reverse_perm _⟩

theorem limitOk_full (P : Physical K sol) (Q : Request q sol d) (b : Arith)
    (hlim : (PyF.fin 0).le q.limit = true)
    (hsame : SameBehaviour K sol (trim sol [] ("reduced_".toList ++ q.modelFile) q.phase))
    {base : List PyF} {rows : List Row} (hsim : Simulated (K.sims b.rnd) sol q.conds base rows)
    (d' : Disk) : LimitOk (fullCtx K meth b.rnd q d' sol base rows) sol q.limit := by
  refine ⟨hlim, ?_⟩
  show (evalError (K.sims b.rnd) q _ base
    (trim sol [] ("reduced_".toList ++ q.modelFile) q.phase)).le q.limit = true
  rw [evalError_same P b Q hsim hsame]
  exact hlim

/-- the simulation of a returned model gave the error reported -/
theorem fullRun_simulated {rnd rndThr : ℚ → ℚ} {dfuel fuel : Nat} {w w' : World} {r : RModel}
    {evs : List Ev} {base : List PyF} {rows : List Row} (hw : w.fs q.modelFile = some sol)
    (h : fullRun K meth rnd rndThr q d dfuel fuel w = ((some (.ok r), w'), evs))
    (hs : (sample (K.sims rnd) sol q.conds q.par d).result = .ok (base, rows)) :
    evalSim (K.sims rnd) q (applyEvs d (sample (K.sims rnd) sol q.conds q.par d).evs) base r.model =
      .ok r.error := by
  have hload : loadModel w q.modelFile = .ok sol := by unfold loadModel; rw [hw]
  unfold fullRun at h
  rw [hload] at h
  dsimp only at h
  by_cases ht : q.targets = []
  · rw [if_pos ht] at h; cases h
  rw [if_neg ht, hs] at h
  simp only [Prod.mk.injEq] at h
  exact runMethodS_simulated h.1

/-- **C91**: repeating a run that returned, in the directory it left behind (saved samples and
files), with any number of processes, returns the same model with the same error, under the same
file name, and writes no samples. -/
theorem C91_repeat (P : Physical K sol) (Q : Request q sol d) (b a : Arith)
    (hlim : (PyF.fin 0).le q.limit = true)
    (hsame : SameBehaviour K sol (trim sol [] ("reduced_".toList ++ q.modelFile) q.phase)) :
    ∃ N, ∀ dfuel ≥ N, ∀ fuel w w' r evs, w.fs q.modelFile = some sol →
      fullRun K meth b.rnd a.rnd q d dfuel fuel w = ((some (.ok r), w'), evs) →
      ∀ p', ParOk p' → ∃ M, ∀ fuel' ≥ M, ∃ r' w'',
        fullRun K meth b.rnd a.rnd { q with par := p' } (applyEvs d evs) dfuel fuel' w' =
          ((some (.ok r'), w''), []) ∧
        r'.model = r.model ∧ r'.error = r.error ∧ r'.filename = r.filename := by
  rcases hs : (sample (K.sims b.rnd) sol q.conds q.par d).result with er | ⟨base, rows⟩
  · refine ⟨0, fun dfuel _ fuel w w' r evs hw h => ?_⟩
    obtain ⟨base, rows, h1, -⟩ := fullRun_ok hw h
    rw [hs] at h1; cases h1
  obtain ⟨hsim, hrows, U⟩ := fullCtx_usable (meth := meth) P b Q hs
    (applyEvs d (sample (K.sims b.rnd) sol q.conds q.par d).evs)
  have hl := limitOk_full (meth := meth) P Q b hlim hsame hsim
    (applyEvs d (sample (K.sims b.rnd) sol q.conds q.par d).evs)
  obtain ⟨N1, hN1⟩ := C19_returned U hl a
  obtain ⟨N2, hN2⟩ := method_isRun U
  refine ⟨max N1 N2, fun dfuel hd fuel w w' r evs hw h p' hp' => ?_⟩
  obtain ⟨base', rows', h1, h2, h3⟩ := fullRun_ok hw h
  rw [hs] at h1
  cases h1
  rw [h2] at h3
  obtain ⟨j, k, hj, g1, g2, g3, g4, g5⟩ := hN1 dfuel (le_trans (le_max_left _ _) hd) fuel w r w' hw h3
  have hw' : w'.fs q.modelFile = some sol := by
    have := C21_other_files_untouched meth (fullCtx K meth b.rnd q
      (applyEvs d (sample (K.sims b.rnd) sol q.conds q.par d).evs) sol base rows) a.rnd q.limit
      dfuel fuel w q.modelFile (fun n hn => Q.noclash n hn.symm)
    rw [h3] at this
    rw [← hw]; exact this
  have hS := simsOk (b := b) P
  obtain ⟨c1, c2, -⟩ := C35_reuse hS Q.par hs p'
  have hload : loadModel w' q.modelFile = .ok sol := by unfold loadModel; rw [hw']
  obtain ⟨reduce, finish, short, limbo, R⟩ := hN2 dfuel (le_trans (le_max_right _ _) hd)
  refine ⟨j + k + 3, fun fuel' hf => ?_⟩
  have h0 := Spec.Meets.not_exceeds (g2 0 (by omega))
  have h5 := fun hm => Spec.Meets.not_exceeds hm g3
  have hrun := (run_stops (ex := exitThr meth a.rnd) R.behaves hl a.ok (R.finishOk a.rnd q.limit) hw' g1
    (fun i hi => (exit_facts meth a).1 i (by omega)) h0 (fun i hi => g2 i (by omega)) h5).2.2 k rfl g3
    fuel' (by omega)
  rw [← R.eq a.rnd q.limit fuel' w' hw'] at hrun
  obtain ⟨r', hr', hm'⟩ : ∃ r', (runMethod meth (fullCtx K meth b.rnd q
      (applyEvs d (sample (K.sims b.rnd) sol q.conds q.par d).evs) sol base rows) a.rnd q.limit
      dfuel fuel' w').1 = some (.ok r') ∧ r'.model = r.model := ⟨_, hrun, g4.symm⟩
  obtain ⟨w'', hrun'⟩ : ∃ w'', runMethod meth (fullCtx K meth b.rnd q
      (applyEvs d (sample (K.sims b.rnd) sol q.conds q.par d).evs) sol base rows) a.rnd q.limit
      dfuel fuel' w' = (some (.ok r'), w'') := ⟨_, by rw [← hr']⟩
  obtain ⟨-, -, -, -, -, -, -, e5⟩ := hN1 dfuel (le_trans (le_max_left _ _) hd) fuel' w' _ _ hw' hrun'
  have f1 := (C22_file_holds_model h3).2
  have f2 := (C22_file_holds_model hrun').2
  refine ⟨r', w'', ?_, hm', by rw [e5, g5, hm'], by rw [f1, f2, hm']⟩
  have hS1 : runMethodS meth (fullCtx K meth b.rnd q
      (applyEvs d (sample (K.sims b.rnd) sol q.conds q.par d).evs) sol base rows)
      (evalSim (K.sims b.rnd) q (applyEvs d (sample (K.sims b.rnd) sol q.conds q.par d).evs) base)
      a.rnd q.limit dfuel fuel' w' = (some (.ok r'), w'') := by
    rcases runMethod_rel meth (fullCtx K meth b.rnd q
      (applyEvs d (sample (K.sims b.rnd) sol q.conds q.par d).evs) sol base rows)
      (evalSim (K.sims b.rnd) q (applyEvs d (sample (K.sims b.rnd) sol q.conds q.par d).evs) base)
      a.rnd q.limit dfuel fuel' w' with h6 | ⟨e, -, -, -, -, -, h6⟩
    · rw [h6]; exact hrun'
    · exfalso
      have h7 : runMethod meth ((fullCtx K meth b.rnd q
        (applyEvs d (sample (K.sims b.rnd) sol q.conds q.par d).evs) sol base rows).total
        (evalSim (K.sims b.rnd) q (applyEvs d (sample (K.sims b.rnd) sol q.conds q.par d).evs) base))
        a.rnd q.limit dfuel fuel' w' = (some (.ok r'), w'') := hrun'
      rw [h7] at h6
      rcases h6 with h6 | ⟨_, h6⟩ | ⟨r2, h6, -, h8⟩
      · cases h6
      · cases h6
      · cases h6
        rw [hm', fullRun_simulated hw h hs] at h8
        cases h8
  have hS3 := runMethodS_same (fun m => evalSim_par (S := K.sims b.rnd) Q.par hp'
    (applyEvs d (sample (K.sims b.rnd) sol q.conds q.par d).evs) base m) meth (fullCtx K meth b.rnd q
      (applyEvs d (sample (K.sims b.rnd) sol q.conds q.par d).evs) sol base rows) a.rnd q.limit
      dfuel fuel' w'
  rw [hS1] at hS3
  rcases hS3 with hS3 | ⟨_, _, _, hS3, -⟩
  swap
  · cases hS3
  unfold fullRun
  dsimp only
  rw [hload]
  dsimp only
  rw [if_neg Q.target, h2, c1, c2]
  dsimp only
  rw [← fullCtx_par Q.par hp']
  rw [hS3]
  rfl

/-- **C92**: a returned model contains every target and every retained species of the starting
model, it is stored under the returned name, and every file other than the numbered
`reduced_*.yaml` is as before. -/
theorem C92_protected (P : Physical K sol) (Q : Request q sol d) (b a : Arith) :
    ∃ N, ∀ dfuel ≥ N, ∀ fuel w w' r evs, w.fs q.modelFile = some sol →
      fullRun K meth b.rnd a.rnd q d dfuel fuel w = ((some (.ok r), w'), evs) →
      (∀ s ∈ sol.names, s ∈ q.targets ∨ s ∈ q.safe → s ∈ r.model.names) ∧
      w'.fs r.filename = some r.model ∧
      ∀ f, (∀ n, f ≠ joinPath q.path (reducedName n)) → w'.fs f = w.fs f := by
  rcases hs : (sample (K.sims b.rnd) sol q.conds q.par d).result with er | ⟨base, rows⟩
  · refine ⟨0, fun dfuel _ fuel w w' r evs hw h => ?_⟩
    obtain ⟨base, rows, h1, -⟩ := fullRun_ok hw h
    rw [hs] at h1; cases h1
  obtain ⟨hsim, hrows, U⟩ := fullCtx_usable (meth := meth) P b Q hs
    (applyEvs d (sample (K.sims b.rnd) sol q.conds q.par d).evs)
  have hM : (fullCtx K meth b.rnd q (applyEvs d (sample (K.sims b.rnd) sol q.conds q.par d).evs)
      sol base rows).matrices ≠ [] := by simpa [fullCtx] using hrows
  obtain ⟨N, hN⟩ : ∃ N, ∀ dfuel ≥ N, ∀ fuel w r w', w.fs q.modelFile = some sol →
      runMethod meth (fullCtx K meth b.rnd q (applyEvs d (sample (K.sims b.rnd) sol q.conds q.par d).evs)
        sol base rows) a.rnd q.limit dfuel fuel w = (some (.ok r), w') →
      ∀ s ∈ sol.names, s ∈ q.targets ∨ s ∈ q.safe → s ∈ r.model.names := by
    by_cases hm : meth = .drgep
    · subst hm
      obtain ⟨N, hN⟩ := C20_drgep_targets U hM a q.limit
      refine ⟨N, fun dfuel hd fuel w r w' hw h s hs hp => ?_⟩
      rcases hp with hp | hp
      · exact hN dfuel hd fuel w r w' hw h s hp
      · exact C20_drgep_safe U.toSetting hw h s hs hp
    · exact ⟨0, fun dfuel _ fuel w r w' hw h => C20_drg_pfa hm U hM hw h⟩
  refine ⟨N, fun dfuel hd fuel w w' r evs hw h => ?_⟩
  obtain ⟨base', rows', h1, h2, h3⟩ := fullRun_ok hw h
  rw [hs] at h1
  cases h1
  rw [h2] at h3
  refine ⟨hN dfuel hd fuel w r w' hw h3, (C22_file_holds_model h3).1, fun f hf => ?_⟩
  have := C21_other_files_untouched meth (fullCtx K meth b.rnd q
    (applyEvs d (sample (K.sims b.rnd) sol q.conds q.par d).evs) sol base rows) a.rnd q.limit
    dfuel fuel w f hf
  rw [h3] at this
  exact this

/-- the concrete run of `Props/EndToEnd.lean` meets all hypotheses (`e2e_physical`,
`e2e_request`); on three processes finishing in reverse, and repeated in the directory it left,
it gives the same again -/
example :
    let first := fullRun e2eK .drg id id { e2eArgs with par := ⟨3, 1, fun _ n => (List.range n).reverse⟩ }
      (fun _ => none) 50 20 e2eWorld
    let again := fullRun e2eK .drg id id e2eArgs (applyEvs (fun _ => none) first.2) 50 20 first.1.2
    runView first.1 = some (.ok (["A", "B", "D"], .fin 1)) ∧ first.2 ≠ [] ∧
    runView again.1 = some (.ok (["A", "B", "D"], .fin 1)) ∧ again.2.length = 0 := by
  decide +kernel

end Verif
