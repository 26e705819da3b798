import Verif.Lemmas.Program
/-!
# C97: the command as a whole
-/
namespace Verif
open Spec

variable {K : Cantera IgnInput Cond FlameInput} {sh : Shell} {args : List String} {i path : String}
  {threads : Int} {d : Disk} {w : World} {dct : InputDict} {sol : Mech} {ts ss : List String}

/-- the run behind a command with a method alone -/
theorem program_method {rnd : ℚ → ℚ} {dfuel fuel saFuel : Nat} {w' : World} {evs : List Ev}
    {inp : ReductionInputs} {dct' : InputDict} {meth : Method}
    (I : Asks args i path threads) (hy : sh.yaml i = .ok dct)
    (S : Situation sh dct path threads w d sol) (hts : dct.targets = .list ts)
    (hm : dct.method ≠ "") (hsa : dct.sensitivity = false)
    (hp : parseInputs (fileNames w) dct = .ok (inp, dct'))
    (hmeth : (mainArgs sh inp path threads).method.bind methodOf = some meth)
    (h : program K rnd sh args d dfuel fuel saFuel w = .reduced (some (.ok ())) w' evs) :
    ∃ r, fullRun (K.inputs dct.minFlameSpeed) meth rnd rnd
      (stageArgs meth (mainArgs sh inp path threads)) d dfuel fuel w = ((some (.ok r), w'), evs) := by
  obtain ⟨inp1, dct1, o, hp1, hf, ho⟩ := program_reduced I hy h
  rw [hp] at hp1
  cases hp1
  obtain ⟨Q, -, -⟩ := program_request S hts hm hp
  obtain ⟨f1, f2, f3, f4, f5⟩ := parseInputs_fields hp
  obtain ⟨-, -, -, -, -, hs⟩ := parseInputs_ok hp
  rw [fullMain_method hmeth (by show inp.sensitivity = false; rw [hs, hsa]) Q.target
    (by show w.fs inp.model.toList = _; rw [f1]; exact S.file), f3] at hf
  rcases o with _ | _ | r
  · cases ho
  · cases ho
  · exact ⟨r, hf⟩

/-- **C97**: whatever way the options are written, when the command with a graph-based method ends
normally, the output directory holds a model `reduced_<n>.yaml` with `n` species that contains every
target, every retained species and every species of the initial mixtures of the input file, and
every file not called `reduced_<n>.yaml` there is as before; in exact and in binary64 arithmetic. -/
theorem C97_files (I : Asks args i path threads) (hy : sh.yaml i = .ok dct)
    (S : Situation sh dct path threads w d sol) (hts : dct.targets = .list ts)
    (hss : dct.retained.getD (.list []) = .list ss) (hm : dct.method ≠ "")
    (hsa : dct.sensitivity = false) (P : Physical (K.inputs dct.minFlameSpeed) sol) (a : Arith) :
    ∃ N, ∀ dfuel ≥ N, ∀ fuel saFuel w' evs,
      program K a.rnd sh args d dfuel fuel saFuel w = .reduced (some (.ok ())) w' evs →
      ∃ red, w'.fs (joinPath path.toList (reducedName red.nSpecies)) = some red ∧
        (∀ s, s ∈ ts ∨ s ∈ ss ∨ Needs dct s → s ∈ red.names) ∧
        ∀ f, (∀ n, f ≠ joinPath path.toList (reducedName n)) → w'.fs f = w.fs f := by
  rcases hp : parseInputs (fileNames w) dct with e | ⟨inp, dct'⟩
  · refine ⟨0, fun dfuel _ fuel saFuel w' evs h => ?_⟩
    obtain ⟨inp, dct', r, hp', -⟩ := program_reduced I hy h
    rw [hp] at hp'; cases hp'
  obtain ⟨Q, -, meth, hmeth⟩ := program_request S hts hm hp
  obtain ⟨f1, f2, f3, f4, f5⟩ := parseInputs_fields hp
  obtain ⟨names, added, hn, g1, g2, -, -, g3, g4⟩ := C49_protected _ _ _ _ ts ss hp hts hss
  rw [fileNames_eq S.file] at hn
  cases hn
  have hw : w.fs (stageArgs meth (mainArgs sh inp path threads)).modelFile = some sol := by
    show w.fs inp.model.toList = _; rw [f1]; exact S.file
  obtain ⟨N, hN⟩ := C92_protected (meth := meth) P (stage_request (meth := meth) Q) a a
  refine ⟨N, fun dfuel hd fuel saFuel w' evs h => ?_⟩
  obtain ⟨r, hr⟩ := program_method I hy S hts hm hsa hp hmeth h
  obtain ⟨h1, -, h3⟩ := hN dfuel hd fuel w w' r evs hw hr
  obtain ⟨base, rows, -, -, h4⟩ := fullRun_ok hw hr
  obtain ⟨k1, k2⟩ := C22_file_holds_model h4
  refine ⟨r.model, by rw [k2] at k1; exact k1, fun s hs => ?_, h3⟩
  have hin : s ∈ ts ++ ss ++ added := by
    rcases hs with hs | hs | hs
    · simp [hs]
    · simp [hs]
    · exact g3 s hs
  refine h1 s (g4 s hin) ?_
  show s ∈ inp.targets.iter ∨ s ∈ inp.safe.iter
  rw [g1, g2]
  simpa [Names.iter, or_assoc] using hin

/-- **C97**: with exact arithmetic, and a limit of less than 100 percent in the input file, that
model reproduces the one in the model file within the limit, under every condition of the input
file. -/
theorem C97_within_limit (I : Asks args i path threads) (hy : sh.yaml i = .ok dct)
    (S : Situation sh dct path threads w d sol) (hts : dct.targets = .list ts) (hm : dct.method ≠ "")
    (hsa : dct.sensitivity = false) (P : Physical (K.inputs dct.minFlameSpeed) sol) {L : ℚ}
    (hL : dct.error = .fin L) (hL0 : 0 ≤ L) (hL1 : L < 100)
    (hsame : SameBehaviour (K.inputs dct.minFlameSpeed) sol
      (trim sol [] ("reduced_".toList ++ dct.model.toList) dct.phase.toList)) :
    ∃ N, ∀ dfuel ≥ N, ∀ fuel saFuel w' evs,
      program K id sh args d dfuel fuel saFuel w = .reduced (some (.ok ())) w' evs →
      ∃ red c, w'.fs (joinPath path.toList (reducedName red.nSpecies)) = some red ∧
        ReadFrom sol.names dct c ∧ Reproduces (K.inputs dct.minFlameSpeed) c sol red L := by
  rcases hp : parseInputs (fileNames w) dct with e | ⟨inp, dct'⟩
  · refine ⟨0, fun dfuel _ fuel saFuel w' evs h => ?_⟩
    obtain ⟨inp, dct', r, hp', -⟩ := program_reduced I hy h
    rw [hp] at hp'; cases hp'
  obtain ⟨Q, R, meth, hmeth⟩ := program_request S hts hm hp
  obtain ⟨f1, f2, f3, f4, f5⟩ := parseInputs_fields hp
  have hw : w.fs (stageArgs meth (mainArgs sh inp path threads)).modelFile = some sol := by
    show w.fs inp.model.toList = _; rw [f1]; exact S.file
  obtain ⟨N, hN⟩ := C89_within_limit (meth := meth) P (stage_request (meth := meth) Q) .exact (L := L)
    (by show inp.error = _; rw [f2]; exact hL) hL0 hL1 (by
      show SameBehaviour _ sol (trim sol [] ("reduced_".toList ++ inp.model.toList) inp.phase.toList)
      rw [f1, f4]; exact hsame)
  refine ⟨N, fun dfuel hd fuel saFuel w' evs h => ?_⟩
  obtain ⟨r, hr⟩ := program_method I hy S hts hm hsa hp hmeth h
  obtain ⟨base, rows, -, -, h4⟩ := fullRun_ok hw hr
  obtain ⟨k1, k2⟩ := C22_file_holds_model h4
  exact ⟨r.model, _, by rw [k2] at k1; exact k1, R, hN dfuel hd fuel w w' r evs hw hr⟩

/-- the run behind a command with both stages -/
theorem program_both {rnd : ℚ → ℚ} {dfuel fuel saFuel : Nat} {w' : World} {evs : List Ev}
    {inp : ReductionInputs} {dct' : InputDict}
    (I : Asks args i path threads) (hy : sh.yaml i = .ok dct)
    (hp : parseInputs (fileNames w) dct = .ok (inp, dct'))
    (h : program K rnd sh args d dfuel fuel saFuel w = .reduced (some (.ok ())) w' evs) :
    ∃ rm, fullMain (K.inputs dct.minFlameSpeed) rnd (mainArgs sh inp path threads) d dfuel fuel saFuel w =
      ((some (.ok rm), w'), evs) := by
  obtain ⟨inp1, dct1, o, hp1, hf, ho⟩ := program_reduced I hy h
  rw [hp] at hp1
  cases hp1
  rw [(parseInputs_fields hp).2.2.1] at hf
  rcases o with _ | _ | r
  · cases ho
  · cases ho
  · exact ⟨r, hf⟩

theorem tmpDirs_of {inp : ReductionInputs} {K' : Cantera IgnInput Cond FlameInput}
    {rnd : ℚ → ℚ} (T : TempDirs sh path) (d' : Disk) (Ms : List NMat) (base : List PyF) (x y z : Nat) :
    TmpDirs (mainIn K' rnd (mainArgs sh inp path threads) d' Ms base x y z) := by
  intro n e
  exact ⟨T.tmp_ne, T.tmp_last, T.eval_ne, T.eval_last, T.model_tmp n, fun k => T.model_eval k n, T.apart⟩

/-- what both stages leave in the directory -/
theorem both_files {rnd : ℚ → ℚ} {dfuel fuel saFuel : Nat} {w' : World} {evs : List Ev}
    {K' : Cantera IgnInput Cond FlameInput} {inp : ReductionInputs} {rm : RModel} {meth : Method}
    (T : TempDirs sh path) (hs : inp.sensitivity = true) (hw : w.fs inp.model.toList = some sol)
    (hmeth : (mainArgs sh inp path threads).method.bind methodOf = some meth)
    (h : fullMain K' rnd (mainArgs sh inp path threads) d dfuel fuel saFuel w = ((some (.ok rm), w'), evs)) :
    w'.fs (joinPath path.toList (reducedName rm.model.nSpecies)) = some rm.model ∧
    ∀ f, (∀ n, f ≠ joinPath path.toList (reducedName n)) → ¬ Under sh.tmpDir f →
      (∀ n, ¬ Under (sh.evalDir n) f) → w'.fs f = w.fs f := by
  obtain ⟨base, rows, h1, h2, h3⟩ := fullMain_ok hmeth hw h
  have T' := tmpDirs_of (sh := sh) (path := path) (threads := threads) (inp := inp) (K' := K') (rnd := rnd) T
    (applyEvs d evs) (rows.map (fun r => matrixOf meth rnd (K'.chem sol r))) base dfuel fuel saFuel
  rcases C50_stages h3 with ⟨g1, -⟩ | ⟨-, file, err, limbo, w1, sr, hF, g2, g3, g4⟩
  · rw [show inp.sensitivity = false from g1] at hs; cases hs
  · cases hF with
    | none h5 => rw [show (mainArgs sh inp path threads).method.bind methodOf = none from h5] at hmeth; cases hmeth
    | @method m' r _ h5 ht h6 =>
      have hmm : m' = meth := by
        rw [show (mainArgs sh inp path threads).method.bind methodOf = some m' from h5] at hmeth
        exact Option.some.inj hmeth
      subst hmm
      obtain ⟨f1, f2⟩ := C22_file_holds_model (runMethodS_ok h6)
      have T2 := by
        have := T' r.model.nSpecies r.error
        rw [show joinPath (mainIn K' rnd (mainArgs sh inp path threads) (applyEvs d evs)
          (rows.map (fun r => matrixOf m' rnd (K'.chem sol r))) base dfuel fuel saFuel).path
          (reducedName r.model.nSpecies) = r.filename from f2.symm] at this
        exact this
      obtain ⟨initial, acc, i1, q, q1, -, q2⟩ := runSA_course T2 f1 g2 g3
      refine ⟨by rw [g4, ← q1]; exact q2, fun f hf hu1 hu2 => ?_⟩
      obtain ⟨-, k⟩ := runSA_files T2 f1 g2
      rw [g4]
      rcases k f (fun rm' hrm' => by
        rw [g3] at hrm'
        cases hrm'
        rw [q1]
        exact hf _) with k1 | ⟨-, k1 | ⟨n, k1⟩⟩
      · rw [k1]
        have k2 := runMethodS_ok h6
        have k3 := C21_other_files_untouched m' ((mainIn K' rnd (mainArgs sh inp path threads) (applyEvs d evs)
          (rows.map (fun r => matrixOf m' rnd (K'.chem sol r))) base dfuel fuel saFuel).ctx m') rnd inp.error
          dfuel fuel w f hf
        rw [show (mainIn K' rnd (mainArgs sh inp path threads) (applyEvs d evs) _ base dfuel fuel saFuel).limit
          = inp.error from rfl] at k2
        exact (congrArg (fun x : RunResult => x.2.fs f) k2).symm.trans k3
      · exact absurd k1 hu1
      · exact absurd k1 (hu2 n)

/-- **C97**: a method followed by sensitivity analysis: when the command ends normally, the output
directory holds a model `reduced_<n>.yaml` with `n` species, and every file that has no such name
there and is in none of the temporary directories is as before. -/
theorem C97_both_files {rnd : ℚ → ℚ} {dfuel fuel saFuel : Nat} {w' : World} {evs : List Ev}
    (I : Asks args i path threads) (hy : sh.yaml i = .ok dct)
    (S : Situation sh dct path threads w d sol) (hts : dct.targets = .list ts) (hm : dct.method ≠ "")
    (hsa : dct.sensitivity = true) (T : TempDirs sh path)
    (h : program K rnd sh args d dfuel fuel saFuel w = .reduced (some (.ok ())) w' evs) :
    (∃ red, w'.fs (joinPath path.toList (reducedName red.nSpecies)) = some red) ∧
    ∀ f, (∀ n, f ≠ joinPath path.toList (reducedName n)) → ¬ Under sh.tmpDir f →
      (∀ n, ¬ Under (sh.evalDir n) f) → w'.fs f = w.fs f := by
  rcases hp : parseInputs (fileNames w) dct with e | ⟨inp, dct'⟩
  · obtain ⟨inp, dct', r, hp', -⟩ := program_reduced I hy h
    rw [hp] at hp'; cases hp'
  obtain ⟨rm, hrm⟩ := program_both I hy hp h
  obtain ⟨-, -, meth, hmeth⟩ := program_request S hts hm hp
  obtain ⟨-, -, -, -, -, hs⟩ := parseInputs_ok hp
  obtain ⟨h1, h2⟩ := both_files T (by rw [hs, hsa])
    (by rw [(parseInputs_fields hp).1]; exact S.file) hmeth hrm
  exact ⟨⟨_, h1⟩, h2⟩

/-- **C97**: the same command in exact arithmetic, with a limit of less than 100 percent and
simulations that give numbers: the model reproduces the one in the model file within the limit,
under every condition of the input file. -/
theorem C97_both_within_limit (I : Asks args i path threads) (hy : sh.yaml i = .ok dct)
    (S : Situation sh dct path threads w d sol) (hts : dct.targets = .list ts) (hm : dct.method ≠ "")
    (hsa : dct.sensitivity = true) (P : Physical (K.inputs dct.minFlameSpeed) sol)
    (D : Numerical K) {L : ℚ} (hL : dct.error = .fin L) (hL0 : 0 ≤ L) (hL1 : L < 100)
    (T : TempDirs sh path)
    (hsame : SameBehaviour (K.inputs dct.minFlameSpeed) sol
      (trim sol [] ("reduced_".toList ++ dct.model.toList) dct.phase.toList)) :
    ∃ N, ∀ dfuel ≥ N, ∀ fuel saFuel w' evs,
      program K id sh args d dfuel fuel saFuel w = .reduced (some (.ok ())) w' evs →
      ∃ red c, w'.fs (joinPath path.toList (reducedName red.nSpecies)) = some red ∧
        ReadFrom sol.names dct c ∧ Reproduces (K.inputs dct.minFlameSpeed) c sol red L := by
  rcases hp : parseInputs (fileNames w) dct with e | ⟨inp, dct'⟩
  · refine ⟨0, fun dfuel _ fuel saFuel w' evs h => ?_⟩
    obtain ⟨inp, dct', r, hp', -⟩ := program_reduced I hy h
    rw [hp] at hp'; cases hp'
  obtain ⟨Q, R, meth, hmeth⟩ := program_request S hts hm hp
  obtain ⟨f1, f2, f3, f4, f5⟩ := parseInputs_fields hp
  obtain ⟨-, -, -, -, -, hs⟩ := parseInputs_ok hp
  have hs' : inp.sensitivity = true := by rw [hs, hsa]
  have hw : w.fs inp.model.toList = some sol := by rw [f1]; exact S.file
  obtain ⟨N, hN⟩ := C93_numeric P ⟨D.ign, D.psr, D.flame⟩ Q hmeth hs' (L := L)
    (by show inp.error = _; rw [f2]; exact hL) hL0 hL1
    (fun d' Ms base x y z => tmpDirs_of T d' Ms base x y z) (by
      show SameBehaviour _ sol (trim sol [] ("reduced_".toList ++ inp.model.toList) inp.phase.toList)
      rw [f1, f4]; exact hsame)
  refine ⟨N, fun dfuel hd fuel saFuel w' evs h => ?_⟩
  obtain ⟨rm, hrm⟩ := program_both I hy hp h
  exact ⟨rm.model, _, (both_files T hs' hw hmeth hrm).1, R, hN dfuel hd fuel saFuel w w' rm evs hw hrm⟩

/-- **C97** (partial): the same command with PFA, or with DRGEP and an upper threshold of at most one
(or none), keeps every target, every retained species and every species of the initial mixtures; in
exact and in binary64 arithmetic.  With DRG this is false (C51). -/
theorem C97_both_protected_partial (I : Asks args i path threads) (hy : sh.yaml i = .ok dct)
    (S : Situation sh dct path threads w d sol) (hts : dct.targets = .list ts)
    (hss : dct.retained.getD (.list []) = .list ss)
    (hm : dct.method = "PFA" ∨ dct.method = "DRGEP" ∧ w.limbo = [] ∧
      ∀ u, finiteUpper dct.upper = some u → u ≤ 1)
    (hsa : dct.sensitivity = true) (P : Physical (K.inputs dct.minFlameSpeed) sol) (a : Arith)
    (T : TempDirs sh path) :
    ∃ N, ∀ dfuel ≥ N, ∀ fuel saFuel w' evs,
      program K a.rnd sh args d dfuel fuel saFuel w = .reduced (some (.ok ())) w' evs →
      ∃ red, w'.fs (joinPath path.toList (reducedName red.nSpecies)) = some red ∧
        ∀ s, s ∈ ts ∨ s ∈ ss ∨ Needs dct s → s ∈ red.names := by
  have hm0 : dct.method ≠ "" := by
    rcases hm with h | ⟨h, -⟩ <;> rw [h] <;> decide
  rcases hp : parseInputs (fileNames w) dct with e | ⟨inp, dct'⟩
  · refine ⟨0, fun dfuel _ fuel saFuel w' evs h => ?_⟩
    obtain ⟨inp, dct', r, hp', -⟩ := program_reduced I hy h
    rw [hp] at hp'; cases hp'
  obtain ⟨Q, R, meth, hmeth⟩ := program_request S hts hm0 hp
  obtain ⟨f1, f2, f3, f4, f5⟩ := parseInputs_fields hp
  obtain ⟨f6, f7⟩ := parseInputs_method hp
  obtain ⟨-, -, -, -, -, hs⟩ := parseInputs_ok hp
  have hs' : inp.sensitivity = true := by rw [hs, hsa]
  have hw : w.fs inp.model.toList = some sol := by rw [f1]; exact S.file
  obtain ⟨names, added, hn, g1, g2, -, -, g3, g4⟩ := C49_protected _ _ _ _ ts ss hp hts hss
  rw [fileNames_eq S.file] at hn
  cases hn
  have hall : ∀ s, s ∈ ts ∨ s ∈ ss ∨ Needs dct s → s ∈ sol.names ∧
      (s ∈ (mainArgs sh inp path threads).targets ∨ s ∈ (mainArgs sh inp path threads).safe) := by
    intro s hs
    have hin : s ∈ ts ++ ss ++ added := by
      rcases hs with hs | hs | hs
      · simp [hs]
      · simp [hs]
      · exact g3 s hs
    refine ⟨g4 s hin, ?_⟩
    show s ∈ inp.targets.iter ∨ s ∈ inp.safe.iter
    rw [g1, g2]
    simpa [Names.iter, or_assoc] using hin
  rcases hsm : (sample ((K.inputs dct.minFlameSpeed).sims a.rnd) sol (mainArgs sh inp path threads).conds
      (mainArgs sh inp path threads).par d).result with er | ⟨base, rows⟩
  · refine ⟨0, fun dfuel _ fuel saFuel w' evs h => ?_⟩
    obtain ⟨rm, hrm⟩ := program_both I hy hp h
    obtain ⟨base, rows, h1, -⟩ := fullMain_ok hmeth hw hrm
    rw [hsm] at h1; cases h1
  obtain ⟨hsim, hrows, U⟩ := fullCtx_usable (meth := meth) P a (stage_request (meth := meth) Q) hsm
    (applyEvs d (sample ((K.inputs dct.minFlameSpeed).sims a.rnd) sol (mainArgs sh inp path threads).conds
      (mainArgs sh inp path threads).par d).evs)
  rw [← mainIn_ctx a.rnd _ base rows 0 0 0] at U
  have key : ∃ N, ∀ dfuel ≥ N, ∀ fuel saFuel w' rm, runMain (mainIn (K.inputs dct.minFlameSpeed) a.rnd
      (mainArgs sh inp path threads) (applyEvs d (sample ((K.inputs dct.minFlameSpeed).sims a.rnd) sol
        (mainArgs sh inp path threads).conds (mainArgs sh inp path threads).par d).evs)
      (rows.map (fun r => matrixOf meth a.rnd ((K.inputs dct.minFlameSpeed).chem sol r))) base dfuel fuel saFuel) w =
        (some (.ok rm), w') →
      ∀ s ∈ sol.names, s ∈ (mainArgs sh inp path threads).targets ∨ s ∈ (mainArgs sh inp path threads).safe →
        s ∈ rm.model.names := by
    have hM : rows.map (fun r => matrixOf meth a.rnd ((K.inputs dct.minFlameSpeed).chem sol r)) ≠ [] := by
      simpa using hrows
    have hmm : some inp.method = some dct.method := by rw [f6]
    have T' := fun x y z => tmpDirs_of (sh := sh) (path := path) (threads := threads) (inp := inp)
      (K' := K.inputs dct.minFlameSpeed) (rnd := a.rnd) T
      (applyEvs d (sample ((K.inputs dct.minFlameSpeed).sims a.rnd) sol
        (mainArgs sh inp path threads).conds (mainArgs sh inp path threads).par d).evs)
      (rows.map (fun r => matrixOf meth a.rnd ((K.inputs dct.minFlameSpeed).chem sol r))) base x y z
    rcases hm with hm | ⟨hm, hl, hu⟩
    · have hmp : (mainArgs sh inp path threads).method = some "PFA" := by
        show some inp.method = _; rw [hmm, hm]
      have : meth = .pfa := by
        rw [hmp] at hmeth; exact (Option.some.inj hmeth).symm
      subst this
      exact ⟨0, fun dfuel _ fuel saFuel w' rm h3 => 
        C51_pfa_sa_partial (p := mainIn (K.inputs dct.minFlameSpeed) a.rnd
          (mainArgs sh inp path threads) (applyEvs d (sample ((K.inputs dct.minFlameSpeed).sims a.rnd) sol
            (mainArgs sh inp path threads).conds (mainArgs sh inp path threads).par d).evs)
          (rows.map (fun r => matrixOf .pfa a.rnd ((K.inputs dct.minFlameSpeed).chem sol r))) base dfuel fuel saFuel)
          hmp hs' U hM (T' _ _ _) hw h3⟩
    · have hmp : (mainArgs sh inp path threads).method = some "DRGEP" := by
        show some inp.method = _; rw [hmm, hm]
      have : meth = .drgep := by
        rw [hmp] at hmeth; exact (Option.some.inj hmeth).symm
      subst this
      obtain ⟨N, hN⟩ := C51_drgep_sa_partial (p := mainIn (K.inputs dct.minFlameSpeed) a.rnd
        (mainArgs sh inp path threads) (applyEvs d (sample ((K.inputs dct.minFlameSpeed).sims a.rnd) sol
          (mainArgs sh inp path threads).conds (mainArgs sh inp path threads).par d).evs)
        (rows.map (fun r => matrixOf .drgep a.rnd ((K.inputs dct.minFlameSpeed).chem sol r))) base 0 0 0)
        hmp hs' (a := a) rfl U hM (T' _ _ _) (f7 hu)
      exact ⟨N, fun dfuel hd fuel saFuel w' rm h3 => hN dfuel hd fuel saFuel w w' rm hw hl h3⟩
  obtain ⟨N, hN⟩ := key
  refine ⟨N, fun dfuel hd fuel saFuel w' evs h => ?_⟩
  obtain ⟨rm, hrm⟩ := program_both I hy hp h
  obtain ⟨base', rows', h1, h2, h3⟩ := fullMain_ok hmeth hw hrm
  rw [hsm] at h1
  cases h1
  rw [h2] at h3
  exact ⟨rm.model, (both_files T hs' hw hmeth hrm).1, fun s hs =>
    hN dfuel hd fuel saFuel w' rm h3 s (hall s hs).1 (hall s hs).2⟩

theorem calcTimed_bare (R : Reactor) (hot tend : PyF) (fuel k : Nat) (p : Point) :
    calcTimed (bareReactor R) hot tend fuel k { p with Y := [] } = calcTimed R hot tend fuel k p := by
  induction fuel generalizing k p with
  | zero => rfl
  | succ fuel ih =>
    unfold calcTimed
    simp only [bareReactor]
    rcases R.step k with _ | q
    · rfl
    · simp only [Option.map_some]
      have := ih (k + 1) q
      simp only [bareReactor] at this
      rw [this]

theorem calcSteps_bare (R : Reactor) (hot : PyF) (left k : Nat) :
    calcSteps (bareReactor R) hot left k = calcSteps R hot left k := by
  induction left generalizing k with
  | zero => rfl
  | succ left ih =>
    unfold calcSteps
    simp only [bareReactor] at ih ⊢
    rcases R.step k with _ | q
    · rfl
    · simp only [Option.map_some, ih]

theorem ignWorker_bare (p : IgnProps) (R : Reactor) (fuel : Nat) :
    ignWorker p (bareReactor R) fuel = ignWorker p R fuel := by
  unfold ignWorker ignCalculate
  rw [show (bareReactor R).init = { R.init with Y := [] } from rfl, calcTimed_bare, calcSteps_bare]

theorem psrCalculate_bare (t : Except Err PsrPoints) : psrCalculate (t.map barePsr) = psrCalculate t := by
  rcases t with e | r
  · rfl
  · rfl

theorem flameCalculate_bare {g : Option PyF} {s s' : Option FlameSol} (h : s'.map (·.speed) = s.map (·.speed)) :
    flameCalculate g s' = flameCalculate g s := by
  rcases s with _ | s <;> rcases s' with _ | s'
  · rfl
  · cases h
  · cases h
  · have h : s'.speed = s.speed := by simpa using h
    simp only [flameCalculate, flameDetected, h]

/-- models alike in every simulation have the same metrics -/
theorem sampleMetrics_alike {ι π φ : Type} {K : Cantera ι π φ} {rnd : ℚ → ℚ} {m m' : Mech}
    (h : Alike K m m') {c : Conds ι π φ} {p : Par} {reuse : Bool} {d : Disk} :
    sampleMetrics (K.sims rnd) m' c p reuse d = sampleMetrics (K.sims rnd) m c p reuse d := by
  have h1 : (K.sims rnd).ign.metric m' = (K.sims rnd).ign.metric m := by
    funext x
    have := h.reactor x
    simp only [Cantera.sims, Cantera.ignSims]
    rcases hr : K.reactor m x with e | R <;> rcases hr' : K.reactor m' x with e' | R' <;>
      rw [hr, hr'] at this <;> simp only [Except.map] at this
    · cases this; rfl
    · cases this
    · cases this
    · have this := Except.ok.inj this
      dsimp only
      rw [← ignWorker_bare _ R, ← ignWorker_bare _ R', this]
  have h2 : (K.sims rnd).psr.metric m' = (K.sims rnd).psr.metric m := by
    funext x
    have := h.psr x
    simp only [Cantera.sims, Cantera.psrSims]
    rcases hr : K.psr m x with e | R <;> rcases hr' : K.psr m' x with e' | R' <;>
      rw [hr, hr'] at this <;> simp only [Except.map] at this
    · cases this; rfl
    · cases this
    · cases this
    · have this : R'.map barePsr = R.map barePsr := Except.ok.inj this
      dsimp only
      rw [← psrCalculate_bare R, ← psrCalculate_bare R', this]
  have h3 : (K.sims rnd).flame.metric m' = (K.sims rnd).flame.metric m := by
    funext x
    have := h.flame x
    simp only [Cantera.sims, Cantera.flameSims]
    rcases hr : K.flame m x with e | R <;> rcases hr' : K.flame m' x with e' | R' <;>
      rw [hr, hr'] at this <;> simp only [Except.map] at this
    · cases this; rfl
    · cases this
    · cases this
    · have this := Except.ok.inj this
      dsimp only
      rw [flameCalculate_bare this]
  unfold sampleMetrics metricsPart
  rw [h1, h2, h3]

/-- **C97** is false for DRG followed by sensitivity analysis (exact arithmetic, `initial` algorithm):
if the simulations depend only on species that are not strongly linked to the targets (by the upper
threshold of the input file, 0.1 if it has none), every command that ends normally leaves a model
without any of the targets. -/
theorem C97_drg_refuted (I : Asks args i path threads) (hy : sh.yaml i = .ok dct)
    (S : Situation sh dct path threads w d sol) (hts : dct.targets = .list ts)
    (hm : dct.method = "DRG") (hsa : dct.sensitivity = true)
    (hg : dct.sensitivityType ≠ "" ∧ dct.sensitivityType ≠ "greedy") {u : ℚ}
    (hu : dct.upper = some (.fin u) ∧ u ≠ 0 ∨ dct.upper = none ∧ u = float01)
    (P : Physical (K.inputs dct.minFlameSpeed) sol) (T : TempDirs sh path)
    (hL : (PyF.fin 0).le dct.error = true)
    (hsame : SameBehaviour (K.inputs dct.minFlameSpeed) sol
      (trim sol [] ("reduced_".toList ++ dct.model.toList) dct.phase.toList)) {V : String → Prop}
    (hdep : ∀ m m', (∀ s, V s → (s ∈ m.names ↔ s ∈ m'.names)) → Alike (K.inputs dct.minFlameSpeed) m m')
    (hV : ∀ row s, Linked (matrixOf .drg id (K.chem sol row)) sol.names ts u s → ¬ V s) :
    ∃ N, ∀ dfuel ≥ N, ∀ fuel saFuel w' evs, sol.nSpecies < saFuel →
      program K id sh args d dfuel fuel saFuel w = .reduced (some (.ok ())) w' evs →
      ∃ red, w'.fs (joinPath path.toList (reducedName red.nSpecies)) = some red ∧
        ∀ s ∈ ts, s ∉ red.names := by
  rcases hp : parseInputs (fileNames w) dct with e | ⟨inp, dct'⟩
  · refine ⟨0, fun dfuel _ fuel saFuel w' evs _ h => ?_⟩
    obtain ⟨inp, dct', r, hp', -⟩ := program_reduced I hy h
    rw [hp] at hp'; cases hp'
  obtain ⟨Q, R, meth, hmeth⟩ := program_request S hts (by rw [hm]; decide) hp
  obtain ⟨f1, f2, f3, f4, f5⟩ := parseInputs_fields hp
  obtain ⟨f6, -⟩ := parseInputs_method hp
  obtain ⟨f8, hu1, hu2⟩ := parseInputs_upper hp hsa hu
  obtain ⟨-, -, -, f10, -, hs⟩ := parseInputs_ok hp
  have hs' : inp.sensitivity = true := by rw [hs, hsa]
  have hw : w.fs inp.model.toList = some sol := by rw [f1]; exact S.file
  have hmp : (mainArgs sh inp path threads).method = some "DRG" := by
    show some inp.method = _; rw [f6, hm]
  have : meth = .drg := by
    rw [hmp] at hmeth; exact (Option.some.inj hmeth).symm
  subst this
  rcases hsm : (sample ((K.inputs dct.minFlameSpeed).sims id) sol (mainArgs sh inp path threads).conds
      (mainArgs sh inp path threads).par d).result with er | ⟨base, rows⟩
  · refine ⟨0, fun dfuel _ fuel saFuel w' evs _ h => ?_⟩
    obtain ⟨rm, hrm⟩ := program_both I hy hp h
    obtain ⟨base, rows, h1, -⟩ := fullMain_ok hmeth hw hrm
    rw [hsm] at h1; cases h1
  have Q' := stage_request (meth := .drg) Q
  generalize hd' : applyEvs d (sample ((K.inputs dct.minFlameSpeed).sims id) sol
    (mainArgs sh inp path threads).conds (mainArgs sh inp path threads).par d).evs = d1
  obtain ⟨hsim, hrows, U⟩ := fullCtx_usable (meth := .drg) P .exact Q' hsm d1
  have hl := limitOk_full (meth := .drg) P Q' .exact (by show (PyF.fin 0).le inp.error = true; rw [f2]; exact hL)
    (by
      show SameBehaviour _ sol (trim sol [] ("reduced_".toList ++ inp.model.toList) inp.phase.toList)
      rw [f1, f4]; exact hsame) hsim d1
  rw [← mainIn_ctx Arith.exact.rnd _ base rows 0 0 0] at U hl
  obtain ⟨N, hN⟩ := C19_within_limit_partial U hl
  refine ⟨N, fun dfuel hd fuel saFuel w' evs hfuel h => ?_⟩
  obtain ⟨rm, hrm⟩ := program_both I hy hp h
  obtain ⟨base', rows', hsm', h2, h3⟩ := fullMain_ok hmeth hw hrm
  rw [hsm] at hsm'
  cases hsm'
  rw [h2, hd'] at h3
  have hM : rows.map (fun r => matrixOf .drg id ((K.inputs dct.minFlameSpeed).chem sol r)) ≠ [] := by
    simpa using hrows
  generalize hpm : mainIn (K.inputs dct.minFlameSpeed) id (mainArgs sh inp path threads) d1
    (rows.map (fun r => matrixOf .drg id ((K.inputs dct.minFlameSpeed).chem sol r))) base dfuel fuel saFuel = p at h3
  have hpc : p.ctx .drg = (mainIn (K.inputs dct.minFlameSpeed) id (mainArgs sh inp path threads) d1
    (rows.map (fun r => matrixOf .drg id ((K.inputs dct.minFlameSpeed).chem sol r))) base 0 0 0).ctx .drg := by
    rw [← hpm]; rfl
  rw [show Arith.exact.rnd = id from rfl, ← hpc] at U hl
  have T' : TmpDirs p := by
    rw [← hpm]; exact tmpDirs_of T _ _ _ _ _ _
  have hmu : (p.ctx .drg).upper = some u := by rw [← hpm]; exact hu1
  have hmM : (p.ctx .drg).matrices = rows.map (fun r => matrixOf .drg id ((K.inputs dct.minFlameSpeed).chem sol r)) := by
    rw [← hpm]; rfl
  have hmt : (p.ctx .drg).targets = ts := by
    rw [← hpm]
    show inp.targets.iter = ts
    rw [f10, hts]; rfl
  have hpw : w.fs p.modelFile = some sol := by rw [← hpm]; exact hw
  rcases C50_stages h3 with ⟨g1, -⟩ | ⟨-, file, err, limbo, w1, sr, hF, g2, g3, g4⟩
  · rw [← hpm] at g1
    rw [show inp.sensitivity = false from g1] at hs'; cases hs'
  cases hF with
  | none h5 => rw [← hpm] at h5; rw [show (mainArgs sh inp path threads).method.bind methodOf = none from h5] at hmeth; cases hmeth
  | @method m' r _ h5 ht h6 =>
    have hmm : m' = .drg := by
      rw [← hpm] at h5
      rw [show (mainArgs sh inp path threads).method.bind methodOf = some m' from h5] at hmeth
      exact Option.some.inj hmeth
    subst hmm
    have h6' := runMethodS_ok h6
    obtain ⟨l, e1, e2, e3⟩ := retained_spec u U.toSetting.nodup U.toSetting.targets (p.ctx .drg).matrices
    have hlm : r.limboList w1 = l := by
      obtain ⟨t, v1, v2, k1, k2⟩ := runMethod_fresh U.toSetting hpw h6'
      have k2 : reduceDrg _ t none v1 = (.ok r, v2) := k2
      rw [reduceDrg_fresh U.toSetting t v1 k1 none (by simp)] at k2
      simp only [Prod.mk.injEq, Except.ok.injEq] at k2
      rw [← k2.1]
      simp only [freshResult, limboDrg, RModel.limboList]
      rw [show truthy (p.ctx .drg).upper = some u from by rw [hmu]; simp [truthy, hu2]]
      dsimp only
      rw [e1]
      rfl
    have hlen : l.length ≤ sol.nSpecies := by
      have hsub : l ⊆ sol.names := fun s hs => by
        obtain ⟨M, -, hr⟩ := (e3 s).1 hs
        exact hr.mem U.toSetting.targets
      have := (List.subperm_of_subset e2 hsub).length_le
      simpa [Mech.names, Mech.nSpecies] using this
    have hlV : ∀ s ∈ l, ¬ V s := by
      intro s hs
      obtain ⟨M, hMm, hr⟩ := (e3 s).1 hs
      rw [hmM] at hMm
      rw [hmt] at hr
      obtain ⟨row, -, rfl⟩ := List.mem_map.1 hMm
      exact hV row s hr
    have hini : p.initial r.model = .ok base := by
      rw [← hpm]
      show sampleMetrics ((K.inputs dct.minFlameSpeed).sims id) r.model
        (mainArgs sh inp path threads).conds (mainArgs sh inp path threads).par true d1 = .ok base
      rw [← hd']
      exact (C69_metrics_after_sample (simsOk (b := .exact) P) Q.par hsm).2 r.model _
    have hsr : p.sim r.model = .ok r.error := runMethodS_simulated h6
    have hlt : p.limit.lt r.error = false := by
      have h7 : runMethod .drg (p.ctx .drg) id p.limit dfuel fuel w = (some (.ok r), w1) := by
        rw [← hpm] at h6' ⊢; exact h6'
      have hpl : p.limit = (mainArgs sh inp path threads).limit := by rw [← hpm]; rfl
      rw [hpl] at h7 ⊢
      rw [hpc] at h7
      exact PyF.not_lt_of_le (hN dfuel hd fuel w r w1 hw h7).1
    have hmet : ∀ (m : Mech) (l' : List String), (∀ x ∈ l', x ∈ l) →
        m.names = r.model.names.filter (fun x => !(l'.contains x)) → ∃ t e, p.metrics m = .ok t ∧
        p.errFun base t = .ok e ∧ p.limit.lt e = false := by
      intro m l' hl' hmn
      have hb := hdep r.model m (fun s hs => by
        rw [hmn, List.mem_filter]
        simp only [Bool.not_eq_true', List.contains_eq_mem, decide_eq_false_iff_not]
        exact ⟨fun h1 => ⟨h1, fun h2 => hlV s (hl' s h2) hs⟩, fun h1 => h1.1⟩)
      have h8 : p.metrics m = p.metrics r.model := by
        rw [← hpm]
        exact sampleMetrics_alike hb
      rw [h8]
      rw [← hpm] at hsr
      have hsr : evalSim ((K.inputs dct.minFlameSpeed).sims id) (mainArgs sh inp path threads).toReduceArgs d1 base
        r.model = .ok r.error := hsr
      unfold evalSim at hsr
      split at hsr
      · cases hsr
      rename_i t ht
      refine ⟨t, r.error, ?_, ?_, hlt⟩ <;> rw [← hpm]
      · exact ht
      · exact hsr
    obtain ⟨rm', w2, i1, i2⟩ := C51_drg_sa_refuted (p := p) (by rw [← hpm]; exact hmp) (by rw [← hpm]; exact hs')
      (by rw [← f8] at hg; rw [← hpm]; exact hg) U.toSetting (by rw [← hpm]; exact hM)
      (by rw [← hpm]; exact Q.target) hmu hu2 hpw h6 T'
      ⟨⟨base, hini, by rw [hlm]; exact hmet⟩, by rw [hlm, ← hpm]; exact lt_of_le_of_lt hlen hfuel⟩
    rw [h3] at i1
    cases i1
    refine ⟨rm.model, (both_files T hs' hw hmeth hrm).1, fun s hs' => i2 s ?_⟩
    rw [← hmt] at hs'
    exact hs'

/-! ### a concrete command -/

/-- the simulations of `Props/EndToEnd.lean`, for conditions read from a file -/
def progK : Cantera IgnInput Cond FlameInput where
  ignProps := fun _ => ⟨.fin 1000, .fin 0, 0⟩
  reactor := fun m x => match x.temperature.toNum with
    | .fin T => .ok { e2eReactor m.names with init := ⟨.fin 0, .fin T, .fin 1, m.names.map (fun _ => .fin 0)⟩ }
    | _ => .error .typeError
  fuel := 10
  psr := fun m _ => .ok (.ok (e2ePsr m.names))
  psrPressure := fun _ => .fin 1
  flame := fun m _ => .ok (some (e2eFlame m.names))
  floor := none
  chem := e2eK.chem

def progCase : Case :=
  [("kind", .str "constant volume"), ("temperature", .num (.fin 1000)), ("pressure", .num (.fin 1)),
   ("reactants", .dict [("A", .num (.fin 1))])]

def progInput (method : String) (sa : Bool) : InputDict where
  model := "m.yaml"
  error := .fin 5
  method := method
  sensitivity := sa
  targets := .list ["A"]
  upper := none
  sensitivityType := "initial"
  retained := none
  phase := ""
  minFlameSpeed := none
  ignition := [progCase]
  psr := []
  flame := []

def progShell (method : String) (sa : Bool) : Shell where
  yaml := fun f => if f = "in.yaml" then .ok (progInput method sa) else .error .fileNotFound
  conv := fun _ => .ok ()
  cpus := 1
  order := fun _ n => List.range n
  tmpDir := "/tmp/a".toList
  evalDir := fun _ => "/tmp/b".toList

/-- the ending and the species of the model left under a name -/
def progView (f : String) : ProgEnd → Option (Bool × Option (List String))
  | .reduced (some (.ok ())) w _ => some (true, (w.fs f.toList).map Mech.names)
  | .reduced _ w _ => some (false, (w.fs f.toList).map Mech.names)
  | _ => none

/-- `pymars -i in.yaml`: DRG removes `C`, sensitivity analysis after PFA also `D` -/
example : progView "reduced_3.yaml" (program progK id (progShell "DRG" false) ["-i", "in.yaml"]
      (fun _ => none) 50 20 20 e2eWorld) = some (true, some ["A", "B", "D"]) ∧
    progView "reduced_2.yaml" (program progK rnd64 (progShell "PFA" true) ["-i", "in.yaml"]
      (fun _ => none) 50 20 20 e2eWorld) = some (true, some ["A", "B"]) := by
  decide +kernel

theorem prog_asks : Asks ["-i", "in.yaml"] "in.yaml" "" 1 :=
  ⟨[.input "in.yaml".toList], [["-i".toList, "in.yaml".toList]],
    .cons (.separate rfl (.inl (by decide)) (by decide)) .nil, by decide +kernel, by decide +kernel,
    by decide +kernel, by decide +kernel, by decide, by decide +kernel, by decide +kernel⟩

theorem prog_situation (method : String) (sa : Bool) :
    Situation (progShell method sa) (progInput method sa) "" 1 e2eWorld (fun _ => none) e2eSol where
  file := by show e2eWorld.fs "m.yaml".toList = _; rfl
  nodup := by decide
  noclash := by
    intro n h
    have := congrArg List.head? h
    rw [show ("".toList : Text) = [] from rfl, joinPath_nil, reducedName_head] at this
    have : some 'r' = "m.yaml".toList.head? := this
    exact absurd this (by decide)
  threads := by show 1 ≤ resolveThreads 1 1; decide
  order := fun _ n => List.Perm.refl _
  freshIgn := fun _ => .inl rfl
  freshPsr := fun _ => .inl rfl
  freshFlame := fun _ => .inl rfl

theorem prog_tmp (method : String) (sa : Bool) : TempDirs (progShell method sa) "" := by
  have hpre : ∀ (n : Nat) (d : Text), d.head? = some '/' →
      ¬ d ++ ['/'] <+: joinPath ("".toList) (reducedName n) := by
    rintro n d hd ⟨x, hx⟩
    have := congrArg List.head? hx
    rw [show ("".toList : Text) = [] from rfl, joinPath_nil, reducedName_head] at this
    cases d with
    | nil => simp at hd
    | cons c d => simp at hd this; rw [hd] at this; exact absurd this (by decide)
  exact
  { tmp_ne := by show "/tmp/a".toList ≠ []; decide
    tmp_last := by show "/tmp/a".toList.getLast? ≠ some '/'; decide
    eval_ne := fun _ => by show "/tmp/b".toList ≠ []; decide
    eval_last := fun _ => by show "/tmp/b".toList.getLast? ≠ some '/'; decide
    model_tmp := fun n => hpre n _ rfl
    model_eval := fun _ n => hpre n _ rfl
    apart := (exSA_tmp (.fin 0) false []).apart }

theorem prog_reactor {m : Mech} {x : IgnInput} {R : Reactor} (h : progK.reactor m x = .ok R) :
    ∃ T, x.temperature.toNum = .fin T ∧
      R = { e2eReactor m.names with init := ⟨.fin 0, .fin T, .fin 1, m.names.map (fun _ => .fin 0)⟩ } := by
  have h : (match x.temperature.toNum with
    | .fin T => .ok { e2eReactor m.names with init := ⟨.fin 0, .fin T, .fin 1, m.names.map (fun _ => .fin 0)⟩ }
    | _ => .error .typeError : Except Err Reactor) = .ok R := h
  rcases ht : x.temperature.toNum with T | _ | _ | _ <;> rw [ht] at h
  · exact ⟨T, rfl, (Except.ok.inj h).symm⟩
  all_goals cases h

theorem prog_physical : Physical (progK.inputs none) e2eSol where
  ignStart := by
    intro x R h
    obtain ⟨T, h1, rfl⟩ := prog_reactor h
    exact ⟨T, h1, rfl⟩
  ignTime := by
    intro x R k p h hp
    obtain ⟨T, h1, rfl⟩ := prog_reactor h
    cases hp
    refine ⟨100 + k, by positivity, ?_⟩
    show PyF.fin ((if e2eSol.names.contains "B" then (if e2eSol.names.contains "C" then 100 else 99)
      else 50) + (k : ℚ)) = _
    rw [if_pos (by decide), if_pos (by decide)]
  ignWidth := by
    intro x R h
    obtain ⟨T, h1, rfl⟩ := prog_reactor h
    refine ⟨rfl, ?_⟩
    intro k p hp
    cases hp
    rfl
  psr := by
    intro x r h
    cases h
    exact ⟨⟨1, by norm_num, rfl⟩, ⟨1000, by norm_num, rfl⟩, ⟨1600, by norm_num, rfl⟩, rfl, rfl, rfl⟩
  flame := by
    intro x f h
    cases h
    refine ⟨⟨1, by norm_num, rfl⟩, by simp [e2eFlame], ?_⟩
    intro p hp
    simp only [e2eFlame, List.mem_cons, List.not_mem_nil, or_false] at hp
    rcases hp with rfl | rfl <;> rfl

theorem prog_numerical : Numerical progK where
  ign := by
    intro m x R k p h hp
    obtain ⟨T, h1, rfl⟩ := prog_reactor h
    cases hp
    exact ⟨_, rfl⟩
  psr := by
    intro m x r h
    cases h
    exact ⟨⟨_, rfl⟩, ⟨_, rfl⟩, ⟨_, rfl⟩⟩
  flame := by
    intro m x f h
    cases h
    exact ⟨_, rfl⟩

theorem prog_same (method : String) (sa : Bool) : SameBehaviour (progK.inputs none) e2eSol
    (trim e2eSol [] ("reduced_".toList ++ (progInput method sa).model.toList) (progInput method sa).phase.toList) := by
  have h : (trim e2eSol [] ("reduced_".toList ++ "m.yaml".toList) "".toList).names = e2eSol.names := by
    decide +kernel
  have h' : (trim e2eSol [] ("reduced_".toList ++ (progInput method sa).model.toList)
    (progInput method sa).phase.toList).names = e2eSol.names := h
  exact ⟨fun _ => by simp only [progK, Cantera.inputs, h'], fun _ => by simp only [progK, Cantera.inputs, h'],
    fun _ => by simp only [progK, Cantera.inputs, h']⟩

/-- so the theorems apply to that command -/
example : ∃ N, ∀ dfuel ≥ N, ∀ fuel saFuel w' evs,
    program progK id (progShell "DRG" false) ["-i", "in.yaml"] (fun _ => none) dfuel fuel saFuel e2eWorld =
      .reduced (some (.ok ())) w' evs →
    ∃ red c, w'.fs (joinPath [] (reducedName red.nSpecies)) = some red ∧
      ReadFrom e2eSol.names (progInput "DRG" false) c ∧ Reproduces (progK.inputs none) c e2eSol red 5 :=
  C97_within_limit prog_asks rfl (prog_situation _ _) rfl (by decide) rfl prog_physical rfl (by norm_num)
    (by norm_num) (prog_same _ _)

example : ∃ N, ∀ dfuel ≥ N, ∀ fuel saFuel w' evs,
    program progK id (progShell "DRG" true) ["-i", "in.yaml"] (fun _ => none) dfuel fuel saFuel e2eWorld =
      .reduced (some (.ok ())) w' evs →
    ∃ red c, w'.fs (joinPath [] (reducedName red.nSpecies)) = some red ∧
      ReadFrom e2eSol.names (progInput "DRG" true) c ∧ Reproduces (progK.inputs none) c e2eSol red 5 :=
  C97_both_within_limit prog_asks rfl (prog_situation _ _) rfl (by decide) rfl prog_physical prog_numerical rfl
    (by norm_num) (by norm_num) (prog_tmp _ _) (prog_same _ _)

/-- DRG and sensitivity analysis: the target `A`, which is all the mixture consists of, is gone -/
example : progView "reduced_1.yaml" (program progK id (progShell "DRG" true) ["-i", "in.yaml"]
      (fun _ => none) 50 20 20 e2eWorld) = some (true, some ["B"]) := by
  decide +kernel

/-- the simulations depend on `B` and `C` only -/
theorem prog_depends (m m' : Mech) (h : ∀ s, (s = "B" ∨ s = "C") → (s ∈ m.names ↔ s ∈ m'.names)) :
    Alike (progK.inputs none) m m' := by
  have hB : m'.names.contains "B" = m.names.contains "B" := by
    rw [Bool.eq_iff_iff]; simpa using (h "B" (.inl rfl)).symm
  have hC : m'.names.contains "C" = m.names.contains "C" := by
    rw [Bool.eq_iff_iff]; simpa using (h "C" (.inr rfl)).symm
  refine ⟨fun x => ?_, fun x => ?_, fun x => ?_⟩
  · simp only [progK, Cantera.inputs]
    rcases x.temperature.toNum with T | _ | _ | _
    · simp only [Except.map, bareReactor, e2eReactor, hB, hC, Option.map_some]
    all_goals rfl
  · simp only [progK, Cantera.inputs, Except.map, barePsr, e2ePsr, hC]
  · simp only [progK, Cantera.inputs, Except.map, e2eFlame, Option.map_some]

/-- neither is strongly linked to `A` -/
theorem prog_linked (row : Row) (s : String)
    (h : Linked (matrixOf .drg id (progK.chem e2eSol row)) e2eSol.names ["A"] float01 s) :
    ¬ (s = "B" ∨ s = "C") := by
  obtain ⟨t, ht, h⟩ := h
  rw [List.mem_singleton] at ht
  subst ht
  have hM : matrixOf .drg id (progK.chem e2eSol row) = matrixOf .drg id (progK.chem e2eSol []) := rfl
  rw [hM] at h
  have key : s = "A" ∨ s = "D" := by
    induction h with
    | refl => exact .inl rfl
    | tail _ h2 ih =>
      obtain ⟨i, j, hi, hj, h3, -⟩ := h2
      have hi4 : i < 4 := (List.getElem?_eq_some_iff.1 hi).1
      have hj4 : j < 4 := (List.getElem?_eq_some_iff.1 hj).1
      have : ∀ i < 4, ∀ j < 4, (e2eSol.names[i]? = some "A" ∨ e2eSol.names[i]? = some "D") →
          float01 ≤ matrixOf .drg id (progK.chem e2eSol []) i j →
          (e2eSol.names[j]? = some "A" ∨ e2eSol.names[j]? = some "D") := by decide +kernel
      have := this i hi4 j hj4 (by rw [hi]; rcases ih with rfl | rfl <;> simp) h3
      rw [hj] at this
      simpa using this
  rintro (rfl | rfl) <;> revert key <;> decide

example : ∃ N, ∀ dfuel ≥ N, ∀ fuel saFuel w' evs, e2eSol.nSpecies < saFuel →
    program progK id (progShell "DRG" true) ["-i", "in.yaml"] (fun _ => none) dfuel fuel saFuel e2eWorld =
      .reduced (some (.ok ())) w' evs →
    ∃ red, w'.fs (joinPath [] (reducedName red.nSpecies)) = some red ∧ ∀ s ∈ ["A"], s ∉ red.names :=
  C97_drg_refuted prog_asks rfl (prog_situation _ _) rfl rfl rfl ⟨by decide, by decide⟩ (.inr ⟨rfl, rfl⟩)
    prog_physical (prog_tmp _ _) (by decide +kernel) (prog_same _ _) prog_depends prog_linked

example (a : Arith) : ∃ N, ∀ dfuel ≥ N, ∀ fuel saFuel w' evs,
    program progK a.rnd (progShell "DRGEP" false) ["-i", "in.yaml"] (fun _ => none) dfuel fuel saFuel e2eWorld =
      .reduced (some (.ok ())) w' evs →
    ∃ red, w'.fs (joinPath [] (reducedName red.nSpecies)) = some red ∧
      (∀ s, s ∈ ["A"] ∨ s ∈ [] ∨ Needs (progInput "DRGEP" false) s → s ∈ red.names) ∧
      ∀ f, (∀ n, f ≠ joinPath [] (reducedName n)) → w'.fs f = e2eWorld.fs f :=
  C97_files prog_asks rfl (prog_situation _ _) rfl rfl (by decide) rfl prog_physical a

example (a : Arith) : ∃ N, ∀ dfuel ≥ N, ∀ fuel saFuel w' evs,
    program progK a.rnd (progShell "DRGEP" true) ["-i", "in.yaml"] (fun _ => none) dfuel fuel saFuel e2eWorld =
      .reduced (some (.ok ())) w' evs →
    ∃ red, w'.fs (joinPath [] (reducedName red.nSpecies)) = some red ∧
      ∀ s, s ∈ ["A"] ∨ s ∈ [] ∨ Needs (progInput "DRGEP" true) s → s ∈ red.names :=
  C97_both_protected_partial prog_asks rfl (prog_situation _ _) rfl rfl
    (.inr ⟨rfl, rfl, fun _ h => by cases h⟩) rfl prog_physical a (prog_tmp _ _)

end Verif
