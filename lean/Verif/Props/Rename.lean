import Verif.Lemmas.RenameFull
import Verif.Props.FullMain
/-!
# C130: what species are called does not matter
-/
namespace Verif
open Spec

variable {σ : String ≃ String}

/-- **C130** (methods): renaming the species in the files, the targets and the retained species renames them in
the result and in the files left behind, and changes nothing else: the same exception or the same file
name and error, whatever the arithmetic. -/
theorem C130_reduction {sim sim' : Mech → Except Err PyF} (hs : ∀ m, sim' (renMech σ m) = sim m) (m : Method) (c : Ctx)
    (rnd : ℚ → ℚ) (limit : PyF) (dfuel fuel : Nat) (w : World) :
    runMethodS m (renCtx σ c) sim' rnd limit dfuel fuel (renWorld σ w) =
      renRun σ (runMethodS m c sim rnd limit dfuel fuel w) :=
  runMethodS_ren hs m c rnd limit dfuel fuel w

section
variable {ι π φ : Type} {fi : ι → ι} {fp : π → π} {ff : φ → φ} {K K' : Cantera ι π φ}

theorem named_symm_ren (m : Mech) : Named σ (renMech σ.symm m) m := by
  have := (Named.ren (σ := σ.symm) m).symm
  rwa [Equiv.symm_symm] at this

theorem evalSim_ren (R : RenCantera σ fi fp ff K K') {m m' : Mech} (h : Named σ m m') (rnd : ℚ → ℚ) {q q' : ReduceArgs ι π φ}
    (hc : q'.conds = renConds fi fp ff q.conds) (hp : q'.par = q.par) (d : Disk) (base : List PyF) :
    evalSim (K'.sims rnd) q' d base m' = evalSim (K.sims rnd) q d base m := by
  unfold evalSim
  rw [hc, hp, sampleMetrics_ren R h]

/-- **C130** (whole runs): the same with the sampling of the starting model and the simulation of the candidates,
for any behaviour of Cantera that does not depend on the names; the saved samples are the same numbers. -/
theorem C130_run (R : RenCantera σ fi fp ff K K') (meth : Method) (rnd rndThr : ℚ → ℚ) (q : ReduceArgs ι π φ) (d : Disk)
    (dfuel fuel : Nat) (w : World) :
    fullRun K' meth rnd rndThr (renArgs σ fi fp ff q) d dfuel fuel (renWorld σ w) =
      (renRun σ (fullRun K meth rnd rndThr q d dfuel fuel w).1, (fullRun K meth rnd rndThr q d dfuel fuel w).2) := by
  unfold fullRun
  rw [show (renArgs σ fi fp ff q).modelFile = q.modelFile from rfl, show (renArgs σ fi fp ff q).targets = q.targets.map σ from rfl,
    show (renArgs σ fi fp ff q).conds = renConds fi fp ff q.conds from rfl, show (renArgs σ fi fp ff q).par = q.par from rfl,
    show (renArgs σ fi fp ff q).limit = q.limit from rfl, loadModel_ren]
  cases loadModel w q.modelFile with
  | error e => rfl
  | ok sol =>
    dsimp only [Except.map]
    simp only [map_eq_nil_iff']
    by_cases ht : q.targets = []
    · rw [if_pos ht, if_pos ht]; rfl
    · rw [if_neg ht, if_neg ht, sample_ren R (Named.ren sol)]
      cases (sample (K.sims rnd) sol q.conds q.par d).result with
      | error e => rfl
      | ok x =>
        obtain ⟨base, rows⟩ := x
        dsimp only
        have hc : fullCtx K' meth rnd (renArgs σ fi fp ff q) (applyEvs d (sample (K.sims rnd) sol q.conds q.par d).evs)
            (renMech σ sol) base rows =
            renCtx σ (fullCtx K meth rnd q (applyEvs d (sample (K.sims rnd) sol q.conds q.par d).evs) sol base rows) := by
          unfold fullCtx renCtx
          dsimp only
          have h1 : (rows.map (fun r => matrixOf meth rnd (K'.chem (renMech σ sol) r))) =
              rows.map (fun r => matrixOf meth rnd (K.chem sol r)) := by
            apply List.map_congr_left
            intro r _
            exact matrix_ren R (Named.ren sol) meth rnd r
          have h2 : evalError (K'.sims rnd) (renArgs σ fi fp ff q) (applyEvs d (sample (K.sims rnd) sol q.conds q.par d).evs) base =
              fun m => evalError (K.sims rnd) q (applyEvs d (sample (K.sims rnd) sol q.conds q.par d).evs) base
                (renMech σ.symm m) := by
            funext m
            unfold evalError simError
            rw [evalSim_ren R (named_symm_ren m) rnd (q := q) (q' := renArgs σ fi fp ff q) rfl rfl]
          rw [h1, h2]
          rfl
        rw [hc, runMethodS_ren (sim := evalSim (K.sims rnd) q (applyEvs d (sample (K.sims rnd) sol q.conds q.par d).evs) base)]
        intro m
        exact evalSim_ren R (Named.ren m) rnd (q := q) (q' := renArgs σ fi fp ff q) rfl rfl _ base

end

/-- **C130** (sensitivity analysis): it removes the same species, under their new names, and returns the same error
under the same file name. -/
theorem C130_analysis {c c' : SACtx} (R : RenSA σ c c') (T : TmpOk c) {w w' : World} {sol sol' : Mech}
    (hw : w.fs c.modelFile = some sol) (hw' : w'.fs c.modelFile = some sol') (hn : Named σ sol sol') {limbo : List String}
    {fuel : Nat} {r : SAResult} (h : runSA c limbo fuel w = some r) {rm : RModel} (hr : r.result = .ok rm) {fuel' : Nat}
    (hf : (saLimbo c.safe sol limbo).length < fuel') :
    ∃ r' rm', runSA c' (limbo.map σ) fuel' w' = some r' ∧ r'.result = .ok rm' ∧ Named σ rm.model rm'.model ∧
      rm'.error = rm.error ∧ rm'.filename = rm.filename ∧ r'.limbo = r.limbo.map σ := by
  obtain ⟨initial, acc, hi, q, hfile, -, -⟩ := runSA_course T hw h hr
  obtain ⟨mf', h1, h2⟩ := R.course q hn hn
  have hind : ∃ errs, Induced c initial sol (saLimbo c.safe sol limbo) errs := by
    rcases runSA_start T hw h with ⟨e, g, -⟩ | ⟨initial', hi', H⟩
    · rw [hr] at g; cases g
    · obtain rfl : initial = initial' := by rw [hi] at hi'; cases hi'; rfl
      rcases H with ⟨e, g, -⟩ | ⟨errs, w1, r', s', I, -⟩
      · rw [hr] at g; cases g
      · exact ⟨errs, I.induced⟩
  obtain ⟨errs, hind⟩ := hind
  have T' := R.tmpOk T
  have hw2 : w'.fs c'.modelFile = some sol' := by rw [R.file]; exact hw'
  rw [← R.limbo hn, ← R.startErr] at h2
  obtain ⟨r', rm', g1, g2, g3, g4, g5⟩ := C32_followed T' hw2 (by rw [R.initial hn]; exact hi) h2
    ⟨errs, by rw [R.limbo hn]; exact R.induced hn hind⟩ (fuel := fuel') (by rw [R.limbo hn, List.length_map]; exact hf)
  refine ⟨r', rm', g1, g2, by rw [g3]; exact h1, g4, ?_, g5⟩
  obtain ⟨-, -, -, -, k1, -⟩ := runSA_course T' hw2 g1 g2
  rw [k1, hfile, g3, h1.nSpecies]

/-- `main` is asked the same with species renamed -/
structure Spec.RenMain (σ : String ≃ String) (p p' : MainIn) : Prop where
  modelFile : p'.modelFile = p.modelFile
  limit : p'.limit = p.limit
  method : p'.method = p.method
  targets : p'.targets = p.targets.map σ
  safe : p'.safe = p.safe.map σ
  phase : p'.phase = p.phase
  sensitivity : p'.sensitivity = p.sensitivity
  upper : p'.upper = p.upper
  sensitivityType : p'.sensitivityType = p.sensitivityType
  path : p'.path = p.path
  matrices : p'.matrices = p.matrices
  sim : ∀ {m m'}, Named σ m m' → p'.sim m' = p.sim m
  initial : ∀ {m m'}, Named σ m m' → p'.initial m' = p.initial m
  metrics : ∀ {m m'}, Named σ m m' → p'.metrics m' = p.metrics m
  tmpDir : p'.tmpDir = p.tmpDir
  evalDir : p'.evalDir = p.evalDir
  rnd : p'.rnd = p.rnd
  dfuel : p'.dfuel = p.dfuel
  fuel : p'.fuel = p.fuel
  errFun : p'.errFun = p.errFun
  dist : p'.dist = p.dist
  rndMul : p'.rndMul = p.rndMul

section main
variable {p p' : MainIn} (H : RenMain σ p p')
include H

theorem Spec.RenMain.ctx (m : Method) : p'.ctx m = renCtx σ (p.ctx m) := by
  have he : simError p'.sim = fun m => simError p.sim (renMech σ.symm m) := by
    funext m
    unfold simError
    rw [H.sim (named_symm_ren m)]
  unfold MainIn.ctx renCtx
  dsimp only
  rw [he, H.modelFile, H.targets, H.safe, H.phase, H.path, H.matrices, H.upper, H.rndMul]

theorem Spec.RenMain.saCtx (file : Text) (e : PyF) : RenSA σ (p.saCtx file e) (p'.saCtx file e) where
  file := rfl
  startErr := rfl
  limit := H.limit
  safe := by
    show p'.targets ++ p'.safe = (p.targets ++ p.safe).map σ
    rw [H.targets, H.safe, List.map_append]
  phase := H.phase
  greedy := by
    show (decide (p'.sensitivityType = "") || decide (p'.sensitivityType = "greedy")) = _
    rw [H.sensitivityType]
    rfl
  initial := H.initial
  metrics := H.metrics
  tmpDir := H.tmpDir
  evalDir := H.evalDir
  errOf := H.errFun
  dist := H.dist

end main

theorem saStage_of {p : MainIn} {file : Text} {err : PyF} {limbo : List String} {b : Bool} {w : World} {sr : SAResult} {rm : RModel}
    (h : runSA (p.saCtx file err) limbo p.saFuel w = some sr) (hr : sr.result = .ok rm) :
    ∃ w', saStage p file err limbo b w = (some (.ok rm), w') := by
  unfold saStage
  rw [h]
  dsimp only
  rw [hr]
  exact ⟨_, rfl⟩

/-- the stages of `main` after renaming -/
theorem runMain_ren {p : MainIn} (T : TmpDirs p) (T0 : TmpOk (p.saCtx p.modelFile (.fin 0))) {w w' : World} {r : RModel}
    (h : runMain p w = (some (.ok r), w')) :
    ∃ N, ∀ p', RenMain σ p p' → N ≤ p'.saFuel → ∃ r' w'', runMain p' (renWorld σ w) = (some (.ok r'), w'') ∧
      Named σ r.model r'.model ∧ r'.error = r.error ∧ r'.filename = r.filename := by
  have hrun : ∀ p', RenMain σ p p' → ∀ m, runMethodS m (p'.ctx m) p'.sim p'.rnd p'.limit p'.dfuel p'.fuel (renWorld σ w) =
      renRun σ (runMethodS m (p.ctx m) p.sim p.rnd p.limit p.dfuel p.fuel w) := by
    intro p' H m
    rw [H.ctx, H.rnd, H.limit, H.dfuel, H.fuel]
    exact runMethodS_ren (fun m => H.sim (Named.ren m)) _ _ _ _ _ _ _
  rcases C50_stages h with ⟨hs, m, hm, ht, hr⟩ | ⟨hs, file, err, limbo, w1, sr, hF, h2, h3, -⟩
  · refine ⟨0, fun p' H _ => ⟨renModel σ r, renWorld σ w', ?_, Named.ren _, rfl, rfl⟩⟩
    rw [runMain_method (m := m) (by rw [H.method]; exact hm) (by rw [H.sensitivity]; exact hs)
      (by rw [H.targets]; simpa using ht), hrun p' H, hr]
    rfl
  · cases hF with
    | none hm =>
      rcases hw : w.fs p.modelFile with _ | sol
      · exfalso
        unfold runSA loadModel at h2
        rw [show (p.saCtx p.modelFile (.fin 0)).modelFile = p.modelFile from rfl, hw] at h2
        cases h2
        cases h3
      have hw' : (renWorld σ w).fs p.modelFile = some (renMech σ sol) := by
        show (w.fs p.modelFile).map (renMech σ) = _
        rw [hw]; rfl
      refine ⟨(saLimbo (p.saCtx p.modelFile (.fin 0)).safe sol []).length + 1, fun p' H hk => ?_⟩
      obtain ⟨r', rm', g1, g2, g3, g4, g5, -⟩ := C130_analysis (H.saCtx p.modelFile (.fin 0)) T0 hw hw' (Named.ren sol)
        h2 h3 (fuel' := p'.saFuel) hk
      obtain ⟨w2, g⟩ := saStage_of (b := false) g1 g2
      refine ⟨rm', w2, ?_, g3, g4, g5⟩
      unfold runMain
      have hm' : p'.method.bind methodOf = none := by rw [H.method]; exact hm
      have hs' : p'.sensitivity = true := by rw [H.sensitivity]; exact hs
      rw [hm', if_neg (by simp), if_neg (by simp [hs'])]
      dsimp only
      rw [if_pos hs', H.modelFile]
      exact g
    | @method m r1 _ hm ht hr =>
      obtain ⟨f1, f2⟩ := C22_file_holds_model (runMethodS_ok hr)
      have T1 : TmpOk (p.saCtx r1.filename r1.error) := by rw [f2]; exact T _ _
      have hw' : (renWorld σ w1).fs r1.filename = some (renMech σ r1.model) := by
        show (w1.fs r1.filename).map (renMech σ) = _
        rw [f1]; rfl
      refine ⟨(saLimbo (p.saCtx r1.filename r1.error).safe r1.model (r1.limboList w1)).length + 1, fun p' H hk => ?_⟩
      obtain ⟨r', rm', g1, g2, g3, g4, g5, -⟩ := C130_analysis (H.saCtx r1.filename r1.error) T1 f1 hw' (Named.ren r1.model)
        h2 h3 (fuel' := p'.saFuel) hk
      have hl : (renModel σ r1).limboList (renWorld σ w1) = (r1.limboList w1).map σ := by
        unfold RModel.limboList renModel renWorld
        dsimp only
        cases r1.limbo <;> rfl
      rw [← hl] at g1
      obtain ⟨w2, g⟩ := saStage_of (b := (renModel σ r1).limbo.isNone) g1 g2
      refine ⟨rm', w2, ?_, g3, g4, g5⟩
      unfold runMain
      have hm' : p'.method.bind methodOf = some m := by rw [H.method]; exact hm
      have hs' : p'.sensitivity = true := by rw [H.sensitivity]; exact hs
      have ht' : p'.targets ≠ [] := by rw [H.targets]; simpa using ht
      rw [hm', if_neg (by simp [ht']), if_neg (by simp [hs'])]
      dsimp only
      rw [hrun p' H, hr]
      show (if p'.sensitivity = true then _ else _) = _
      rw [if_pos hs']
      exact g

section
variable {ι π φ : Type} {fi : ι → ι} {fp : π → π} {ff : φ → φ} {K K' : Cantera ι π φ}

theorem mainIn_ren (R : RenCantera σ fi fp ff K K') (rnd : ℚ → ℚ) (q : MainArgs ι π φ) (d : Disk) (Ms : List NMat)
    (base : List PyF) (dfuel fuel k k' : Nat) :
    RenMain σ (mainIn K rnd q d Ms base dfuel fuel k) (mainIn K' rnd (renMainArgs σ fi fp ff q) d Ms base dfuel fuel k') where
  modelFile := rfl
  limit := rfl
  method := rfl
  targets := rfl
  safe := rfl
  phase := rfl
  sensitivity := rfl
  upper := rfl
  sensitivityType := rfl
  path := rfl
  matrices := rfl
  sim := fun h => evalSim_ren R h rnd (q := q.toReduceArgs) (q' := (renMainArgs σ fi fp ff q).toReduceArgs) rfl rfl d base
  initial := fun h => sampleMetrics_ren R h rnd q.conds q.par true d
  metrics := fun h => sampleMetrics_ren R h rnd q.conds q.par false d
  tmpDir := rfl
  evalDir := rfl
  rnd := rfl
  dfuel := rfl
  fuel := rfl
  errFun := rfl
  dist := rfl
  rndMul := rfl

/-- **C130** (`main`): a reduction by a method, by sensitivity analysis or by both that returned a model returns, after
renaming the species, that model with renamed species, under the same file name and with the same error. -/
theorem C130_main (R : RenCantera σ fi fp ff K K') (rnd : ℚ → ℚ) (q : MainArgs ι π φ) (d : Disk)
    (T : ∀ d' Ms base x y z, TmpDirs (mainIn K rnd q d' Ms base x y z) ∧
      TmpOk ((mainIn K rnd q d' Ms base x y z).saCtx q.modelFile (.fin 0)))
    {dfuel fuel saFuel : Nat} {w w' : World} {r : RModel} {evs : List Ev}
    (h : fullMain K rnd q d dfuel fuel saFuel w = ((some (.ok r), w'), evs)) :
    ∃ N, ∀ k ≥ N, ∃ r' w'',
      fullMain K' rnd (renMainArgs σ fi fp ff q) d dfuel fuel k (renWorld σ w) = ((some (.ok r'), w''), evs) ∧
      Named σ r.model r'.model ∧ r'.error = r.error ∧ r'.filename = r.filename := by
  unfold fullMain at h
  by_cases h1 : ((q.method.bind methodOf).isSome && decide (q.targets = [])) = true
  · rw [if_pos h1] at h; cases h
  rw [if_neg h1] at h
  by_cases h2 : ((decide (q.method = none) || decide (q.method = some "")) && !q.sensitivity) = true
  · rw [if_pos h2] at h; cases h
  rw [if_neg h2] at h
  have h1' : ¬ (((renMainArgs σ fi fp ff q).method.bind methodOf).isSome &&
      decide ((renMainArgs σ fi fp ff q).targets = [])) = true := by
    show ¬ ((q.method.bind methodOf).isSome && decide (q.targets.map σ = [])) = true
    simpa using h1
  have h2' : ¬ ((decide ((renMainArgs σ fi fp ff q).method = none) || decide ((renMainArgs σ fi fp ff q).method = some "")) &&
      !(renMainArgs σ fi fp ff q).sensitivity) = true := h2
  have hq : (renMainArgs σ fi fp ff q).method = q.method := rfl
  unfold fullMain
  simp only [if_neg h1', if_neg h2']
  rw [hq]
  generalize hm : q.method.bind methodOf = om at h ⊢
  cases om with
  | none =>
    dsimp only at h ⊢
    simp only [Prod.mk.injEq] at h
    obtain ⟨h, rfl⟩ := h
    obtain ⟨N, hN⟩ := runMain_ren (σ := σ) (T _ _ _ _ _ _).1 (T _ _ _ _ _ _).2 h
    refine ⟨N, fun k hk => ?_⟩
    obtain ⟨r', w'', g, g'⟩ := hN _ (mainIn_ren R rnd q d [] [] dfuel fuel saFuel k) hk
    exact ⟨r', w'', by rw [g], g'⟩
  | some m =>
    dsimp only at h ⊢
    rw [show (renMainArgs σ fi fp ff q).modelFile = q.modelFile from rfl, loadModel_ren]
    generalize hL : loadModel w q.modelFile = L at h ⊢
    cases L with
    | error e => cases h
    | ok sol =>
      dsimp only [Except.map] at h ⊢
      rw [show (renMainArgs σ fi fp ff q).conds = renConds fi fp ff q.conds from rfl,
        show (renMainArgs σ fi fp ff q).par = q.par from rfl, sample_ren R (Named.ren sol)]
      generalize hS : (sample (K.sims rnd) sol q.conds q.par d) = S at h ⊢
      generalize hA : S.result = A at h ⊢
      cases A with
      | error e => cases h
      | ok x =>
        obtain ⟨base, rows⟩ := x
        dsimp only at h ⊢
        simp only [Prod.mk.injEq] at h
        obtain ⟨h, rfl⟩ := h
        obtain ⟨N, hN⟩ := runMain_ren (σ := σ) (T _ _ _ _ _ _).1 (T _ _ _ _ _ _).2 h
        refine ⟨N, fun k hk => ?_⟩
        have hM : (rows.map (fun r => matrixOf m rnd (K'.chem (renMech σ sol) r))) =
            rows.map (fun r => matrixOf m rnd (K.chem sol r)) := by
          apply List.map_congr_left
          intro r _
          exact matrix_ren R (Named.ren sol) m rnd r
        obtain ⟨r', w'', g, g'⟩ := hN _ (mainIn_ren R rnd q _ _ base dfuel fuel saFuel k) hk
        exact ⟨r', w'', by rw [hM, g], g'⟩

/-- Cantera after renaming: the model is renamed back first -/
def Spec.backK (σ : String ≃ String) (K : Cantera ι π φ) : Cantera ι π φ :=
  { K with
    reactor := fun m => K.reactor (renMech σ.symm m)
    psr := fun m => K.psr (renMech σ.symm m)
    flame := fun m => K.flame (renMech σ.symm m)
    chem := fun m r => cast (by rw [renMech_names]; simp [renMech]) (K.chem (renMech σ.symm m) r) }

/-- the hypothesis about Cantera is met whatever it computes, if it does not look at the name of the phase (here the
conditions name no species) -/
theorem renCantera_back (σ : String ≃ String) (K : Cantera ι π φ)
    (hr : ∀ m n, K.reactor { m with name := n } = K.reactor m) (hp : ∀ m n, K.psr { m with name := n } = K.psr m)
    (hf : ∀ m n, K.flame { m with name := n } = K.flame m) (hc : ∀ m n r, HEq (K.chem { m with name := n } r) (K.chem m r)) :
    RenCantera σ id id id K (backK σ K) where
  props := fun _ => rfl
  reactor := by
    rintro m m' ⟨n, rfl⟩ x
    show K.reactor (renMech σ.symm (renMech σ _)) x = _
    rw [renMech_symm, hr]
  fuel := rfl
  psr := by
    rintro m m' ⟨n, rfl⟩ x
    show K.psr (renMech σ.symm (renMech σ _)) x = _
    rw [renMech_symm, hp]
  pressure := fun _ => rfl
  flame := by
    rintro m m' ⟨n, rfl⟩ x
    show K.flame (renMech σ.symm (renMech σ _)) x = _
    rw [renMech_symm, hf]
  floor := rfl
  chem := by
    rintro m m' ⟨n, rfl⟩ r
    refine (cast_heq _ _).trans (HEq.trans ?_ (hc m n r))
    rw [renMech_symm]

end

/-! ### a concrete run -/

/-- the fuel is called `X` instead of `A`, and `C` is called `O2` -/
def exNames : String ≃ String := (Equiv.swap "A" "X").trans (Equiv.swap "C" "O2")

theorem exNames_cantera : RenCantera exNames id id id e2eK (backK exNames e2eK) :=
  renCantera_back _ _ (fun _ _ => rfl) (fun _ _ => rfl) (fun _ _ => rfl) (fun _ _ _ => HEq.rfl)

theorem exNames_tmp (s : String) (rnd : ℚ → ℚ) (d : Disk) (Ms : List NMat) (base : List PyF) (x y z : Nat) :
    TmpDirs (mainIn e2eK rnd (e2eMain s) d Ms base x y z) ∧
      TmpOk ((mainIn e2eK rnd (e2eMain s) d Ms base x y z).saCtx (e2eMain s).modelFile (.fin 0)) := by
  refine ⟨e2eMain_tmp _ _ _ _ _ _ _ _, ?_⟩
  have hpre : ∀ (d : Text), d.head? = some '/' → ¬ d ++ ['/'] <+: "m.yaml".toList := by
    rintro d hd ⟨x, hx⟩
    cases d with
    | nil => simp at hd
    | cons c d =>
      simp only [List.head?_cons, Option.some.injEq] at hd
      subst hd
      have := congrArg List.head? hx
      exact absurd this (by simp)
  exact
  { tmp_ne := by show "/tmp/a".toList ≠ []; decide
    tmp_last := by show "/tmp/a".toList.getLast? ≠ some '/'; decide
    eval_ne := fun _ => by show "/tmp/b".toList ≠ []; decide
    eval_last := fun _ => by show "/tmp/b".toList.getLast? ≠ some '/'; decide
    model_tmp := hpre _ rfl
    model_eval := fun _ => hpre _ rfl
    apart := (exSA_tmp (.fin 0) false []).apart }

/-- the run of `Props/FullMain.lean` meets the hypotheses of `C130_main` and returns a model -/
example : runView (fullMain (backK exNames e2eK) id (renMainArgs exNames id id id (e2eMain "DRG")) (fun _ => none) 50 20 20
    (renWorld exNames e2eWorld)).1 = some (.ok (["X", "B"], .fin 1)) ∧
    (renWorld exNames e2eWorld).fs "m.yaml".toList ≠ e2eWorld.fs "m.yaml".toList := by
  decide +kernel

end Verif
