import Verif.Props.Library
/-!
# Species of the mixtures: kept by the command, not by a call (C151)
-/
namespace Verif
open Spec

variable {K : Cantera IgnInput Cond FlameInput} {sh : Shell} {args : List String} {i path : String}
  {threads : Int} {rnd : ℚ → ℚ} {d : Disk} {w w' : World} {dct : InputDict} {sol : Mech} {c : LibraryCall}
  {dfuel fuel saFuel : Nat} {o : Option (Except Err Unit)} {evs : List Ev}

/-- the species is named in one of the mixtures -/
def Spec.InMixture (c : LibraryCall) (s : String) : Prop :=
  ∃ k ∈ c.conds.ign.map (·.toCond) ++ c.conds.psr ++ c.conds.flame.map (·.toCond), ∃ l, k.species = .ok l ∧ s ∈ l

/-- removing any species that is neither kept nor named in a mixture leaves the error within the limit, as measured
against the metrics `i` -/
def Spec.RestRemovable (K : Cantera IgnInput Cond FlameInput) (rnd : ℚ → ℚ) (sh : Shell) (c : LibraryCall) (d : Disk) (sol : Mech)
    (i : List PyF) : Prop :=
  ∀ (m : Mech) (l : List String), (∀ x ∈ l, x ∈ sol.names ∧ x ∉ c.targets.getD [] ∧ x ∉ c.safe.getD [] ∧ ¬ InMixture c x) →
    m.names = sol.names.filter (fun x => !(l.contains x)) → ∃ t e,
    sampleMetrics ((K.inputs c.minFlameSpeed).sims rnd) m c.conds ⟨c.threads.getD 1, sh.cpus, sh.order⟩ false d = .ok t ∧
    calculateError i t = .ok e ∧ c.errorLimit.lt e = false

/-- what the command passes to `main`: species of the mixtures are among those to retain -/
theorem same_args_mixture {inp : ReductionInputs} {dct' : InputDict} (hw : w.fs dct.model.toList = some sol)
    (S : SaysSame c dct path threads sol.names) (hp : parseInputs (fileNames w) dct = .ok (inp, dct')) :
    inp.minFlameSpeed = c.minFlameSpeed ∧ ∃ safe, (∀ s, InMixture c s → s ∈ c.targets.getD [] ∨ s ∈ safe) ∧
      (∀ s ∈ c.safe.getD [], s ∈ safe) ∧
      mainArgs sh inp path threads = { c.args sh with
        safe := safe, upper := finiteUpper inp.upper, method := some ((c.args sh).method.getD ""),
        sensitivityType := c.sensitivityType.getD "initial" } := by
  simp only [parseInputs, bind_ok, pyAssert_ok, pure_ok] at hp
  obtain ⟨_, -, _, -, _, -, _, -, names, hn, _, -, _, -, _, -, ign, h1, psr, h2, fl, h3, safe, h4, hr⟩ := hp
  have hn : names = sol.names := by
    rw [fileNames_eq hw] at hn
    exact (Except.ok.inj hn).symm
  subst hn
  rw [S.ignition] at h1
  rw [S.psr] at h2
  rw [S.flame] at h3
  cases h1
  cases h2
  cases h3
  have hret : dct.retained.getD (.list []) = .list (c.safe.getD []) := by
    rw [S.retained]
    cases c.safe <;> rfl
  rw [hret, S.targets] at h4
  obtain ⟨g1, g2⟩ := retainSpecies_cover h4
  obtain ⟨added, g3, -⟩ := retainSpecies_list (.list (c.targets.getD []))
    (c.conds.ign.map (·.toCond) ++ c.conds.psr ++ c.conds.flame.map (·.toCond)) (c.safe.getD [])
    (fun k hk => (g1 k hk).imp fun _ h => h.1)
  rw [g3] at h4
  cases h4
  cases hr
  refine ⟨S.floor, c.safe.getD [] ++ added, ?_, ?_, ?_⟩
  · rintro s ⟨k, hk, l, hl, hs⟩
    obtain ⟨l', k1, k2⟩ := g1 k hk
    rw [hl] at k1
    cases k1
    simpa [Names.has] using k2 s hs
  · intro s hs
    simp [hs]
  · unfold mainArgs LibraryCall.args
    simp only [S.model, S.error, S.targets, S.phase, S.path, S.threads, S.method, S.sensitivity, S.type, Names.iter]

/-- **C151** is false when a species of a mixture is left out of the species to retain: if sensitivity analysis is asked for alone, no
model without that species can be simulated, and all that is in no mixture and need not be kept can go, then
the command returns a reduced model whereas the call ends in an exception. -/
theorem C151_mixture_refuted (I : Asks args i path threads) (hy : sh.yaml i = .ok dct)
    (hw : w.fs dct.model.toList = some sol) (S : SaysSame c dct path threads sol.names)
    (hm : c.method = none) (hsa : c.sensitivity = some true) (ht : c.sensitivityType = some "initial")
    (T : TempDirs sh path) (hmt : ¬ Under sh.tmpDir dct.model.toList)
    (hme : ∀ k, ¬ Under (sh.evalDir k) dct.model.toList) {init : List PyF}
    (hi : sampleMetrics ((K.inputs c.minFlameSpeed).sims rnd) sol c.conds ⟨c.threads.getD 1, sh.cpus, sh.order⟩ true d = .ok init)
    (hR : RestRemovable K rnd sh c d sol init) {x : String} (hx : x ∈ sol.names) (hxt : x ∉ c.targets.getD [])
    (hxs : x ∉ c.safe.getD [])
    (hX : ∀ m : Mech, x ∉ m.names → ∃ e,
      sampleMetrics ((K.inputs c.minFlameSpeed).sims rnd) m c.conds ⟨c.threads.getD 1, sh.cpus, sh.order⟩ false d = .error e)
    (hfuel : sol.nSpecies < saFuel)
    (h : program K rnd sh args d dfuel fuel saFuel w = .reduced o w' evs) :
    o = some (.ok ()) ∧ ∃ e, (libraryRun K rnd sh c d dfuel fuel saFuel w).1.1 = some (.error e) := by
  obtain ⟨inp, dct', r, hp, hr, ho⟩ := program_reduced I hy h
  obtain ⟨h1, safe, hmix, hsub, h3⟩ := same_args_mixture (sh := sh) hw S hp
  rw [h1, h3] at hr
  rw [S.model] at hw hmt hme
  have key : ∀ q : MainArgs IgnInput Cond FlameInput, q.modelFile = c.modelFile.toList →
      q.targets = c.targets.getD [] → q.conds = c.conds →
      q.par = ⟨c.threads.getD 1, sh.cpus, sh.order⟩ → q.tmpDir = sh.tmpDir → q.evalDir = sh.evalDir →
      ∀ ctx, ctx = (mainIn (K.inputs c.minFlameSpeed) rnd q d [] [] dfuel fuel saFuel).saCtx q.modelFile (.fin 0) →
      TmpOk ctx ∧ w.fs ctx.modelFile = some sol ∧ ctx.initial sol = .ok init ∧
      (∀ m, ctx.metrics m =
        sampleMetrics ((K.inputs c.minFlameSpeed).sims rnd) m c.conds ⟨c.threads.getD 1, sh.cpus, sh.order⟩ false d) ∧
      saLimbo ctx.safe sol [] = sol.names.filter (fun x => !((c.targets.getD [] ++ q.safe).contains x)) ∧
      (saLimbo ctx.safe sol []).length < saFuel := by
    intro q e1 e3 e5 e6 e7 e8 ctx hc
    have s1 : ctx.safe = c.targets.getD [] ++ q.safe := by rw [hc, ← e3]; rfl
    have s2 : saLimbo ctx.safe sol [] = sol.names.filter (fun x => !((c.targets.getD [] ++ q.safe).contains x)) := by
      rw [saLimbo, if_pos rfl, s1]
    refine ⟨?_, ?_, ?_, ?_, s2, ?_⟩
    · rw [hc]
      refine ⟨?_, ?_, ?_, ?_, ?_, ?_, ?_⟩ <;> simp only [MainIn.saCtx, mainIn, e1, e7, e8]
      exacts [T.tmp_ne, T.tmp_last, T.eval_ne, T.eval_last, hmt, hme, T.apart]
    · rw [hc, ← hw, ← e1]; rfl
    · rw [hc, ← hi, ← e5, ← e6]; rfl
    · intro m
      rw [hc, ← e5, ← e6]; rfl
    · rw [s2]
      refine lt_of_le_of_lt (List.length_filter_le _ _) ?_
      simpa [Mech.nSpecies, Mech.names] using hfuel
  constructor
  · rw [fullMain_sa (by simp [LibraryCall.args, hm, methodOf]) (by simp [LibraryCall.args, hsa])] at hr
    obtain ⟨k1, k2, k3, k4, k5, k6⟩ := key { c.args sh with
        safe := safe, upper := finiteUpper inp.upper, method := some ((c.args sh).method.getD ""),
        sensitivityType := c.sensitivityType.getD "initial" }
      rfl rfl rfl rfl rfl rfl _ rfl
    obtain ⟨sr, rm, m1, m2, -⟩ := C31_initial_all k1 k2 k3 (by simp [MainIn.saCtx, mainIn, ht]) (by
      intro l hl _
      obtain ⟨t, e, a1, a2, a3⟩ := hR (l.foldl (without _) sol) l
        (fun y hy => by
          have := hl y hy
          rw [k5] at this
          simp only [List.mem_filter, List.contains_eq_mem, List.mem_append, Bool.not_eq_true', decide_eq_false_iff_not,
            not_or] at this
          obtain ⟨b1, b2, b3⟩ := this
          exact ⟨b1, b2, fun b4 => b3 (hsub y b4), fun b4 => (hmix y b4).elim b2 b3⟩) (foldl_without_names _ _ _)
      refine ⟨e, ?_, by rw [← a3]; rfl⟩
      unfold saErr
      rw [k4, a1]
      exact a2) k6
    simp only [Prod.mk.injEq] at hr
    have hr := hr.1
    unfold saStage at hr
    rw [show (mainIn (K.inputs c.minFlameSpeed) rnd _ d [] [] dfuel fuel saFuel).saFuel = saFuel from rfl, m1] at hr
    dsimp only at hr
    rw [m2] at hr
    cases hr
    exact ho
  · obtain ⟨k1, k2, k3, k4, k5, k6⟩ := key (c.args sh) rfl rfl rfl rfl rfl rfl _ rfl
    obtain ⟨sr, m1⟩ := C30_terminates ((mainIn (K.inputs c.minFlameSpeed) rnd (c.args sh) d [] [] dfuel fuel saFuel).saCtx
      (c.args sh).modelFile (.fin 0)) [] w saFuel (fun m hm => by rw [k2] at hm; cases hm; exact k6)
    have m2 : ∃ e, sr.result = .error e := by
      rcases runSA_start k1 k2 m1 with ⟨e, -, -, -, g⟩ | ⟨initial, g, H⟩
      · rw [k3] at g; cases g
      rcases H with ⟨e, g, -⟩ | ⟨errs, w1, r', s', J, -⟩
      · exact ⟨e, g⟩
      · exfalso
        have hxl : x ∈ saLimbo ((mainIn (K.inputs c.minFlameSpeed) rnd (c.args sh) d [] [] dfuel fuel saFuel).saCtx
            (c.args sh).modelFile (.fin 0)).safe sol [] := by
          rw [k5]
          simp only [List.mem_filter, List.contains_eq_mem, List.mem_append, Bool.not_eq_true', decide_eq_false_iff_not,
            not_or]
          exact ⟨hx, hxt, hxs⟩
        obtain ⟨e, -, he⟩ := forall2_left J.induced hxl
        obtain ⟨e', he'⟩ := hX (without ((mainIn (K.inputs c.minFlameSpeed) rnd (c.args sh) d [] [] dfuel fuel saFuel).saCtx
          (c.args sh).modelFile (.fin 0)) sol x) (by rw [without, trim_names]; simp)
        unfold saErr at he
        rw [k4, he'] at he
        cases he
    obtain ⟨e, m2⟩ := m2
    refine ⟨e, ?_⟩
    rw [libraryRun, fullMain_sa (by simp [LibraryCall.args, hm]) (by simp [LibraryCall.args, hsa])]
    unfold saStage
    rw [show (mainIn (K.inputs c.minFlameSpeed) rnd (c.args sh) d [] [] dfuel fuel saFuel).saFuel = saFuel from rfl, m1]
    dsimp only
    rw [m2]

/-! ### a concrete call: a stirred reactor fed with `A` and `D`, of which only the target `A` is kept by the call -/

def mixCase : Case :=
  [("temperature", .num (.fin 1000)), ("pressure", .num (.fin 1)),
   ("reactants", .dict [("A", .num (.fin 1)), ("D", .num (.fin 1))])]

def mixConds : List Cond :=
  match parseCases (parsePsr e2eSol.names) [mixCase] with | .ok l => l | .error _ => []

def mixInput : InputDict :=
  { libInput (some (1/5)) with psr := [mixCase] }

def mixShell : Shell :=
  { libShell none with yaml := fun f => if f = "in.yaml" then .ok mixInput else .error .fileNotFound }

def mixCall : LibraryCall :=
  { libCall (some (1/5)) (some "initial") with conds := ⟨[], mixConds, []⟩ }

/-- a mixture cannot be set when one of its species is missing -/
def mixK : Cantera IgnInput Cond FlameInput :=
  { progK with
    reactor := fun _ _ => .error .runtimeError
    psr := fun m _ => if m.names.contains "D" then .ok (.ok (e2ePsr ["A"])) else .error .runtimeError
    flame := fun _ _ => .error .runtimeError }

example : progView "reduced_2.yaml" (program mixK id mixShell ["-i", "in.yaml"]
      (fun _ => none) 50 20 20 e2eWorld) = some (true, some ["A", "D"]) ∧
   runView (libraryRun mixK id mixShell mixCall (fun _ => none) 50 20 20 e2eWorld).1 = some (.error .runtimeError) := by
  decide +kernel

theorem mix_same : SaysSame mixCall mixInput "" 1 e2eSol.names := by
  refine ⟨rfl, rfl, rfl, rfl, rfl, rfl, rfl, rfl, rfl, rfl, rfl, rfl, rfl, ?_, rfl⟩
  show parseCases (parsePsr e2eSol.names) [mixCase] = .ok mixConds
  decide +kernel

theorem mix_alike {m m' : Mech} (h : "D" ∈ m.names ↔ "D" ∈ m'.names) : Alike (mixK.inputs none) m m' := by
  have hD : m'.names.contains "D" = m.names.contains "D" := by
    rw [Bool.eq_iff_iff]; simpa using h.symm
  refine ⟨fun x => rfl, fun x => ?_, fun x => rfl⟩
  simp only [mixK, Cantera.inputs, hD]

/-- the metrics of the starting model -/
def mixMetrics : List PyF :=
  match sampleMetrics ((mixK.inputs none).sims id) e2eSol ⟨[], mixConds, []⟩ ⟨1, 1, fun _ n => List.range n⟩
      true (fun _ => none) with | .ok l => l | .error _ => []

/-- the hypotheses of `C151_mixture_refuted` are met -/
example {o w' evs} (h : program mixK id mixShell ["-i", "in.yaml"] (fun _ => none) 50 20 20 e2eWorld =
    .reduced o w' evs) : o = some (.ok ()) ∧
    ∃ e, (libraryRun mixK id mixShell mixCall (fun _ => none) 50 20 20 e2eWorld).1.1 = some (.error e) := by
  have hs : (∃ k ∈ mixConds, k.species = .ok ["A", "D"]) := by decide +kernel
  have h0 : ∃ t e, sampleMetrics ((mixK.inputs none).sims id) e2eSol ⟨[], mixConds, []⟩ ⟨1, 1, fun _ n => List.range n⟩
      true (fun _ => none) = .ok t ∧
      sampleMetrics ((mixK.inputs none).sims id) e2eSol ⟨[], mixConds, []⟩ ⟨1, 1, fun _ n => List.range n⟩
      false (fun _ => none) = .ok t ∧ calculateError t t = .ok e ∧ (PyF.fin 5).lt e = false :=
    ⟨mixMetrics, .fin 0, by decide +kernel⟩
  obtain ⟨t, e, h1, h2, h3, h4⟩ := h0
  refine C151_mixture_refuted (sol := e2eSol) (dct := mixInput) (x := "D") (init := t) prog_asks (by simp [mixShell]) rfl
    mix_same rfl rfl rfl ?_
    (e2eAlone_tmp [] id (fun _ => none) 0 0 0).model_tmp
    (e2eAlone_tmp [] id (fun _ => none) 0 0 0).model_eval h1 ?_ (by decide) (by decide) (by decide) ?_ (by decide) h
  · have T := lib_tmp none
    exact ⟨T.tmp_ne, T.tmp_last, T.eval_ne, T.eval_last, T.model_tmp, T.model_eval, T.apart⟩
  · intro m l hl hm
    have hD : "D" ∉ l := by
      intro hd
      obtain ⟨k, hk, hk'⟩ := hs
      exact (hl _ hd).2.2.2 ⟨k, by simpa [mixCall] using hk, _, hk', by simp⟩
    have ha : "D" ∈ e2eSol.names ↔ "D" ∈ m.names := by
      rw [hm]
      simp [hD]
    refine ⟨t, e, ?_, h3, h4⟩
    rw [← h2]
    exact sampleMetrics_alike (mix_alike ha)
  · intro m hm
    refine ⟨.runtimeError, ?_⟩
    have h5 : sampleMetrics ((mixK.inputs none).sims id) (trim e2eSol ["D"] [] []) ⟨[], mixConds, []⟩
      ⟨1, 1, fun _ n => List.range n⟩ false (fun _ => none) = .error .runtimeError := by decide +kernel
    rw [← h5]
    refine sampleMetrics_alike (mix_alike ⟨fun h => ?_, fun h => absurd h hm⟩)
    rw [trim_names] at h
    simp at h

end Verif
