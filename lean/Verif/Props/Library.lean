import Verif.Spec.Library
import Verif.Props.Program
import Verif.Props.SAAlone
/-!
# Calling `main` from a program and running the command (C151)
-/
namespace Verif
open Spec

variable {K : Cantera IgnInput Cond FlameInput} {sh : Shell} {args : List String} {i path : String}
  {threads : Int} {rnd : ℚ → ℚ} {d : Disk} {w w' : World} {dct : InputDict} {sol : Mech} {c : LibraryCall}
  {dfuel fuel saFuel : Nat} {o : Option (Except Err Unit)} {evs : List Ev}

/-- leaving the method out is the same as an empty name, and without sensitivity analysis its type is not read -/
theorem fullMain_noMethod {ι π φ : Type} {K : Cantera ι π φ} {q : MainArgs ι π φ} {t : String}
    (h : q.sensitivity = true → t = q.sensitivityType) :
    fullMain K rnd { q with method := some (q.method.getD ""), sensitivityType := t } d dfuel fuel saFuel w =
      fullMain K rnd q d dfuel fuel saFuel w := by
  obtain ⟨⟨a1, a2, a3, a4, a5, a6, a7, a8, a9⟩, meth, sens, ty, tmp, ev⟩ := q
  cases sens with
  | true =>
    obtain rfl := h rfl
    cases meth with
    | none => rfl
    | some m => rfl
  | false =>
    cases meth with
    | none => rfl
    | some m =>
      simp only [fullMain, runMain, mainIn, Option.getD_some, Bool.false_eq_true, if_false]
      rfl

/-- what the command passes to `main` -/
theorem same_args {inp : ReductionInputs} {dct' : InputDict} (hw : w.fs dct.model.toList = some sol)
    (S : SaysSame c dct path threads sol.names) (M : MixturesKept c)
    (hp : parseInputs (fileNames w) dct = .ok (inp, dct')) :
    inp.minFlameSpeed = c.minFlameSpeed ∧ (dct.sensitivity = false ∨ (∃ v, c.upper = some v ∧ v ≠ 0) → finiteUpper inp.upper = c.upper) ∧
      mainArgs sh inp path threads = { c.args sh with
        upper := finiteUpper inp.upper, method := some ((c.args sh).method.getD ""), sensitivityType := c.sensitivityType.getD "initial" } := by
  simp only [parseInputs, bind_ok, pyAssert_ok, pure_ok] at hp
  obtain ⟨_, -, _, -, _, -, _, -, names, hn, _, -, _, -, _, -, ign, h1, psr, h2, fl, h3, safe, h4, hr⟩ := hp
  have hn : names = sol.names := by
    rw [fileNames_eq hw] at hn
    exact (Except.ok.inj hn).symm
  subst hn
  rw [S.ignition] at h1
  rw [S.psr] at h2
  rw [S.flame] at h3
  cases h1
  cases h2
  cases h3
  have hret : dct.retained.getD (.list []) = .list (c.safe.getD []) := by
    rw [S.retained]
    cases c.safe <;> rfl
  rw [hret, S.targets, retainSpecies_covered (fun k hk => by
    obtain ⟨l, h5, h6⟩ := M k hk
    exact ⟨l, h5, fun sp hsp => by simpa [Names.has] using h6 sp hsp⟩)] at h4
  cases h4
  cases hr
  refine ⟨S.floor, ?_, ?_⟩
  rotate_left
  · unfold mainArgs LibraryCall.args
    simp only [S.model, S.error, S.targets, S.phase, S.path, S.threads, S.method, S.sensitivity, S.type, Names.iter]
  · intro h
    dsimp only
    rw [S.upper]
    rcases h with h | ⟨v, h, h0⟩
    · rw [h]
      cases c.upper <;> simp [finiteUpper]
    · rw [h]
      simp [finiteUpper, PyF.eq, h0]

/-- **C151**, the part that holds: the command does what the call does if the input file says the same, provided that every species of
the mixtures is a target or retained, and, with sensitivity analysis, that its type and a nonzero upper threshold are
given.  Missing: calls that leave these to the defaults, see `C151_type_refuted`. -/
theorem C151_agree_partial (I : Asks args i path threads) (hy : sh.yaml i = .ok dct)
    (hw : w.fs dct.model.toList = some sol) (S : SaysSame c dct path threads sol.names) (M : MixturesKept c)
    (hs : c.sensitivity = some true → c.sensitivityType ≠ none ∧ ∃ v, c.upper = some v ∧ v ≠ 0)
    (h : program K rnd sh args d dfuel fuel saFuel w = .reduced o w' evs) :
    ∃ r, libraryRun K rnd sh c d dfuel fuel saFuel w = ((r, w'), evs) ∧
      o = r.map (fun x => x.map (fun _ => ())) := by
  obtain ⟨inp, dct', r, hp, hr, ho⟩ := program_reduced I hy h
  obtain ⟨h1, h2, h3⟩ := same_args (sh := sh) hw S M hp
  refine ⟨r, ?_, ho⟩
  have hse : dct.sensitivity = true → c.sensitivity = some true := by
    rw [S.sensitivity]
    cases c.sensitivity with
    | none => simp
    | some b => simp
  have hu : finiteUpper inp.upper = c.upper := h2 (by
    cases hd : dct.sensitivity with
    | false => exact .inl rfl
    | true => exact .inr (hs (hse hd)).2)
  rw [h1, h3, hu] at hr
  rw [libraryRun, ← hr]
  refine (fullMain_noMethod (q := c.args sh) ?_).symm
  intro h4
  have h5 := (hs (hse (by rw [S.sensitivity]; exact h4))).1
  show c.sensitivityType.getD "initial" = c.sensitivityType.getD "greedy"
  cases ht : c.sensitivityType with
  | none => exact absurd ht h5
  | some t => rfl

/-- `main` with sensitivity analysis alone -/
theorem fullMain_sa {ι π φ : Type} {K : Cantera ι π φ} {q : MainArgs ι π φ} (hm : q.method.bind methodOf = none)
    (hs : q.sensitivity = true) :
    fullMain K rnd q d dfuel fuel saFuel w =
      (saStage (mainIn K rnd q d [] [] dfuel fuel saFuel) q.modelFile (.fin 0) [] false w, []) := by
  have hm' : (mainIn K rnd q d [] [] dfuel fuel saFuel).method.bind methodOf = none := hm
  have hs' : (mainIn K rnd q d [] [] dfuel fuel saFuel).sensitivity = true := hs
  unfold fullMain runMain
  rw [hm, hm', hs, hs']
  simp [mainIn]

/-- **C151** is false when the type of sensitivity analysis is left out: whenever it is asked for alone, some species need not be
kept and removing any of them stays within the limit, the command returns a reduced model whereas the call ends in a
ValueError. -/
theorem C151_type_refuted (I : Asks args i path threads) (hy : sh.yaml i = .ok dct)
    (hw : w.fs dct.model.toList = some sol) (S : SaysSame c dct path threads sol.names) (M : MixturesKept c)
    (hm : c.method = none) (hsa : c.sensitivity = some true) (ht : c.sensitivityType = none)
    (T : TempDirs sh path) (hmt : ¬ Under sh.tmpDir dct.model.toList)
    (hme : ∀ k, ¬ Under (sh.evalDir k) dct.model.toList)
    (hne : ∃ s ∈ sol.names, s ∉ c.targets.getD [] ∧ s ∉ c.safe.getD [])
    (hR : RemovableAtWill K rnd sh c d sol) (hfuel : sol.nSpecies < saFuel)
    (h : program K rnd sh args d dfuel fuel saFuel w = .reduced o w' evs) :
    o = some (.ok ()) ∧ (libraryRun K rnd sh c d dfuel fuel saFuel w).1.1 = some (.error .valueError) := by
  obtain ⟨inp, dct', r, hp, hr, ho⟩ := program_reduced I hy h
  obtain ⟨h1, -, h3⟩ := same_args (sh := sh) hw S M hp
  rw [h1, h3] at hr
  rw [S.model] at hw hmt hme
  obtain ⟨init, hi, hall⟩ := hR
  have key : ∀ q : MainArgs IgnInput Cond FlameInput, q.modelFile = c.modelFile.toList → q.limit = c.errorLimit →
      q.targets = c.targets.getD [] → q.safe = c.safe.getD [] → q.conds = c.conds →
      q.par = ⟨c.threads.getD 1, sh.cpus, sh.order⟩ → q.tmpDir = sh.tmpDir → q.evalDir = sh.evalDir →
      ∀ ctx, ctx = (mainIn (K.inputs c.minFlameSpeed) rnd q d [] [] dfuel fuel saFuel).saCtx q.modelFile (.fin 0) →
      TmpOk ctx ∧ w.fs ctx.modelFile = some sol ∧ ctx.initial sol = .ok init ∧ saLimbo ctx.safe sol [] ≠ [] ∧
      AllWithin ctx sol [] init ∧ (saLimbo ctx.safe sol []).length < saFuel := by
    intro q e1 e2 e3 e4 e5 e6 e7 e8 ctx hc
    have s1 : ctx.safe = c.targets.getD [] ++ c.safe.getD [] := by rw [hc, ← e3, ← e4]; rfl
    have s2 : saLimbo ctx.safe sol [] = sol.names.filter (fun x => !((c.targets.getD [] ++ c.safe.getD []).contains x)) := by
      rw [saLimbo, if_pos rfl, s1]
    have s3 : ctx.initial sol = .ok init := by
      rw [hc, ← hi, ← e5, ← e6]; rfl
    refine ⟨?_, ?_, s3, ?_, ?_, ?_⟩
    · rw [hc]
      refine ⟨?_, ?_, ?_, ?_, ?_, ?_, ?_⟩ <;> simp only [MainIn.saCtx, mainIn, e1, e7, e8]
      exacts [T.tmp_ne, T.tmp_last, T.eval_ne, T.eval_last, hmt, hme, T.apart]
    · rw [hc, ← hw, ← e1]; rfl
    · rw [s2]
      obtain ⟨s, g1, g2, g3⟩ := hne
      refine List.ne_nil_of_mem (a := s) ?_
      simp [g1, g2, g3]
    · intro l hl _
      obtain ⟨t, e, a1, a2, a3⟩ := hall (l.foldl (without ctx) sol) l
        (fun x hx => by have := hl x hx; rw [s2] at this; simpa [not_or] using this) (foldl_without_names _ _ _)
      refine ⟨e, ?_, by rw [hc, ← a3, ← e2]; rfl⟩
      have b1 : ctx.metrics (l.foldl (without ctx) sol) = .ok t := by
        rw [← a1, ← e5, ← e6]
        have : ctx.metrics = (mainIn (K.inputs c.minFlameSpeed) rnd q d [] [] dfuel fuel saFuel).metrics := by
          rw [hc]; rfl
        rw [this]; rfl
      unfold saErr
      rw [b1]
      have : ctx.errOf = calculateError := by rw [hc]; rfl
      rw [this]
      exact a2
    · rw [s2]
      refine lt_of_le_of_lt (List.length_filter_le _ _) ?_
      simpa [Mech.nSpecies, Mech.names] using hfuel
  constructor
  · rw [fullMain_sa (by simp [LibraryCall.args, hm, methodOf]) (by simp [LibraryCall.args, hsa])] at hr
    obtain ⟨k1, k2, k3, k4, k5, k6⟩ := key { c.args sh with
        upper := finiteUpper inp.upper, method := some ((c.args sh).method.getD ""), sensitivityType := c.sensitivityType.getD "initial" }
      rfl rfl rfl rfl rfl rfl rfl rfl _ rfl
    obtain ⟨sr, rm, m1, m2, -⟩ := C31_initial_all k1 k2 k3 (by simp [MainIn.saCtx, mainIn, ht]) k5 k6
    simp only [Prod.mk.injEq] at hr
    have hr := hr.1
    unfold saStage at hr
    rw [show (mainIn (K.inputs c.minFlameSpeed) rnd _ d [] [] dfuel fuel saFuel).saFuel = saFuel from rfl, m1] at hr
    dsimp only at hr
    rw [m2] at hr
    cases hr
    exact ho
  · obtain ⟨k1, k2, k3, k4, k5, k6⟩ := key (c.args sh) rfl rfl rfl rfl rfl rfl rfl rfl _ rfl
    obtain ⟨sr, m1, m2⟩ := C31_greedy_refuted k1 k2 k3 k4 (by simp [MainIn.saCtx, mainIn, LibraryCall.args, ht]) k5 k6
    rw [libraryRun, fullMain_sa (by simp [LibraryCall.args, hm]) (by simp [LibraryCall.args, hsa])]
    unfold saStage
    rw [show (mainIn (K.inputs c.minFlameSpeed) rnd (c.args sh) d [] [] dfuel fuel saFuel).saFuel = saFuel from rfl, m1]
    dsimp only
    rw [m2]

/-! ### a concrete call -/

def libCase : Case :=
  [("temperature", .num (.fin 1000)), ("pressure", .num (.fin 1)), ("reactants", .dict [("A", .num (.fin 1))])]

/-- the condition of the file as the record to pass to `main` -/
def libConds : List Cond :=
  match parseCases (parsePsr e2eSol.names) [libCase] with | .ok l => l | .error _ => []

/-- sensitivity analysis alone, with a stirred reactor -/
def libInput (upper : Option ℚ) : InputDict :=
  { progInput "" true with ignition := [], psr := [libCase], upper := upper.map .fin }

def libShell (upper : Option ℚ) : Shell :=
  { progShell "" true with yaml := fun f => if f = "in.yaml" then .ok (libInput upper) else .error .fileNotFound }

def libCall (upper : Option ℚ) (t : Option String) : LibraryCall where
  modelFile := "m.yaml"
  errorLimit := .fin 5
  conds := ⟨[], libConds, []⟩
  method := none
  targets := some ["A"]
  safe := none
  phase := none
  sensitivity := some true
  upper := upper
  sensitivityType := t
  path := none
  threads := none
  minFlameSpeed := none

/-- the command finds the model with `A` alone, the call fails -/
example : progView "reduced_1.yaml" (program progK id (libShell none) ["-i", "in.yaml"]
      (fun _ => none) 50 20 20 e2eWorld) = some (true, some ["A"]) ∧
   runView (libraryRun progK id (libShell none) (libCall none none) (fun _ => none) 50 20 20 e2eWorld).1 = some (.error .valueError) := by
  decide +kernel

theorem lib_same (u : Option ℚ) (t : Option String) (ht : t = none ∨ t = some "initial") :
    SaysSame (libCall u t) (libInput u) "" 1 e2eSol.names := by
  refine ⟨rfl, rfl, rfl, rfl, rfl, rfl, rfl, rfl, ?_, rfl, rfl, rfl, rfl, ?_, rfl⟩
  · rcases ht with rfl | rfl <;> rfl
  · show parseCases (parsePsr e2eSol.names) [libCase] = .ok libConds
    decide +kernel

theorem lib_kept (u : Option ℚ) (t : Option String) : MixturesKept (libCall u t) := by
  have h : ∀ k ∈ libConds, k.species = .ok ["A"] := by decide +kernel
  intro k hk
  refine ⟨["A"], h k (by simpa [libCall] using hk), fun sp hsp => .inl ?_⟩
  simpa [libCall] using hsp

/-- the error of a model lacking some species -/
def libWithin (l : List String) : Bool :=
  let S := (progK.inputs none).sims id
  match sampleMetrics S e2eSol ⟨[], libConds, []⟩ ⟨1, 1, fun _ n => List.range n⟩ true (fun _ => none),
    sampleMetrics S (trim e2eSol l [] []) ⟨[], libConds, []⟩ ⟨1, 1, fun _ n => List.range n⟩ false (fun _ => none) with
  | .ok i, .ok t => match calculateError i t with
    | .ok e => !((PyF.fin 5).lt e)
    | .error _ => false
  | _, _ => false

theorem lib_removable (u : Option ℚ) (t : Option String) :
    RemovableAtWill progK id (libShell u) (libCall u t) (fun _ => none) e2eSol := by
  have hw : ∀ l ∈ [[], ["B"], ["C"], ["B", "C"]], libWithin l = true := by decide +kernel
  have hi : ∃ i, sampleMetrics ((progK.inputs none).sims id) e2eSol ⟨[], libConds, []⟩ ⟨1, 1, fun _ n => List.range n⟩
      true (fun _ => none) = .ok i := by
    have := hw [] (by simp)
    unfold libWithin at this
    dsimp only at this
    split at this
    · exact ⟨_, by assumption⟩
    · cases this
  obtain ⟨i, hi⟩ := hi
  refine ⟨i, hi, fun m l _ hm => ?_⟩
  have hrep : ∃ l' ∈ [[], ["B"], ["C"], ["B", "C"]],
      ∀ s, (s = "B" ∨ s = "C") → (s ∈ (trim e2eSol l' [] []).names ↔ s ∈ m.names) := by
    have hmem : ∀ s ∈ e2eSol.names, (s ∈ m.names ↔ s ∉ l) := by
      intro s hs; rw [hm]; simp [hs]
    have hB := hmem "B" (by decide)
    have hC := hmem "C" (by decide)
    refine ⟨(["B", "C"] : List String).filter (fun s => l.contains s), ?_, ?_⟩
    · by_cases h1 : "B" ∈ l <;> by_cases h2 : "C" ∈ l <;> simp [h1, h2]
    · rintro s (rfl | rfl) <;> rw [trim_names] <;> simp [hB, hC, show e2eSol.names = ["A", "B", "C", "D"] from rfl]
  obtain ⟨l', hl', hs⟩ := hrep
  have h := hw l' hl'
  unfold libWithin at h
  dsimp only at h
  rw [hi, ← sampleMetrics_alike (prog_depends _ m hs)] at h
  show ∃ t e, sampleMetrics ((progK.inputs none).sims id) m ⟨[], libConds, []⟩ ⟨1, 1, fun _ n => List.range n⟩
      false (fun _ => none) = .ok t ∧ calculateError i t = .ok e ∧ (PyF.fin 5).lt e = false
  split at h
  · rename_i i' t' h1 h2
    cases h1
    split at h
    · rename_i e he
      exact ⟨t', e, h2, he, by simpa using h⟩
    · cases h
  · cases h

theorem lib_tmp (u : Option ℚ) : TempDirs (libShell u) "" := by
  have T := prog_tmp "" true
  exact ⟨T.tmp_ne, T.tmp_last, T.eval_ne, T.eval_last, T.model_tmp, T.model_eval, T.apart⟩

/-- the command and the call of the example above, from the general statement -/
example {o w' evs} (h : program progK id (libShell none) ["-i", "in.yaml"] (fun _ => none) 50 20 20 e2eWorld =
    .reduced o w' evs) : o = some (.ok ()) ∧
    (libraryRun progK id (libShell none) (libCall none none) (fun _ => none) 50 20 20 e2eWorld).1.1 =
      some (.error .valueError) :=
  C151_type_refuted (sol := e2eSol) (dct := libInput none) prog_asks (by simp [libShell]) rfl (lib_same _ _ (.inl rfl))
    (lib_kept _ _) rfl rfl rfl (lib_tmp _)
    (e2eAlone_tmp [] id (fun _ => none) 0 0 0).model_tmp
    (e2eAlone_tmp [] id (fun _ => none) 0 0 0).model_eval
    ⟨"B", by decide, by simp [libCall], by simp [libCall]⟩ (lib_removable _ _) (by decide) h

/-- with the type and the threshold stated they agree -/
example {o w' evs} (h : program progK id (libShell (some (1/5))) ["-i", "in.yaml"] (fun _ => none) 50 20 20 e2eWorld =
    .reduced o w' evs) :
    ∃ r, libraryRun progK id (libShell (some (1/5))) (libCall (some (1/5)) (some "initial")) (fun _ => none) 50 20 20
      e2eWorld = ((r, w'), evs) ∧ o = r.map (fun x => x.map (fun _ => ())) :=
  C151_agree_partial (sol := e2eSol) (dct := libInput _) prog_asks (by simp [libShell]) rfl (lib_same _ _ (.inr rfl))
    (lib_kept _ _) (fun _ => ⟨by simp [libCall], _, rfl, by norm_num⟩) h

example : progView "reduced_1.yaml" (program progK id (libShell (some (1/5))) ["-i", "in.yaml"]
    (fun _ => none) 50 20 20 e2eWorld) = some (true, some ["A"]) := by
  decide +kernel

end Verif
