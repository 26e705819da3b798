import Verif.Lemmas.OrderStep
/-!
# Two runs whose simulations give different errors but the same decisions
-/
namespace Verif
open Spec

/-- the same model up to the error -/
structure RelM (E : PyF → PyF → Prop) (r r' : RModel) : Prop where
  model : r'.model = r.model
  filename : r'.filename = r.filename
  limbo : r'.limbo = r.limbo
  error : E r.error r'.error

/-- the same exception, or models that differ in the error; the same world -/
inductive RelStep (E : PyF → PyF → Prop) : Except Err RModel × World → Except Err RModel × World → Prop
  | error (e : Err) (w : World) : RelStep E (.error e, w) (.error e, w)
  | ok {r r' : RModel} (w : World) (h : RelM E r r') : RelStep E (.ok r, w) (.ok r', w)

/-- the same exception, or related errors -/
inductive RelSim (E : PyF → PyF → Prop) : Except Err PyF → Except Err PyF → Prop
  | error (e : Err) : RelSim E (.error e) (.error e)
  | ok {x x' : PyF} (h : E x x') : RelSim E (.ok x) (.ok x')

/-- related optional models -/
inductive RelO (E : PyF → PyF → Prop) : Option RModel → Option RModel → Prop
  | none : RelO E none none
  | some {r r' : RModel} (h : RelM E r r') : RelO E (some r) (some r')

section
variable {c : Ctx} {sol : Mech} {sim sim' : Mech → Except Err PyF} {E : PyF → PyF → Prop}

theorem buildCandidate_cases (c : Ctx) (sim : Mech → Except Err PyF) (sol : Mech) (removed : List String)
    (w : World) : buildCandidate c sim sol removed w =
      (match sim (trimmed c sol removed) with
        | .error e => (.error e, w.set (redFile c (trimmed c sol removed).nSpecies) (some (trimmed c sol removed)))
        | .ok err => (.ok (trimmed c sol removed, redFile c (trimmed c sol removed).nSpecies, err),
            w.set (redFile c (trimmed c sol removed).nSpecies) (some (trimmed c sol removed)))) := by
  unfold buildCandidate
  dsimp only
  rw [writeYaml_eq, yamlName_reduced]
  simp only [loadModel, World.set_fs_same]
  rfl

theorem buildCandidate_rel (hs : ∀ l, RelSim E (sim (trimmed c sol l)) (sim' (trimmed c sol l)))
    (l : List String) (w : World) :
    (∃ e w1, buildCandidate c sim sol l w = (.error e, w1) ∧ buildCandidate c sim' sol l w = (.error e, w1)) ∨
    ∃ m f x x' w1, buildCandidate c sim sol l w = (.ok (m, f, x), w1) ∧
      buildCandidate c sim' sol l w = (.ok (m, f, x'), w1) ∧ E x x' := by
  rw [buildCandidate_cases, buildCandidate_cases]
  have h := hs l
  generalize sim (trimmed c sol l) = a at h
  generalize sim' (trimmed c sol l) = b at h
  cases h with
  | error e => exact .inl ⟨_, _, rfl, rfl⟩
  | ok h => exact .inr ⟨_, _, _, _, _, rfl, rfl, h⟩

theorem sameCount_rel {p p' : Option RModel} (h : RelO E p p') (n : Nat) :
    RelO E (sameCount p n) (sameCount p' n) := by
  cases h with
  | none => exact .none
  | some h =>
    unfold sameCount
    dsimp only
    rw [h.model]
    split
    · exact .some h
    · exact .none

theorem reduceDrg_errs (hs : ∀ l, RelSim E (sim (trimmed c sol l)) (sim' (trimmed c sol l))) (t : ℚ)
    {p p' : Option RModel} (hp : RelO E p p') {w : World} (hf : w.fs c.modelFile = some sol) :
    RelStep E (reduceDrgS c sim t p w) (reduceDrgS c sim' t p' w) := by
  unfold reduceDrgS
  have h1 : loadModel w c.modelFile = .ok sol := by unfold loadModel; rw [hf]
  rw [h1]
  dsimp only
  rcases retained c.matrices sol.names c.targets t with e | l
  · exact .error e w
  dsimp only
  have h2 := sameCount_rel hp l.length
  generalize sameCount p l.length = a at h2
  generalize sameCount p' l.length = b at h2
  cases h2 with
  | some h => exact .ok w h
  | none =>
    dsimp only
    rcases buildCandidate_rel hs (sol.names.filter (fun sp => !((l ++ c.safe).contains sp))) w with
      ⟨e, w1, h3, h4⟩ | ⟨m, f, x, x', w1, h3, h4, h5⟩ <;> rw [h3, h4]
    · exact .error e w1
    · dsimp only
      rcases truthy c.upper with _ | u
      · exact .ok w1 ⟨rfl, rfl, rfl, h5⟩
      · dsimp only
        rcases retained c.matrices sol.names c.targets u with e | l'
        · exact .error e w1
        · exact .ok w1 ⟨rfl, rfl, rfl, h5⟩

theorem reducePfa_errs (hs : ∀ l, RelSim E (sim (trimmed c sol l)) (sim' (trimmed c sol l))) (t : ℚ)
    {p p' : Option RModel} (hp : RelO E p p') {w : World} (hf : w.fs c.modelFile = some sol) :
    RelStep E (reducePfaS c sim t p w) (reducePfaS c sim' t p' w) := by
  unfold reducePfaS
  have h1 : loadModel w c.modelFile = .ok sol := by unfold loadModel; rw [hf]
  rw [h1]
  dsimp only
  rcases retained c.matrices sol.names c.targets t with e | l
  · exact .error e w
  dsimp only
  have h2 := sameCount_rel hp l.length
  generalize sameCount p l.length = a at h2
  generalize sameCount p' l.length = b at h2
  cases h2 with
  | some h => exact .ok w h
  | none =>
    dsimp only
    rcases buildCandidate_rel hs (sol.names.filter (fun sp => !((l ++ c.safe).contains sp))) w with
      ⟨e, w1, h3, h4⟩ | ⟨m, f, x, x', w1, h3, h4, h5⟩ <;> rw [h3, h4]
    · exact .error e w1
    · dsimp only
      rcases truthy c.upper with _ | u
      · exact .ok w1 ⟨rfl, rfl, rfl, h5⟩
      · dsimp only
        rcases c.matrices.getLast? with _ | M
        · exact .error _ w1
        · dsimp only
          rcases trimDrg M sol.names c.targets u with e | l'
          · exact .error e w1
          · exact .ok w1 ⟨rfl, rfl, rfl, h5⟩

theorem reduceDrgep_errs (hs : ∀ l, RelSim E (sim (trimmed c sol l)) (sim' (trimmed c sol l)))
    (imp : String → Option ℚ) (t : ℚ)
    {p p' : Option RModel} (hp : RelO E p p') {w : World} (hf : w.fs c.modelFile = some sol) :
    RelStep E (reduceDrgepS c sim imp t p w) (reduceDrgepS c sim' imp t p' w) := by
  unfold reduceDrgepS
  have h1 : loadModel w c.modelFile = .ok sol := by unfold loadModel; rw [hf]
  rw [h1]
  dsimp only
  rcases removedDrgep imp c.safe t sol.names with e | l
  · exact .error e w
  dsimp only
  have key : RelStep E
      (match buildCandidate c sim sol l w with
        | (.error e, w1) => (.error e, w1)
        | (.ok (red, fn, err), w1) => (.ok ⟨red, fn, err, none⟩, w1))
      (match buildCandidate c sim' sol l w with
        | (.error e, w1) => (.error e, w1)
        | (.ok (red, fn, err), w1) => (.ok ⟨red, fn, err, none⟩, w1)) := by
    rcases buildCandidate_rel hs l w with ⟨e, w1, h3, h4⟩ | ⟨m, f, x, x', w1, h3, h4, h5⟩ <;> rw [h3, h4]
    · exact .error e w1
    · exact .ok w1 ⟨rfl, rfl, rfl, h5⟩
  cases hp with
  | none => exact key
  | @some r r' h =>
    dsimp only
    rw [h.model]
    by_cases hc : (l.length : Int) = (sol.nSpecies : Int) - r.model.nSpecies
    · rw [if_pos hc, if_pos hc]; exact .ok w h
    · rw [if_neg hc, if_neg hc]; exact key

/-! ### the loop -/

/-- two reduction steps that agree up to the errors -/
structure StepErrs (E : PyF → PyF → Prop) (c : Ctx) (sol : Mech) (red red' : ReduceFn) : Prop
    extends KeepsFile c sol red where
  agree : ∀ t p p' w, RelO E p p' → w.fs c.modelFile = some sol → RelStep E (red t p w) (red' t p' w)

/-- two states of the loop that differ in errors only -/
structure LoopErrs (E : PyF → PyF → Prop) (c : Ctx) (sol : Mech) (s s' : LoopState) : Prop where
  first : s'.first = s.first
  errCur : E s.errCur s'.errCur
  thr : s'.thr = s.thr
  inc : s'.inc = s.inc
  prev : RelM E s.prev s'.prev
  last : RelO E s.last s'.last
  world : s'.w = s.w
  file : s.w.fs c.modelFile = some sol

/-- errors that compare alike with the limit -/
def Compares (E : PyF → PyF → Prop) (limit : PyF) : Prop :=
  E (.fin 0) (.fin 0) ∧ ∀ x x', E x x' → x'.le limit = x.le limit ∧ limit.lt x' = limit.lt x

theorem loopStep_errs {red red' : ReduceFn} (S : Setting c sol) (H : StepErrs E c sol red red')
    (rnd : ℚ → ℚ) (ex : ℚ) {limit : PyF} (C : Compares E limit) {s s' : LoopState} (A : LoopErrs E c sol s s') :
    (∃ t t', loopStep red rnd ex limit s = .running t ∧ loopStep red' rnd ex limit s' = .running t' ∧
      LoopErrs E c sol t t') ∨
    (loopStep red rnd ex limit s = .left s ∧ loopStep red' rnd ex limit s' = .left s') ∨
    ∃ e w, loopStep red rnd ex limit s = .raised e w ∧ loopStep red' rnd ex limit s' = .raised e w := by
  unfold loopStep
  rw [(C.2 _ _ A.errCur).1]
  by_cases hle : s.errCur.le limit = true
  swap
  · rw [if_neg hle, if_neg hle]; exact .inr (.inl ⟨rfl, rfl⟩)
  rw [if_pos hle, if_pos hle, A.thr, A.inc, A.first, A.world]
  have hag := H.agree s.thr (some s.prev) (some s'.prev) s.w (.some A.prev) A.file
  have hfile := H.file s.thr (some s.prev) s.w A.file
  have hname := H.name s.thr (some s.prev) s.w
  generalize red s.thr (some s.prev) s.w = a at *
  generalize red' s.thr (some s'.prev) s.w = b at *
  cases hag with
  | error e w => exact .inr (.inr ⟨e, w, rfl, rfl⟩)
  | @ok r r' w h =>
    dsimp only at hfile hname ⊢
    rw [(C.2 _ _ h.error).2, h.model, h.filename, A.prev.model]
    by_cases hx : (s.first && limit.lt r.error) = true
    · rw [if_pos hx, if_pos hx]
      by_cases hex : rnd (s.thr / 10) ≤ ex
      · rw [if_pos hex, if_pos hex]
        exact .inr (.inr ⟨_, _, rfl, rfl⟩)
      · rw [if_neg hex, if_neg hex]
        exact .inl ⟨_, _, rfl, rfl, ⟨rfl, C.1, rfl, rfl, A.prev, .some h, rfl, hfile⟩⟩
    · rw [if_neg hx, if_neg hx]
      by_cases hc : s.prev.model.nSpecies ≠ r.model.nSpecies
      · rw [if_pos hc]
        have hkeep : (removeFile w r.filename).2.fs c.modelFile = some sol := by
          rcases hname r rfl with h0 | ⟨n, h0⟩
          · cases h0; exact absurd rfl hc
          · have hne : c.modelFile ≠ r.filename := by rw [h0]; exact fun h => S.noclash n h.symm
            unfold removeFile
            split_ifs
            · show (w.set _ _).fs _ = _
              rw [World.set_fs_ne _ _ _ _ hne]; exact hfile
            · exact hfile
        rcases hrf : removeFile w r.filename with ⟨x, w2⟩
        rw [hrf] at hkeep
        rcases x with e | _
        · exact .inr (.inr ⟨_, _, rfl, rfl⟩)
        · exact .inl ⟨_, _, rfl, rfl, ⟨rfl, h.error, rfl, rfl, h, .some h, rfl, hkeep⟩⟩
      · rw [if_neg hc]
        exact .inl ⟨_, _, rfl, rfl, ⟨rfl, h.error, rfl, rfl, h, .some h, rfl, hfile⟩⟩

/-- runs that agree up to the errors -/
inductive RelRun (E : PyF → PyF → Prop) : RunResult → RunResult → Prop
  | running (w : World) : RelRun E (none, w) (none, w)
  | raised (e : Err) (w : World) : RelRun E (some (.error e), w) (some (.error e), w)
  | returned {r r' : RModel} (w : World) (h : RelM E r r') : RelRun E (some (.ok r), w) (some (.ok r'), w)

theorem RelStep.run {a b : Except Err RModel × World} (h : RelStep E a b) :
    RelRun E (some a.1, a.2) (some b.1, b.2) := by
  cases h with
  | error e w => exact .raised e w
  | ok w h => exact .returned w h

theorem runWith_errs {red red' : ReduceFn} (S : Setting c sol) (H : StepErrs E c sol red red')
    {fin fin' : LoopState → Except Err RModel × World}
    (hf : ∀ s s', LoopErrs E c sol s s' → RelStep E (fin s) (fin' s'))
    (rnd : ℚ → ℚ) (ex : ℚ) {limit : PyF} (C : Compares E limit) (fuel : Nat) {s s' : LoopState}
    (A : LoopErrs E c sol s s') :
    RelRun E (runWith red fin rnd ex limit fuel s) (runWith red' fin' rnd ex limit fuel s') := by
  induction fuel generalizing s s' with
  | zero =>
    show RelRun E (none, s.w) (none, s'.w)
    rw [A.world]; exact .running _
  | succ fuel ih =>
    rcases loopStep_errs S H rnd ex C A with ⟨t, t', h1, h2, h3⟩ | ⟨h1, h2⟩ | ⟨e, w, h1, h2⟩
    · have a1 : runWith red fin rnd ex limit (fuel + 1) s = runWith red fin rnd ex limit fuel t := by
        unfold runWith; rw [whileLoop, h1]
      have a2 : runWith red' fin' rnd ex limit (fuel + 1) s' = runWith red' fin' rnd ex limit fuel t' := by
        unfold runWith; rw [whileLoop, h2]
      rw [a1, a2]; exact ih h3
    · have a1 : runWith red fin rnd ex limit (fuel + 1) s = (some (fin s).1, (fin s).2) := by
        unfold runWith; rw [whileLoop, h1]
      have a2 : runWith red' fin' rnd ex limit (fuel + 1) s' = (some (fin' s').1, (fin' s').2) := by
        unfold runWith; rw [whileLoop, h2]
      rw [a1, a2]
      exact (hf s s' A).run
    · have a1 : runWith red fin rnd ex limit (fuel + 1) s = (some (.error e), w) := by
        unfold runWith; rw [whileLoop, h1]
      have a2 : runWith red' fin' rnd ex limit (fuel + 1) s' = (some (.error e), w) := by
        unfold runWith; rw [whileLoop, h2]
      rw [a1, a2]
      exact .raised e w

theorem finishDrg_errs {red red' : ReduceFn} (H : StepErrs E c sol red red') (rnd : ℚ → ℚ) {limit : PyF}
    (C : Compares E limit) (path : Text) (s s' : LoopState) (A : LoopErrs E c sol s s') :
    RelStep E (finishDrg red rnd limit path s) (finishDrg red' rnd limit path s') := by
  unfold finishDrg backStep
  rw [(C.2 _ _ A.errCur).2, A.thr, A.inc, A.world]
  by_cases hl : limit.lt s.errCur = true
  · rw [if_pos hl, if_pos hl]; exact H.agree _ _ _ _ .none A.file
  · rw [if_neg hl, if_neg hl]
    have := A.last
    generalize s.last = a at this
    generalize s'.last = b at this
    cases this with
    | none => exact .error _ _
    | some h => dsimp only; rw [h.model]; exact .error _ _

theorem finishOther_errs {red red' : ReduceFn} (H : StepErrs E c sol red red') (rnd : ℚ → ℚ) {limit : PyF}
    (C : Compares E limit) (path : Text) (s s' : LoopState) (A : LoopErrs E c sol s s') :
    RelStep E (finishOther red rnd limit path s) (finishOther red' rnd limit path s') := by
  unfold finishOther backStep
  rw [A.thr, A.inc, A.world]
  have := A.last
  generalize s.last = a at this
  generalize s'.last = b at this
  cases this with
  | none => exact .error _ _
  | @some r r' h =>
    dsimp only
    rw [(C.2 _ _ h.error).2, h.model]
    by_cases hl : limit.lt r.error = true
    · rw [if_pos hl, if_pos hl]; exact H.agree _ _ _ _ .none A.file
    · rw [if_neg hl, if_neg hl]; exact .error _ _

theorem loopInit_errs (rnd : ℚ → ℚ) {limit : PyF} (C : Compares E limit) {w : World}
    (hf : w.fs c.modelFile = some sol) :
    LoopErrs E c sol (loopInit rnd sol c.modelFile w) (loopInit rnd sol c.modelFile w) :=
  ⟨rfl, C.1, rfl, rfl, ⟨rfl, rfl, rfl, C.1⟩, .none, rfl, hf⟩

/-- whole runs whose simulations give errors that compare alike with the limit -/
theorem runMethodS_errs (m : Method) (S : Setting c sol)
    (hs : ∀ l, RelSim E (sim (trimmed c sol l)) (sim' (trimmed c sol l))) (rnd : ℚ → ℚ) {limit : PyF}
    (C : Compares E limit) (dfuel fuel : Nat) {w : World} (hf : w.fs c.modelFile = some sol) :
    RelRun E (runMethodS m c sim rnd limit dfuel fuel w) (runMethodS m c sim' rnd limit dfuel fuel w) := by
  have h1 : loadModel w c.modelFile = .ok sol := by unfold loadModel; rw [hf]
  cases m with
  | drg =>
    have H : StepErrs E c sol (reduceDrgS c sim) (reduceDrgS c sim') :=
      ⟨.of_rel S (reduceDrg_rel c sim) (reduceDrg_fileSafe (c.total sim)),
        fun t p p' w hp hf => reduceDrg_errs hs t hp hf⟩
    show RelRun E (runDrgS c sim rnd limit fuel w) (runDrgS c sim' rnd limit fuel w)
    unfold runDrgS
    rw [h1]
    dsimp only
    split
    · exact .raised _ w
    · exact runWith_errs S H (finishDrg_errs H rnd C c.path) rnd _ C fuel (loopInit_errs rnd C hf)
  | pfa =>
    have H : StepErrs E c sol (reducePfaS c sim) (reducePfaS c sim') :=
      ⟨.of_rel S (reducePfa_rel c sim) (reducePfa_fileSafe (c.total sim)),
        fun t p p' w hp hf => reducePfa_errs hs t hp hf⟩
    show RelRun E (runPfaS c sim rnd limit fuel w) (runPfaS c sim' rnd limit fuel w)
    unfold runPfaS
    rw [h1]
    dsimp only
    split
    · exact .raised _ w
    · exact runWith_errs S H (finishOther_errs H rnd C c.path) rnd _ C fuel (loopInit_errs rnd C hf)
  | drgep =>
    show RelRun E (runDrgepS c sim rnd limit dfuel fuel w) (runDrgepS c sim' rnd limit dfuel fuel w)
    unfold runDrgepS
    rw [h1]
    dsimp only
    split
    · exact .raised _ w
    · rcases getImportanceCoeffs c.rndMul sol.names c.targets c.matrices dfuel with e | imp
      · exact .raised e w
      dsimp only
      have H : StepErrs E c sol (reduceDrgepS c sim imp) (reduceDrgepS c sim' imp) :=
        ⟨.of_rel S (reduceDrgep_rel c sim imp) (reduceDrgep_fileSafe (c.total sim) imp),
          fun t p p' w hp hf => reduceDrgep_errs hs imp t hp hf⟩
      have g := runWith_errs S H (finishOther_errs H rnd C c.path) rnd (rnd (1 / 1000000)) C fuel
        (loopInit_errs rnd C hf)
      generalize runWith (reduceDrgepS c sim imp) (finishOther (reduceDrgepS c sim imp) rnd limit c.path) rnd
        (rnd (1 / 1000000)) limit fuel (loopInit rnd sol c.modelFile w) = a at g
      generalize runWith (reduceDrgepS c sim' imp) (finishOther (reduceDrgepS c sim' imp) rnd limit c.path) rnd
        (rnd (1 / 1000000)) limit fuel (loopInit rnd sol c.modelFile w) = b at g
      cases g with
      | running w => exact .running w
      | raised e w => exact .raised e w
      | @returned r r' w h =>
        dsimp only
        have hl : limboDrgep c imp r' = limboDrgep c imp r := by unfold limboDrgep; rw [h.model]
        rw [hl]
        unfold appendLimbo
        rw [h.limbo]
        rcases r.limbo with _ | l
        · exact .returned _ ⟨h.model, h.filename, h.limbo, h.error⟩
        · exact .returned _ ⟨h.model, h.filename, rfl, h.error⟩

end
end Verif
