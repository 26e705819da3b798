import Verif.Props.ReduceCases
/-!
# Runs in which a simulation raises
-/
namespace Verif
open Spec

/-- the same context with an undefined error where the simulation raises -/
def Ctx.total (c : Ctx) (sim : Mech → Except Err PyF) : Ctx :=
  { c with errOf := simError sim }

section
variable (c : Ctx) (sim : Mech → Except Err PyF)
theorem Ctx.total_modelFile : (c.total sim).modelFile = c.modelFile := rfl
theorem Ctx.total_targets : (c.total sim).targets = c.targets := rfl
theorem Ctx.total_safe : (c.total sim).safe = c.safe := rfl
theorem Ctx.total_matrices : (c.total sim).matrices = c.matrices := rfl
theorem Ctx.total_path : (c.total sim).path = c.path := rfl
theorem Ctx.total_upper : (c.total sim).upper = c.upper := rfl
theorem Ctx.total_rndMul : (c.total sim).rndMul = c.rndMul := rfl
end

/-- two results that differ only where a simulation raises -/
def StepOut (c : Ctx) (sim : Mech → Except Err PyF) (a b : Except Err RModel × World) : Prop :=
  a = b ∨ ∃ e w1, a = (.error e, w1) ∧ b.2 = w1 ∧
    (∃ m, sim m = .error e ∧ w1.fs (redFile c m.nSpecies) = some m) ∧
    ((∃ r, b.1 = .ok r ∧ r.error = .nan ∧ sim r.model = .error e) ∨ ∃ e', b.1 = .error e')

/-- two reduction steps that differ only where a simulation raises -/
def StepRel (c : Ctx) (sim : Mech → Except Err PyF) (reduce' reduce : ReduceFn) : Prop :=
  ∀ t prev w, StepOut c sim (reduce' t prev w) (reduce t prev w)

theorem buildCandidate_total (c : Ctx) (sim : Mech → Except Err PyF) (sol : Mech)
    (removed : List String) (w : World) :
    buildCandidate c sim sol removed w = buildCandidate (c.total sim) (c.total sim).sim sol removed w ∨
    ∃ e, buildCandidate c sim sol removed w =
        (.error e, w.set (redFile c (trimmed c sol removed).nSpecies) (some (trimmed c sol removed))) ∧
      buildCandidate (c.total sim) (c.total sim).sim sol removed w =
        (.ok (trimmed c sol removed, redFile c (trimmed c sol removed).nSpecies, .nan),
          w.set (redFile c (trimmed c sol removed).nSpecies) (some (trimmed c sol removed))) ∧
      sim (trimmed c sol removed) = .error e := by
  have h1 := buildCandidate_eq (c.total sim) sol removed w
  have h2 : buildCandidate c sim sol removed w =
      (match sim (trimmed c sol removed) with
        | .error e => (.error e, w.set (redFile c (trimmed c sol removed).nSpecies) (some (trimmed c sol removed)))
        | .ok err => (.ok (trimmed c sol removed, redFile c (trimmed c sol removed).nSpecies, err),
            w.set (redFile c (trimmed c sol removed).nSpecies) (some (trimmed c sol removed)))) := by
    unfold buildCandidate
    dsimp only
    rw [writeYaml_eq, yamlName_reduced]
    simp only [loadModel, World.set_fs_same]
    rfl
  have h3 : (c.total sim).errOf (trimmed c sol removed) =
      (match sim (trimmed c sol removed) with | .ok e => e | .error _ => .nan) := rfl
  have h4 : trimmed (c.total sim) sol removed = trimmed c sol removed := rfl
  rw [h4, h3] at h1
  rcases hs : sim (trimmed c sol removed) with e | err <;> rw [hs] at h1 h2
  · exact .inr ⟨e, h2, h1, rfl⟩
  · exact .inl (h2.trans h1.symm)

theorem reduceDrg_rel (c : Ctx) (sim : Mech → Except Err PyF) :
    StepRel c sim (reduceDrgS c sim) (reduceDrg (c.total sim)) := by
  intro t prev w
  rw [reduceDrg_eq]
  unfold reduceDrgS
  simp only [Ctx.total_modelFile, Ctx.total_targets, Ctx.total_safe, Ctx.total_matrices,
    Ctx.total_upper]
  rcases loadModel w c.modelFile with e | sol
  · exact .inl rfl
  dsimp only
  rcases retained c.matrices sol.names c.targets t with e | ret
  · exact .inl rfl
  dsimp only
  rcases sameCount prev ret.length with _ | p
  · dsimp only
    rcases buildCandidate_total c sim sol
      (sol.names.filter (fun sp => !((ret ++ c.safe).contains sp))) w with h | ⟨e, h1, h2, h3⟩
    · left; rw [h]; rfl
    · right
      rw [h1, h2]
      refine ⟨e, _, rfl, ?_⟩
      dsimp only
      rcases truthy c.upper with _ | u
      · exact ⟨rfl, ⟨_, h3, World.set_fs_same _ _ _⟩, .inl ⟨_, rfl, rfl, h3⟩⟩
      · dsimp only
        rcases retained c.matrices sol.names c.targets u with e' | l
        · exact ⟨rfl, ⟨_, h3, World.set_fs_same _ _ _⟩, .inr ⟨_, rfl⟩⟩
        · exact ⟨rfl, ⟨_, h3, World.set_fs_same _ _ _⟩, .inl ⟨_, rfl, rfl, h3⟩⟩
  · exact .inl rfl

theorem reducePfa_rel (c : Ctx) (sim : Mech → Except Err PyF) :
    StepRel c sim (reducePfaS c sim) (reducePfa (c.total sim)) := by
  intro t prev w
  rw [reducePfa_eq]
  unfold reducePfaS
  simp only [Ctx.total_modelFile, Ctx.total_targets, Ctx.total_safe, Ctx.total_matrices,
    Ctx.total_upper]
  rcases loadModel w c.modelFile with e | sol
  · exact .inl rfl
  dsimp only
  rcases retained c.matrices sol.names c.targets t with e | ret
  · exact .inl rfl
  dsimp only
  rcases sameCount prev ret.length with _ | p
  · dsimp only
    rcases buildCandidate_total c sim sol
      (sol.names.filter (fun sp => !((ret ++ c.safe).contains sp))) w with h | ⟨e, h1, h2, h3⟩
    · left; rw [h]; rfl
    · right
      rw [h1, h2]
      refine ⟨e, _, rfl, ?_⟩
      dsimp only
      rcases truthy c.upper with _ | u
      · exact ⟨rfl, ⟨_, h3, World.set_fs_same _ _ _⟩, .inl ⟨_, rfl, rfl, h3⟩⟩
      · dsimp only
        rcases c.matrices.getLast? with _ | M
        · exact ⟨rfl, ⟨_, h3, World.set_fs_same _ _ _⟩, .inr ⟨_, rfl⟩⟩
        · dsimp only
          rcases trimDrg M sol.names c.targets u with e' | l
          · exact ⟨rfl, ⟨_, h3, World.set_fs_same _ _ _⟩, .inr ⟨_, rfl⟩⟩
          · exact ⟨rfl, ⟨_, h3, World.set_fs_same _ _ _⟩, .inl ⟨_, rfl, rfl, h3⟩⟩
  · exact .inl rfl

theorem reduceDrgep_rel (c : Ctx) (sim : Mech → Except Err PyF) (imp : String → Option ℚ) :
    StepRel c sim (reduceDrgepS c sim imp) (reduceDrgep (c.total sim) imp) := by
  intro t prev w
  rw [reduceDrgep_eq]
  unfold reduceDrgepS
  simp only [Ctx.total_modelFile, Ctx.total_safe]
  rcases loadModel w c.modelFile with e | sol
  · exact .inl rfl
  dsimp only
  rcases removedDrgep imp c.safe t sol.names with e | rem
  · exact .inl rfl
  dsimp only
  have key : StepOut c sim
      (match buildCandidate c sim sol rem w with
        | (.error e, w1) => (.error e, w1)
        | (.ok (red, fn, err), w1) => (.ok ⟨red, fn, err, none⟩, w1))
      (match buildCandidate (c.total sim) (c.total sim).sim sol rem w with
        | (.error e, w1) => (.error e, w1)
        | (.ok (red, fn, err), w1) => (.ok ⟨red, fn, err, none⟩, w1)) := by
    rcases buildCandidate_total c sim sol rem w with h | ⟨e, h1, h2, h3⟩
    · left; rw [h]
    · right
      rw [h1, h2]
      exact ⟨e, _, rfl, rfl, ⟨_, h3, World.set_fs_same _ _ _⟩, .inl ⟨_, rfl, rfl, h3⟩⟩
  rcases prev with _ | p
  · exact key
  · dsimp only
    by_cases hp : (rem.length : Int) = (sol.nSpecies : Int) - p.model.nSpecies
    · rw [if_pos hp]; exact .inl rfl
    · rw [if_neg hp]; exact key

/-! ### the loop -/

/-- how a run in which a simulation raises compares with the run in which it has an undefined
error: they are the same, or the first ends with the exception of a simulation, and touched no
other files -/
def RunOut (c : Ctx) (sim : Mech → Except Err PyF) (w : World) (a b : RunResult) : Prop :=
  a = b ∨ ∃ e w', a = (some (.error e), w') ∧
    (∃ m, sim m = .error e ∧ w'.fs (redFile c m.nSpecies) = some m) ∧
    (∀ f, (∀ n, f ≠ redFile c n) → w'.fs f = w.fs f) ∧ w'.limbo = w.limbo ∧
    (b.1 = none ∨ (∃ e', b.1 = some (.error e')) ∨ 
      ∃ r, b.1 = some (.ok r) ∧ r.error = .nan ∧ sim r.model = .error e)

/-- after the loop, both variants -/
structure FinishRel (c : Ctx) (sim : Mech → Except Err PyF)
    (finish' finish : LoopState → Except Err RModel × World) : Prop where
  out : ∀ s, StepOut c sim (finish' s) (finish s)
  undefined : ∀ s r, s.last = some r → r.error = .nan → s.errCur = .nan →
    ∃ e, (finish s).1 = .error e

theorem finishDrg_rel {c : Ctx} {sim : Mech → Except Err PyF} {reduce' reduce : ReduceFn}
    (h : StepRel c sim reduce' reduce) (rnd : ℚ → ℚ) (limit : PyF) (path : Text) :
    FinishRel c sim (finishDrg reduce' rnd limit path) (finishDrg reduce rnd limit path) where
  out := by
    intro s
    unfold finishDrg
    by_cases hl : limit.lt s.errCur = true
    · rw [if_pos hl, if_pos hl]; exact h _ _ _
    · rw [if_neg hl, if_neg hl]; exact .inl rfl
  undefined := by
    intro s r h1 h2 h3
    unfold finishDrg
    have : limit.lt .nan = false := by cases limit <;> rfl
    rw [h3, this, if_neg (by simp), h1]
    exact ⟨_, rfl⟩

theorem finishOther_rel {c : Ctx} {sim : Mech → Except Err PyF} {reduce' reduce : ReduceFn}
    (h : StepRel c sim reduce' reduce) (rnd : ℚ → ℚ) (limit : PyF) (path : Text) :
    FinishRel c sim (finishOther reduce' rnd limit path) (finishOther reduce rnd limit path) where
  out := by
    intro s
    unfold finishOther
    rcases s.last with _ | r
    · exact .inl rfl
    dsimp only
    by_cases hl : limit.lt r.error = true
    · rw [if_pos hl, if_pos hl]; exact h _ _ _
    · rw [if_neg hl, if_neg hl]; exact .inl rfl
  undefined := by
    intro s r h1 h2 h3
    unfold finishOther
    have : limit.lt .nan = false := by cases limit <;> rfl
    rw [h1]
    dsimp only
    rw [h2, this, if_neg (by simp)]
    exact ⟨_, rfl⟩

theorem runWith_rel {c : Ctx} {sim : Mech → Except Err PyF} {reduce' reduce : ReduceFn}
    (h : StepRel c sim reduce' reduce) (F : FileSafe c reduce)
    {finish' finish : LoopState → Except Err RModel × World} (hf : FinishRel c sim finish' finish)
    (hs : FinishSafe c finish) (rnd : ℚ → ℚ) (ex : ℚ) (limit : PyF) (fuel : Nat) (s : LoopState) :
    RunOut c sim s.w (runWith reduce' finish' rnd ex limit fuel s)
      (runWith reduce finish rnd ex limit fuel s) := by
  induction fuel generalizing s with
  | zero => exact .inl rfl
  | succ fuel ih =>
    have next : ∀ (red : ReduceFn) fin t, loopStep red rnd ex limit s = .running t →
        runWith red fin rnd ex limit (fuel + 1) s = runWith red fin rnd ex limit fuel t := by
      intro red fin t ht
      unfold runWith
      rw [whileLoop, ht]
    by_cases hle : s.errCur.le limit = true
    · rcases h s.thr (some s.prev) s.w with heq | ⟨e, w1, h1, h2, h3, h4⟩
      · have hst : loopStep reduce' rnd ex limit s = loopStep reduce rnd ex limit s := by
          unfold loopStep
          rw [heq]
        rcases ht : loopStep reduce rnd ex limit s with t | t | ⟨e, w⟩
        · rw [next reduce finish t ht, next reduce' finish' t (hst.trans ht)]
          obtain ⟨g1, g2, -, -⟩ := loopStep_touches F rnd ex limit s
          rw [ht] at g1 g2
          rcases ih t with h5 | ⟨e, w', h5, h6, h7, h8, h9⟩
          · exact .inl h5
          · exact .inr ⟨e, w', h5, h6, fun f hf => (h7 f hf).trans (g1 f hf), h8.trans g2, h9⟩
        · exfalso
          unfold loopStep at ht
          rw [if_pos hle] at ht
          split at ht
          · cases ht
          · split at ht
            · dsimp only at ht
              split at ht <;> cases ht
            · split at ht <;> cases ht
        · left
          unfold runWith
          rw [whileLoop, whileLoop, hst, ht]
      · right
        have hraise : loopStep reduce' rnd ex limit s = .raised e w1 := by
          unfold loopStep
          rw [if_pos hle, h1]
        have hrun : runWith reduce' finish' rnd ex limit (fuel + 1) s = (some (.error e), w1) := by
          unfold runWith
          rw [whileLoop, hraise]
        refine ⟨e, w1, hrun, h3, ?_, ?_, ?_⟩
        · intro f hfn
          rw [← h2]
          exact F.touches _ _ _ f hfn
        · rw [← h2]; exact F.limbo _ _ _
        · rcases hr : reduce s.thr (some s.prev) s.w with ⟨x, w2⟩
          rw [hr] at h2 h4
          dsimp only at h2 h4
          rcases h4 with ⟨r, rfl, h5, -⟩ | ⟨e', rfl⟩
          · have hnan : limit.lt .nan = false := by cases limit <;> rfl
            rcases ht : loopStep reduce rnd ex limit s with t | t | ⟨e', w⟩
            · rw [next reduce finish t ht]
              have htt : t.errCur = .nan ∧ t.last = some r := by
                unfold loopStep at ht
                rw [if_pos hle, hr] at ht
                dsimp only at ht
                rw [h5, hnan, Bool.and_false, if_neg (by simp)] at ht
                split at ht
                · cases ht
                · cases ht; exact ⟨rfl, rfl⟩
              rcases fuel with _ | fuel
              · exact .inl rfl
              · right; left
                have : loopStep reduce rnd ex limit t = .left t := by
                  unfold loopStep
                  rw [htt.1, if_neg (by cases limit <;> simp [PyF.le])]
                obtain ⟨e', he'⟩ := hf.undefined t r htt.2 h5 htt.1
                refine ⟨e', ?_⟩
                unfold runWith
                rw [whileLoop, this]
                dsimp only
                rw [he']
            · exfalso
              unfold loopStep at ht
              rw [if_pos hle, hr] at ht
              dsimp only at ht
              rw [h5, hnan, Bool.and_false, if_neg (by simp)] at ht
              split at ht <;> cases ht
            · right; left
              unfold runWith
              rw [whileLoop, ht]
              exact ⟨_, rfl⟩
          · right; left
            have : loopStep reduce rnd ex limit s = .raised e' w2 := by
              unfold loopStep
              rw [if_pos hle, hr]
            unfold runWith
            rw [whileLoop, this]
            exact ⟨_, rfl⟩
    · have hl : ∀ red : ReduceFn, loopStep red rnd ex limit s = .left s := by
        intro red
        unfold loopStep
        rw [if_neg hle]
      have hr : ∀ (red : ReduceFn) fin, runWith red fin rnd ex limit (fuel + 1) s =
          (some (fin s).1, (fin s).2) := by
        intro red fin
        unfold runWith
        rw [whileLoop, hl]
      rw [hr, hr]
      rcases hf.out s with h1 | ⟨e, w1, h1, h2, h3, h4⟩
      · left; rw [h1]
      · right
        obtain ⟨g1, g2, -, -⟩ := hs s
        refine ⟨e, w1, by rw [h1], h3, ?_, ?_, ?_⟩
        · intro f hfn; rw [← h2]; exact g1 f hfn
        · rw [← h2]; exact g2
        · rcases h4 with ⟨r, h4, h5, h6⟩ | ⟨e', h4⟩
          · exact .inr (.inr ⟨r, by rw [h4], h5, h6⟩)
          · exact .inr (.inl ⟨e', by rw [h4]⟩)

theorem runMethod_rel (m : Method) (c : Ctx) (sim : Mech → Except Err PyF) (rnd : ℚ → ℚ)
    (limit : PyF) (dfuel fuel : Nat) (w : World) :
    RunOut c sim w (runMethodS m c sim rnd limit dfuel fuel w)
      (runMethod m (c.total sim) rnd limit dfuel fuel w) := by
  cases m with
  | drg =>
    show RunOut c sim w (runDrgS c sim rnd limit fuel w) (runDrg (c.total sim) rnd limit fuel w)
    rw [runDrg_eq]
    unfold runDrgS
    simp only [Ctx.total_modelFile, Ctx.total_path]
    rcases loadModel w c.modelFile with e | sol
    · exact .inl rfl
    dsimp only
    by_cases ht : c.targets = []
    · rw [if_pos ht, if_pos (show (c.total sim).targets = [] from ht)]; exact .inl rfl
    · rw [if_neg ht, if_neg (show ¬ (c.total sim).targets = [] from ht)]
      exact runWith_rel (c := c.total sim) (reduceDrg_rel c sim) (reduceDrg_fileSafe (c.total sim))
        (finishDrg_rel (c := c.total sim) (reduceDrg_rel c sim) rnd limit c.path)
        (finishDrg_safe (reduceDrg_fileSafe (c.total sim)) rnd limit) rnd _ limit fuel _
  | pfa =>
    show RunOut c sim w (runPfaS c sim rnd limit fuel w) (runPfa (c.total sim) rnd limit fuel w)
    rw [runPfa_eq]
    unfold runPfaS
    simp only [Ctx.total_modelFile, Ctx.total_path]
    rcases loadModel w c.modelFile with e | sol
    · exact .inl rfl
    dsimp only
    by_cases ht : c.targets = []
    · rw [if_pos ht, if_pos (show (c.total sim).targets = [] from ht)]; exact .inl rfl
    · rw [if_neg ht, if_neg (show ¬ (c.total sim).targets = [] from ht)]
      exact runWith_rel (c := c.total sim) (reducePfa_rel c sim) (reducePfa_fileSafe (c.total sim))
        (finishOther_rel (c := c.total sim) (reducePfa_rel c sim) rnd limit c.path)
        (finishOther_safe (reducePfa_fileSafe (c.total sim)) rnd limit) rnd _ limit fuel _
  | drgep =>
    show RunOut c sim w (runDrgepS c sim rnd limit dfuel fuel w)
      (runDrgep (c.total sim) rnd limit dfuel fuel w)
    rw [runDrgep_eq]
    unfold runDrgepS
    simp only [Ctx.total_modelFile, Ctx.total_path]
    rcases loadModel w c.modelFile with e | sol
    · exact .inl rfl
    dsimp only
    by_cases ht : c.targets = []
    · rw [if_pos ht, if_pos (show (c.total sim).targets = [] from ht)]; exact .inl rfl
    · rw [if_neg ht, if_neg (show ¬ (c.total sim).targets = [] from ht)]
      simp only [Ctx.total_targets, Ctx.total_matrices, Ctx.total_rndMul]
      rcases getImportanceCoeffs c.rndMul sol.names c.targets c.matrices dfuel with e | imp
      · exact .inl rfl
      dsimp only
      rcases runWith_rel (c := c.total sim) (reduceDrgep_rel c sim imp) (reduceDrgep_fileSafe (c.total sim) imp)
        (finishOther_rel (c := c.total sim) (reduceDrgep_rel c sim imp) rnd limit c.path)
        (finishOther_safe (reduceDrgep_fileSafe (c.total sim) imp) rnd limit) rnd (rnd (1 / 1000000))
        limit fuel (loopInit rnd sol c.modelFile w) with h | ⟨e, w', h1, h2, h3, h4, h5⟩
      · left; rw [h]; rfl
      · right
        rw [h1]
        refine ⟨e, w', rfl, h2, h3, h4, ?_⟩
        revert h5
        rcases runWith (reduceDrgep (c.total sim) imp)
          (finishOther (reduceDrgep (c.total sim) imp) rnd limit c.path) rnd (rnd (1 / 1000000))
          limit fuel (loopInit rnd sol c.modelFile w) with ⟨_ | (e' | r), w2⟩ <;> intro h5
        · exact .inl rfl
        · exact .inr (.inl ⟨_, rfl⟩)
        · rcases h5 with h5 | ⟨_, h5⟩ | ⟨r', h5, h6, h7⟩
          · cases h5
          · cases h5
          · cases h5
            refine .inr (.inr ⟨_, rfl, ?_⟩)
            rw [← h6, ← h7]
            unfold appendLimbo
            split <;> exact ⟨rfl, rfl⟩

/-- a run that returns a model is the run in which no simulation raises -/
theorem runMethodS_ok {m : Method} {c : Ctx} {sim : Mech → Except Err PyF} {rnd : ℚ → ℚ}
    {limit : PyF} {dfuel fuel : Nat} {w w' : World} {r : RModel}
    (h : runMethodS m c sim rnd limit dfuel fuel w = (some (.ok r), w')) :
    runMethod m (c.total sim) rnd limit dfuel fuel w = (some (.ok r), w') := by
  rcases runMethod_rel m c sim rnd limit dfuel fuel w with h1 | ⟨e, w1, h1, -⟩
  · rw [← h1, h]
  · rw [h1] at h; cases h

/-! ### what is returned was simulated -/

theorem buildCandidate_sim {c : Ctx} {sim : Mech → Except Err PyF} {sol red : Mech}
    {removed : List String} {w w1 : World} {fn : Text} {err : PyF}
    (h : buildCandidate c sim sol removed w = (.ok (red, fn, err), w1)) : sim red = .ok err := by
  have h2 : buildCandidate c sim sol removed w =
      (match sim (trimmed c sol removed) with
        | .error e => (.error e, w.set (redFile c (trimmed c sol removed).nSpecies) (some (trimmed c sol removed)))
        | .ok err => (.ok (trimmed c sol removed, redFile c (trimmed c sol removed).nSpecies, err),
            w.set (redFile c (trimmed c sol removed).nSpecies) (some (trimmed c sol removed)))) := by
    unfold buildCandidate
    dsimp only
    rw [writeYaml_eq, yamlName_reduced]
    simp only [loadModel, World.set_fs_same]
    rfl
  rw [h2] at h
  rcases hs : sim (trimmed c sol removed) with e | x <;> rw [hs] at h
  · cases h
  · cases h; exact hs

theorem reduceDrgS_sim {c : Ctx} {sim : Mech → Except Err PyF} {t : ℚ} {w w' : World} {r : RModel}
    (h : reduceDrgS c sim t none w = (.ok r, w')) : sim r.model = .ok r.error := by
  unfold reduceDrgS at h
  rcases hx1 : loadModel w c.modelFile with e | sol <;> rw [hx1] at h
  · cases h
  dsimp only at h
  rcases hx2 : retained c.matrices sol.names c.targets t with e | ret <;> rw [hx2] at h
  · cases h
  simp only [sameCount] at h
  rcases hb : buildCandidate c sim sol
      (sol.names.filter (fun sp => !((ret ++ c.safe).contains sp))) w with ⟨e | ⟨red, fn, err⟩, w1⟩ <;>
    rw [hb] at h <;> dsimp only at h
  · cases h
  · have := buildCandidate_sim hb
    rcases hx3 : truthy c.upper with _ | u <;> rw [hx3] at h <;> dsimp only at h
    · cases h; exact this
    · rcases hx4 : retained c.matrices sol.names c.targets u with e | l <;> rw [hx4] at h <;> dsimp only at h
      · cases h
      · cases h; exact this

theorem reducePfaS_sim {c : Ctx} {sim : Mech → Except Err PyF} {t : ℚ} {w w' : World} {r : RModel}
    (h : reducePfaS c sim t none w = (.ok r, w')) : sim r.model = .ok r.error := by
  unfold reducePfaS at h
  rcases hx1 : loadModel w c.modelFile with e | sol <;> rw [hx1] at h
  · cases h
  dsimp only at h
  rcases hx2 : retained c.matrices sol.names c.targets t with e | ret <;> rw [hx2] at h
  · cases h
  simp only [sameCount] at h
  rcases hb : buildCandidate c sim sol
      (sol.names.filter (fun sp => !((ret ++ c.safe).contains sp))) w with ⟨e | ⟨red, fn, err⟩, w1⟩ <;>
    rw [hb] at h <;> dsimp only at h
  · cases h
  · have := buildCandidate_sim hb
    rcases hx3 : truthy c.upper with _ | u <;> rw [hx3] at h <;> dsimp only at h
    · cases h; exact this
    · rcases hx4 : c.matrices.getLast? with _ | M <;> rw [hx4] at h <;> dsimp only at h
      · cases h
      · rcases hx5 : trimDrg M sol.names c.targets u with e | l <;> rw [hx5] at h <;> dsimp only at h
        · cases h
        · cases h; exact this

theorem reduceDrgepS_sim {c : Ctx} {sim : Mech → Except Err PyF} {imp : String → Option ℚ} {t : ℚ}
    {w w' : World} {r : RModel}
    (h : reduceDrgepS c sim imp t none w = (.ok r, w')) : sim r.model = .ok r.error := by
  unfold reduceDrgepS at h
  rcases hx1 : loadModel w c.modelFile with e | sol <;> rw [hx1] at h
  · cases h
  dsimp only at h
  rcases hx2 : removedDrgep imp c.safe t sol.names with e | rem <;> rw [hx2] at h
  · cases h
  dsimp only at h
  rcases hb : buildCandidate c sim sol rem w with ⟨e | ⟨red, fn, err⟩, w1⟩ <;>
    rw [hb] at h <;> dsimp only at h
  · cases h
  · cases h; exact buildCandidate_sim hb

theorem runWith_ok_last {reduce : ReduceFn}
    {finish : LoopState → Except Err RModel × World} {rnd : ℚ → ℚ}
    (hf : ∀ s r, (finish s).1 = .ok r → ∃ t, finish s = reduce t none s.w)
    {ex : ℚ} {limit : PyF} {fuel : Nat} {s : LoopState} {r : RModel} {w' : World}
    (hrun : runWith reduce finish rnd ex limit fuel s = (some (.ok r), w')) :
    ∃ t w1, reduce t none w1 = (.ok r, w') := by
  unfold runWith at hrun
  rcases hst : whileLoop reduce rnd ex limit fuel s with t | t | ⟨e, w⟩
  · rw [hst] at hrun; simp at hrun
  · rw [hst] at hrun
    simp only [Prod.mk.injEq, Option.some.injEq] at hrun
    obtain ⟨q, hq⟩ := hf t r hrun.1
    refine ⟨q, t.w, ?_⟩
    rw [← hq]
    exact Prod.ext hrun.1 hrun.2
  · rw [hst] at hrun; simp at hrun

/-- the simulation of a returned model did not raise, and gave the error reported -/
theorem runMethodS_simulated {m : Method} {c : Ctx} {sim : Mech → Except Err PyF} {rnd : ℚ → ℚ}
    {limit : PyF} {dfuel fuel : Nat} {w w' : World} {r : RModel}
    (h : runMethodS m c sim rnd limit dfuel fuel w = (some (.ok r), w')) :
    sim r.model = .ok r.error := by
  cases m with
  | drg =>
    change runDrgS c sim rnd limit fuel w = _ at h
    unfold runDrgS at h
    rcases hx1 : loadModel w c.modelFile with e | sol <;> rw [hx1] at h
    · cases h
    dsimp only at h
    by_cases ht : c.targets = []
    · rw [if_pos ht] at h; cases h
    · rw [if_neg ht] at h
      obtain ⟨t, w1, h1⟩ := runWith_ok_last (finish := finishDrg (reduceDrgS c sim) rnd limit c.path) (fun s r h => finishDrg_fresh s r h) h
      exact reduceDrgS_sim h1
  | pfa =>
    change runPfaS c sim rnd limit fuel w = _ at h
    unfold runPfaS at h
    rcases hx1 : loadModel w c.modelFile with e | sol <;> rw [hx1] at h
    · cases h
    dsimp only at h
    by_cases ht : c.targets = []
    · rw [if_pos ht] at h; cases h
    · rw [if_neg ht] at h
      obtain ⟨t, w1, h1⟩ := runWith_ok_last
        (finish := finishOther (reducePfaS c sim) rnd limit c.path)
        (fun s r h => finishOther_fresh s r h) h
      exact reducePfaS_sim h1
  | drgep =>
    change runDrgepS c sim rnd limit dfuel fuel w = _ at h
    unfold runDrgepS at h
    rcases hx1 : loadModel w c.modelFile with e | sol <;> rw [hx1] at h
    · cases h
    dsimp only at h
    by_cases ht : c.targets = []
    · rw [if_pos ht] at h; cases h
    · rw [if_neg ht] at h
      rcases hx2 : getImportanceCoeffs c.rndMul sol.names c.targets c.matrices dfuel with e | imp <;> rw [hx2] at h
      · cases h
      dsimp only at h
      rcases hr : runWith (reduceDrgepS c sim imp)
          (finishOther (reduceDrgepS c sim imp) rnd limit c.path) rnd (rnd (1 / 1000000))
          limit fuel (loopInit rnd sol c.modelFile w) with ⟨_ | (e' | r'), w2⟩ <;> rw [hr] at h
      · cases h
      · cases h
      · obtain ⟨t, w1, h1⟩ := runWith_ok_last
          (finish := finishOther (reduceDrgepS c sim imp) rnd limit c.path)
          (fun s r h => finishOther_fresh s r h) hr
        have := reduceDrgepS_sim h1
        cases h
        unfold appendLimbo
        split <;> exact this

end Verif
