import Verif.Lemmas.ReduceRaise
/-!
# Runs with two ways of simulating that differ only in the exceptions they raise
-/
namespace Verif
open Spec

/-- the same, or both raise and leave the same files -/
def BothRaise {α} (a b : Except Err α × World) : Prop :=
  a = b ∨ ∃ e e' w1, a = (.error e, w1) ∧ b = (.error e', w1)

theorem toOption_cases {α} {x y : Except Err α} (h : x.toOption = y.toOption) :
    (∃ v, x = .ok v ∧ y = .ok v) ∨ ∃ e e', x = .error e ∧ y = .error e' := by
  rcases x with e | v <;> rcases y with e' | v' <;> simp [Except.toOption] at h
  · exact .inr ⟨_, _, rfl, rfl⟩
  · subst h; exact .inl ⟨_, rfl, rfl⟩

section
variable {c : Ctx} {sim1 sim2 : Mech → Except Err PyF} (h : ∀ m, (sim1 m).toOption = (sim2 m).toOption)
include h

theorem buildCandidate_same (sol : Mech) (removed : List String) (w : World) :
    BothRaise (buildCandidate c sim1 sol removed w) (buildCandidate c sim2 sol removed w) := by
  unfold buildCandidate
  dsimp only
  generalize loadModel (writeYaml w (trim sol removed ("reduced_".toList ++ c.modelFile) c.phase)
    (reducedName (trim sol removed ("reduced_".toList ++ c.modelFile) c.phase).nSpecies) c.path).2 _ = x
  rcases x with e | m
  · exact .inl rfl
  · dsimp only
    rcases toOption_cases (h m) with ⟨v, h1, h2⟩ | ⟨e, e', h1, h2⟩ <;> rw [h1, h2]
    · exact .inl rfl
    · exact .inr ⟨e, e', _, rfl, rfl⟩

theorem reduceDrg_same (t : ℚ) (prev : Option RModel) (w : World) :
    BothRaise (reduceDrgS c sim1 t prev w) (reduceDrgS c sim2 t prev w) := by
  unfold reduceDrgS
  rcases loadModel w c.modelFile with e | sol
  · exact .inl rfl
  dsimp only
  rcases retained c.matrices sol.names c.targets t with e | ret
  · exact .inl rfl
  dsimp only
  rcases sameCount prev ret.length with _ | p
  · dsimp only
    rcases buildCandidate_same h sol
      (sol.names.filter (fun sp => !((ret ++ c.safe).contains sp))) w with h | ⟨e, e', w1, h1, h2⟩
    · left; rw [h]
    · right; rw [h1, h2]; exact ⟨e, e', w1, rfl, rfl⟩
  · exact .inl rfl

theorem reducePfa_same (t : ℚ) (prev : Option RModel) (w : World) :
    BothRaise (reducePfaS c sim1 t prev w) (reducePfaS c sim2 t prev w) := by
  unfold reducePfaS
  rcases loadModel w c.modelFile with e | sol
  · exact .inl rfl
  dsimp only
  rcases retained c.matrices sol.names c.targets t with e | ret
  · exact .inl rfl
  dsimp only
  rcases sameCount prev ret.length with _ | p
  · dsimp only
    rcases buildCandidate_same h sol
      (sol.names.filter (fun sp => !((ret ++ c.safe).contains sp))) w with h | ⟨e, e', w1, h1, h2⟩
    · left; rw [h]
    · right; rw [h1, h2]; exact ⟨e, e', w1, rfl, rfl⟩
  · exact .inl rfl

theorem reduceDrgep_same (imp : String → Option ℚ) (t : ℚ) (prev : Option RModel) (w : World) :
    BothRaise (reduceDrgepS c sim1 imp t prev w) (reduceDrgepS c sim2 imp t prev w) := by
  unfold reduceDrgepS
  rcases loadModel w c.modelFile with e | sol
  · exact .inl rfl
  dsimp only
  rcases removedDrgep imp c.safe t sol.names with e | rem
  · exact .inl rfl
  dsimp only
  have key : BothRaise
      (match buildCandidate c sim1 sol rem w with
        | (.error e, w1) => (.error e, w1)
        | (.ok (red, fn, err), w1) => (.ok (⟨red, fn, err, none⟩ : RModel), w1))
      (match buildCandidate c sim2 sol rem w with
        | (.error e, w1) => (.error e, w1)
        | (.ok (red, fn, err), w1) => (.ok ⟨red, fn, err, none⟩, w1)) := by
    rcases buildCandidate_same h sol rem w with h | ⟨e, e', w1, h1, h2⟩
    · left; rw [h]
    · right; rw [h1, h2]; exact ⟨e, e', w1, rfl, rfl⟩
  rcases prev with _ | p
  · exact key
  · dsimp only
    by_cases hp : (rem.length : Int) = (sol.nSpecies : Int) - p.model.nSpecies
    · rw [if_pos hp]; exact .inl rfl
    · rw [if_neg hp]; exact key

end

/-- two runs: the same, or both raise and leave the same files -/
def BothRun (a b : RunResult) : Prop :=
  a = b ∨ ∃ e e' w1, a = (some (.error e), w1) ∧ b = (some (.error e'), w1)

theorem finishDrg_same {red1 red2 : ReduceFn} (h : ∀ t prev w, BothRaise (red1 t prev w) (red2 t prev w))
    (rnd : ℚ → ℚ) (limit : PyF) (path : Text) (s : LoopState) :
    BothRaise (finishDrg red1 rnd limit path s) (finishDrg red2 rnd limit path s) := by
  unfold finishDrg
  by_cases hl : limit.lt s.errCur = true
  · rw [if_pos hl, if_pos hl]; exact h _ _ _
  · rw [if_neg hl, if_neg hl]; exact .inl rfl

theorem finishOther_same {red1 red2 : ReduceFn} (h : ∀ t prev w, BothRaise (red1 t prev w) (red2 t prev w))
    (rnd : ℚ → ℚ) (limit : PyF) (path : Text) (s : LoopState) :
    BothRaise (finishOther red1 rnd limit path s) (finishOther red2 rnd limit path s) := by
  unfold finishOther
  rcases s.last with _ | r
  · exact .inl rfl
  dsimp only
  by_cases hl : limit.lt r.error = true
  · rw [if_pos hl, if_pos hl]; exact h _ _ _
  · rw [if_neg hl, if_neg hl]; exact .inl rfl

theorem runWith_same {red1 red2 : ReduceFn} (h : ∀ t prev w, BothRaise (red1 t prev w) (red2 t prev w))
    {fin1 fin2 : LoopState → Except Err RModel × World} (hf : ∀ s, BothRaise (fin1 s) (fin2 s))
    (rnd : ℚ → ℚ) (ex : ℚ) (limit : PyF) (fuel : Nat) (s : LoopState) :
    BothRun (runWith red1 fin1 rnd ex limit fuel s) (runWith red2 fin2 rnd ex limit fuel s) := by
  induction fuel generalizing s with
  | zero => exact .inl rfl
  | succ fuel ih =>
    have hstep : loopStep red1 rnd ex limit s = loopStep red2 rnd ex limit s ∨
        ∃ e e' w1, loopStep red1 rnd ex limit s = .raised e w1 ∧
          loopStep red2 rnd ex limit s = .raised e' w1 := by
      unfold loopStep
      by_cases hle : s.errCur.le limit = true
      · rw [if_pos hle, if_pos hle]
        rcases h s.thr (some s.prev) s.w with heq | ⟨e, e', w1, h1, h2⟩
        · left; rw [heq]
        · right; rw [h1, h2]; exact ⟨e, e', w1, rfl, rfl⟩
      · rw [if_neg hle, if_neg hle]; exact .inl rfl
    rcases hstep with heq | ⟨e, e', w1, h1, h2⟩
    · rcases ht : loopStep red2 rnd ex limit s with t | t | ⟨e, w⟩
      · have a1 : runWith red1 fin1 rnd ex limit (fuel + 1) s = runWith red1 fin1 rnd ex limit fuel t := by
          unfold runWith; rw [whileLoop, heq, ht]
        have a2 : runWith red2 fin2 rnd ex limit (fuel + 1) s = runWith red2 fin2 rnd ex limit fuel t := by
          unfold runWith; rw [whileLoop, ht]
        rw [a1, a2]; exact ih t
      · have a1 : runWith red1 fin1 rnd ex limit (fuel + 1) s = (some (fin1 t).1, (fin1 t).2) := by
          unfold runWith; rw [whileLoop, heq, ht]
        have a2 : runWith red2 fin2 rnd ex limit (fuel + 1) s = (some (fin2 t).1, (fin2 t).2) := by
          unfold runWith; rw [whileLoop, ht]
        rw [a1, a2]
        rcases hf t with h1 | ⟨e, e', w1, h1, h2⟩
        · left; rw [h1]
        · right; rw [h1, h2]; exact ⟨e, e', w1, rfl, rfl⟩
      · left
        unfold runWith; rw [whileLoop, whileLoop, heq, ht]
    · right
      refine ⟨e, e', w1, ?_, ?_⟩
      · unfold runWith; rw [whileLoop, h1]
      · unfold runWith; rw [whileLoop, h2]

theorem runMethodS_same {sim1 sim2 : Mech → Except Err PyF}
    (h : ∀ m, (sim1 m).toOption = (sim2 m).toOption) (m : Method) (c : Ctx) (rnd : ℚ → ℚ) (limit : PyF)
    (dfuel fuel : Nat) (w : World) :
    BothRun (runMethodS m c sim1 rnd limit dfuel fuel w) (runMethodS m c sim2 rnd limit dfuel fuel w) := by
  cases m with
  | drg =>
    show BothRun (runDrgS c sim1 rnd limit fuel w) (runDrgS c sim2 rnd limit fuel w)
    unfold runDrgS
    rcases loadModel w c.modelFile with e | sol
    · exact .inl rfl
    dsimp only
    by_cases ht : c.targets = []
    · rw [if_pos ht, if_pos ht]; exact .inl rfl
    · rw [if_neg ht, if_neg ht]
      exact runWith_same (reduceDrg_same h) (finishDrg_same (reduceDrg_same h) rnd limit c.path) _ _ _ _ _
  | pfa =>
    show BothRun (runPfaS c sim1 rnd limit fuel w) (runPfaS c sim2 rnd limit fuel w)
    unfold runPfaS
    rcases loadModel w c.modelFile with e | sol
    · exact .inl rfl
    dsimp only
    by_cases ht : c.targets = []
    · rw [if_pos ht, if_pos ht]; exact .inl rfl
    · rw [if_neg ht, if_neg ht]
      exact runWith_same (reducePfa_same h) (finishOther_same (reducePfa_same h) rnd limit c.path) _ _ _ _ _
  | drgep =>
    show BothRun (runDrgepS c sim1 rnd limit dfuel fuel w) (runDrgepS c sim2 rnd limit dfuel fuel w)
    unfold runDrgepS
    rcases loadModel w c.modelFile with e | sol
    · exact .inl rfl
    dsimp only
    by_cases ht : c.targets = []
    · rw [if_pos ht, if_pos ht]; exact .inl rfl
    · rw [if_neg ht, if_neg ht]
      rcases getImportanceCoeffs c.rndMul sol.names c.targets c.matrices dfuel with e | imp
      · exact .inl rfl
      dsimp only
      rcases runWith_same (reduceDrgep_same h imp)
        (finishOther_same (reduceDrgep_same h imp) rnd limit c.path) rnd (rnd (1 / 1000000)) limit fuel
        (loopInit rnd sol c.modelFile w) with h1 | ⟨e, e', w1, h1, h2⟩
      · left; rw [h1]
      · right; rw [h1, h2]; exact ⟨e, e', w1, rfl, rfl⟩

end Verif
