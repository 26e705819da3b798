import Verif.Lemmas.Provenance
/-!
# Lemmas on the thermodynamic model of what is written
-/
namespace Verif
open Spec

/-- the model is an ideal gas -/
def Spec.IsIdealGas (m : Mech) : Prop := m.thermo = idealGas

theorem ideal_trim (m : Mech) (excl : List String) (f p : Text) : IsIdealGas (trim m excl f p) := rfl

/-- a returned model is an ideal gas, in its file as well -/
def IdealResult (x : Except Err RModel × World) : Prop :=
  ∀ r, x.1 = .ok r → IsIdealGas r.model ∧ HoldsAt IsIdealGas x.2 r.filename

theorem ideal_build (c : Ctx) (sim : Mech → Except Err PyF) (sol : Mech) (removed : List String) (w : World) :
    ∀ red fn err, (buildCandidate c sim sol removed w).1 = .ok (red, fn, err) →
      IsIdealGas red ∧ HoldsAt IsIdealGas (buildCandidate c sim sol removed w).2 fn := by
  have h2 := (onlyWrites_writeYaml (I := IsIdealGas) w (ideal_trim sol removed ("reduced_".toList ++ c.modelFile) c.phase)
    (reducedName (trim sol removed ("reduced_".toList ++ c.modelFile) c.phase).nSpecies) c.path).2
  unfold buildCandidate
  dsimp only
  split
  · exact fun _ _ _ h => by cases h
  · split
    · exact fun _ _ _ h => by cases h
    · intro red fn err h
      cases h
      exact ⟨ideal_trim _ _ _ _, h2⟩

/-- the threshold loop starts its last reduction without a previous model -/
def IdealStep (f : ReduceFn) : Prop := ∀ thr w, IdealResult (f thr none w)

theorem ideal_error (e : Err) (w : World) : IdealResult (.error e, w) := fun _ h => by cases h

theorem ideal_drg (c : Ctx) (sim : Mech → Except Err PyF) : IdealStep (reduceDrgS c sim) := by
  intro thr w
  unfold reduceDrgS
  split
  · exact ideal_error _ _
  rename_i sol _
  split
  · exact ideal_error _ _
  rename_i ret _
  split
  · rename_i p h
    cases sameCount_prev h
  dsimp only
  have h1 := ideal_build c sim sol (sol.names.filter (fun sp => !((ret ++ c.safe).contains sp))) w
  generalize buildCandidate c sim sol (sol.names.filter (fun sp => !((ret ++ c.safe).contains sp))) w = y at h1 ⊢
  obtain ⟨e | ⟨red, fn, err⟩, w1⟩ := y
  · exact ideal_error _ _
  · have h3 := h1 _ _ _ rfl
    dsimp only
    split
    · exact fun r hr => by cases hr; exact h3
    · split
      · exact ideal_error _ _
      · exact fun r hr => by cases hr; exact h3

theorem ideal_pfa (c : Ctx) (sim : Mech → Except Err PyF) : IdealStep (reducePfaS c sim) := by
  intro thr w
  unfold reducePfaS
  split
  · exact ideal_error _ _
  rename_i sol _
  split
  · exact ideal_error _ _
  rename_i ret _
  split
  · rename_i p h
    cases sameCount_prev h
  dsimp only
  have h1 := ideal_build c sim sol (sol.names.filter (fun sp => !((ret ++ c.safe).contains sp))) w
  generalize buildCandidate c sim sol (sol.names.filter (fun sp => !((ret ++ c.safe).contains sp))) w = y at h1 ⊢
  obtain ⟨e | ⟨red, fn, err⟩, w1⟩ := y
  · exact ideal_error _ _
  · have h3 := h1 _ _ _ rfl
    dsimp only
    split
    · exact fun r hr => by cases hr; exact h3
    · split
      · exact ideal_error _ _
      · split
        · exact ideal_error _ _
        · exact fun r hr => by cases hr; exact h3

theorem ideal_drgep (c : Ctx) (sim : Mech → Except Err PyF) (imp : String → Option ℚ) :
    IdealStep (reduceDrgepS c sim imp) := by
  intro thr w
  unfold reduceDrgepS
  split
  · exact ideal_error _ _
  rename_i sol _
  split
  · exact ideal_error _ _
  rename_i removed _
  dsimp only
  have h1 := ideal_build c sim sol removed w
  generalize buildCandidate c sim sol removed w = y at h1 ⊢
  obtain ⟨e | ⟨red, fn, err⟩, w1⟩ := y
  · exact ideal_error _ _
  · have h3 := h1 _ _ _ rfl
    exact fun r hr => by cases hr; exact h3

theorem ideal_finishDrg {f : ReduceFn} (hf : IdealStep f) (rnd : ℚ → ℚ) (limit : PyF) (path : Text) (s : LoopState) :
    IdealResult (finishDrg f rnd limit path s) := by
  unfold finishDrg
  split
  · exact hf _ _
  · split
    · exact ideal_error _ _
    · unfold writeYamlTuple
      exact ideal_error _ _

theorem ideal_finishOther {f : ReduceFn} (hf : IdealStep f) (rnd : ℚ → ℚ) (limit : PyF) (path : Text) (s : LoopState) :
    IdealResult (finishOther f rnd limit path s) := by
  unfold finishOther
  split
  · exact ideal_error _ _
  · split
    · exact hf _ _
    · unfold writeYamlTuple
      exact ideal_error _ _

theorem ideal_runWith {f : ReduceFn} {finish : LoopState → Except Err RModel × World}
    (hfin : ∀ s, IdealResult (finish s)) (rnd : ℚ → ℚ) (x : ℚ) (limit : PyF) (fuel : Nat) (s : LoopState) {r : RModel}
    {w' : World} (h : runWith f finish rnd x limit fuel s = (some (.ok r), w')) :
    IsIdealGas r.model ∧ HoldsAt IsIdealGas w' r.filename := by
  unfold runWith at h
  generalize whileLoop f rnd x limit fuel s = o at h
  rcases o with t | t | ⟨e, w⟩
  · cases h
  · have h1 := hfin t
    dsimp only at h
    generalize finish t = y at h h1
    obtain ⟨y1, y2⟩ := y
    cases h
    exact h1 r rfl
  · cases h

/-- what a method returns is an ideal gas, in its file as well -/
theorem ideal_method {m : Method} {c : Ctx} {sim : Mech → Except Err PyF} {rnd : ℚ → ℚ} {limit : PyF} {dfuel fuel : Nat}
    {w w' : World} {r : RModel} (h : runMethodS m c sim rnd limit dfuel fuel w = (some (.ok r), w')) :
    IsIdealGas r.model ∧ HoldsAt IsIdealGas w' r.filename := by
  unfold runMethodS at h
  cases m with
  | drg =>
    dsimp only at h
    unfold runDrgS at h
    split at h
    · cases h
    · split at h
      · cases h
      · exact ideal_runWith (ideal_finishDrg (ideal_drg c sim) _ _ _) _ _ _ _ _ h
  | pfa =>
    dsimp only at h
    unfold runPfaS at h
    split at h
    · cases h
    · split at h
      · cases h
      · exact ideal_runWith (ideal_finishOther (ideal_pfa c sim) _ _ _) _ _ _ _ _ h
  | drgep =>
    dsimp only at h
    unfold runDrgepS at h
    split at h
    · cases h
    · rename_i sol hs
      split at h
      · cases h
      · split at h
        · cases h
        · rename_i imp _
          have h1 := fun r w' => ideal_runWith (r := r) (w' := w') (f := reduceDrgepS c sim imp)
            (ideal_finishOther (ideal_drgep c sim imp) rnd limit c.path)
            rnd (rnd (1 / 1000000)) limit fuel (loopInit rnd sol c.modelFile w)
          generalize runWith (reduceDrgepS c sim imp) (finishOther (reduceDrgepS c sim imp) rnd limit c.path)
            rnd (rnd (1 / 1000000)) limit fuel (loopInit rnd sol c.modelFile w) = y at h h1
          obtain ⟨_ | e | r0, w1⟩ := y
          · cases h
          · cases h
          · have h2 := h1 r0 w1 rfl
            dsimp only [appendLimbo] at h
            split at h
            · cases h; exact ⟨h2.1, fun m hm => h2.2 m hm⟩
            · cases h; exact ⟨h2.1, h2.2⟩

end Verif
