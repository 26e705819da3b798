import Verif.Model.Reduce
/-!
# Reductions in which every error is undefined
-/
namespace Verif

/-- undefined or zero -/
def Dull (e : PyF) : Prop := e = .nan ∨ e = .fin 0

/-- a step that reports undefined errors, or the model it was given -/
def DullStep (f : ReduceFn) : Prop :=
  ∀ t p w r w', Dull p.error → f t (some p) w = (.ok r, w') → Dull r.error

theorem dull_build {c : Ctx} {sim : Mech → Except Err PyF} (hs : ∀ m e, sim m = .ok e → e = .nan) {sol : Mech}
    {removed : List String} {w w1 : World} {red : Mech} {fn : Text} {err : PyF}
    (h : buildCandidate c sim sol removed w = (.ok (red, fn, err), w1)) : err = .nan := by
  unfold buildCandidate at h
  dsimp only at h
  split at h
  · cases h
  · split at h
    · cases h
    · rename_i e he
      cases h
      exact hs _ _ he

theorem dull_drg (c : Ctx) {sim : Mech → Except Err PyF} (hs : ∀ m e, sim m = .ok e → e = .nan) :
    DullStep (reduceDrgS c sim) := by
  intro t p w r w' hp h
  unfold reduceDrgS at h
  split at h
  · cases h
  split at h
  · cases h
  split at h
  · rename_i q hq
    cases h
    unfold sameCount at hq
    dsimp only at hq
    split at hq
    · cases hq; exact hp
    · cases hq
  dsimp only at h
  split at h
  · cases h
  rename_i red fn err w1 hb
  have he := dull_build hs hb
  split at h
  · cases h; exact .inl he
  split at h
  · cases h
  · cases h; exact .inl he

theorem dull_pfa (c : Ctx) {sim : Mech → Except Err PyF} (hs : ∀ m e, sim m = .ok e → e = .nan) :
    DullStep (reducePfaS c sim) := by
  intro t p w r w' hp h
  unfold reducePfaS at h
  split at h
  · cases h
  split at h
  · cases h
  split at h
  · rename_i q hq
    cases h
    unfold sameCount at hq
    dsimp only at hq
    split at hq
    · cases hq; exact hp
    · cases hq
  dsimp only at h
  split at h
  · cases h
  rename_i red fn err w1 hb
  have he := dull_build hs hb
  split at h
  · cases h; exact .inl he
  split at h
  · cases h
  split at h
  · cases h
  · cases h; exact .inl he

theorem dull_drgep (c : Ctx) {sim : Mech → Except Err PyF} (hs : ∀ m e, sim m = .ok e → e = .nan)
    (imp : String → Option ℚ) : DullStep (reduceDrgepS c sim imp) := by
  intro t p w r w' hp h
  unfold reduceDrgepS at h
  split at h
  · cases h
  split at h
  · cases h
  dsimp only at h
  split at h
  · rename_i q hq
    cases h
    split at hq
    · cases hq; exact hp
    · cases hq
  split at h
  · cases h
  rename_i red fn err w1 hb
  cases h
  exact .inl (dull_build hs hb)

/-- the errors a loop has seen are undefined or zero -/
structure DullState (s : LoopState) : Prop where
  cur : Dull s.errCur
  prev : Dull s.prev.error
  last : ∀ r, s.last = some r → Dull r.error

theorem dull_lt {limit e : PyF} (hl : limit.lt (.fin 0) = false) (he : Dull e) : limit.lt e = false := by
  rcases he with rfl | rfl
  · cases limit <;> rfl
  · exact hl

theorem dull_loop {f : ReduceFn} (hf : DullStep f) {rnd : ℚ → ℚ} {x : ℚ} {limit : PyF} {fuel : Nat} {s t : LoopState}
    (hs : DullState s) (h : whileLoop f rnd x limit fuel s = .left t) : DullState t := by
  induction fuel generalizing s with
  | zero => rw [whileLoop] at h; cases h
  | succ n ih =>
    rw [whileLoop] at h
    split at h
    · rename_i u hu
      refine ih ?_ h
      unfold loopStep at hu
      split at hu
      · split at hu
        · cases hu
        rename_i r w1 hr
        have hd := hf _ _ _ _ _ hs.prev hr
        split at hu
        · dsimp only at hu
          split at hu
          · cases hu
          · cases hu
            exact ⟨.inr rfl, hs.prev, by (intro q hq; cases hq; exact hd)⟩
        · split at hu
          · cases hu
          · cases hu
            exact ⟨hd, hd, by (intro q hq; cases hq; exact hd)⟩
      · cases hu
    · rename_i o ho
      unfold loopStep at h
      split at h
      · split at h
        · cases h
        split at h
        · dsimp only at h
          split at h <;> cases h
        · split at h <;> cases h
      · cases h
        exact hs

theorem dull_init (rnd : ℚ → ℚ) (sol : Mech) (file : Text) (w : World) : DullState (loopInit rnd sol file w) :=
  ⟨.inr rfl, .inr rfl, by (intro r h; cases h)⟩

theorem dull_run {f : ReduceFn} (hf : DullStep f) {finish : LoopState → Except Err RModel × World}
    (hfin : ∀ s, DullState s → ∀ r w, finish s ≠ (.ok r, w)) {rnd : ℚ → ℚ} {x : ℚ} {limit : PyF} {fuel : Nat}
    {s : LoopState} (hs : DullState s) {r : RModel} {w : World} : runWith f finish rnd x limit fuel s ≠ (some (.ok r), w) := by
  intro h
  unfold runWith at h
  split at h
  · cases h
  · cases h
  · rename_i t ht
    dsimp only at h
    refine hfin t (dull_loop hf hs ht) r w ?_
    simp only [Prod.mk.injEq, Option.some.injEq] at h
    exact Prod.ext h.1 h.2

theorem dull_finishDrg {f : ReduceFn} {rnd : ℚ → ℚ} {limit : PyF} {path : Text} (hl : limit.lt (.fin 0) = false)
    (s : LoopState) (hs : DullState s) (r : RModel) (w : World) : finishDrg f rnd limit path s ≠ (.ok r, w) := by
  intro h
  unfold finishDrg at h
  rw [dull_lt hl hs.cur] at h
  simp only [Bool.false_eq_true, if_false] at h
  split at h
  · cases h
  · simp [writeYamlTuple] at h

theorem dull_finishOther {f : ReduceFn} {rnd : ℚ → ℚ} {limit : PyF} {path : Text} (hl : limit.lt (.fin 0) = false)
    (s : LoopState) (hs : DullState s) (r : RModel) (w : World) : finishOther f rnd limit path s ≠ (.ok r, w) := by
  intro h
  unfold finishOther at h
  split at h
  · cases h
  · rename_i q hq
    rw [dull_lt hl (hs.last q hq)] at h
    simp [writeYamlTuple] at h

/-- if every error is undefined and the limit is not negative, no method returns a model -/
theorem dull_method {m : Method} {c : Ctx} {sim : Mech → Except Err PyF} (hs : ∀ m e, sim m = .ok e → e = .nan)
    {rnd : ℚ → ℚ} {limit : PyF} (hl : limit.lt (.fin 0) = false) {dfuel fuel : Nat} {w w' : World} {r : RModel} :
    runMethodS m c sim rnd limit dfuel fuel w ≠ (some (.ok r), w') := by
  intro h
  unfold runMethodS at h
  cases m with
  | drg =>
    dsimp only at h
    unfold runDrgS at h
    split at h
    · cases h
    split at h
    · cases h
    exact dull_run (dull_drg c hs) (dull_finishDrg hl) (dull_init _ _ _ _) h
  | pfa =>
    dsimp only at h
    unfold runPfaS at h
    split at h
    · cases h
    split at h
    · cases h
    exact dull_run (dull_pfa c hs) (dull_finishOther hl) (dull_init _ _ _ _) h
  | drgep =>
    dsimp only at h
    unfold runDrgepS at h
    split at h
    · cases h
    split at h
    · cases h
    split at h
    · cases h
    split at h
    · rename_i hr
      exact dull_run (dull_drgep c hs _) (dull_finishOther hl) (dull_init _ _ _ _) hr
    · rename_i hne
      exact hne _ _ h

end Verif
