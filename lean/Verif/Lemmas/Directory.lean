import Verif.Model.Directory
import Verif.Lemmas.ConcurrentMain
/-!
# Programs while a directory is missing
-/
namespace Verif
open FsProg Spec
variable {gone : Text → Bool} {silent : Bool}

theorem liesIn_iff {dir f : Text} : liesIn dir f = true ↔ Under dir f := by
  simp [liesIn, Under]

theorem gone_bind {α β} (p : FsProg α) (g : α → FsProg β) (fs : Fs) :
    (p.bind g).aloneGone gone silent fs =
      match p.aloneGone gone silent fs with
      | (some a, fs1) => (g a).aloneGone gone silent fs1
      | (none, fs1) => (none, fs1) := by
  induction p generalizing fs with
  | done a => rfl
  | read f k ih => exact ih _ _
  | look f k ih => exact ih _ _
  | write f m k ih =>
    simp only [FsProg.bind, aloneGone]
    split_ifs
    · exact ih _
    · rfl
    · exact ih _
  | remove f k ih => exact ih _ _
  | clean dir k ih => exact ih _

/-- a program that writes no file in a missing directory does not notice -/
theorem gone_same {α} {R W : Text → Prop} {p : FsProg α} (hp : TouchesOnly R W p)
    (hW : ∀ f, W f → gone f = false) (fs : Fs) :
    p.aloneGone gone silent fs = (some (p.alone fs).1, (p.alone fs).2) := by
  induction hp generalizing fs with
  | done a => rfl
  | read h _ ih => exact ih _ _
  | look h _ ih => exact ih _ _
  | write h _ ih =>
    simp only [aloneGone, alone]
    rw [hW _ h]
    exact ih _
  | remove h _ ih => exact ih _ _
  | clean h _ ih => exact ih _

/-- the file `out` of a missing directory is not written -/
theorem gone_writeP {out : Text} (ho : gone out = true) (m : Mech) {fs : Fs} (hn : fs out = none) :
    (writeP m out).aloneGone gone silent fs = (if silent then some (.ok ()) else none, fs) := by
  unfold writeP
  simp only [aloneGone, hn, Option.isSome_none, Bool.false_eq_true, if_false, ho, if_true]
  cases silent <;> rfl

/-- no file is in a missing directory -/
def NoneThere (gone : Text → Bool) (fs : Fs) : Prop := ∀ f, gone f = true → fs f = none

/-- results below the missing directory -/
structure Results (gone : Text → Bool) (path : Text) : Prop where
  own : ∀ f, OwnFile path f → gone f = true

theorem noModel_reduceP {c : Ctx} (H : Results gone c.path) (sim : Mech → Except Err PyF) {plan : Plan}
    (hplan : PlanOk plan) (thr : ℚ) (prev : Option RModel) {fs : Fs} (hn : NoneThere gone fs) :
    ((reduceP c sim plan thr prev).aloneGone gone silent fs).2 = fs ∧
    ∀ x, ((reduceP c sim plan thr prev).aloneGone gone silent fs).1 = some (.ok x) → prev = some x := by
  unfold reduceP
  simp only [aloneGone]
  split
  · exact ⟨rfl, by intro x h; cases h⟩
  · split
    · exact ⟨rfl, by intro x h; cases h⟩
    · rename_i hp
      refine ⟨rfl, ?_⟩
      intro x h
      cases h
      exact hplan _ _ _ _ hp
    · rename_i sol _ _ removed limbo _
      unfold candidateP
      have ho := H.own _ (ownFile_yamlName (trim sol removed ("reduced_".toList ++ c.modelFile) c.phase)
        (trim sol removed ("reduced_".toList ++ c.modelFile) c.phase).nSpecies c.path)
      simp only [gone_bind, gone_writeP ho _ (hn _ ho)]
      cases silent
      · exact ⟨rfl, by intro x h; cases h⟩
      · simp only [if_true, aloneGone, hn _ ho, true_and]
        intro x h
        cases h

theorem noModel_tupleP {out : Text} {fs : Fs} (hn : fs out = none) :
    (tupleP out).aloneGone gone silent fs = (some (.error .attributeError), fs) := by
  unfold tupleP
  simp [aloneGone, hn]

theorem noModel_finishP (m : Method) {c : Ctx} (H : Results gone c.path) (sim : Mech → Except Err PyF) {plan : Plan}
    (hplan : PlanOk plan) (rnd : ℚ → ℚ) (limit : PyF) (v : LoopVars) {fs : Fs} (hn : NoneThere gone fs) :
    ((finishP m c (reduceP c sim plan) rnd limit v).aloneGone gone silent fs).2 = fs ∧
    ∀ x, ((finishP m c (reduceP c sim plan) rnd limit v).aloneGone gone silent fs).1 ≠ some (.ok x) := by
  have hback : ∀ thr, ((reduceP c sim plan thr none).aloneGone gone silent fs).2 = fs ∧
      ∀ x, ((reduceP c sim plan thr none).aloneGone gone silent fs).1 ≠ some (.ok x) := by
    intro thr
    obtain ⟨h1, h2⟩ := noModel_reduceP (silent := silent) H sim hplan thr none hn
    exact ⟨h1, fun x h => by cases h2 x h⟩
  have htup : ∀ r : RModel, ((tupleP (joinPath c.path (reducedName r.model.nSpecies))).aloneGone gone silent fs).2 = fs ∧
      ∀ x, ((tupleP (joinPath c.path (reducedName r.model.nSpecies))).aloneGone gone silent fs).1 ≠ some (.ok x) := by
    intro r
    rw [noModel_tupleP (hn _ (H.own _ ⟨_, rfl⟩))]
    exact ⟨rfl, by intro x h; cases h⟩
  unfold finishP
  cases m <;> dsimp only
  · split
    · exact hback _
    · split
      · exact ⟨rfl, by intro x h; cases h⟩
      · exact htup _
  all_goals
    split
    · exact ⟨rfl, by intro x h; cases h⟩
    · split
      · exact hback _
      · exact htup _

theorem noModel_loopP (m : Method) {c : Ctx} (H : Results gone c.path) (sim : Mech → Except Err PyF) {plan : Plan}
    (hplan : PlanOk plan) (rnd : ℚ → ℚ) (exitBelow : ℚ) (limit : PyF) (fuel : Nat) (v : LoopVars) {fs : Fs}
    (hn : NoneThere gone fs) :
    ((loopP m c (reduceP c sim plan) rnd exitBelow limit fuel v).aloneGone gone silent fs).2 = fs ∧
    ∀ x, ((loopP m c (reduceP c sim plan) rnd exitBelow limit fuel v).aloneGone gone silent fs).1 ≠
      some (some (.ok x)) := by
  induction fuel generalizing v with
  | zero => exact ⟨rfl, by intro x h; cases h⟩
  | succ k ih =>
    unfold loopP
    split
    · rw [gone_bind]
      obtain ⟨h1, h2⟩ := noModel_reduceP (silent := silent) H sim hplan v.thr (some v.prev) hn
      rcases hr : (reduceP c sim plan v.thr (some v.prev)).aloneGone gone silent fs with ⟨a, fs1⟩
      rw [hr] at h1 h2
      obtain rfl : fs1 = fs := h1
      rcases a with _ | e | r
      · exact ⟨rfl, by intro x h; cases h⟩
      · exact ⟨rfl, by intro x h; cases h⟩
      · have hp := h2 r rfl
        dsimp only
        split
        · split
          · exact ⟨rfl, by intro x h; cases h⟩
          · exact ih _
        · rw [if_neg (by rw [Option.some.inj hp]; simp)]
          exact ih _
    · rw [gone_bind]
      obtain ⟨h1, h2⟩ := noModel_finishP (silent := silent) m H sim hplan rnd limit v hn
      rcases hr : (finishP m c (reduceP c sim plan) rnd limit v).aloneGone gone silent fs with ⟨a, fs1⟩
      rw [hr] at h1 h2
      obtain rfl : fs1 = fs := h1
      rcases a with _ | e | r
      · exact ⟨rfl, by intro x h; cases h⟩
      · exact ⟨rfl, by intro x h; cases h⟩
      · exact absurd rfl (h2 r)

theorem noModel_methodP (m : Method) {c : Ctx} (H : Results gone c.path) (sim : Mech → Except Err PyF) (rnd : ℚ → ℚ)
    (limit : PyF) (dfuel fuel : Nat) (limbo : List String) {fs : Fs} (hn : NoneThere gone fs) :
    ((methodP m c sim rnd limit dfuel fuel limbo).aloneGone gone silent fs).2 = fs ∧
    ∀ x, ((methodP m c sim rnd limit dfuel fuel limbo).aloneGone gone silent fs).1 = some x →
      ∀ r, x.1 ≠ some (.ok r) := by
  have key : ∀ (m' : Method) {plan : Plan}, PlanOk plan → ∀ (e : ℚ) (v : LoopVars)
      (g : Option (Except Err RModel) → FsProg (Option (Except Err RModel) × List String)),
      (∀ o, (∀ r, o ≠ some (.ok r)) → g o = .done (o, limbo)) →
      (((loopP m' c (reduceP c sim plan) rnd e limit fuel v).bind g).aloneGone gone silent fs).2 = fs ∧
      ∀ x, (((loopP m' c (reduceP c sim plan) rnd e limit fuel v).bind g).aloneGone gone silent fs).1 = some x →
        ∀ r, x.1 ≠ some (.ok r) := by
    intro m' plan hplan e v g hg
    rw [gone_bind]
    obtain ⟨h1, h2⟩ := noModel_loopP (silent := silent) m' H sim hplan rnd e limit fuel v hn
    rcases hr : (loopP m' c (reduceP c sim plan) rnd e limit fuel v).aloneGone gone silent fs with ⟨a, fs1⟩
    rw [hr] at h1 h2
    obtain rfl : fs1 = fs := h1
    rcases a with _ | o
    · exact ⟨rfl, by intro x h; cases h⟩
    · have ho : ∀ r, o ≠ some (.ok r) := fun r h => h2 r (by rw [h])
      dsimp only
      rw [hg o ho]
      refine ⟨rfl, ?_⟩
      intro x h
      cases h
      exact ho
  unfold methodP
  simp only [aloneGone]
  split
  · exact ⟨rfl, by intro x h; cases h; intro r h; cases h⟩
  · split_ifs
    · exact ⟨rfl, by intro x h; cases h; intro r h; cases h⟩
    · cases m <;> dsimp only
      · exact key .drg (planOk_drg c) _ _ _ fun o _ => rfl
      · split
        · exact ⟨rfl, by intro x h; cases h; intro r h; cases h⟩
        · refine key .drgep (planOk_drgep c _) _ _ _ fun o ho => ?_
          split
          · exact absurd rfl (ho _)
          · rfl
      · exact key .pfa (planOk_pfa c) _ _ _ fun o _ => rfl

theorem clean_outside {dir f : Text} (h : ¬ Under dir f) (fs : Fs) : (fs.clean dir) f = fs f := by
  unfold Fs.clean
  rw [if_neg (by simpa [Under] using h)]

/-- a sensitivity analysis notices only when it writes the final model, and then only if cantera
reports it -/
theorem gone_saP {c : SACtx} {W : Text → Prop} (T : TmpOf c (fun _ => True) W) (hW : ∀ f, W f → gone f = false)
    (H : Results gone c.path) (limbo : List String) (fuel : Nat) {fs : Fs} (hn : NoneThere gone fs) :
    (silent = true → ((saP c limbo fuel).aloneGone gone silent fs).1 = some ((saP c limbo fuel).alone fs).1) ∧
    (silent = false → ∀ r l, ((saP c limbo fuel).aloneGone gone silent fs).1 ≠ some (some (.ok r, l))) ∧
    ∀ f, ¬ W f → ((saP c limbo fuel).aloneGone gone silent fs).2 f = fs f := by
  unfold saP
  simp only [aloneGone, alone]
  split
  · exact ⟨fun _ => rfl, fun _ r l h => by (cases h), fun _ _ => rfl⟩
  · split
    · exact ⟨fun _ => rfl, fun _ r l h => by (cases h), fun _ _ => rfl⟩
    · rename_i sol _ _ initial _
      have h1 := within_evalSpeciesP T initial (file := c.modelFile) (saLimbo c.safe sol limbo) trivial
      rw [gone_bind, gone_same h1 hW, alone_bind]
      have k1 := (alone_local h1 (fs := fs) (fs' := fs) fun _ _ => rfl).2.2
      dsimp only
      generalize (evalSpeciesP c initial c.modelFile (saLimbo c.safe sol limbo)).alone fs = x at k1
      rcases x with ⟨e | errs, fs1⟩
      · exact ⟨fun _ => rfl, fun _ r l h => by (cases h), k1⟩
      · dsimp only at k1 ⊢
        have h2 := within_saLoopP (R := fun _ => True) T initial fuel
          (v := ⟨⟨sol, c.modelFile, c.startErr, none⟩, saLimbo c.safe sol limbo, errs⟩) trivial
        rw [gone_bind, gone_same h2 hW, alone_bind]
        have k2 := (alone_local h2 (fs := fs1) (fs' := fs1) fun _ _ => rfl).2.2
        dsimp only
        generalize (saLoopP c initial fuel _).alone fs1 = y at k2
        rcases y with ⟨_ | ⟨e | u, v⟩, fs2⟩
        · exact ⟨fun _ => rfl, fun _ r l h => by (cases h), fun f hf => (k2 f hf).trans (k1 f hf)⟩
        · refine ⟨fun _ => rfl, fun _ r l h => by (cases h), fun f hf => ?_⟩
          exact (clean_outside (fun h => hf (T.tmpW f h)) fs2).trans ((k2 f hf).trans (k1 f hf))
        · dsimp only
          have ho := H.own _ (ownFile_yamlName v.cur.model v.cur.model.nSpecies c.path)
          have hc : ∀ f, ¬ W f → (fs2.clean c.tmpDir) f = fs f := fun f hf =>
            (clean_outside (fun h => hf (T.tmpW f h)) fs2).trans ((k2 f hf).trans (k1 f hf))
          have hno : (fs2.clean c.tmpDir) (yamlName v.cur.model (reducedName v.cur.model.nSpecies) c.path) = none := by
            rw [hc _ fun h => by simp [hW _ h] at ho]
            exact hn _ ho
          simp only [aloneGone, alone]
          rw [gone_bind, gone_writeP ho _ hno, alone_bind]
          have ha : ((writeP v.cur.model (yamlName v.cur.model (reducedName v.cur.model.nSpecies) c.path)).alone
              (fs2.clean c.tmpDir)).1 = .ok () := by
            rw [alone_writeP _ _ ⟨fs2.clean c.tmpDir, []⟩]
          rw [ha]
          cases silent
          · exact ⟨fun h => by (cases h), fun _ r l h => by (cases h), hc⟩
          · exact ⟨fun _ => rfl, fun h => by (cases h), hc⟩

end Verif
