import Verif.Model.Phases
import Verif.Lemmas.ConcurrentMain
import Verif.Lemmas.Path
/-!
# Programs on files with several phases
-/
namespace Verif
open FsProg

/-- the program loads only files of `S` or files it has written or removed itself, and writes only
models with `N`, provided that the models it loads have `N`; at the end, `Q` relates the result
to the files that may be loaded then -/
inductive Safe (N : Mech → Prop) {α} (Q : α → (Text → Prop) → Prop) : (Text → Prop) → FsProg α → Prop
  | done {S : Text → Prop} {a : α} : Q a S → Safe N Q S (.done a)
  | read {S : Text → Prop} {f : Text} {k : Option Mech → FsProg α} : S f →
      (∀ o, (∀ m, o = some m → N m) → Safe N Q S (k o)) → Safe N Q S (.read f k)
  | look {S : Text → Prop} {f : Text} {k : Bool → FsProg α} : (∀ b, Safe N Q S (k b)) → Safe N Q S (.look f k)
  | write {S : Text → Prop} {f : Text} {m : Mech} {k : FsProg α} : N m →
      Safe N Q (fun g => S g ∨ g = f) k → Safe N Q S (.write f m k)
  | remove {S : Text → Prop} {f : Text} {k : Bool → FsProg α} :
      (∀ b, Safe N Q (fun g => S g ∨ g = f) (k b)) → Safe N Q S (.remove f k)
  | clean {S : Text → Prop} {dir : Text} {k : FsProg α} : Safe N Q S k → Safe N Q S (.clean dir k)

/-- the files that may be loaded become more, and `P` holds of the result and of them -/
def Grow {α} (S : Text → Prop) (P : α → (Text → Prop) → Prop) : α → (Text → Prop) → Prop :=
  fun a S' => (∀ f, S f → S' f) ∧ P a S'

section
variable {N : Mech → Prop}

theorem safe_bind {α β} {Q : α → (Text → Prop) → Prop} {Q' : β → (Text → Prop) → Prop} {S : Text → Prop}
    {p : FsProg α} {g : α → FsProg β} (hp : Safe N Q S p) (hg : ∀ a S', Q a S' → Safe N Q' S' (g a)) :
    Safe N Q' S (p.bind g) := by
  induction hp with
  | done h => exact hg _ _ h
  | read h _ ih => exact .read h ih
  | look _ ih => exact .look ih
  | write h _ ih => exact .write h ih
  | remove _ ih => exact .remove ih
  | clean _ ih => exact .clean ih

theorem safe_mono {α} {Q Q' : α → (Text → Prop) → Prop} {S : Text → Prop} {p : FsProg α} (hp : Safe N Q S p)
    (h : ∀ a S', Q a S' → Q' a S') : Safe N Q' S p := by
  induction hp with
  | done g => exact .done (h _ _ g)
  | read h _ ih => exact .read h ih
  | look _ ih => exact .look ih
  | write h _ ih => exact .write h ih
  | remove _ ih => exact .remove ih
  | clean _ ih => exact .clean ih

/-- the same, from a smaller set of files on -/
theorem safe_from {α} {P : α → (Text → Prop) → Prop} {S S1 : Text → Prop} {p : FsProg α}
    (h : ∀ f, S f → S1 f) (hp : Safe N (Grow S1 P) S1 p) : Safe N (Grow S P) S1 p :=
  safe_mono hp fun _ _ g => ⟨fun f hf => g.1 f (h f hf), g.2⟩

theorem safe_writeP {m : Mech} (hm : N m) (out : Text) (S : Text → Prop) :
    Safe N (Grow S fun x S' => x = .ok () → S' out) S (writeP m out) := by
  unfold writeP
  refine .look fun o => ?_
  split
  · refine .remove fun b => ?_
    split
    · exact .write hm (.done ⟨fun f h => .inl (.inl h), fun _ => .inr rfl⟩)
    · exact .done ⟨fun f h => .inl h, by intro h; cases h⟩
  · exact .write hm (.done ⟨fun f h => .inl h, fun _ => .inr rfl⟩)

/-- the outcome of a step may be loaded and has `N` -/
def LoadableStep (N : Mech → Prop) (x : Except Err RModel) (S : Text → Prop) : Prop :=
  ∀ r, x = .ok r → S r.filename ∧ N r.model

theorem loadableStep_error (e : Err) (S : Text → Prop) : LoadableStep N (.error e) S := by
  intro r h; cases h

theorem safe_candidateP (c : Ctx) (sim : Mech → Except Err PyF) {red : Mech} (hr : N red)
    (limbo : Except Err (Option (List String))) (S : Text → Prop) :
    Safe N (Grow S (LoadableStep N)) S (candidateP c sim red limbo) := by
  unfold candidateP
  refine safe_bind (safe_writeP hr _ S) fun x S1 h1 => ?_
  split
  · exact .done ⟨h1.1, loadableStep_error _ _⟩
  · refine .read (h1.2 rfl) fun o _ => ?_
    split
    · exact .done ⟨h1.1, loadableStep_error _ _⟩
    · split
      · exact .done ⟨h1.1, loadableStep_error _ _⟩
      · split
        · exact .done ⟨h1.1, loadableStep_error _ _⟩
        · refine .done ⟨h1.1, ?_⟩
          intro r h
          cases h
          exact ⟨h1.2 rfl, hr⟩

/-- all models that a run makes have `N` -/
structure Makes (N : Mech → Prop) (file phase : Text) : Prop where
  reduced : ∀ sol l, N (trim sol l ("reduced_".toList ++ file) phase)
  candidate : ∀ sol sp, N (trim sol [sp] (candidateName sp) phase)

theorem safe_reduceP {c : Ctx} (M : Makes N c.modelFile c.phase) (sim : Mech → Except Err PyF) {plan : Plan}
    (hplan : PlanOk plan) (thr : ℚ) (prev : Option RModel) {S : Text → Prop} (hS : S c.modelFile) :
    Safe N (Grow S fun x S' => ∀ r, x = .ok r → prev = some r ∨ S' r.filename ∧ N r.model) S
      (reduceP c sim plan thr prev) := by
  unfold reduceP
  refine .read hS fun o _ => ?_
  split
  · exact .done ⟨fun f h => h, by intro r h; cases h⟩
  · split
    · exact .done ⟨fun f h => h, by intro r h; cases h⟩
    · rename_i p hp
      refine .done ⟨fun f h => h, ?_⟩
      intro r h
      cases h
      exact .inl (hplan _ _ _ _ hp)
    · exact safe_mono (safe_candidateP c sim (M.reduced _ _) _ S) fun a S' h => ⟨h.1, fun r hr => .inr (h.2 r hr)⟩

theorem safe_tupleP (out : Text) (S : Text → Prop) : Safe N (Grow S (LoadableStep N)) S (tupleP out) := by
  unfold tupleP
  refine .look fun o => ?_
  split
  · exact .remove fun b => .done ⟨fun f h => .inl h, loadableStep_error _ _⟩
  · exact .done ⟨fun f h => h, loadableStep_error _ _⟩

theorem safe_removeP (f : Text) (S : Text → Prop) : Safe N (Grow S fun _ _ => True) S (removeP f) :=
  .remove fun _ => .done ⟨fun _ h => .inl h, trivial⟩

theorem safe_finishP (m : Method) {c : Ctx} (M : Makes N c.modelFile c.phase) (sim : Mech → Except Err PyF)
    {plan : Plan} (hplan : PlanOk plan) (rnd : ℚ → ℚ) (limit : PyF) (v : LoopVars) {S : Text → Prop}
    (hS : S c.modelFile) : Safe N (Grow S (LoadableStep N)) S (finishP m c (reduceP c sim plan) rnd limit v) := by
  have hb : Safe N (Grow S (LoadableStep N)) S (reduceP c sim plan (rnd (v.thr - rnd (2 * v.inc))) none) :=
    safe_mono (safe_reduceP M sim hplan _ none hS) fun x S' h => ⟨h.1, fun r hr => by
      rcases h.2 r hr with g | g
      · cases g
      · exact g⟩
  unfold finishP
  dsimp only
  split
  · split
    · exact hb
    · split
      · exact .done ⟨fun f h => h, loadableStep_error _ _⟩
      · exact safe_tupleP _ _
  · split
    · exact .done ⟨fun f h => h, loadableStep_error _ _⟩
    · split
      · exact hb
      · exact safe_tupleP _ _

/-- the outcome of a method may be loaded and has `N` -/
def LoadableRun (N : Mech → Prop) (x : Option (Except Err RModel)) (S : Text → Prop) : Prop :=
  ∀ r, x = some (.ok r) → S r.filename ∧ N r.model

theorem safe_loopP (m : Method) {c : Ctx} (M : Makes N c.modelFile c.phase) (sim : Mech → Except Err PyF)
    {plan : Plan} (hplan : PlanOk plan) (rnd : ℚ → ℚ) (x : ℚ) (limit : PyF) (fuel : Nat) (v : LoopVars)
    {S : Text → Prop} (hS : S c.modelFile) :
    Safe N (Grow S (LoadableRun N)) S (loopP m c (reduceP c sim plan) rnd x limit fuel v) := by
  induction fuel generalizing v S with
  | zero => exact .done ⟨fun f h => h, by intro r h; cases h⟩
  | succ k ih =>
    unfold loopP
    split
    · refine safe_bind (safe_reduceP M sim hplan _ _ hS) fun y S1 h1 => ?_
      split
      · exact .done ⟨h1.1, by intro r h; cases h⟩
      · split
        · dsimp only
          split
          · exact .done ⟨h1.1, by intro r h; cases h⟩
          · exact safe_from h1.1 (ih _ (h1.1 _ hS))
        · rename_i r _
          have hrm : Safe N (Grow S1 fun _ _ => True) S1
              (if v.prev.model.nSpecies ≠ r.model.nSpecies then removeP r.filename else .done (.ok ())) := by
            split
            · exact safe_removeP _ _
            · exact .done ⟨fun f h => h, trivial⟩
          refine safe_bind hrm fun z S2 h2 => ?_
          split
          · exact .done ⟨fun f h => h2.1 f (h1.1 f h), by intro r h; cases h⟩
          · exact safe_from (fun f h => h2.1 f (h1.1 f h)) (ih _ (h2.1 _ (h1.1 _ hS)))
    · refine safe_bind (safe_finishP m M sim hplan rnd limit v hS) fun y S1 h1 => .done ⟨h1.1, ?_⟩
      intro r hr
      injection hr with hr
      exact h1.2 r hr

theorem safe_methodP (m : Method) {c : Ctx} (M : Makes N c.modelFile c.phase) (sim : Mech → Except Err PyF)
    (rnd : ℚ → ℚ) (limit : PyF) (dfuel fuel : Nat) (limbo : List String) {S : Text → Prop}
    (hS : S c.modelFile) :
    Safe N (Grow S fun x S' => LoadableRun N x.1 S') S (methodP m c sim rnd limit dfuel fuel limbo) := by
  unfold methodP
  refine .read hS fun o _ => ?_
  split
  · exact .done ⟨fun f h => h, by intro r h; cases h⟩
  · split
    · exact .done ⟨fun f h => h, by intro r h; cases h⟩
    · split
      · exact safe_bind (safe_loopP _ M sim (planOk_drg c) rnd _ limit fuel _ hS) fun y S1 h1 => .done h1
      · exact safe_bind (safe_loopP _ M sim (planOk_pfa c) rnd _ limit fuel _ hS) fun y S1 h1 => .done h1
      · split
        · exact .done ⟨fun f h => h, by intro r h; cases h⟩
        · refine safe_bind (safe_loopP _ M sim (planOk_drgep c _) rnd _ limit fuel _ hS) fun y S1 h1 => ?_
          split
          · split
            · exact .done h1
            · rename_i r _ l _
              refine .done ⟨h1.1, ?_⟩
              intro r' h
              cases h
              exact h1.2 r rfl
          · exact .done h1

/-! ### sensitivity analysis -/

theorem safe_tryRemoveP {c : SACtx} (hc : ∀ sol sp, N (trim sol [sp] (candidateName sp) c.phase))
    (initial : List PyF) {file : Text} (dir : Text) (sp : String) {S : Text → Prop} (hS : S file) :
    Safe N (Grow S fun x S' => ∀ y, x = .ok y → S' y.2.1 ∧ N y.1) S (tryRemoveP c initial file dir sp) := by
  unfold tryRemoveP
  refine .read hS fun o _ => ?_
  split
  · exact .done ⟨fun f h => h, by intro y h; cases h⟩
  · rename_i sol _
    refine safe_bind (safe_writeP (hc sol sp) _ S) fun x S1 h1 => ?_
    split
    · exact .done ⟨h1.1, by intro y h; cases h⟩
    · refine .read (h1.2 rfl) fun o _ => ?_
      split
      · exact .done ⟨h1.1, by intro y h; cases h⟩
      · split
        · exact .done ⟨h1.1, by intro y h; cases h⟩
        · refine .done ⟨h1.1, ?_⟩
          intro y h
          cases h
          exact ⟨h1.2 rfl, hc sol sp⟩

theorem safe_evalLoopP {c : SACtx} (hc : ∀ sol sp, N (trim sol [sp] (candidateName sp) c.phase))
    (initial : List PyF) {file : Text} (dir : Text) (l : List String) {S : Text → Prop} (hS : S file) :
    Safe N (Grow S fun _ _ => True) S (evalLoopP c initial file dir l) := by
  induction l generalizing S with
  | nil => exact .done ⟨fun f h => h, trivial⟩
  | cons sp rest ih =>
    unfold evalLoopP
    refine safe_bind (safe_tryRemoveP hc initial dir sp hS) fun x S1 h1 => ?_
    split
    · exact .done ⟨h1.1, trivial⟩
    · refine safe_bind (ih (h1.1 _ hS)) fun y S2 h2 => ?_
      split <;> exact .done ⟨fun f h => h2.1 f (h1.1 f h), trivial⟩

theorem safe_evalSpeciesP {c : SACtx} (hc : ∀ sol sp, N (trim sol [sp] (candidateName sp) c.phase))
    (initial : List PyF) {file : Text} (l : List String) {S : Text → Prop} (hS : S file) :
    Safe N (Grow S fun _ _ => True) S (evalSpeciesP c initial file l) := by
  unfold evalSpeciesP
  exact safe_bind (safe_evalLoopP hc initial _ l hS) fun _ _ h1 => .clean (.done h1)

/-- the current model may be loaded and has `N` -/
def LoadableNext (N : Mech → Prop) (x : SANext) (S : Text → Prop) : Prop :=
  match x with
  | .more v => S v.cur.filename ∧ N v.cur.model
  | .stop v => N v.cur.model
  | .raise _ _ => True

theorem safe_saStepP {c : SACtx} (hc : ∀ sol sp, N (trim sol [sp] (candidateName sp) c.phase))
    (initial : List PyF) {v : SAVars} {S : Text → Prop} (hS : S v.cur.filename) (hv : N v.cur.model) :
    Safe N (Grow S (LoadableNext N)) S (saStepP c initial v) := by
  unfold saStepP
  split
  · exact .done ⟨fun f h => h, trivial⟩
  · split
    · exact .done ⟨fun f h => h, trivial⟩
    · refine safe_bind (safe_tryRemoveP hc initial _ _ hS) fun x S1 h1 => ?_
      split
      · exact .done ⟨h1.1, trivial⟩
      · rename_i test fn err
        obtain ⟨g1, g2⟩ := h1.2 _ rfl
        split
        · exact .done ⟨h1.1, hv⟩
        · split
          · refine safe_bind (safe_evalSpeciesP hc initial _ g1) fun y S2 h2 => ?_
            have hg : ∀ f, S f → S2 f := fun f h => h2.1 f (h1.1 f h)
            split
            · exact .done ⟨hg, trivial⟩
            · split
              · exact .done ⟨hg, trivial⟩
              · refine .done ⟨hg, ?_⟩
                split
                · exact g2
                · exact ⟨h2.1 _ g1, g2⟩
          · exact .done ⟨h1.1, g1, g2⟩

theorem safe_saLoopP {c : SACtx} (hc : ∀ sol sp, N (trim sol [sp] (candidateName sp) c.phase))
    (initial : List PyF) (fuel : Nat) {v : SAVars} {S : Text → Prop} (hS : S v.cur.filename) (hv : N v.cur.model) :
    Safe N (Grow S fun x _ => ∀ v', x = some (.ok (), v') → N v'.cur.model) S (saLoopP c initial fuel v) := by
  induction fuel generalizing v S with
  | zero => exact .done ⟨fun f h => h, by intro v' h; cases h⟩
  | succ k ih =>
    unfold saLoopP
    split
    · refine .done ⟨fun f h => h, ?_⟩
      intro v' h; cases h; exact hv
    · refine safe_bind (safe_saStepP hc initial hS hv) fun x S1 h1 => ?_
      split
      · exact .done ⟨h1.1, by intro v' h; cases h⟩
      · refine .done ⟨h1.1, ?_⟩
        intro v' h; cases h; exact h1.2
      · exact safe_from h1.1 (ih h1.2.1 h1.2.2)

theorem safe_saP {c : SACtx} (hc : ∀ sol sp, N (trim sol [sp] (candidateName sp) c.phase)) (limbo : List String)
    (fuel : Nat) {S : Text → Prop} (hS : S c.modelFile) :
    Safe N (fun x _ => ∀ r l, x = some (.ok r, l) → N r.model) S (saP c limbo fuel) := by
  unfold saP
  refine .read hS fun o ho => ?_
  split
  · exact .done (by intro r l h; cases h)
  · rename_i sol
    split
    · exact .done (by intro r l h; cases h)
    · refine safe_bind (safe_evalSpeciesP hc _ _ hS) fun x S1 h1 => ?_
      split
      · exact .done (by intro r l h; cases h)
      · refine safe_bind (safe_saLoopP hc _ _ (h1.1 _ hS) (ho sol rfl)) fun y S2 h2 => ?_
        split
        · exact .done (by intro r l h; cases h)
        · exact .clean (.done (by intro r l h; cases h))
        · rename_i v
          have hv := h2.2 v rfl
          refine .clean (safe_bind (safe_writeP hv _ S2) fun z S3 h3 => ?_)
          split
          · exact .done (by intro r l h; cases h)
          · refine .done ?_
            intro r l h
            cases h
            exact hv

theorem safe_saStageP {p : MainIn} {file : Text} {err : PyF}
    (hc : ∀ sol sp, N (trim sol [sp] (candidateName sp) p.phase)) (limbo : List String) (shared : Bool)
    (dflt : List String) {S : Text → Prop} (hS : S file) :
    Safe N (fun x _ => ∀ r, x.1 = some (.ok r) → N r.model) S (saStageP p file err limbo shared dflt) := by
  unfold saStageP
  refine safe_bind (safe_saP (c := p.saCtx file err) hc limbo p.saFuel hS) fun x S1 h1 => ?_
  split
  · exact .done (by intro r h; cases h)
  · refine .done ?_
    intro r h
    cases h
    exact h1 r _ rfl

theorem safe_mainP {p : MainIn} (M : Makes N p.modelFile p.phase) (dflt : List String) {S : Text → Prop}
    (hS : S p.modelFile) : Safe N (fun x _ => ∀ r, x.1 = some (.ok r) → N r.model) S (mainP p dflt) := by
  unfold mainP
  split
  · exact .done (by intro r h; cases h)
  · split
    · exact .done (by intro r h; cases h)
    · split
      · rename_i m _
        refine safe_bind (safe_methodP m (c := p.ctx m) M p.sim p.rnd p.limit p.dfuel p.fuel dflt hS) fun x S1 h1 => ?_
        split
        · rename_i r hr
          split
          · exact safe_saStageP M.candidate _ _ _ (h1.2 r hr).1
          · exact .done fun r' h' => (h1.2 r' h').2
        · exact .done fun r' h' => (h1.2 r' h').2
      · split
        · exact safe_saStageP M.candidate _ _ _ hS
        · exact .done (by intro r h; cases h)

end

/-! ### what it means -/

/-- what `Q` says holds of a run by itself -/
theorem alone_safe {N : Mech → Prop} {α} {Q : α → (Text → Prop) → Prop} {S : Text → Prop} {q : FsProg α}
    (h : Safe N Q S q) {fs : Fs} (hfs : ∀ f m, S f → fs f = some m → N m) : ∃ S', Q (q.alone fs).1 S' := by
  induction h generalizing fs with
  | done h => exact ⟨_, h⟩
  | read h _ ih => exact ih _ (fun m hm => hfs _ m h hm) hfs
  | look _ ih => exact ih _ hfs
  | write hm _ ih =>
    refine ih ?_
    intro g m' hg h
    rw [Fs.put_apply] at h
    split at h
    · injection h with h; subst h; exact hm
    · rename_i hne
      exact hfs g m' (hg.resolve_right hne) h
  | remove _ ih =>
    refine ih _ ?_
    intro g m' hg h
    rw [Fs.put_apply] at h
    split at h
    · cases h
    · rename_i hne
      exact hfs g m' (hg.resolve_right hne) h
  | clean _ ih =>
    refine ih ?_
    intro g m' hg h
    rw [Fs.clean_apply] at h
    split at h
    · cases h
    · exact hfs g m' hg h

/-- a model with the name of the phase, if there is one -/
def HasPhase (phase : Text) (m : Mech) : Prop := phase = [] ∨ m.name = phase

theorem selectPhase_named {phase : Text} {l : List Mech} {m : Mech} (h : selectPhase phase l = some m) :
    HasPhase phase m := by
  unfold selectPhase at h
  split at h
  · exact .inl ‹_›
  · exact .inr (by simpa using List.find?_some h)

theorem selectPhase_single {phase : Text} {m : Mech} (h : HasPhase phase m) : selectPhase phase [m] = some m := by
  unfold selectPhase
  split
  · rfl
  · rename_i hp
    simp [h.resolve_left hp]

theorem PhaseFs.put_apply (pf : PhaseFs) (f g : Text) (c : Option (List Mech)) :
    pf.put f c g = if g = f then c else pf g := rfl

theorem PhaseFs.clean_apply (pf : PhaseFs) (dir g : Text) :
    pf.clean dir g = if (dir ++ ['/']).isPrefixOf g then none else pf g := rfl

/-- the same files exist, and those of `S` hold the phase that the other file system has -/
structure Agrees (phase : Text) (S : Text → Prop) (pf : PhaseFs) (fs : Fs) : Prop where
  exist : ∀ f, (pf f).isSome = (fs f).isSome
  load : ∀ f, S f → (pf f).bind (selectPhase phase) = fs f

/-- each file is as it was, in both, or was written by the run and has one phase -/
def Since (pf0 : PhaseFs) (fs0 : Fs) (pf : PhaseFs) (fs : Fs) : Prop :=
  ∀ f, (pf f = pf0 f ∧ fs f = fs0 f) ∨ pf f = (fs f).map ([·])

theorem aloneIn_safe {phase : Text} {α} {Q : α → (Text → Prop) → Prop} {S : Text → Prop} {q : FsProg α}
    (h : Safe (HasPhase phase) Q S q) {pf pf0 : PhaseFs} {fs fs0 : Fs} (A : Agrees phase S pf fs)
    (H : Since pf0 fs0 pf fs) :
    (q.aloneIn phase pf).1 = (q.alone fs).1 ∧ Since pf0 fs0 (q.aloneIn phase pf).2 (q.alone fs).2 := by
  induction h generalizing pf fs with
  | done h => exact ⟨rfl, H⟩
  | read h _ ih =>
    have e := A.load _ h
    simp only [aloneIn, alone, e]
    refine ih _ ?_ A H
    intro m hm
    rw [← e] at hm
    rw [Option.bind_eq_some_iff] at hm
    obtain ⟨l, _, hl⟩ := hm
    exact selectPhase_named hl
  | look _ ih =>
    simp only [aloneIn, alone, A.exist]
    exact ih _ A H
  | write hm _ ih =>
    simp only [aloneIn, alone]
    refine ih ⟨fun g => ?_, fun g hg => ?_⟩ fun g => ?_
    · rw [Fs.put_apply, PhaseFs.put_apply]
      split
      · rfl
      · exact A.exist g
    · rw [Fs.put_apply, PhaseFs.put_apply]
      split
      · exact selectPhase_single hm
      · rename_i hne
        exact A.load g (hg.resolve_right hne)
    · rw [Fs.put_apply, PhaseFs.put_apply]
      split
      · exact .inr rfl
      · exact H g
  | remove _ ih =>
    simp only [aloneIn, alone, A.exist]
    refine ih _ ⟨fun g => ?_, fun g hg => ?_⟩ fun g => ?_
    · rw [Fs.put_apply, PhaseFs.put_apply]
      split
      · rfl
      · exact A.exist g
    · rw [Fs.put_apply, PhaseFs.put_apply]
      split
      · rfl
      · rename_i hne
        exact A.load g (hg.resolve_right hne)
    · rw [Fs.put_apply, PhaseFs.put_apply]
      split
      · exact .inr rfl
      · exact H g
  | clean _ ih =>
    simp only [aloneIn, alone]
    refine ih ⟨fun g => ?_, fun g hg => ?_⟩ fun g => ?_
    · rw [Fs.clean_apply, PhaseFs.clean_apply]
      split
      · rfl
      · exact A.exist g
    · rw [Fs.clean_apply, PhaseFs.clean_apply]
      split
      · rfl
      · exact A.load g hg
    · rw [Fs.clean_apply, PhaseFs.clean_apply]
      split
      · exact .inr rfl
      · exact H g

/-- the same files exist, and those of `S` hold the same phase -/
structure AgreesIn (phase : Text) (S : Text → Prop) (pf pf' : PhaseFs) : Prop where
  exist : ∀ f, (pf f).isSome = (pf' f).isSome
  load : ∀ f, S f → (pf f).bind (selectPhase phase) = (pf' f).bind (selectPhase phase)

/-- each file is as it was, in both, or the same in both -/
def SinceIn (pf0 pf0' pf pf' : PhaseFs) : Prop :=
  ∀ f, (pf f = pf0 f ∧ pf' f = pf0' f) ∨ pf f = pf' f

theorem aloneIn_same {phase : Text} {α} {Q : α → (Text → Prop) → Prop} {S : Text → Prop} {q : FsProg α}
    (h : Safe (HasPhase phase) Q S q) {pf pf0 pf' pf0' : PhaseFs} (A : AgreesIn phase S pf pf')
    (H : SinceIn pf0 pf0' pf pf') :
    (q.aloneIn phase pf).1 = (q.aloneIn phase pf').1 ∧
      SinceIn pf0 pf0' (q.aloneIn phase pf).2 (q.aloneIn phase pf').2 := by
  induction h generalizing pf pf' with
  | done h => exact ⟨rfl, H⟩
  | read h _ ih =>
    have e := A.load _ h
    simp only [aloneIn, e]
    refine ih _ ?_ A H
    intro m hm
    rw [Option.bind_eq_some_iff] at hm
    obtain ⟨l, _, hl⟩ := hm
    exact selectPhase_named hl
  | look _ ih =>
    simp only [aloneIn, A.exist]
    exact ih _ A H
  | write hm _ ih =>
    simp only [aloneIn]
    refine ih ⟨fun g => ?_, fun g hg => ?_⟩ fun g => ?_
    · rw [PhaseFs.put_apply, PhaseFs.put_apply]
      split
      · rfl
      · exact A.exist g
    · rw [PhaseFs.put_apply, PhaseFs.put_apply]
      split
      · rfl
      · rename_i hne
        exact A.load g (hg.resolve_right hne)
    · rw [PhaseFs.put_apply, PhaseFs.put_apply]
      split
      · exact .inr rfl
      · exact H g
  | remove _ ih =>
    simp only [aloneIn, A.exist]
    refine ih _ ⟨fun g => ?_, fun g hg => ?_⟩ fun g => ?_
    · rw [PhaseFs.put_apply, PhaseFs.put_apply]
      split
      · rfl
      · exact A.exist g
    · rw [PhaseFs.put_apply, PhaseFs.put_apply]
      split
      · rfl
      · rename_i hne
        exact A.load g (hg.resolve_right hne)
    · rw [PhaseFs.put_apply, PhaseFs.put_apply]
      split
      · exact .inr rfl
      · exact H g
  | clean _ ih =>
    simp only [aloneIn]
    refine ih ⟨fun g => ?_, fun g hg => ?_⟩ fun g => ?_
    · rw [PhaseFs.clean_apply, PhaseFs.clean_apply]
      split
      · rfl
      · exact A.exist g
    · rw [PhaseFs.clean_apply, PhaseFs.clean_apply]
      split
      · rfl
      · exact A.load g hg
    · rw [PhaseFs.clean_apply, PhaseFs.clean_apply]
      split
      · exact .inr rfl
      · exact H g

/-- models made by `trim` have the name of the phase -/
theorem makes_named (file phase : Text) : Makes (HasPhase phase) file phase := by
  have h : ∀ sol l f, HasPhase phase (trim sol l f phase) := by
    intro sol l f
    unfold HasPhase trim
    dsimp only
    split
    · exact .inl ‹_›
    · exact .inr rfl
  exact ⟨fun _ _ => h _ _ _, fun _ _ => h _ _ _⟩

/-- the extension is empty or begins with a dot -/
theorem splitext_ext (p : Text) : (splitext p).2 = [] ∨ ∃ e, (splitext p).2 = '.' :: e := by
  unfold splitext
  dsimp only
  split
  · split
    · exact .inr ⟨_, rfl⟩
    · exact .inl rfl
  · exact .inl rfl

/-- a beginning without a dot stays -/
theorem splitext_prefix {a : Text} (ha : '.' ∉ a) (b : Text) : a <+: (splitext (a ++ b)).1 := by
  have h := splitext_parts (a ++ b)
  rcases splitext_ext (a ++ b) with he | ⟨e, he⟩
  · rw [he, List.append_nil] at h
    rw [h]
    exact List.prefix_append _ _
  · have h1 : a <+: (splitext (a ++ b)).1 ++ (splitext (a ++ b)).2 := by rw [h]; exact List.prefix_append _ _
    generalize (splitext (a ++ b)).1 = x at h1 ⊢
    rw [he] at h1
    clear h he
    induction a generalizing x with
    | nil => exact List.nil_prefix
    | cons c t ih =>
      cases x with
      | nil =>
        rw [List.nil_append, List.cons_prefix_cons] at h1
        exact absurd (h1.1 ▸ List.mem_cons_self) ha
      | cons d u =>
        rw [List.cons_append, List.cons_prefix_cons] at h1
        rw [List.cons_prefix_cons]
        exact ⟨h1.1, ih (fun hm => ha (List.mem_cons_of_mem _ hm)) _ h1.2⟩

/-- without a phase name, the models made by `trim` have names that begin with `reduced_` -/
theorem makes_reduced (file : Text) (sol : Mech) :
    Makes (fun m => m = sol ∨ "reduced_".toList <+: m.name) file [] := by
  refine ⟨fun s l => .inr ?_, fun s sp => .inr ?_⟩
  · change _ <+: (splitext _).1
    exact splitext_prefix (by decide) _
  · change _ <+: (splitext _).1
    unfold candidateName
    have e : "reduced_model_".toList ++ sp.toList ++ ".yaml".toList =
        "reduced_".toList ++ ("model_".toList ++ sp.toList ++ ".yaml".toList) := by
      rw [← List.append_assoc, ← List.append_assoc]; rfl
    rw [e]
    exact splitext_prefix (by decide) _

end Verif
