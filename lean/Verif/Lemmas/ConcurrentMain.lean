import Verif.Lemmas.Concurrent
import Verif.Spec.ConcurrentMain
import Verif.Lemmas.SA
/-!
# Sensitivity analysis and `main` as programs
-/
namespace Verif
open FsProg

theorem writeYaml_put (w : World) (m : Mech) (name path : Text) :
    (writeYaml w m name path).2 = ⟨Fs.put w.fs (yamlName m name path) (some m), w.limbo⟩ := by
  have h := alone_writeP m (yamlName m name path) w
  rw [alone_writeP_put] at h
  have h2 := congrArg Prod.snd h
  unfold writeYaml
  dsimp only at h2 ⊢
  rw [h2]
  split <;> rfl

theorem cleanDir_fs (w : World) (dir : Text) : cleanDir w dir = ⟨Fs.clean w.fs dir, w.limbo⟩ := rfl

theorem alone_tryRemove (c : SACtx) (initial : List PyF) (file dir : Text) (sp : String) (w : World) :
    tryRemove c initial file dir sp w =
      (((tryRemoveP c initial file dir sp).alone w.fs).1,
        ⟨((tryRemoveP c initial file dir sp).alone w.fs).2, w.limbo⟩) := by
  unfold tryRemove tryRemoveP
  simp only [alone, loadModel]
  rcases w.fs file with _ | sol
  · rfl
  · dsimp only
    rw [alone_bind, alone_writeP_put]
    have hw := writeYaml_put w (trim sol [sp] (candidateName sp) c.phase) (candidateName sp) dir
    have hn : (writeYaml w (trim sol [sp] (candidateName sp) c.phase) (candidateName sp) dir).1 =
      yamlName (trim sol [sp] (candidateName sp) c.phase) (candidateName sp) dir := rfl
    generalize writeYaml w (trim sol [sp] (candidateName sp) c.phase) (candidateName sp) dir = B at hw hn ⊢
    obtain ⟨fn, w1⟩ := B
    dsimp only at hw hn ⊢
    subst hw hn
    simp only [alone]
    rw [Fs.put_apply, if_pos rfl]
    dsimp only
    rcases saErr c initial (trim sol [sp] (candidateName sp) c.phase) with e | err <;> rfl

theorem alone_evalLoop (c : SACtx) (initial : List PyF) (file dir : Text) (l : List String) (w : World) :
    evalLoop c initial file dir l w =
      (((evalLoopP c initial file dir l).alone w.fs).1,
        ⟨((evalLoopP c initial file dir l).alone w.fs).2, w.limbo⟩) := by
  induction l generalizing w with
  | nil => rfl
  | cons sp rest ih =>
    unfold evalLoop evalLoopP
    rw [alone_bind, alone_tryRemove]
    generalize (tryRemoveP c initial file dir sp).alone w.fs = A
    obtain ⟨a, fs1⟩ := A
    rcases a with e | ⟨test, fn, err⟩
    · rfl
    · dsimp only
      rw [alone_bind, ih]
      generalize (evalLoopP c initial file dir rest).alone fs1 = B
      obtain ⟨b, fs2⟩ := B
      rcases b with e | errs <;> rfl

theorem alone_evalSpecies (c : SACtx) (initial : List PyF) (file : Text) (l : List String) (w : World) :
    evalSpecies c initial file l w =
      (((evalSpeciesP c initial file l).alone w.fs).1,
        ⟨((evalSpeciesP c initial file l).alone w.fs).2, w.limbo⟩) := by
  unfold evalSpecies evalSpeciesP
  rw [alone_bind]
  dsimp only
  rw [alone_evalLoop]
  rfl

/-- the variables of a state of the loop -/
def SAState.vars (s : SAState) : SAVars := ⟨s.cur, s.limbo, s.errs⟩

/-- the variables together with the files -/
def SANext.at (x : SANext) (fs : Fs) (dflt : List String) : SAStep :=
  match x with
  | .more v => .more ⟨v.cur, v.limbo, v.errs, ⟨fs, dflt⟩⟩
  | .stop v => .stop ⟨v.cur, v.limbo, v.errs, ⟨fs, dflt⟩⟩
  | .raise e v => .raise e ⟨v.cur, v.limbo, v.errs, ⟨fs, dflt⟩⟩

theorem alone_saStep (c : SACtx) (initial : List PyF) (s : SAState) :
    saStep c initial s =
      ((saStepP c initial s.vars).alone s.w.fs).1.at ((saStepP c initial s.vars).alone s.w.fs).2 s.w.limbo := by
  obtain ⟨cur, limbo, errs, w⟩ := s
  unfold saStep saStepP
  dsimp only [SAState.vars]
  rcases npArgmin (errs.map (fun e => c.dist e cur.error)) with e | idx
  · rfl
  · dsimp only
    rcases limbo[idx]? with _ | sp
    · rfl
    · dsimp only
      rw [alone_bind, alone_tryRemove]
      generalize (tryRemoveP c initial cur.filename c.tmpDir sp).alone w.fs = A
      obtain ⟨a, fs1⟩ := A
      rcases a with e | ⟨test, fn, err⟩
      · rfl
      · dsimp only
        by_cases h1 : c.limit.lt err = true
        · rw [if_pos h1, if_pos h1]; rfl
        · rw [if_neg h1, if_neg h1]
          by_cases h2 : c.greedy = true
          · rw [if_pos h2, if_pos h2, alone_bind, alone_evalSpecies]
            generalize (evalSpeciesP c initial fn (limbo.eraseIdx idx)).alone fs1 = B
            obtain ⟨b, fs2⟩ := B
            rcases b with e | errs'
            · rfl
            · dsimp only
              rcases pyMin errs' with e | least
              · rfl
              · dsimp only
                by_cases h3 : c.limit.lt least = true
                · rw [if_pos h3, if_pos h3]; rfl
                · rw [if_neg h3, if_neg h3]; rfl
          · rw [if_neg h2, if_neg h2]; rfl

/-- the outcome of the loop together with the files -/
def loopAt (x : Option (Except Err Unit × SAVars) × Fs) (dflt : List String) :
    Option (Except Err Unit × SAState) :=
  x.1.map fun y => (y.1, ⟨y.2.cur, y.2.limbo, y.2.errs, ⟨x.2, dflt⟩⟩)

theorem alone_saLoop (c : SACtx) (initial : List PyF) (fuel : Nat) (s : SAState) :
    saLoop c initial fuel s = loopAt ((saLoopP c initial fuel s.vars).alone s.w.fs) s.w.limbo := by
  induction fuel generalizing s with
  | zero => rfl
  | succ k ih =>
    unfold saLoop saLoopP
    by_cases h : s.limbo = []
    · have h' : s.vars.limbo = [] := h
      rw [if_pos h, if_pos h']; rfl
    · have h' : ¬ s.vars.limbo = [] := h
      rw [if_neg h, if_neg h', alone_bind, alone_saStep]
      generalize (saStepP c initial s.vars).alone s.w.fs = A
      obtain ⟨a, fs1⟩ := A
      cases a with
      | more v => exact ih ⟨v.cur, v.limbo, v.errs, ⟨fs1, s.w.limbo⟩⟩
      | stop v => rfl
      | raise e v => rfl

/-- the program of `run_sa` does what `run_sa` does -/
theorem alone_saP (c : SACtx) (limbo : List String) (fuel : Nat) (w : World) :
    runSA c limbo fuel w = ((saP c limbo fuel).alone w.fs).1.map fun x =>
      ⟨x.1, ⟨((saP c limbo fuel).alone w.fs).2, w.limbo⟩, x.2⟩ := by
  unfold runSA saP
  simp only [alone, loadModel]
  rcases w.fs c.modelFile with _ | sol
  · rfl
  · dsimp only
    rcases c.initial sol with e | initial
    · rfl
    · dsimp only
      rw [alone_bind, alone_evalSpecies]
      generalize (evalSpeciesP c initial c.modelFile (saLimbo c.safe sol limbo)).alone w.fs = A
      obtain ⟨a, fs1⟩ := A
      rcases a with e | errs
      · rfl
      · dsimp only
        rw [alone_bind, alone_saLoop]
        dsimp only [SAState.vars]
        generalize (saLoopP c initial fuel ⟨⟨sol, c.modelFile, c.startErr, none⟩, saLimbo c.safe sol limbo, errs⟩).alone fs1 = B
        obtain ⟨b, fs2⟩ := B
        rcases b with _ | ⟨_ | u, v⟩
        · rfl
        · rfl
        · dsimp only [loopAt, Option.map]
          simp only [alone]
          rw [alone_bind, alone_writeP_put]
          dsimp only [alone]
          rw [writeYaml_put]
          rfl

theorem runResult_ext (x : RunResult) : x = (x.1, ⟨x.2.fs, x.2.limbo⟩) := rfl

/-- the program of the sensitivity stage -/
theorem alone_saStage (p : MainIn) (file : Text) (err : PyF) (limbo : List String) (shared : Bool) (w : World)
    (h : (saStage p file err limbo shared w).1 ≠ none) :
    (saStageP p file err limbo shared w.limbo).alone w.fs =
      (((saStage p file err limbo shared w).1, (saStage p file err limbo shared w).2.limbo),
        (saStage p file err limbo shared w).2.fs) := by
  unfold saStage saStageP at *
  rw [alone_bind]
  rw [alone_saP] at h ⊢
  generalize (saP (p.saCtx file err) limbo p.saFuel).alone w.fs = A at h ⊢
  obtain ⟨a, fs1⟩ := A
  rcases a with _ | ⟨r, left⟩
  · exact absurd rfl h
  · dsimp only [Option.map] at h ⊢
    by_cases hs : (shared && decide (limbo ≠ [])) = true
    · rw [if_pos hs, if_pos hs]; rfl
    · rw [if_neg hs, if_neg hs]; rfl

/-! ### what the programs touch -/

open Spec

section
variable {R W : Text → Prop}

theorem within_tryRemoveP (c : SACtx) (initial : List PyF) {file dir : Text} (sp : String) (hf : R file)
    (hd : dir ≠ [] ∧ dir.getLast? ≠ some '/') (hR : ∀ f, Under dir f → R f) (hW : ∀ f, Under dir f → W f) :
    TouchesOnly R W (tryRemoveP c initial file dir sp) := by
  unfold tryRemoveP
  refine .read hf fun o => ?_
  split
  · exact .done _
  · rename_i sol
    have hu := yamlName_under hd.1 hd.2 (trim sol [sp] (candidateName sp) c.phase) sp
    refine within_bind (within_writeP _ (hR _ hu) (hW _ hu)) fun x => ?_
    split
    · exact .done _
    · refine .read (hR _ hu) fun o => ?_
      split
      · exact .done _
      · split <;> exact .done _

theorem ends_tryRemoveP (c : SACtx) (initial : List PyF) (file : Text) {dir : Text} (sp : String)
    (hd : dir ≠ [] ∧ dir.getLast? ≠ some '/') :
    Ends (fun x => ∀ y, x = .ok y → Under dir y.2.1) (tryRemoveP c initial file dir sp) := by
  unfold tryRemoveP
  refine .read fun o => ?_
  split
  · exact .done (by intro y h; cases h)
  · rename_i sol
    have hu := yamlName_under hd.1 hd.2 (trim sol [sp] (candidateName sp) c.phase) sp
    refine ends_bind (ends_true _) fun x _ => ?_
    split
    · exact .done (by intro y h; cases h)
    · refine .read fun o => ?_
      split
      · exact .done (by intro y h; cases h)
      · split
        · exact .done (by intro y h; cases h)
        · exact .done (by intro y h; injection h with h; subst h; exact hu)

theorem within_evalLoopP (c : SACtx) (initial : List PyF) {file dir : Text} (l : List String) (hf : R file)
    (hd : dir ≠ [] ∧ dir.getLast? ≠ some '/') (hR : ∀ f, Under dir f → R f) (hW : ∀ f, Under dir f → W f) :
    TouchesOnly R W (evalLoopP c initial file dir l) := by
  induction l with
  | nil => exact .done _
  | cons sp rest ih =>
    unfold evalLoopP
    refine within_bind (within_tryRemoveP c initial sp hf hd hR hW) fun x => ?_
    split
    · exact .done _
    · refine within_bind ih fun y => ?_
      split <;> exact .done _

/-- the temporary directories of a sensitivity analysis may be read and written -/
structure TmpOf (c : SACtx) (R W : Text → Prop) : Prop where
  tmp : c.tmpDir ≠ [] ∧ c.tmpDir.getLast? ≠ some '/'
  eval : ∀ n, c.evalDir n ≠ [] ∧ (c.evalDir n).getLast? ≠ some '/'
  tmpR : ∀ f, Under c.tmpDir f → R f
  tmpW : ∀ f, Under c.tmpDir f → W f
  evalR : ∀ n f, Under (c.evalDir n) f → R f
  evalW : ∀ n f, Under (c.evalDir n) f → W f

theorem within_evalSpeciesP {c : SACtx} (T : TmpOf c R W) (initial : List PyF) {file : Text} (l : List String)
    (hf : R file) : TouchesOnly R W (evalSpeciesP c initial file l) := by
  unfold evalSpeciesP
  exact within_bind (within_evalLoopP c initial l hf (T.eval _) (T.evalR _) (T.evalW _)) fun r =>
    .clean (T.evalW _) (.done _)

/-- the file of the current model may be read -/
def NextOk (R : Text → Prop) : SANext → Prop
  | .more v => R v.cur.filename
  | .stop _ => True
  | .raise _ _ => True

theorem within_saStepP {c : SACtx} (T : TmpOf c R W) (initial : List PyF) {v : SAVars} (hf : R v.cur.filename) :
    TouchesOnly R W (saStepP c initial v) := by
  unfold saStepP
  split
  · exact .done _
  · split
    · exact .done _
    · refine within_bind_ends (within_tryRemoveP c initial _ hf T.tmp T.tmpR T.tmpW)
        (ends_tryRemoveP c initial _ _ T.tmp) fun x hx => ?_
      split
      · exact .done _
      · rename_i test fn err
        split
        · exact .done _
        · split
          · refine within_bind (within_evalSpeciesP T initial _ (T.tmpR _ (hx _ rfl))) fun y => ?_
            split
            · exact .done _
            · split <;> exact .done _
          · exact .done _

theorem ends_saStepP {c : SACtx} (T : TmpOf c R W) (initial : List PyF) (v : SAVars) :
    Ends (NextOk R) (saStepP c initial v) := by
  unfold saStepP
  split
  · exact .done trivial
  · split
    · exact .done trivial
    · refine ends_bind (ends_tryRemoveP c initial _ _ T.tmp) fun x hx => ?_
      split
      · exact .done trivial
      · rename_i test fn err
        have hfn : R fn := T.tmpR _ (hx _ rfl)
        split
        · exact .done trivial
        · split
          · refine ends_bind (ends_true _) fun y _ => ?_
            split
            · exact .done trivial
            · split
              · exact .done trivial
              · refine .done ?_
                split
                · trivial
                · exact hfn
          · exact .done hfn

theorem within_saLoopP {c : SACtx} (T : TmpOf c R W) (initial : List PyF) (fuel : Nat) {v : SAVars}
    (hf : R v.cur.filename) : TouchesOnly R W (saLoopP c initial fuel v) := by
  induction fuel generalizing v with
  | zero => exact .done _
  | succ k ih =>
    unfold saLoopP
    split
    · exact .done _
    · refine within_bind_ends (within_saStepP T initial hf) (ends_saStepP T initial v) fun x hx => ?_
      split
      · exact .done _
      · exact .done _
      · exact ih hx

theorem within_saP {c : SACtx} (T : TmpOf c R W) (limbo : List String) (fuel : Nat) (hf : R c.modelFile)
    (hR : ∀ f, OwnFile c.path f → R f) (hW : ∀ f, OwnFile c.path f → W f) :
    TouchesOnly R W (saP c limbo fuel) := by
  unfold saP
  refine .read hf fun o => ?_
  split
  · exact .done _
  · split
    · exact .done _
    · refine within_bind (within_evalSpeciesP T _ _ hf) fun x => ?_
      split
      · exact .done _
      · refine within_bind (within_saLoopP T _ _ hf) fun y => ?_
        split
        · exact .done _
        · exact .clean T.tmpW (.done _)
        · refine .clean T.tmpW ?_
          rename_i v
          have ho := ownFile_yamlName v.cur.model v.cur.model.nSpecies c.path
          refine within_bind (within_writeP _ (hR _ ho) (hW _ ho)) fun z => ?_
          split <;> exact .done _

theorem within_saStageP {p : MainIn} {file : Text} {err : PyF} (T : TmpOf (p.saCtx file err) R W)
    (limbo : List String) (shared : Bool) (dflt : List String) (hf : R file)
    (hR : ∀ f, OwnFile p.path f → R f) (hW : ∀ f, OwnFile p.path f → W f) :
    TouchesOnly R W (saStageP p file err limbo shared dflt) := by
  unfold saStageP
  refine within_bind (within_saP T limbo p.saFuel hf hR hW) fun x => ?_
  split <;> exact .done _

theorem within_mono {α} {R' W' : Text → Prop} {q : FsProg α} (h : TouchesOnly R W q) (hR : ∀ f, R f → R' f)
    (hW : ∀ f, W f → W' f) : TouchesOnly R' W' q := by
  induction h with
  | done a => exact .done a
  | read h _ ih => exact .read (hR _ h) ih
  | look h _ ih => exact .look (hR _ h) ih
  | write h _ ih => exact .write (hW _ h) ih
  | remove h _ ih => exact .remove (hW _ h) ih
  | clean h _ ih => exact .clean (fun f hf => hW f (h f hf)) ih

end

/-- a model that the method returns is in a file of its own -/
def OwnResult (path : Text) (x : Option (Except Err RModel)) : Prop :=
  ∀ r, x = some (.ok r) → OwnFile path r.filename

theorem ends_tupleP (out : Text) : Ends (fun x => ∀ r : RModel, x ≠ .ok r) (tupleP out) := by
  unfold tupleP
  refine .look fun o => ?_
  split
  · exact .remove fun b => .done (by intro r h; cases h)
  · exact .done (by intro r h; cases h)

theorem ends_finishP (m : Method) (c : Ctx) (sim : Mech → Except Err PyF) {plan : Plan} (hplan : PlanOk plan)
    (rnd : ℚ → ℚ) (limit : PyF) (v : LoopVars) :
    Ends (fun x => ∀ r, x = .ok r → OwnFile c.path r.filename) (finishP m c (reduceP c sim plan) rnd limit v) := by
  have hb : Ends (fun x => ∀ r, x = .ok r → OwnFile c.path r.filename)
      (reduceP c sim plan (rnd (v.thr - rnd (2 * v.inc))) none) :=
    ends_mono (ends_reduceP c sim hplan _ _) fun x h r hr => by
      rcases h r hr with h | h
      · cases h
      · exact h
  have ht : ∀ out, Ends (fun x => ∀ r, x = .ok r → OwnFile c.path r.filename) (tupleP out) := fun out =>
    ends_mono (ends_tupleP out) fun x h r hr => absurd hr (h r)
  unfold finishP
  dsimp only
  split
  · split
    · exact hb
    · split
      · exact .done (by intro r h; cases h)
      · exact ht _
  · split
    · exact .done (by intro r h; cases h)
    · split
      · exact hb
      · exact ht _

theorem ends_loopP (m : Method) (c : Ctx) (sim : Mech → Except Err PyF) {plan : Plan} (hplan : PlanOk plan)
    (rnd : ℚ → ℚ) (x : ℚ) (limit : PyF) (fuel : Nat) (v : LoopVars) :
    Ends (OwnResult c.path) (loopP m c (reduceP c sim plan) rnd x limit fuel v) := by
  induction fuel generalizing v with
  | zero => exact .done (by intro r h; cases h)
  | succ k ih =>
    unfold loopP
    split
    · refine ends_bind (ends_true _) fun y _ => ?_
      split
      · exact .done (by intro r h; cases h)
      · split
        · dsimp only
          split
          · exact .done (by intro r h; cases h)
          · exact ih _
        · refine ends_bind (ends_true _) fun z _ => ?_
          split
          · exact .done (by intro r h; cases h)
          · exact ih _
    · refine ends_bind (ends_finishP m c sim hplan rnd limit v) fun y hy => .done ?_
      intro r hr
      injection hr with hr
      exact hy r hr

theorem ends_methodP (m : Method) (c : Ctx) (sim : Mech → Except Err PyF) (rnd : ℚ → ℚ) (limit : PyF)
    (dfuel fuel : Nat) (limbo : List String) :
    Ends (fun x => OwnResult c.path x.1) (methodP m c sim rnd limit dfuel fuel limbo) := by
  unfold methodP
  refine .read fun o => ?_
  split
  · exact .done (by intro r h; cases h)
  · split
    · exact .done (by intro r h; cases h)
    · split
      · exact ends_bind (ends_loopP _ c sim (planOk_drg c) rnd _ limit fuel _) fun y hy => .done hy
      · exact ends_bind (ends_loopP _ c sim (planOk_pfa c) rnd _ limit fuel _) fun y hy => .done hy
      · split
        · exact .done (by intro r h; cases h)
        · refine ends_bind (ends_loopP _ c sim (planOk_drgep c _) rnd _ limit fuel _) fun y hy => ?_
          split
          · split
            · exact .done hy
            · rename_i r _ l _
              refine .done ?_
              intro r' h
              cases h
              exact hy r rfl
          · exact .done hy

/-- the files a run reads -/
def RunReads (p : MainIn) (f : Text) : Prop := f = p.modelFile ∨ MainOwn p f

theorem within_mainP {p : MainIn} (T : TmpNames p) (dflt : List String) :
    TouchesOnly (RunReads p) (MainOwn p) (mainP p dflt) := by
  have hT : ∀ file err, TmpOf (p.saCtx file err) (RunReads p) (MainOwn p) := fun file err =>
    ⟨T.tmp, T.eval, fun f h => .inr (.inr (.inl h)), fun f h => .inr (.inl h),
      fun n f h => .inr (.inr (.inr ⟨n, h⟩)), fun n f h => .inr (.inr ⟨n, h⟩)⟩
  unfold mainP
  split
  · exact .done _
  · split
    · exact .done _
    · split
      · rename_i m _
        have hw : TouchesOnly (RunReads p) (MainOwn p)
            (methodP m (p.ctx m) p.sim p.rnd p.limit p.dfuel p.fuel dflt) := by
          refine within_mono (within_methodP m (p.ctx m) p.sim p.rnd p.limit p.dfuel p.fuel dflt) ?_ ?_
          · rintro f (h | h)
            · exact .inl h
            · exact .inr (.inl h)
          · exact fun f h => .inl h
        refine within_bind_ends hw (ends_methodP m (p.ctx m) p.sim p.rnd p.limit p.dfuel p.fuel dflt) fun x hx => ?_
        split
        · rename_i r hr
          split
          · exact within_saStageP (hT _ _) _ _ _ (.inr (.inl (hx r hr))) (fun f h => .inr (.inl h)) (fun f h => .inl h)
          · exact .done _
        · exact .done _
      · split
        · exact within_saStageP (hT _ _) _ _ _ (.inl rfl) (fun f h => .inr (.inl h)) (fun f h => .inl h)
        · exact .done _

end Verif
