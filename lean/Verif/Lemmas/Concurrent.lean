import Verif.Spec.Concurrent
/-!
# Programs of file operations
-/
namespace Verif
open FsProg

theorem alone_bind {α β} (p : FsProg α) (g : α → FsProg β) (fs : Fs) :
    (p.bind g).alone fs = (g (p.alone fs).1).alone (p.alone fs).2 := by
  induction p generalizing fs with
  | done a => rfl
  | read f k ih => exact ih _ fs
  | look f k ih => exact ih _ fs
  | write f m k ih => exact ih _
  | remove f k ih => exact ih _ _
  | clean dir k ih => exact ih _

/-- a reduction step and its program do the same -/
def SameStep (f : ReduceFn) (p : ℚ → Option RModel → FsProg (Except Err RModel)) : Prop :=
  ∀ thr prev (w : World), f thr prev w =
    (((p thr prev).alone w.fs).1, ⟨((p thr prev).alone w.fs).2, w.limbo⟩)

theorem alone_writeP (m : Mech) (out : Text) (w : World) :
    (writeP m out).alone w.fs = (.ok (), ((if (w.fs out).isSome then w.set out none else w).set out (some m)).fs) := by
  unfold writeP
  by_cases h : (w.fs out).isSome = true
  · simp [alone, h, World.set]; rfl
  · simp [alone, h, World.set]; rfl

/-- the program of a step -/
theorem alone_build (c : Ctx) (sim : Mech → Except Err PyF) (sol : Mech) (removed : List String) (w : World)
    (limbo : Except Err (Option (List String))) :
    (candidateP c sim (trim sol removed ("reduced_".toList ++ c.modelFile) c.phase) limbo).alone w.fs =
    ((match (buildCandidate c sim sol removed w).1 with
      | .error e => .error e
      | .ok (red, fn, err) => match limbo with
        | .error e => .error e
        | .ok l => .ok ⟨red, fn, err, l⟩), (buildCandidate c sim sol removed w).2.fs) := by
  unfold candidateP
  dsimp only
  rw [alone_bind, alone_writeP]
  simp only [alone, buildCandidate, writeYaml, loadModel]
  generalize trim sol removed ("reduced_".toList ++ c.modelFile) c.phase = red
  generalize yamlName red (reducedName red.nSpecies) c.path = fn
  have h1 : ((if (w.fs fn).isSome = true then w.set fn none else w).set fn (some red)).fs fn = some red := by
    simp [World.set]
  rw [h1]
  dsimp only
  cases sim red with
  | error e => rfl
  | ok err => cases limbo with
    | error e => rfl
    | ok l => rfl

theorem buildCandidate_limbo (c : Ctx) (sim : Mech → Except Err PyF) (sol : Mech) (removed : List String) (w : World) :
    (buildCandidate c sim sol removed w).2.limbo = w.limbo := by
  unfold buildCandidate writeYaml
  dsimp only
  have h : ∀ (fn : Text) (red : Mech), ((if (w.fs fn).isSome = true then w.set fn none else w).set fn (some red)).limbo = w.limbo := by
    intro fn red; unfold World.set; split <;> rfl
  split
  · exact h _ _
  · split <;> exact h _ _

theorem world_ext {w : World} {l : List String} (h : w.limbo = l) : w = ⟨w.fs, l⟩ := by
  cases w; cases h; rfl

theorem same_drg (c : Ctx) (sim : Mech → Except Err PyF) :
    SameStep (reduceDrgS c sim) (reduceP c sim (drgPlan c)) := by
  intro thr prev w
  unfold reduceDrgS reduceP
  simp only [alone, loadModel]
  rcases w.fs c.modelFile with _ | sol
  · rfl
  · dsimp only [drgPlan]
    rcases retained c.matrices sol.names c.targets thr with e | ret
    · rfl
    · dsimp only
      rcases sameCount prev ret.length with _ | p
      · dsimp only
        rw [alone_build]
        have hl := buildCandidate_limbo c sim sol (sol.names.filter (fun sp => !((ret ++ c.safe).contains sp))) w
        generalize buildCandidate c sim sol (sol.names.filter (fun sp => !((ret ++ c.safe).contains sp))) w = B at hl ⊢
        obtain ⟨b, w1⟩ := B
        dsimp only at hl ⊢
        rcases b with e | ⟨red, fn, err⟩
        · exact Prod.ext rfl (world_ext hl)
        · dsimp only
          rcases truthy c.upper with _ | u
          · exact Prod.ext rfl (world_ext hl)
          · dsimp only
            rcases retained c.matrices sol.names c.targets u with e | l
            · exact Prod.ext rfl (world_ext hl)
            · exact Prod.ext rfl (world_ext hl)
      · rfl

theorem same_pfa (c : Ctx) (sim : Mech → Except Err PyF) :
    SameStep (reducePfaS c sim) (reduceP c sim (pfaPlan c)) := by
  intro thr prev w
  unfold reducePfaS reduceP
  simp only [alone, loadModel]
  rcases w.fs c.modelFile with _ | sol
  · rfl
  · dsimp only [pfaPlan]
    rcases retained c.matrices sol.names c.targets thr with e | ret
    · rfl
    · dsimp only
      rcases sameCount prev ret.length with _ | p
      · dsimp only
        rw [alone_build]
        have hl := buildCandidate_limbo c sim sol (sol.names.filter (fun sp => !((ret ++ c.safe).contains sp))) w
        generalize buildCandidate c sim sol (sol.names.filter (fun sp => !((ret ++ c.safe).contains sp))) w = B at hl ⊢
        obtain ⟨b, w1⟩ := B
        dsimp only at hl ⊢
        rcases b with e | ⟨red, fn, err⟩
        · exact Prod.ext rfl (world_ext hl)
        · dsimp only
          rcases truthy c.upper with _ | u
          · exact Prod.ext rfl (world_ext hl)
          · dsimp only
            rcases c.matrices.getLast? with _ | M
            · exact Prod.ext rfl (world_ext hl)
            · dsimp only
              rcases trimDrg M sol.names c.targets u with e | l
              · exact Prod.ext rfl (world_ext hl)
              · exact Prod.ext rfl (world_ext hl)
      · rfl

theorem same_drgep (c : Ctx) (sim : Mech → Except Err PyF) (imp : String → Option ℚ) :
    SameStep (reduceDrgepS c sim imp) (reduceP c sim (drgepPlan c imp)) := by
  intro thr prev w
  unfold reduceDrgepS reduceP
  simp only [alone, loadModel]
  rcases w.fs c.modelFile with _ | sol
  · rfl
  · dsimp only [drgepPlan]
    rcases removedDrgep imp c.safe thr sol.names with e | removed
    · rfl
    · dsimp only
      have hnone : (match buildCandidate c sim sol removed w with
            | (.error e, w1) => (.error e, w1)
            | (.ok (red, fn, err), w1) => (.ok (⟨red, fn, err, none⟩ : RModel), w1)) =
          (((candidateP c sim (trim sol removed ("reduced_".toList ++ c.modelFile) c.phase) (.ok none)).alone w.fs).1,
            (⟨((candidateP c sim (trim sol removed ("reduced_".toList ++ c.modelFile) c.phase) (.ok none)).alone w.fs).2,
              w.limbo⟩ : World)) := by
        rw [alone_build]
        have hl := buildCandidate_limbo c sim sol removed w
        generalize buildCandidate c sim sol removed w = B at hl ⊢
        obtain ⟨b, w1⟩ := B
        dsimp only at hl ⊢
        rcases b with e | ⟨red, fn, err⟩
        · exact Prod.ext rfl (world_ext hl)
        · exact Prod.ext rfl (world_ext hl)
      rcases prev with _ | p
      · exact hnone
      · dsimp only
        by_cases h : (removed.length : Int) = (sol.nSpecies : Int) - p.model.nSpecies
        · simp only [if_pos h]; rfl
        · simp only [if_neg h]; exact hnone

/-- the variables of a state of the loop -/
def LoopState.vars (s : LoopState) : LoopVars := ⟨s.first, s.errCur, s.thr, s.inc, s.prev, s.last⟩

/-- the part after the loop -/
def finishFnOf (m : Method) (reduce : ReduceFn) (rnd : ℚ → ℚ) (limit : PyF) (path : Text) :
    LoopState → Except Err RModel × World :=
  match m with
  | .drg => finishDrg reduce rnd limit path
  | _ => finishOther reduce rnd limit path

theorem alone_tupleP (out : Text) (w : World) (x : Text) (hx : out = joinPath path x) (r : RModel) :
    (match writeYamlTuple w x path with
      | (.error e, w) => ((.error e : Except Err RModel), w)
      | (.ok _, w) => (.ok r, w)) = (((tupleP out).alone w.fs).1, ⟨((tupleP out).alone w.fs).2, w.limbo⟩) := by
  subst hx
  unfold writeYamlTuple tupleP
  by_cases h : (w.fs (joinPath path x)).isSome = true
  · simp [alone, h, World.set]; rfl
  · simp [alone, h]

theorem alone_finish {m : Method} {c : Ctx} {f : ReduceFn} {p : ℚ → Option RModel → FsProg (Except Err RModel)}
    (h : SameStep f p) (rnd : ℚ → ℚ) (limit : PyF) (s : LoopState) :
    finishFnOf m f rnd limit c.path s =
      (((finishP m c p rnd limit s.vars).alone s.w.fs).1, ⟨((finishP m c p rnd limit s.vars).alone s.w.fs).2, s.w.limbo⟩) := by
  have hb := h (backStep rnd s) none s.w
  cases m with
  | drg =>
    unfold finishFnOf finishDrg finishP
    by_cases hl : limit.lt s.errCur = true
    · have hl' : limit.lt s.vars.errCur = true := hl
      dsimp only; rw [if_pos hl, if_pos hl']; exact hb
    · have hl' : ¬ limit.lt s.vars.errCur = true := hl
      dsimp only; rw [if_neg hl, if_neg hl']
      have hv : s.vars.last = s.last := rfl
      rw [hv]
      rcases s.last with _ | r
      · rfl
      · exact alone_tupleP _ s.w _ rfl r
  | drgep =>
    unfold finishFnOf finishOther finishP
    dsimp only [LoopState.vars]
    rcases s.last with _ | r
    · rfl
    · dsimp only
      by_cases hl : limit.lt r.error = true
      · rw [if_pos hl, if_pos hl]; exact hb
      · rw [if_neg hl, if_neg hl]; exact alone_tupleP _ s.w _ rfl r
  | pfa =>
    unfold finishFnOf finishOther finishP
    dsimp only [LoopState.vars]
    rcases s.last with _ | r
    · rfl
    · dsimp only
      by_cases hl : limit.lt r.error = true
      · rw [if_pos hl, if_pos hl]; exact hb
      · rw [if_neg hl, if_neg hl]; exact alone_tupleP _ s.w _ rfl r

theorem Fs.put_apply (fs : Fs) (f g : Text) (c : Option Mech) : fs.put f c g = if g = f then c else fs g := rfl

theorem Fs.clean_apply (fs : Fs) (dir g : Text) :
    fs.clean dir g = if (dir ++ ['/']).isPrefixOf g then none else fs g := rfl

theorem alone_removeP (f : Text) (w : World) :
    removeFile w f = (((removeP f).alone w.fs).1, ⟨((removeP f).alone w.fs).2, w.limbo⟩) := by
  unfold removeFile removeP
  cases h : w.fs f with
  | some m => simp [alone, h, World.set]; rfl
  | none =>
    have hp : Fs.put w.fs f none = w.fs := by
      funext g
      by_cases hg : g = f
      · subst hg; rw [Fs.put_apply, if_pos rfl, h]
      · rw [Fs.put_apply, if_neg hg]
    simp [alone, h, hp]

theorem alone_loop {m : Method} {c : Ctx} {f : ReduceFn} {p : ℚ → Option RModel → FsProg (Except Err RModel)}
    (h : SameStep f p) (rnd : ℚ → ℚ) (x : ℚ) (limit : PyF) (fuel : Nat) (s : LoopState) :
    runWith f (finishFnOf m f rnd limit c.path) rnd x limit fuel s =
      (((loopP m c p rnd x limit fuel s.vars).alone s.w.fs).1,
        ⟨((loopP m c p rnd x limit fuel s.vars).alone s.w.fs).2, s.w.limbo⟩) := by
  induction fuel generalizing s with
  | zero => rfl
  | succ k ih =>
    unfold runWith whileLoop loopStep loopP
    by_cases hl : s.errCur.le limit = true
    · have hl' : s.vars.errCur.le limit = true := hl
      rw [if_pos hl, if_pos hl', alone_bind, h]
      have hv : p s.vars.thr (some s.vars.prev) = p s.thr (some s.prev) := rfl
      rw [hv]
      generalize (p s.thr (some s.prev)).alone s.w.fs = A
      obtain ⟨a, fs1⟩ := A
      dsimp only
      rcases a with e | r
      · rfl
      · dsimp only
        by_cases h1 : (s.first && limit.lt r.error) = true
        · have h1' : (s.vars.first && limit.lt r.error) = true := h1
          rw [if_pos h1, if_pos h1']
          by_cases h2 : rnd (s.thr / 10) ≤ x
          · have h2' : rnd (s.vars.thr / 10) ≤ x := h2
            rw [if_pos h2, if_pos h2']; rfl
          · have h2' : ¬ rnd (s.vars.thr / 10) ≤ x := h2
            rw [if_neg h2, if_neg h2']
            exact ih { s with errCur := .fin 0, thr := rnd (s.thr / 10), inc := rnd (s.inc / 10), last := some r,
                              w := ⟨fs1, s.w.limbo⟩ }
        · have h1' : ¬ (s.vars.first && limit.lt r.error) = true := h1
          rw [if_neg h1, if_neg h1', alone_bind]
          by_cases h3 : s.prev.model.nSpecies ≠ r.model.nSpecies
          · have h3' : s.vars.prev.model.nSpecies ≠ r.model.nSpecies := h3
            rw [if_pos h3, if_pos h3', alone_removeP]
            dsimp only
            generalize (removeP r.filename).alone fs1 = B
            obtain ⟨b, fs2⟩ := B
            rcases b with e | u
            · rfl
            · exact ih ⟨false, r.error, rnd (s.thr + s.inc), s.inc, r, some r, ⟨fs2, s.w.limbo⟩⟩
          · have h3' : ¬ s.vars.prev.model.nSpecies ≠ r.model.nSpecies := h3
            rw [if_neg h3, if_neg h3']
            exact ih ⟨false, r.error, rnd (s.thr + s.inc), s.inc, r, some r, ⟨fs1, s.w.limbo⟩⟩
    · have hl' : ¬ s.vars.errCur.le limit = true := hl
      rw [if_neg hl, if_neg hl', alone_bind]
      dsimp only
      rw [alone_finish h]
      rfl

/-! ### what a program touches -/

open Spec

theorem within_bind {α β} {R W : Text → Prop} {p : FsProg α} {g : α → FsProg β} (hp : TouchesOnly R W p)
    (hg : ∀ a, TouchesOnly R W (g a)) : TouchesOnly R W (p.bind g) := by
  induction hp with
  | done a => exact hg a
  | read h _ ih => exact .read h ih
  | look h _ ih => exact .look h ih
  | write h _ ih => exact .write h ih
  | remove h _ ih => exact .remove h ih
  | clean h _ ih => exact .clean h ih

theorem within_writeP {R W : Text → Prop} {out : Text} (m : Mech) (hr : R out) (hw : W out) :
    TouchesOnly R W (writeP m out) := by
  unfold writeP
  refine .look hr fun o => ?_
  split
  · refine .remove hw fun b => ?_
    split
    · exact .write hw (.done _)
    · exact .done _
  · exact .write hw (.done _)

theorem reducedName_ne (n : Nat) : reducedName n ≠ [] := by
  unfold reducedName; simp

theorem ownFile_yamlName (red : Mech) (n : Nat) (path : Text) :
    OwnFile path (yamlName red (reducedName n) path) := by
  unfold yamlName
  rw [if_neg (reducedName_ne n)]
  exact ⟨n, rfl⟩

/-- the files a reduction reads -/
def ReadsOf (c : Ctx) : Text → Prop := fun f => f = c.modelFile ∨ OwnFile c.path f

theorem within_candidateP (c : Ctx) (sim : Mech → Except Err PyF) (red : Mech)
    (limbo : Except Err (Option (List String))) :
    TouchesOnly (ReadsOf c) (OwnFile c.path) (candidateP c sim red limbo) := by
  have ho := ownFile_yamlName red red.nSpecies c.path
  unfold candidateP
  refine within_bind (within_writeP _ (.inr ho) ho) fun x => ?_
  split
  · exact .done _
  · refine .read (.inr ho) fun o => ?_
    split
    · exact .done _
    · split
      · exact .done _
      · split <;> exact .done _

theorem within_reduceP (c : Ctx) (sim : Mech → Except Err PyF) (plan : Plan) (thr : ℚ) (prev : Option RModel) :
    TouchesOnly (ReadsOf c) (OwnFile c.path) (reduceP c sim plan thr prev) := by
  unfold reduceP
  refine .read (.inl rfl) fun o => ?_
  split
  · exact .done _
  · split
    · exact .done _
    · exact .done _
    · exact within_candidateP _ _ _ _

theorem within_tupleP (c : Ctx) (n : Nat) :
    TouchesOnly (ReadsOf c) (OwnFile c.path) (tupleP (joinPath c.path (reducedName n))) := by
  unfold tupleP
  refine .look (.inr ⟨n, rfl⟩) fun o => ?_
  split
  · exact .remove ⟨n, rfl⟩ fun b => .done _
  · exact .done _

theorem within_finishP (m : Method) (c : Ctx) (sim : Mech → Except Err PyF) (plan : Plan) (rnd : ℚ → ℚ)
    (limit : PyF) (v : LoopVars) :
    TouchesOnly (ReadsOf c) (OwnFile c.path) (finishP m c (reduceP c sim plan) rnd limit v) := by
  have hb := within_reduceP c sim plan (rnd (v.thr - rnd (2 * v.inc))) none
  unfold finishP
  dsimp only
  split
  · split
    · exact hb
    · split
      · exact .done _
      · exact within_tupleP _ _
  · split
    · exact .done _
    · split
      · exact hb
      · exact within_tupleP _ _

/-- every result of the program is in `Q`, whatever it finds in the files -/
inductive Ends {α} (Q : α → Prop) : FsProg α → Prop
  | done {a : α} : Q a → Ends Q (.done a)
  | read {f : Text} {k : Option Mech → FsProg α} : (∀ o, Ends Q (k o)) → Ends Q (.read f k)
  | look {f : Text} {k : Bool → FsProg α} : (∀ b, Ends Q (k b)) → Ends Q (.look f k)
  | write {f : Text} {m : Mech} {k : FsProg α} : Ends Q k → Ends Q (.write f m k)
  | remove {f : Text} {k : Bool → FsProg α} : (∀ b, Ends Q (k b)) → Ends Q (.remove f k)
  | clean {dir : Text} {k : FsProg α} : Ends Q k → Ends Q (.clean dir k)

theorem ends_true {α} (p : FsProg α) : Ends (fun _ => True) p := by
  induction p with
  | done a => exact .done trivial
  | read f k ih => exact .read ih
  | look f k ih => exact .look ih
  | write f m k ih => exact .write ih
  | remove f k ih => exact .remove ih
  | clean dir k ih => exact .clean ih

theorem ends_bind {α β} {Q : α → Prop} {Q' : β → Prop} {p : FsProg α} {g : α → FsProg β} (hp : Ends Q p)
    (hg : ∀ a, Q a → Ends Q' (g a)) : Ends Q' (p.bind g) := by
  induction hp with
  | done h => exact hg _ h
  | read _ ih => exact .read ih
  | look _ ih => exact .look ih
  | write _ ih => exact .write ih
  | remove _ ih => exact .remove ih
  | clean _ ih => exact .clean ih

theorem within_bind_ends {α β} {R W : Text → Prop} {Q : α → Prop} {p : FsProg α} {g : α → FsProg β}
    (hp : TouchesOnly R W p) (he : Ends Q p) (hg : ∀ a, Q a → TouchesOnly R W (g a)) : TouchesOnly R W (p.bind g) := by
  induction hp with
  | done a => cases he with | done h => exact hg a h
  | read h _ ih => cases he with | read h' => exact .read h fun o => ih o (h' o)
  | look h _ ih => cases he with | look h' => exact .look h fun o => ih o (h' o)
  | write h _ ih => cases he with | write h' => exact .write h (ih h')
  | remove h _ ih => cases he with | remove h' => exact .remove h fun o => ih o (h' o)
  | clean h _ ih => cases he with | clean h' => exact .clean h (ih h')

/-- a plan falls back on the previous model only -/
def PlanOk (plan : Plan) : Prop := ∀ sol thr prev p, plan sol thr prev = .ok (.inl p) → prev = some p

theorem planOk_drg (c : Ctx) : PlanOk (drgPlan c) := by
  intro sol thr prev p h
  unfold drgPlan at h
  split at h
  · cases h
  · split at h
    · rename_i q hq
      cases h
      unfold sameCount at hq
      split at hq
      · split at hq
        · exact hq
        · cases hq
      · cases hq
    · cases h

theorem planOk_pfa (c : Ctx) : PlanOk (pfaPlan c) := by
  intro sol thr prev p h
  unfold pfaPlan at h
  split at h
  · cases h
  · split at h
    · rename_i q hq
      cases h
      unfold sameCount at hq
      split at hq
      · split at hq
        · exact hq
        · cases hq
      · cases hq
    · cases h

theorem planOk_drgep (c : Ctx) (imp : String → Option ℚ) : PlanOk (drgepPlan c imp) := by
  intro sol thr prev p h
  unfold drgepPlan at h
  split at h
  · cases h
  · split at h
    · rename_i q hq
      cases h
      split at hq
      · split at hq
        · exact hq
        · cases hq
      · cases hq
    · cases h

theorem ends_candidateP (c : Ctx) (sim : Mech → Except Err PyF) (red : Mech)
    (limbo : Except Err (Option (List String))) :
    Ends (fun x => ∀ r, x = .ok r → OwnFile c.path r.filename) (candidateP c sim red limbo) := by
  have ho := ownFile_yamlName red red.nSpecies c.path
  unfold candidateP
  refine ends_bind (ends_true _) fun x _ => ?_
  split
  · exact .done (by intro r h; cases h)
  · refine .read fun o => ?_
    split
    · exact .done (by intro r h; cases h)
    · split
      · exact .done (by intro r h; cases h)
      · split
        · exact .done (by intro r h; cases h)
        · exact .done (by intro r h; injection h with h; subst h; exact ho)

theorem ends_mono {α} {Q Q' : α → Prop} {p : FsProg α} (h : Ends Q p) (hq : ∀ a, Q a → Q' a) : Ends Q' p := by
  induction h with
  | done h => exact .done (hq _ h)
  | read _ ih => exact .read ih
  | look _ ih => exact .look ih
  | write _ ih => exact .write ih
  | remove _ ih => exact .remove ih
  | clean _ ih => exact .clean ih

theorem ends_reduceP (c : Ctx) (sim : Mech → Except Err PyF) {plan : Plan} (hplan : PlanOk plan) (thr : ℚ)
    (prev : Option RModel) :
    Ends (fun x => ∀ r, x = .ok r → prev = some r ∨ OwnFile c.path r.filename) (reduceP c sim plan thr prev) := by
  unfold reduceP
  refine .read fun o => ?_
  split
  · exact .done (by intro r h; cases h)
  · split
    · exact .done (by intro r h; cases h)
    · rename_i p hp
      exact .done (by intro r h; cases h; exact .inl (hplan _ _ _ _ hp))
    · exact ends_mono (ends_candidateP _ _ _ _) fun x h r hr => .inr (h r hr)

theorem within_loopP (m : Method) (c : Ctx) (sim : Mech → Except Err PyF) {plan : Plan} (hplan : PlanOk plan)
    (rnd : ℚ → ℚ) (x : ℚ) (limit : PyF) (fuel : Nat) (v : LoopVars) :
    TouchesOnly (ReadsOf c) (OwnFile c.path) (loopP m c (reduceP c sim plan) rnd x limit fuel v) := by
  induction fuel generalizing v with
  | zero => exact .done _
  | succ k ih =>
    unfold loopP
    split
    · refine within_bind_ends (within_reduceP c sim plan _ _) (ends_reduceP c sim hplan _ _) fun y hy => ?_
      split
      · exact .done _
      · rename_i r
        split
        · dsimp only
          split
          · exact .done _
          · exact ih _
        · refine within_bind ?_ fun z => ?_
          · split
            · rename_i hne
              rcases hy r rfl with h | h
              · cases h; exact absurd rfl hne
              · exact .remove h fun b => .done _
            · exact .done _
          · split
            · exact .done _
            · exact ih _
    · exact within_bind (within_finishP m c sim plan rnd limit v) fun y => .done _

theorem within_methodP (m : Method) (c : Ctx) (sim : Mech → Except Err PyF) (rnd : ℚ → ℚ) (limit : PyF)
    (dfuel fuel : Nat) (limbo : List String) :
    TouchesOnly (ReadsOf c) (OwnFile c.path) (methodP m c sim rnd limit dfuel fuel limbo) := by
  unfold methodP
  refine .read (.inl rfl) fun o => ?_
  split
  · exact .done _
  · split
    · exact .done _
    · split
      · exact within_bind (within_loopP _ c sim (planOk_drg c) rnd _ limit fuel _) fun y => .done _
      · exact within_bind (within_loopP _ c sim (planOk_pfa c) rnd _ limit fuel _) fun y => .done _
      · split
        · exact .done _
        · refine within_bind (within_loopP _ c sim (planOk_drgep c _) rnd _ limit fuel _) fun y => ?_
          split
          · split <;> exact .done _
          · exact .done _

/-! ### two programs -/

/-- by itself, a program depends on the files it reads or writes only, and leaves the others as they are -/
theorem alone_local {α} {R W : Text → Prop} {p : FsProg α} (hp : TouchesOnly R W p) {fs fs' : Fs}
    (h : ∀ f, R f ∨ W f → fs f = fs' f) :
    (p.alone fs).1 = (p.alone fs').1 ∧ (∀ f, R f ∨ W f → (p.alone fs).2 f = (p.alone fs').2 f) ∧
      ∀ f, ¬ W f → (p.alone fs).2 f = fs f := by
  induction hp generalizing fs fs' with
  | done a => exact ⟨rfl, h, fun _ _ => rfl⟩
  | @read g k hf _ ih =>
    have := ih (fs g) h
    refine ⟨?_, ?_, this.2.2⟩
    · unfold alone
      rw [← h _ (.inl hf)]; exact this.1
    · intro f hff
      unfold alone
      rw [← h _ (.inl hf)]; exact this.2.1 f hff
  | @look g k hf _ ih =>
    have := ih (fs g).isSome h
    refine ⟨?_, ?_, this.2.2⟩
    · unfold alone
      rw [← h _ (.inl hf)]; exact this.1
    · intro f hff
      unfold alone
      rw [← h _ (.inl hf)]; exact this.2.1 f hff
  | @write g m k hw _ ih =>
    have hput : ∀ f, R f ∨ W f → fs.put g (some m) f = fs'.put g (some m) f := by
      intro f hf; rw [Fs.put_apply, Fs.put_apply, h f hf]
    obtain ⟨h1, h2, h3⟩ := ih hput
    refine ⟨h1, h2, fun f hf => ?_⟩
    have : f ≠ g := fun e => hf (e ▸ hw)
    exact (h3 f hf).trans (by rw [Fs.put_apply, if_neg this])
  | @remove g k hw _ ih =>
    have hput : ∀ f, R f ∨ W f → fs.put g none f = fs'.put g none f := by
      intro f hf; rw [Fs.put_apply, Fs.put_apply, h f hf]
    obtain ⟨h1, h2, h3⟩ := ih (fs g).isSome hput
    refine ⟨?_, ?_, fun f hf => ?_⟩
    · unfold alone
      rw [← h _ (.inr hw)]; exact h1
    · intro f hff
      unfold alone
      rw [← h _ (.inr hw)]; exact h2 f hff
    · have : f ≠ g := fun e => hf (e ▸ hw)
      exact (h3 f hf).trans (by rw [Fs.put_apply, if_neg this])
  | @clean dir k hw _ ih =>
    have hput : ∀ f, R f ∨ W f → fs.clean dir f = fs'.clean dir f := by
      intro f hf; rw [Fs.clean_apply, Fs.clean_apply, h f hf]
    obtain ⟨h1, h2, h3⟩ := ih hput
    refine ⟨h1, h2, fun f hf => ?_⟩
    exact (h3 f hf).trans (by
      rw [Fs.clean_apply, if_neg fun e => hf (hw f (List.isPrefixOf_iff_prefix.1 e))])

theorem alone_step {α} (p : FsProg α) (fs : Fs) : (p.step fs).1.alone (p.step fs).2 = p.alone fs := by
  cases p <;> rfl

theorem within_step {α} {R W : Text → Prop} {p : FsProg α} (hp : TouchesOnly R W p) (fs : Fs) :
    TouchesOnly R W (p.step fs).1 := by
  cases hp with
  | done a => exact .done a
  | read _ h => exact h _
  | look _ h => exact h _
  | write _ h => exact h
  | remove _ h => exact h _
  | clean _ h => exact h

theorem step_others {α} {R W : Text → Prop} {p : FsProg α} (hp : TouchesOnly R W p) (fs : Fs) :
    ∀ f, ¬ W f → (p.step fs).2 f = fs f := by
  intro f hf
  cases hp with
  | done a => rfl
  | read _ h => rfl
  | look _ h => rfl
  | @write g m k hw h =>
    have : f ≠ g := fun e => hf (e ▸ hw)
    exact (Fs.put_apply _ _ _ _).trans (if_neg this)
  | @remove g k hw h =>
    have : f ≠ g := fun e => hf (e ▸ hw)
    exact (Fs.put_apply _ _ _ _).trans (if_neg this)
  | @clean dir k hw h =>
    exact (Fs.clean_apply _ _ _).trans (if_neg fun e => hf (hw f (List.isPrefixOf_iff_prefix.1 e)))

/-- what remains to be done by the first program, and its files, are as if it were alone -/
theorem both_fst {α β} {R W R' W' : Text → Prop} (hRW : ∀ f, R f ∨ W f → ¬ W' f)
    (l : List Bool) {p : FsProg α} {q : FsProg β} (hp : TouchesOnly R W p) (hq : TouchesOnly R' W' q) (fs : Fs) :
    let x := both l p q fs
    (x.1.alone x.2.2).1 = (p.alone fs).1 ∧ ∀ f, R f ∨ W f → (x.1.alone x.2.2).2 f = (p.alone fs).2 f := by
  induction l generalizing p q fs with
  | nil => exact ⟨rfl, fun _ _ => rfl⟩
  | cons b l ih =>
    cases b with
    | true =>
      have := ih (within_step hp fs) hq (p.step fs).2
      rw [alone_step] at this
      exact this
    | false =>
      obtain ⟨h1, h2⟩ := ih hp (within_step hq fs) (q.step fs).2
      have hag : ∀ f, R f ∨ W f → (q.step fs).2 f = fs f := fun f hf => step_others hq fs f (hRW f hf)
      obtain ⟨h3, h4, -⟩ := alone_local hp hag
      exact ⟨h1.trans h3, fun f hf => (h2 f hf).trans (h4 f hf)⟩

theorem both_snd {α β} {R W R' W' : Text → Prop} (hRW : ∀ f, R' f ∨ W' f → ¬ W f)
    (l : List Bool) {p : FsProg α} {q : FsProg β} (hp : TouchesOnly R W p) (hq : TouchesOnly R' W' q) (fs : Fs) :
    let x := both l p q fs
    (x.2.1.alone x.2.2).1 = (q.alone fs).1 ∧ ∀ f, R' f ∨ W' f → (x.2.1.alone x.2.2).2 f = (q.alone fs).2 f := by
  induction l generalizing p q fs with
  | nil => exact ⟨rfl, fun _ _ => rfl⟩
  | cons b l ih =>
    cases b with
    | false =>
      have := ih hp (within_step hq fs) (q.step fs).2
      rw [alone_step] at this
      exact this
    | true =>
      obtain ⟨h1, h2⟩ := ih (within_step hp fs) hq (p.step fs).2
      have hag : ∀ f, R' f ∨ W' f → (p.step fs).2 f = fs f := fun f hf => step_others hp fs f (hRW f hf)
      obtain ⟨h3, h4, -⟩ := alone_local hq hag
      exact ⟨h1.trans h3, fun f hf => (h2 f hf).trans (h4 f hf)⟩

theorem both_others {α β} {R W R' W' : Text → Prop} (l : List Bool) {p : FsProg α} {q : FsProg β}
    (hp : TouchesOnly R W p) (hq : TouchesOnly R' W' q) (fs : Fs) :
    ∀ f, ¬ W f → ¬ W' f → (both l p q fs).2.2 f = fs f := by
  induction l generalizing p q fs with
  | nil => exact fun _ _ _ => rfl
  | cons b l ih =>
    intro f h h'
    cases b with
    | true => exact (ih (within_step hp fs) hq _ f h h').trans (step_others hp fs f h)
    | false => exact (ih hp (within_step hq fs) _ f h h').trans (step_others hq fs f h')

/-! ### directories -/

theorem reducedName_noslash (n : Nat) : '/' ∉ reducedName n := by
  unfold reducedName
  rw [Nat.toString_eq_repr, Nat.toList_repr]
  simp only [List.mem_append, not_or]
  refine ⟨⟨by decide, fun h => ?_⟩, by decide⟩
  have := Nat.isDigit_of_mem_toDigits (b := 10) (n := n) (by decide) (by decide) h
  exact absurd this (by decide)

theorem takeWhile_slash {x : Text} (h : '/' ∉ x) (p : Text) :
    (x ++ '/' :: p).takeWhile (· != '/') = x := by
  rw [List.takeWhile_append_of_pos]
  · simp
  · intro a ha
    have : a ≠ '/' := fun e => h (e ▸ ha)
    simpa using this

theorem append_slash_inj {p p' x x' : Text} (h : '/' ∉ x) (h' : '/' ∉ x')
    (e : p ++ '/' :: x = p' ++ '/' :: x') : p = p' := by
  have e1 : x.reverse ++ '/' :: p.reverse = x'.reverse ++ '/' :: p'.reverse := by
    have := congrArg List.reverse e
    simpa using this
  have e2 := congrArg (List.takeWhile (· != '/')) e1
  rw [takeWhile_slash (by simpa using h), takeWhile_slash (by simpa using h')] at e2
  rw [e2] at e1
  have := List.append_cancel_left e1
  injection this with _ this
  exact List.reverse_injective this

theorem joinPath_reduced {path : Text} (n : Nat) :
    joinPath path (reducedName n) = if path = [] then reducedName n
      else if path.getLast? = some '/' then path ++ reducedName n else path ++ '/' :: reducedName n := by
  unfold joinPath
  rw [if_neg]
  intro h
  exact reducedName_noslash n (List.mem_of_head? h)

theorem ownFile_disjoint {p p' : Text} (hp : DirName p) (hp' : DirName p') (hne : p ≠ p') {f : Text}
    (h : OwnFile p f) : ¬ OwnFile p' f := by
  obtain ⟨n, rfl⟩ := h
  rintro ⟨k, hk⟩
  rw [joinPath_reduced, joinPath_reduced] at hk
  rcases hp with rfl | ⟨h1, h2⟩
  · rcases hp' with rfl | ⟨h1', h2'⟩
    · exact hne rfl
    · rw [if_pos rfl, if_neg h1', if_neg h2'] at hk
      exact reducedName_noslash n (hk ▸ by simp)
  · rw [if_neg h1, if_neg h2] at hk
    rcases hp' with rfl | ⟨h1', h2'⟩
    · rw [if_pos rfl] at hk
      exact reducedName_noslash k (hk ▸ by simp)
    · rw [if_neg h1', if_neg h2'] at hk
      exact hne (append_slash_inj (reducedName_noslash n) (reducedName_noslash k) hk)

/-! ### progress and reachability -/

/-- the number of operations of a program by itself -/
def opCount {α} : FsProg α → Fs → Nat
  | .done _, _ => 0
  | .read f k, fs => opCount (k (fs f)) fs + 1
  | .look f k, fs => opCount (k (fs f).isSome) fs + 1
  | .write f m k, fs => opCount k (fs.put f (some m)) + 1
  | .remove f k, fs => opCount (k (fs f).isSome) (fs.put f none) + 1
  | .clean dir k, fs => opCount k (fs.clean dir) + 1

theorem opCount_local {α} {R W : Text → Prop} {p : FsProg α} (hp : TouchesOnly R W p) {fs fs' : Fs}
    (h : ∀ f, R f ∨ W f → fs f = fs' f) : opCount p fs = opCount p fs' := by
  induction hp generalizing fs fs' with
  | done a => rfl
  | @read g k hf _ ih =>
    unfold opCount
    rw [ih _ h, h g (.inl hf)]
  | @look g k hf _ ih =>
    unfold opCount
    rw [ih _ h, h g (.inl hf)]
  | @write g m k hw _ ih =>
    unfold opCount
    have h' : ∀ f, R f ∨ W f → fs.put g (some m) f = fs'.put g (some m) f := fun f hf => by
      rw [Fs.put_apply, Fs.put_apply, h f hf]
    rw [ih h']
  | @remove g k hw _ ih =>
    unfold opCount
    have h' : ∀ f, R f ∨ W f → fs.put g none f = fs'.put g none f := fun f hf => by
      rw [Fs.put_apply, Fs.put_apply, h f hf]
    rw [ih _ h', h g (.inr hw)]
  | @clean dir k hw _ ih =>
    unfold opCount
    have h' : ∀ f, R f ∨ W f → fs.clean dir f = fs'.clean dir f := fun f hf => by
      rw [Fs.clean_apply, Fs.clean_apply, h f hf]
    rw [ih h']

theorem both_ends {α β} {R W R' W' : Text → Prop} (hRW : ∀ f, R f ∨ W f → ¬ W' f)
    (l : List Bool) {p : FsProg α} {q : FsProg β} (hp : TouchesOnly R W p) (hq : TouchesOnly R' W' q) (fs : Fs)
    (hl : opCount p fs ≤ l.count true) : ∃ a, (both l p q fs).1 = .done a := by
  induction l generalizing p q fs with
  | nil =>
    cases p with
    | done a => exact ⟨a, rfl⟩
    | read f k => simp [opCount] at hl
    | look f k => simp [opCount] at hl
    | write f m k => simp [opCount] at hl
    | remove f k => simp [opCount] at hl
    | clean dir k => simp [opCount] at hl
  | cons b l ih =>
    cases b with
    | true =>
      refine ih (within_step hp fs) hq (p.step fs).2 ?_
      rw [List.count_cons_self] at hl
      cases p with
      | done a => exact Nat.zero_le _
      | read f k => exact Nat.le_of_succ_le_succ hl
      | look f k => exact Nat.le_of_succ_le_succ hl
      | write f m k => exact Nat.le_of_succ_le_succ hl
      | remove f k => exact Nat.le_of_succ_le_succ hl
      | clean dir k => exact Nat.le_of_succ_le_succ hl
    | false =>
      refine ih hp (within_step hq fs) (q.step fs).2 ?_
      have hag : ∀ f, R f ∨ W f → (q.step fs).2 f = fs f := fun f hf => step_others hq fs f (hRW f hf)
      rw [opCount_local hp hag]
      simpa using hl

/-- some operations lead from one situation to another -/
def Reaches {α} (p : FsProg α) (fs : Fs) (p' : FsProg α) (fs' : Fs) : Prop :=
  ∃ n : Nat, (fun x : FsProg α × Fs => x.1.step x.2)^[n] (p, fs) = (p', fs')

theorem Reaches.refl {α} (p : FsProg α) (fs : Fs) : Reaches p fs p fs := ⟨0, rfl⟩

theorem Reaches.trans {α} {p p' p'' : FsProg α} {fs fs' fs'' : Fs} (h : Reaches p fs p' fs')
    (h' : Reaches p' fs' p'' fs'') : Reaches p fs p'' fs'' := by
  obtain ⟨n, hn⟩ := h
  obtain ⟨k, hk⟩ := h'
  exact ⟨k + n, by rw [Function.iterate_add_apply, hn, hk]⟩

theorem Reaches.one {α} (p : FsProg α) (fs : Fs) : Reaches p fs (p.step fs).1 (p.step fs).2 := ⟨1, rfl⟩

theorem reaches_alone {α β} (p : FsProg α) (g : α → FsProg β) (fs : Fs) :
    Reaches (p.bind g) fs (g (p.alone fs).1) (p.alone fs).2 := by
  induction p generalizing fs with
  | done a => exact .refl _ _
  | read f k ih => exact (Reaches.one _ _).trans (ih (fs f) fs)
  | look f k ih => exact (Reaches.one _ _).trans (ih _ fs)
  | write f m k ih => exact (Reaches.one _ _).trans (ih _)
  | remove f k ih => exact (Reaches.one _ _).trans (ih _ _)
  | clean dir k ih => exact (Reaches.one _ _).trans (ih _)

theorem both_true {α β} {p p' : FsProg α} {fs fs' : Fs} (h : Reaches p fs p' fs') (q : FsProg β) :
    ∃ l, ∀ l', both (l ++ l') p q fs = both l' p' q fs' := by
  obtain ⟨n, hn⟩ := h
  induction n generalizing p fs with
  | zero => cases hn; exact ⟨[], fun _ => rfl⟩
  | succ n ih =>
    rw [Function.iterate_succ_apply] at hn
    obtain ⟨l, hl⟩ := ih hn
    exact ⟨true :: l, fun l' => hl l'⟩

theorem both_false {α β} {q q' : FsProg β} {fs fs' : Fs} (h : Reaches q fs q' fs') (p : FsProg α) :
    ∃ l, ∀ l', both (l ++ l') p q fs = both l' p q' fs' := by
  obtain ⟨n, hn⟩ := h
  induction n generalizing q fs with
  | zero => cases hn; exact ⟨[], fun _ => rfl⟩
  | succ n ih =>
    rw [Function.iterate_succ_apply] at hn
    obtain ⟨l, hl⟩ := ih hn
    exact ⟨false :: l, fun l' => hl l'⟩

theorem bind_assoc' {α β γ} (p : FsProg α) (g : α → FsProg β) (h : β → FsProg γ) :
    (p.bind g).bind h = p.bind fun a => (g a).bind h := by
  induction p with
  | done a => rfl
  | read f k ih => exact congrArg _ (funext fun o => ih o)
  | look f k ih => exact congrArg _ (funext fun o => ih o)
  | write f m k ih => exact congrArg _ ih
  | remove f k ih => exact congrArg _ (funext fun o => ih o)
  | clean dir k ih => exact congrArg _ ih

theorem planOf_ok {m : Method} {c : Ctx} {sol : Mech} {dfuel : Nat} {plan : Plan}
    (h : planOf m c sol dfuel = .ok plan) : PlanOk plan := by
  unfold planOf at h
  split at h
  · cases h; exact planOk_drg c
  · cases h; exact planOk_pfa c
  · split at h
    · cases h
    · cases h; exact planOk_drgep c _

/-- the step of a method and its plan do the same -/
theorem reduceFnOf_plan {m : Method} {c : Ctx} {sim : Mech → Except Err PyF} {sol : Mech} {dfuel : Nat} {f : ReduceFn}
    (h : reduceFnOf m c sim sol dfuel = .ok f) :
    ∃ plan, planOf m c sol dfuel = .ok plan ∧ SameStep f (reduceP c sim plan) := by
  unfold reduceFnOf at h
  unfold planOf
  split at h
  · cases h; exact ⟨_, rfl, same_drg c sim⟩
  · cases h; exact ⟨_, rfl, same_pfa c sim⟩
  · split at h
    · cases h
    · rename_i imp himp
      cases h
      dsimp only
      rw [himp]
      exact ⟨_, rfl, same_drgep c sim imp⟩

/-- what a run does after reading the model -/
theorem methodP_loop {m : Method} {c : Ctx} {sol : Mech} {dfuel : Nat} {plan : Plan}
    (h : planOf m c sol dfuel = .ok plan) (sim : Mech → Except Err PyF) (rnd : ℚ → ℚ) (limit : PyF) (fuel : Nat)
    (limbo : List String) (ht : c.targets ≠ []) (fs : Fs) (hs : fs c.modelFile = some sol) :
    ∃ (x : ℚ) (g : Option (Except Err RModel) → FsProg (Option (Except Err RModel) × List String)),
      (∀ e, g (some (.error e)) = .done (some (.error e), limbo)) ∧
      Reaches (methodP m c sim rnd limit dfuel fuel limbo) fs
        ((loopP m c (reduceP c sim plan) rnd x limit fuel (varsInit rnd sol c.modelFile)).bind g) fs := by
  have h1 := Reaches.one (methodP m c sim rnd limit dfuel fuel limbo) fs
  unfold methodP at h1 ⊢
  simp only [step, hs] at h1
  rw [if_neg ht] at h1
  unfold planOf at h
  cases m with
  | drg => cases h; exact ⟨_, _, fun _ => rfl, h1⟩
  | pfa => cases h; exact ⟨_, _, fun _ => rfl, h1⟩
  | drgep =>
    dsimp only at h h1
    split at h
    · cases h
    · rename_i imp himp
      cases h
      rw [himp] at h1
      exact ⟨_, _, fun _ => rfl, h1⟩

theorem alone_writeP_put (red : Mech) (out : Text) (fs : Fs) :
    (writeP red out).alone fs = (.ok (), fs.put out (some red)) := by
  rw [alone_writeP (w := ⟨fs, []⟩)]
  refine Prod.ext rfl (funext fun g => ?_)
  by_cases h : (fs out).isSome = true
  · rw [if_pos h]; simp only [World.set, Fs.put]; split <;> simp_all
  · rw [if_neg h]; simp only [World.set, Fs.put]

/-- a candidate does not depend on the files that are there -/
theorem alone_candidate_const (c : Ctx) (sim : Mech → Except Err PyF) (red : Mech)
    (limbo : Except Err (Option (List String))) (fs fs' : Fs) :
    ((candidateP c sim red limbo).alone fs).1 = ((candidateP c sim red limbo).alone fs').1 := by
  unfold candidateP
  dsimp only
  rw [alone_bind, alone_bind, alone_writeP_put, alone_writeP_put]
  simp only [alone, Fs.put, if_true]
  cases sim red with
  | error e => rfl
  | ok err => cases limbo <;> rfl

theorem candidate_filename (c : Ctx) (sim : Mech → Except Err PyF) (red : Mech)
    (limbo : Except Err (Option (List String))) :
    Ends (fun x => ∀ r, x = .ok r → r.filename = joinPath c.path (reducedName r.model.nSpecies))
      (candidateP c sim red limbo) := by
  unfold candidateP
  refine ends_bind (ends_true _) fun x _ => ?_
  split
  · exact .done (by intro r h; cases h)
  · refine .read fun o => ?_
    split
    · exact .done (by intro r h; cases h)
    · split
      · exact .done (by intro r h; cases h)
      · split
        · exact .done (by intro r h; cases h)
        · exact .done (by
            intro r h; injection h with h; subst h
            dsimp only
            unfold yamlName; rw [if_neg (reducedName_ne _)])

theorem ends_alone {α} {Q : α → Prop} {p : FsProg α} (h : Ends Q p) (fs : Fs) : Q (p.alone fs).1 := by
  induction h generalizing fs with
  | done h => exact h
  | read _ ih => exact ih _ fs
  | look _ ih => exact ih _ fs
  | write _ ih => exact ih _
  | remove _ ih => exact ih _ _
  | clean _ ih => exact ih _

/-- a run that accepts its first candidate comes to the point at which it removes the file,
from any files among which its input is -/
theorem first_remove {m : Method} {c : Ctx} {sim : Mech → Except Err PyF} {rnd : ℚ → ℚ} {limit : PyF}
    {dfuel : Nat} {fs : Fs} {r : RModel} (h : FirstAccepted m c sim rnd limit dfuel fs r) (fuel : Nat)
    (limbo : List String) (fs0 : Fs) (h0 : fs0 c.modelFile = fs c.modelFile) :
    ∃ (k : Bool → FsProg (Option (Except Err RModel) × List String)) (fs1 : Fs),
      k false = .done (some (.error .fileNotFound), limbo) ∧
      (∀ f, ¬ OwnFile c.path f → fs1 f = fs0 f) ∧
      Reaches (methodP m c sim rnd limit dfuel (fuel + 1) limbo) fs0
        (.remove (joinPath c.path (reducedName r.model.nSpecies)) k) fs1 := by
  obtain ⟨sol, f, w', hs, ht, hstep, hr, hle, hlt, hne⟩ := h
  obtain ⟨plan, hplan, hsame⟩ := reduceFnOf_plan hstep
  have hs0 : fs0 c.modelFile = some sol := by rw [h0, hs]
  obtain ⟨x, g, hg, h1⟩ := methodP_loop hplan sim rnd limit (fuel + 1) limbo ht fs0 hs0
  rw [hsame] at hr
  have hr1 : ((reduceP c sim plan (rnd (1 / 100)) (some ⟨sol, c.modelFile, .fin 0, none⟩)).alone fs).1 = .ok r :=
    congrArg Prod.fst hr
  -- the candidate is new
  have hboth : ((reduceP c sim plan (rnd (1 / 100)) (some ⟨sol, c.modelFile, .fin 0, none⟩)).alone fs0).1 = .ok r ∧
      r.filename = joinPath c.path (reducedName r.model.nSpecies) := by
    unfold reduceP at hr1 ⊢
    simp only [alone, hs, hs0] at hr1 ⊢
    rcases hp : plan sol (rnd (1 / 100)) (some ⟨sol, c.modelFile, .fin 0, none⟩) with e | p | ⟨removed, lim⟩
    · rw [hp] at hr1; cases hr1
    · rw [hp] at hr1
      have := planOf_ok hplan _ _ _ _ hp
      cases this
      cases hr1
      exact absurd rfl hne
    · rw [hp] at hr1
      dsimp only at hr1 ⊢
      refine ⟨(alone_candidate_const _ _ _ _ fs0 fs).trans hr1, ?_⟩
      exact ends_alone (candidate_filename c sim _ lim) fs r hr1
  obtain ⟨hr0, hfn⟩ := hboth
  rw [loopP, if_pos (show (varsInit rnd sol c.modelFile).errCur.le limit = true from hle), bind_assoc'] at h1
  change Reaches _ _ ((reduceP c sim plan (rnd (1 / 100)) (some ⟨sol, c.modelFile, .fin 0, none⟩)).bind _) _ at h1
  have h2 := h1.trans (reaches_alone _ _ fs0)
  rw [hr0] at h2
  dsimp only at h2
  rw [if_neg (by rw [hlt]; simp), if_pos (show (varsInit rnd sol c.modelFile).prev.model.nSpecies ≠ r.model.nSpecies from hne),
    bind_assoc', hfn] at h2
  refine ⟨_, _, ?_, ?_, h2⟩
  · simp only [FsProg.bind, Bool.false_eq_true, if_false]
    exact hg _
  · exact fun f hf => (alone_local (within_reduceP c sim plan _ _) (fun _ _ => rfl)).2.2 f hf

/-- a step that makes a new model comes to the point at which it reads it back -/
theorem new_written {c : Ctx} {sim : Mech → Except Err PyF} {plan : Plan} (hplan : PlanOk plan) {thr : ℚ}
    {prev : Option RModel} {fs : Fs} {r : RModel}
    (hr : ((reduceP c sim plan thr prev).alone fs).1 = .ok r) (hnew : prev ≠ some r) (fs0 : Fs)
    (h0 : fs0 c.modelFile = fs c.modelFile) :
    ∃ k : Option Mech → FsProg (Except Err RModel),
      Reaches (reduceP c sim plan thr prev) fs0 (.read (joinPath c.path (reducedName r.model.nSpecies)) k)
        (fs0.put (joinPath c.path (reducedName r.model.nSpecies)) (some r.model)) ∧
      ∀ m e, sim m = .ok e → k (some m) = .done (.ok { r with error := e }) := by
  have h1 := Reaches.one (reduceP c sim plan thr prev) fs0
  unfold reduceP at hr h1 ⊢
  simp only [alone, step, h0] at hr h1
  rcases hs : fs c.modelFile with _ | sol
  · rw [hs] at hr; cases hr
  · rw [hs] at hr h1
    dsimp only at hr h1
    rcases hp : plan sol thr prev with e | p | ⟨removed, lim⟩
    · rw [hp] at hr; cases hr
    · rw [hp] at hr
      cases hr
      exact absurd (hplan _ _ _ _ hp) hnew
    · rw [hp] at hr h1
      dsimp only at hr h1
      generalize trim sol removed ("reduced_".toList ++ c.modelFile) c.phase = red at hr h1
      unfold candidateP at hr h1
      dsimp only at hr h1
      rw [alone_bind, alone_writeP_put] at hr
      have h2 := h1.trans (reaches_alone _ _ fs0)
      rw [alone_writeP_put] at h2
      simp only [alone, Fs.put, if_true] at hr
      dsimp only at h2
      have hy : yamlName red (reducedName red.nSpecies) c.path = joinPath c.path (reducedName red.nSpecies) := by
        unfold yamlName; rw [if_neg (reducedName_ne _)]
      rw [hy] at h2 hr
      rcases hsim : sim red with e | err
      · rw [hsim] at hr; cases hr
      · rw [hsim] at hr
        rcases lim with e | l
        · cases hr
        · cases hr
          exact ⟨_, h2, fun m e hm => by dsimp only; rw [hm]⟩

end Verif
