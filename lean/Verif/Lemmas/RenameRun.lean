import Verif.Lemmas.Rename
/-!
# Whole reductions commute with a renaming of the species
-/
namespace Verif
open Spec

variable {σ : String ≃ String}

theorem loadModel_ren (w : World) (f : Text) : loadModel (renWorld σ w) f = (loadModel w f).map (renMech σ) := by
  unfold loadModel renWorld
  dsimp only
  cases w.fs f <;> rfl

theorem set_ren (w : World) (f : Text) (x : Option Mech) :
    (renWorld σ w).set f (x.map (renMech σ)) = renWorld σ (w.set f x) := by
  unfold World.set renWorld
  dsimp only
  congr 1
  funext g
  split_ifs <;> rfl

theorem isSome_ren (w : World) (f : Text) : ((renWorld σ w).fs f).isSome = (w.fs f).isSome := by
  unfold renWorld
  dsimp only
  cases w.fs f <;> rfl

theorem remove_ren (w : World) (f : Text) :
    (if ((renWorld σ w).fs f).isSome then (renWorld σ w).set f none else renWorld σ w) =
      renWorld σ (if (w.fs f).isSome then w.set f none else w) := by
  rw [isSome_ren]
  split_ifs
  · exact set_ren w f none
  · rfl

theorem writeYaml_ren (w : World) (m : Mech) (name path : Text) :
    writeYaml (renWorld σ w) (renMech σ m) name path =
      ((writeYaml w m name path).1, renWorld σ (writeYaml w m name path).2) := by
  unfold writeYaml
  dsimp only
  rw [show yamlName (renMech σ m) name path = yamlName m name path from rfl, remove_ren]
  rw [← set_ren]
  rfl

theorem writeYamlTuple_ren (w : World) (name path : Text) :
    writeYamlTuple (renWorld σ w) name path = ((writeYamlTuple w name path).1, renWorld σ (writeYamlTuple w name path).2) := by
  unfold writeYamlTuple
  dsimp only
  rw [remove_ren]

theorem removeFile_ren (w : World) (f : Text) :
    removeFile (renWorld σ w) f = ((removeFile w f).1, renWorld σ (removeFile w f).2) := by
  unfold removeFile
  rw [isSome_ren]
  split_ifs
  · rw [show (none : Option Mech) = Option.map (renMech σ) none from rfl, set_ren]
    rfl
  · rfl

theorem sameCount_ren (p : Option RModel) (n : Nat) :
    sameCount (p.map (renModel σ)) n = (sameCount p n).map (renModel σ) := by
  cases p with
  | none => rfl
  | some p =>
    unfold sameCount
    dsimp only [Option.map_some]
    rw [show (renModel σ p).model = renMech σ p.model from rfl, renMech_nSpecies]
    split_ifs <;> rfl

/-- results of a step, renamed -/
def renStep (σ : String ≃ String) (x : Except Err RModel × World) : Except Err RModel × World :=
  (x.1.map (renModel σ), renWorld σ x.2)

variable {sim sim' : Mech → Except Err PyF}

theorem buildCandidate_ren (hs : ∀ m, sim' (renMech σ m) = sim m) (c : Ctx) (sol : Mech) (removed : List String) (w : World) :
    buildCandidate (renCtx σ c) sim' (renMech σ sol) (removed.map σ) (renWorld σ w) =
      (((buildCandidate c sim sol removed w).1.map (fun x => (renMech σ x.1, x.2))),
        renWorld σ (buildCandidate c sim sol removed w).2) := by
  unfold buildCandidate
  dsimp only
  rw [show (renCtx σ c).modelFile = c.modelFile from rfl, show (renCtx σ c).phase = c.phase from rfl,
    show (renCtx σ c).path = c.path from rfl, trim_ren, renMech_nSpecies, writeYaml_ren]
  dsimp only
  rw [loadModel_ren]
  cases loadModel (writeYaml w (trim sol removed ("reduced_".toList ++ c.modelFile) c.phase)
      (reducedName (trim sol removed ("reduced_".toList ++ c.modelFile) c.phase).nSpecies) c.path).2
      (writeYaml w (trim sol removed ("reduced_".toList ++ c.modelFile) c.phase)
      (reducedName (trim sol removed ("reduced_".toList ++ c.modelFile) c.phase).nSpecies) c.path).1 with
  | error e => rfl
  | ok m =>
    dsimp only [Except.map]
    rw [hs]
    cases sim m <;> rfl

theorem removed_ren (names ret safe : List String) :
    (names.map σ).filter (fun sp => !((ret.map σ ++ safe.map σ).contains sp)) =
      (names.filter (fun sp => !((ret ++ safe).contains sp))).map σ := by
  apply filter_map_equiv
  intro a
  rw [← List.map_append, contains_map_equiv]

theorem reduceDrgS_ren (hs : ∀ m, sim' (renMech σ m) = sim m) (c : Ctx) (t : ℚ) (p : Option RModel) (w : World) :
    reduceDrgS (renCtx σ c) sim' t (p.map (renModel σ)) (renWorld σ w) = renStep σ (reduceDrgS c sim t p w) := by
  unfold reduceDrgS
  rw [show (renCtx σ c).modelFile = c.modelFile from rfl, show (renCtx σ c).matrices = c.matrices from rfl,
    show (renCtx σ c).targets = c.targets.map σ from rfl, show (renCtx σ c).safe = c.safe.map σ from rfl,
    show (renCtx σ c).upper = c.upper from rfl, loadModel_ren]
  cases loadModel w c.modelFile with
  | error e => rfl
  | ok sol =>
  dsimp only [Except.map]
  rw [renMech_names, retained_ren]
  cases retained c.matrices sol.names c.targets t with
  | error e => rfl
  | ok ret =>
  dsimp only [Except.map]
  rw [List.length_map, sameCount_ren]
  cases sameCount p ret.length with
  | some q => rfl
  | none =>
  dsimp only [Option.map_none]
  rw [removed_ren, buildCandidate_ren hs]
  rcases buildCandidate c sim sol (sol.names.filter (fun sp => !((ret ++ c.safe).contains sp))) w with ⟨r, w1⟩
  cases r with
  | error e => rfl
  | ok x =>
  dsimp only [Except.map]
  cases truthy c.upper with
  | none => rfl
  | some u =>
  dsimp only
  rw [retained_ren]
  cases retained c.matrices sol.names c.targets u <;> rfl

theorem reducePfaS_ren (hs : ∀ m, sim' (renMech σ m) = sim m) (c : Ctx) (t : ℚ) (p : Option RModel) (w : World) :
    reducePfaS (renCtx σ c) sim' t (p.map (renModel σ)) (renWorld σ w) = renStep σ (reducePfaS c sim t p w) := by
  unfold reducePfaS
  rw [show (renCtx σ c).modelFile = c.modelFile from rfl, show (renCtx σ c).matrices = c.matrices from rfl,
    show (renCtx σ c).targets = c.targets.map σ from rfl, show (renCtx σ c).safe = c.safe.map σ from rfl,
    show (renCtx σ c).upper = c.upper from rfl, loadModel_ren]
  cases loadModel w c.modelFile with
  | error e => rfl
  | ok sol =>
  dsimp only [Except.map]
  rw [renMech_names, retained_ren]
  cases retained c.matrices sol.names c.targets t with
  | error e => rfl
  | ok ret =>
  dsimp only [Except.map]
  rw [List.length_map, sameCount_ren]
  cases sameCount p ret.length with
  | some q => rfl
  | none =>
  dsimp only [Option.map_none]
  rw [removed_ren, buildCandidate_ren hs]
  rcases buildCandidate c sim sol (sol.names.filter (fun sp => !((ret ++ c.safe).contains sp))) w with ⟨r, w1⟩
  cases r with
  | error e => rfl
  | ok x =>
  dsimp only [Except.map]
  cases truthy c.upper with
  | none => rfl
  | some u =>
  dsimp only
  cases c.matrices.getLast? with
  | none => rfl
  | some M =>
  dsimp only
  rw [trimDrg_ren]
  cases trimDrg M sol.names c.targets u with
  | error e => rfl
  | ok l =>
  dsimp only [Except.map, renStep]
  congr 3
  simp only [← List.map_append]
  rw [filter_map_equiv]
  · rfl
  · intro a
    rw [contains_map_equiv]

theorem removedDrgep_ren (imp : String → Option ℚ) (safe : List String) (t : ℚ) : ∀ names : List String,
    removedDrgep (fun b => imp (σ.symm b)) (safe.map σ) t (names.map σ) = (removedDrgep imp safe t names).map (List.map σ)
  | [] => rfl
  | s :: names => by
    rw [List.map_cons, removedDrgep, removedDrgep, removedDrgep_ren imp safe t names, Equiv.symm_apply_apply]
    cases imp s with
    | none => rfl
    | some x =>
      dsimp only
      cases removedDrgep imp safe t names with
      | error e => rfl
      | ok l =>
        dsimp only [Except.map]
        have : (x < t ∧ σ s ∉ safe.map σ) ↔ (x < t ∧ s ∉ safe) := by simp
        by_cases h : x < t ∧ s ∉ safe
        · rw [if_pos h, if_pos (this.2 h)]; rfl
        · rw [if_neg h, if_neg (fun h' => h (this.1 h'))]

theorem reduceDrgepS_ren (hs : ∀ m, sim' (renMech σ m) = sim m) (c : Ctx) (imp : String → Option ℚ) (t : ℚ)
    (p : Option RModel) (w : World) :
    reduceDrgepS (renCtx σ c) sim' (fun b => imp (σ.symm b)) t (p.map (renModel σ)) (renWorld σ w) =
      renStep σ (reduceDrgepS c sim imp t p w) := by
  unfold reduceDrgepS
  rw [show (renCtx σ c).modelFile = c.modelFile from rfl, show (renCtx σ c).safe = c.safe.map σ from rfl, loadModel_ren]
  cases loadModel w c.modelFile with
  | error e => rfl
  | ok sol =>
  dsimp only [Except.map]
  rw [renMech_names, removedDrgep_ren]
  cases removedDrgep imp c.safe t sol.names with
  | error e => rfl
  | ok removed =>
  dsimp only [Except.map]
  have hb : (match buildCandidate (renCtx σ c) sim' (renMech σ sol) (removed.map σ) (renWorld σ w) with
      | (.error e, w1) => (.error e, w1)
      | (.ok (red, fn, err), w1) => ((.ok ⟨red, fn, err, none⟩, w1) : Except Err RModel × World)) =
      renStep σ (match buildCandidate c sim sol removed w with
      | (.error e, w1) => (.error e, w1)
      | (.ok (red, fn, err), w1) => (.ok ⟨red, fn, err, none⟩, w1)) := by
    rw [buildCandidate_ren hs]
    rcases buildCandidate c sim sol removed w with ⟨r, w1⟩
    cases r <;> rfl
  cases p with
  | none => exact hb
  | some p =>
    dsimp only [Option.map_some]
    rw [show (renModel σ p).model = renMech σ p.model from rfl]
    simp only [renMech_nSpecies, List.length_map]
    by_cases hn : (removed.length : Int) = (sol.nSpecies : Int) - p.model.nSpecies
    · simp only [if_pos hn]; rfl
    · simp only [if_neg hn]; exact hb

/-! ### the loop -/

/-- loop variables, renamed -/
def renLoop (σ : String ≃ String) (s : LoopState) : LoopState :=
  { s with prev := renModel σ s.prev, last := s.last.map (renModel σ), w := renWorld σ s.w }

/-- outcomes, renamed -/
def renOutcome (σ : String ≃ String) : Outcome → Outcome
  | .running s => .running (renLoop σ s)
  | .left s => .left (renLoop σ s)
  | .raised e w => .raised e (renWorld σ w)

variable {reduce reduce' : ReduceFn}

/-- the steps agree up to the renaming -/
def RenFn (σ : String ≃ String) (reduce reduce' : ReduceFn) : Prop :=
  ∀ t p w, reduce' t (p.map (renModel σ)) (renWorld σ w) = renStep σ (reduce t p w)

theorem loopStep_ren (h : RenFn σ reduce reduce') (rnd : ℚ → ℚ) (ex : ℚ) (limit : PyF) (s : LoopState) :
    loopStep reduce' rnd ex limit (renLoop σ s) = renOutcome σ (loopStep reduce rnd ex limit s) := by
  unfold loopStep
  rw [show (renLoop σ s).errCur = s.errCur from rfl, show (renLoop σ s).thr = s.thr from rfl]
  by_cases hle : s.errCur.le limit = true
  · rw [if_pos hle, if_pos hle]
    have := h s.thr (some s.prev) s.w
    rw [show some (renLoop σ s).prev = (some s.prev).map (renModel σ) from rfl,
      show (renLoop σ s).w = renWorld σ s.w from rfl, this]
    rcases reduce s.thr (some s.prev) s.w with ⟨r, w1⟩
    cases r with
    | error e => rfl
    | ok r =>
      dsimp only [renStep, Except.map]
      rw [show (renModel σ r).error = r.error from rfl, show (renLoop σ s).first = s.first from rfl,
        show (renLoop σ s).inc = s.inc from rfl]
      by_cases hf : (s.first && limit.lt r.error) = true
      · rw [if_pos hf, if_pos hf]
        split_ifs <;> rfl
      · rw [if_neg hf, if_neg hf]
        rw [show (renLoop σ s).prev.model.nSpecies = s.prev.model.nSpecies from renMech_nSpecies _,
          show (renModel σ r).model.nSpecies = r.model.nSpecies from renMech_nSpecies _,
          show (renModel σ r).filename = r.filename from rfl, removeFile_ren]
        by_cases hn : s.prev.model.nSpecies ≠ r.model.nSpecies
        · rw [if_pos hn, if_pos hn]
          rcases removeFile w1 r.filename with ⟨x, w2⟩
          cases x <;> rfl
        · rw [if_neg hn, if_neg hn]
          rfl
  · rw [if_neg hle, if_neg hle]
    rfl

theorem whileLoop_ren (h : RenFn σ reduce reduce') (rnd : ℚ → ℚ) (ex : ℚ) (limit : PyF) : ∀ (k : Nat) (s : LoopState),
    whileLoop reduce' rnd ex limit k (renLoop σ s) = renOutcome σ (whileLoop reduce rnd ex limit k s)
  | 0, s => rfl
  | k + 1, s => by
    rw [whileLoop, whileLoop, loopStep_ren h]
    cases loopStep reduce rnd ex limit s with
    | running t => exact whileLoop_ren h rnd ex limit k t
    | left t => rfl
    | raised e w => rfl

theorem finishDrg_ren (h : RenFn σ reduce reduce') (rnd : ℚ → ℚ) (limit : PyF) (path : Text) (s : LoopState) :
    finishDrg reduce' rnd limit path (renLoop σ s) = renStep σ (finishDrg reduce rnd limit path s) := by
  unfold finishDrg
  rw [show (renLoop σ s).errCur = s.errCur from rfl, show (renLoop σ s).w = renWorld σ s.w from rfl,
    show (renLoop σ s).last = s.last.map (renModel σ) from rfl]
  by_cases hl : limit.lt s.errCur = true
  · rw [if_pos hl, if_pos hl]
    exact h (backStep rnd s) none s.w
  · rw [if_neg hl, if_neg hl]
    cases s.last with
    | none => rfl
    | some r =>
      dsimp only [Option.map_some]
      rw [show (renModel σ r).model.nSpecies = r.model.nSpecies from renMech_nSpecies _, writeYamlTuple_ren]
      rcases writeYamlTuple s.w (reducedName r.model.nSpecies) path with ⟨x, w⟩
      cases x <;> rfl

theorem finishOther_ren (h : RenFn σ reduce reduce') (rnd : ℚ → ℚ) (limit : PyF) (path : Text) (s : LoopState) :
    finishOther reduce' rnd limit path (renLoop σ s) = renStep σ (finishOther reduce rnd limit path s) := by
  unfold finishOther
  rw [show (renLoop σ s).w = renWorld σ s.w from rfl, show (renLoop σ s).last = s.last.map (renModel σ) from rfl]
  cases s.last with
  | none => rfl
  | some r =>
    dsimp only [Option.map_some]
    rw [show (renModel σ r).error = r.error from rfl]
    by_cases hl : limit.lt r.error = true
    · rw [if_pos hl, if_pos hl]
      exact h (backStep rnd s) none s.w
    · rw [if_neg hl, if_neg hl,
        show (renModel σ r).model.nSpecies = r.model.nSpecies from renMech_nSpecies _, writeYamlTuple_ren]
      rcases writeYamlTuple s.w (reducedName r.model.nSpecies) path with ⟨x, w⟩
      cases x <;> rfl

theorem runWith_ren (h : RenFn σ reduce reduce') {fin fin' : LoopState → Except Err RModel × World}
    (hf : ∀ s, fin' (renLoop σ s) = renStep σ (fin s)) (rnd : ℚ → ℚ) (ex : ℚ) (limit : PyF) (k : Nat) (s : LoopState) :
    runWith reduce' fin' rnd ex limit k (renLoop σ s) = renRun σ (runWith reduce fin rnd ex limit k s) := by
  unfold runWith
  rw [whileLoop_ren h]
  cases whileLoop reduce rnd ex limit k s with
  | running t => rfl
  | raised e w => rfl
  | left t =>
    dsimp only [renOutcome]
    rw [hf]
    rfl

theorem loopInit_ren (rnd : ℚ → ℚ) (sol : Mech) (f : Text) (w : World) :
    loopInit rnd (renMech σ sol) f (renWorld σ w) = renLoop σ (loopInit rnd sol f w) := rfl

theorem map_eq_nil_iff' (l : List String) : (l.map σ = []) = (l = []) := by simp

theorem limboDrgep_ren (c : Ctx) (imp : String → Option ℚ) (r : RModel) :
    limboDrgep (renCtx σ c) (fun b => imp (σ.symm b)) (renModel σ r) = (limboDrgep c imp r).map σ := by
  unfold limboDrgep
  rw [show (renCtx σ c).upper = c.upper from rfl, show (renCtx σ c).safe = c.safe.map σ from rfl]
  cases truthy c.upper with
  | none => rfl
  | some u =>
    dsimp only
    rw [show (renModel σ r).model = renMech σ r.model from rfl, renMech_names]
    apply filter_map_equiv
    intro a
    simp only [contains_map_equiv, Equiv.symm_apply_apply]

theorem appendLimbo_ren (r : RModel) (w : World) (l : List String) :
    appendLimbo (renModel σ r) (renWorld σ w) (l.map σ) =
      (renModel σ (appendLimbo r w l).1, renWorld σ (appendLimbo r w l).2) := by
  obtain ⟨m, f, e, lb⟩ := r
  cases lb with
  | none => simp [appendLimbo, renModel, renWorld]
  | some x => simp [appendLimbo, renModel]

theorem runMethodS_ren (hs : ∀ m, sim' (renMech σ m) = sim m) (m : Method) (c : Ctx) (rnd : ℚ → ℚ) (limit : PyF)
    (dfuel fuel : Nat) (w : World) :
    runMethodS m (renCtx σ c) sim' rnd limit dfuel fuel (renWorld σ w) =
      renRun σ (runMethodS m c sim rnd limit dfuel fuel w) := by
  cases m with
  | drg =>
    show runDrgS _ _ _ _ _ _ = renRun σ (runDrgS _ _ _ _ _ _)
    unfold runDrgS
    rw [show (renCtx σ c).modelFile = c.modelFile from rfl, show (renCtx σ c).targets = c.targets.map σ from rfl,
      loadModel_ren]
    cases loadModel w c.modelFile with
    | error e => rfl
    | ok sol =>
      dsimp only [Except.map]
      simp only [map_eq_nil_iff']
      by_cases ht : c.targets = []
      · rw [if_pos ht, if_pos ht]; rfl
      · rw [if_neg ht, if_neg ht, loopInit_ren]
        exact runWith_ren (reduceDrgS_ren hs c) (finishDrg_ren (reduceDrgS_ren hs c) rnd limit c.path) rnd _ limit fuel _
  | pfa =>
    show runPfaS _ _ _ _ _ _ = renRun σ (runPfaS _ _ _ _ _ _)
    unfold runPfaS
    rw [show (renCtx σ c).modelFile = c.modelFile from rfl, show (renCtx σ c).targets = c.targets.map σ from rfl,
      loadModel_ren]
    cases loadModel w c.modelFile with
    | error e => rfl
    | ok sol =>
      dsimp only [Except.map]
      simp only [map_eq_nil_iff']
      by_cases ht : c.targets = []
      · rw [if_pos ht, if_pos ht]; rfl
      · rw [if_neg ht, if_neg ht, loopInit_ren]
        exact runWith_ren (reducePfaS_ren hs c) (finishOther_ren (reducePfaS_ren hs c) rnd limit c.path) rnd _ limit fuel _
  | drgep =>
    show runDrgepS _ _ _ _ _ _ _ = renRun σ (runDrgepS _ _ _ _ _ _ _)
    unfold runDrgepS
    rw [show (renCtx σ c).modelFile = c.modelFile from rfl, show (renCtx σ c).targets = c.targets.map σ from rfl,
      show (renCtx σ c).matrices = c.matrices from rfl, show (renCtx σ c).rndMul = c.rndMul from rfl, loadModel_ren]
    cases loadModel w c.modelFile with
    | error e => rfl
    | ok sol =>
      dsimp only [Except.map]
      simp only [map_eq_nil_iff']
      by_cases ht : c.targets = []
      · rw [if_pos ht, if_pos ht]; rfl
      · rw [if_neg ht, if_neg ht, renMech_names, importance_ren]
        cases getImportanceCoeffs c.rndMul sol.names c.targets c.matrices dfuel with
        | error e => rfl
        | ok imp =>
          dsimp only [Except.map]
          rw [loopInit_ren]
          have := runWith_ren (reduceDrgepS_ren hs c imp)
            (finishOther_ren (reduceDrgepS_ren hs c imp) rnd limit c.path) rnd (rnd (1 / 1000000)) limit fuel
            (loopInit rnd sol c.modelFile w)
          rw [show (renCtx σ c).path = c.path from rfl, this]
          rcases runWith (reduceDrgepS c sim imp) (finishOther (reduceDrgepS c sim imp) rnd limit c.path) rnd
            (rnd (1 / 1000000)) limit fuel (loopInit rnd sol c.modelFile w) with ⟨r, w1⟩
          match r with
          | none => rfl
          | some (.error e) => rfl
          | some (.ok r) =>
            dsimp only [renRun, Option.map_some, Except.map]
            rw [limboDrgep_ren, appendLimbo_ren]

end Verif
