import Verif.Lemmas.Order
import Verif.Lemmas.ReduceSame
import Verif.Props.Importance
/-!
Two settings that list the same targets, retained species and states: every step of the loop does
the same to the files and gives the same model, also when simulations raise.
-/
namespace Verif
open Spec

/-- the same targets, retained species and sampled states, in another order or repeated -/
structure SameLists (c c' : Ctx) : Prop where
  file : c'.modelFile = c.modelFile
  phase : c'.phase = c.phase
  path : c'.path = c.path
  targets : ∀ t, t ∈ c'.targets ↔ t ∈ c.targets
  safe : ∀ s, s ∈ c'.safe ↔ s ∈ c.safe
  matrices : ∀ M, M ∈ c'.matrices ↔ M ∈ c.matrices
  upper : c'.upper = c.upper
  rndMul : c'.rndMul = c.rndMul

/-- the same model, file name and error, or an exception on both sides; the same files -/
def StepAgree (a b : Except Err RModel × World) : Prop :=
  a.2.fs = b.2.fs ∧ (a.1.map RModel.view).toOption = (b.1.map RModel.view).toOption

theorem StepAgree.cases {a b : Except Err RModel × World} (h : StepAgree a b) :
    (∃ r r' w w', a = (.ok r, w) ∧ b = (.ok r', w') ∧ r.view = r'.view ∧ w.fs = w'.fs) ∨
    ∃ e e' w w', a = (.error e, w) ∧ b = (.error e', w') ∧ w.fs = w'.fs := by
  obtain ⟨x, w⟩ := a
  obtain ⟨y, w'⟩ := b
  obtain ⟨h1, h2⟩ := h
  rcases x with e | r <;> rcases y with e' | r' <;> simp [Except.map, Except.toOption] at h2
  · exact .inr ⟨e, e', w, w', rfl, rfl, h1⟩
  · exact .inl ⟨r, r', w, w', rfl, rfl, h2, h1⟩

theorem StepAgree.ok {r r' : RModel} {w w' : World} (h : r.view = r'.view) (hw : w.fs = w'.fs) :
    StepAgree (.ok r, w) (.ok r', w') := ⟨hw, by simp [Except.map, Except.toOption, h]⟩

theorem StepAgree.error {e e' : Err} {w w' : World} (hw : w.fs = w'.fs) :
    StepAgree (.error e, w) (.error e', w') := ⟨hw, rfl⟩

theorem World.set_fs {w w' : World} (h : w.fs = w'.fs) (f : Text) (x : Option Mech) :
    (w.set f x).fs = (w'.set f x).fs := by
  unfold World.set; simp only [h]

theorem loadModel_fs {w w' : World} (h : w.fs = w'.fs) (f : Text) : loadModel w f = loadModel w' f := by
  unfold loadModel; rw [h]

theorem writeYaml_fs {w w' : World} (h : w.fs = w'.fs) (m : Mech) (n p : Text) :
    (writeYaml w m n p).1 = (writeYaml w' m n p).1 ∧
      (writeYaml w m n p).2.fs = (writeYaml w' m n p).2.fs := by
  refine ⟨rfl, ?_⟩
  unfold writeYaml
  dsimp only
  rw [h]
  by_cases hs : (w'.fs (yamlName m n p)).isSome = true
  · rw [if_pos hs, if_pos hs]; exact World.set_fs (World.set_fs h _ _) _ _
  · rw [if_neg hs, if_neg hs]; exact World.set_fs h _ _

theorem removeFile_fs {w w' : World} (h : w.fs = w'.fs) (f : Text) :
    (removeFile w f).1 = (removeFile w' f).1 ∧ (removeFile w f).2.fs = (removeFile w' f).2.fs := by
  unfold removeFile
  rw [h]
  by_cases hs : (w'.fs f).isSome = true
  · rw [if_pos hs, if_pos hs]; exact ⟨rfl, World.set_fs h _ _⟩
  · rw [if_neg hs, if_neg hs]; exact ⟨rfl, h⟩

theorem writeYamlTuple_fs {w w' : World} (h : w.fs = w'.fs) (n p : Text) :
    (writeYamlTuple w n p).2.fs = (writeYamlTuple w' n p).2.fs := by
  unfold writeYamlTuple
  dsimp only
  rw [h]
  by_cases hs : (w'.fs (joinPath p n)).isSome = true
  · rw [if_pos hs, if_pos hs]; exact World.set_fs h _ _
  · rw [if_neg hs, if_neg hs]; exact h

theorem buildCandidate_fs {c c' : Ctx} {sim sim' : Mech → Except Err PyF} (L : SameLists c c')
    (hs : ∀ m, (sim m).toOption = (sim' m).toOption) (sol : Mech) (removed : List String)
    {w w' : World} (hw : w.fs = w'.fs) :
    (∃ t w1 w1', buildCandidate c sim sol removed w = (.ok t, w1) ∧
      buildCandidate c' sim' sol removed w' = (.ok t, w1') ∧ w1.fs = w1'.fs) ∨
    ∃ e e' w1 w1', buildCandidate c sim sol removed w = (.error e, w1) ∧
      buildCandidate c' sim' sol removed w' = (.error e', w1') ∧ w1.fs = w1'.fs := by
  unfold buildCandidate
  simp only [L.file, L.phase, L.path]
  generalize trim sol removed ("reduced_".toList ++ c.modelFile) c.phase = red
  obtain ⟨h1, h2⟩ := writeYaml_fs hw red (reducedName red.nSpecies) c.path
  rw [← h1, loadModel_fs h2]
  rcases loadModel (writeYaml w' red (reducedName red.nSpecies) c.path).2
    (writeYaml w red (reducedName red.nSpecies) c.path).1 with e | m
  · exact .inr ⟨e, e, _, _, rfl, rfl, h2⟩
  · dsimp only
    rcases toOption_cases (hs m) with ⟨v, e1, e2⟩ | ⟨e, e', e1, e2⟩ <;> rw [e1, e2]
    · exact .inl ⟨_, _, _, rfl, rfl, h2⟩
    · exact .inr ⟨_, _, _, _, rfl, rfl, h2⟩

theorem sameCount_view {p p' : Option RModel} (h : p.map RModel.view = p'.map RModel.view) (n : Nat) :
    (sameCount p n).map RModel.view = (sameCount p' n).map RModel.view := by
  rcases p with _ | p <;> rcases p' with _ | p' <;> simp at h
  · rfl
  · have hm : p.model = p'.model := (Prod.ext_iff.1 h).1
    unfold sameCount
    dsimp only
    rw [hm]
    by_cases hn : n = p'.model.nSpecies
    · simp only [if_pos hn, Option.map_some, h]
    · simp only [if_neg hn]

theorem option_view_cases {p p' : Option RModel} (h : p.map RModel.view = p'.map RModel.view) :
    (p = none ∧ p' = none) ∨ ∃ r r', p = some r ∧ p' = some r' ∧ r.view = r'.view := by
  rcases p with _ | p <;> rcases p' with _ | p' <;> simp at h
  · exact .inl ⟨rfl, rfl⟩
  · exact .inr ⟨_, _, rfl, rfl, h⟩

section
variable {c c' : Ctx} {sol : Mech} {sim sim' : Mech → Except Err PyF}

/-- the two retained lists have the same species -/
theorem retained_lists (L : SameLists c c') (S : Setting c sol) (t : ℚ) :
    ∃ l l', retained c.matrices sol.names c.targets t = .ok l ∧
      retained c'.matrices sol.names c'.targets t = .ok l' ∧ l.length = l'.length ∧
      (∀ s, s ∈ l ↔ s ∈ l') := by
  obtain ⟨l, e1, e2, e3⟩ := retained_spec t S.nodup S.targets c.matrices
  obtain ⟨l', e1', e2', e3'⟩ := retained_spec t S.nodup
    (fun t ht => S.targets t ((L.targets t).1 ht)) c'.matrices
  have hm : ∀ s, s ∈ l ↔ s ∈ l' := by
    intro s
    rw [e3, e3']
    simp only [Linked, L.matrices, L.targets]
  exact ⟨l, l', e1, e1', ((List.perm_ext_iff_of_nodup e2 e2').2 hm).length_eq, hm⟩

theorem removed_lists (L : SameLists c c') {l l' : List String} (h : ∀ s, s ∈ l ↔ s ∈ l') :
    sol.names.filter (fun sp => !((l' ++ c'.safe).contains sp)) =
      sol.names.filter (fun sp => !((l ++ c.safe).contains sp)) := by
  apply List.filter_congr
  intro s _
  congr 1
  rw [Bool.eq_iff_iff]
  simp [h, L.safe]

theorem reduceDrg_lists (L : SameLists c c') (S : Setting c sol)
    (hs : ∀ m, (sim m).toOption = (sim' m).toOption) (t : ℚ) {p p' : Option RModel}
    (hp : p.map RModel.view = p'.map RModel.view) {w w' : World} (hw : w.fs = w'.fs)
    (hf : w.fs c.modelFile = some sol) :
    StepAgree (reduceDrgS c sim t p w) (reduceDrgS c' sim' t p' w') := by
  unfold reduceDrgS
  have h1 : loadModel w c.modelFile = .ok sol := by unfold loadModel; rw [hf]
  rw [L.file, ← loadModel_fs hw, h1]
  dsimp only
  obtain ⟨l, l', e1, e2, e3, e4⟩ := retained_lists L S t
  rw [e1, e2]
  dsimp only
  rw [← e3]
  rcases option_view_cases (sameCount_view hp l.length) with ⟨g1, g2⟩ | ⟨r, r', g1, g2, g3⟩ <;>
    rw [g1, g2]
  · dsimp only
    rw [removed_lists L e4]
    rcases buildCandidate_fs L hs sol
      (sol.names.filter (fun sp => !((l ++ c.safe).contains sp))) hw with
      ⟨x, w1, w1', b1, b2, b3⟩ | ⟨e, e', w1, w1', b1, b2, b3⟩ <;> rw [b1, b2]
    · obtain ⟨red, fn, err⟩ := x
      dsimp only
      rw [L.upper]
      rcases truthy c.upper with _ | u
      · exact .ok rfl b3
      · dsimp only
        obtain ⟨m, m', f1, f2, -⟩ := retained_lists L S u
        rw [f1, f2]
        exact .ok rfl b3
    · exact .error b3
  · exact .ok g3 hw

theorem reducePfa_lists (L : SameLists c c') (S : Setting c sol)
    (hs : ∀ m, (sim m).toOption = (sim' m).toOption) (t : ℚ) {p p' : Option RModel}
    (hp : p.map RModel.view = p'.map RModel.view) {w w' : World} (hw : w.fs = w'.fs)
    (hf : w.fs c.modelFile = some sol) :
    StepAgree (reducePfaS c sim t p w) (reducePfaS c' sim' t p' w') := by
  unfold reducePfaS
  have h1 : loadModel w c.modelFile = .ok sol := by unfold loadModel; rw [hf]
  rw [L.file, ← loadModel_fs hw, h1]
  dsimp only
  obtain ⟨l, l', e1, e2, e3, e4⟩ := retained_lists L S t
  rw [e1, e2]
  dsimp only
  rw [← e3]
  rcases option_view_cases (sameCount_view hp l.length) with ⟨g1, g2⟩ | ⟨r, r', g1, g2, g3⟩ <;>
    rw [g1, g2]
  · dsimp only
    rw [removed_lists L e4]
    rcases buildCandidate_fs L hs sol
      (sol.names.filter (fun sp => !((l ++ c.safe).contains sp))) hw with
      ⟨x, w1, w1', b1, b2, b3⟩ | ⟨e, e', w1, w1', b1, b2, b3⟩ <;> rw [b1, b2]
    · obtain ⟨red, fn, err⟩ := x
      dsimp only
      rw [L.upper]
      rcases truthy c.upper with _ | u
      · exact .ok rfl b3
      · dsimp only
        rcases hl : c.matrices.getLast? with _ | M
        · have : c.matrices = [] := List.getLast?_eq_none_iff.1 hl
          have : c'.matrices = [] := by
            rw [List.eq_nil_iff_forall_not_mem]
            intro M hM
            have := (L.matrices M).1 hM
            simp_all
          rw [this]
          exact .error b3
        · have hne : c'.matrices ≠ [] := by
            have hM := (L.matrices M).2 (List.mem_of_getLast? hl)
            intro h0
            simp [h0] at hM
          rcases hl' : c'.matrices.getLast? with _ | M'
          · exact absurd (List.getLast?_eq_none_iff.1 hl') hne
          · dsimp only
            obtain ⟨m, f1, -⟩ := graphSearch_spec (thresholdGraph_ok M sol.names u) c.targets S.targets
            obtain ⟨m', f1', -⟩ := graphSearch_spec (thresholdGraph_ok M' sol.names u) c'.targets
              (fun t ht => S.targets t ((L.targets t).1 ht))
            have k1 : trimDrg M sol.names c.targets u = .ok m := f1
            have k2 : trimDrg M' sol.names c'.targets u = .ok m' := f1'
            rw [k1, k2]
            exact .ok rfl b3
    · exact .error b3
  · exact .ok g3 hw

theorem removedDrgep_safe {imp : String → Option ℚ} {s s' : List String} (h : ∀ x, x ∈ s' ↔ x ∈ s) (t : ℚ)
    (l : List String) : removedDrgep imp s' t l = removedDrgep imp s t l := by
  induction l with
  | nil => rfl
  | cons a l ih =>
    unfold removedDrgep
    rw [ih]
    simp only [h]

theorem reduceDrgep_lists (L : SameLists c c')
    (hs : ∀ m, (sim m).toOption = (sim' m).toOption) (imp : String → Option ℚ) (t : ℚ) {p p' : Option RModel}
    (hp : p.map RModel.view = p'.map RModel.view) {w w' : World} (hw : w.fs = w'.fs)
    (hf : w.fs c.modelFile = some sol) :
    StepAgree (reduceDrgepS c sim imp t p w) (reduceDrgepS c' sim' imp t p' w') := by
  unfold reduceDrgepS
  have h1 : loadModel w c.modelFile = .ok sol := by unfold loadModel; rw [hf]
  rw [L.file, ← loadModel_fs hw, h1]
  dsimp only
  rw [removedDrgep_safe L.safe]
  rcases removedDrgep imp c.safe t sol.names with e | rem
  · exact .error hw
  dsimp only
  have key : StepAgree
      (match buildCandidate c sim sol rem w with
        | (.error e, w1) => (.error e, w1)
        | (.ok (red, fn, err), w1) => (.ok (⟨red, fn, err, none⟩ : RModel), w1))
      (match buildCandidate c' sim' sol rem w' with
        | (.error e, w1) => (.error e, w1)
        | (.ok (red, fn, err), w1) => (.ok ⟨red, fn, err, none⟩, w1)) := by
    rcases buildCandidate_fs L hs sol rem hw with
      ⟨x, w1, w1', b1, b2, b3⟩ | ⟨e, e', w1, w1', b1, b2, b3⟩ <;> rw [b1, b2]
    · exact .ok rfl b3
    · exact .error b3
  rcases option_view_cases hp with ⟨rfl, rfl⟩ | ⟨r, r', rfl, rfl, g3⟩
  · exact key
  · have hm : r.model = r'.model := (Prod.ext_iff.1 g3).1
    dsimp only
    rw [← hm]
    by_cases hc : (rem.length : Int) = (sol.nSpecies : Int) - r.model.nSpecies
    · rw [if_pos hc, if_pos hc]; exact .ok g3 hw
    · rw [if_neg hc, if_neg hc]; exact key

/-! ### what a step does to the files, whatever the simulations do -/

/-- the model file is not touched, and a step gives the previous model or writes a numbered file -/
structure KeepsFile (c : Ctx) (sol : Mech) (red : ReduceFn) : Prop where
  file : ∀ t p w, w.fs c.modelFile = some sol → (red t p w).2.fs c.modelFile = some sol
  name : ∀ t p w r, (red t p w).1 = .ok r → p = some r ∨ ∃ n, r.filename = redFile c n

theorem KeepsFile.of_rel (S : Setting c sol) {red red' : ReduceFn} (h : StepRel c sim red red')
    (F : FileSafe (c.total sim) red') : KeepsFile c sol red where
  file t p w hw := by
    have : (red t p w).2 = (red' t p w).2 := by
      rcases h t p w with h1 | ⟨e, w1, h1, h2, -⟩
      · rw [h1]
      · rw [h1, h2]
    rw [this, F.touches t p w c.modelFile (fun n h => S.noclash n h.symm)]
    exact hw
  name t p w r hr := by
    rcases h t p w with h1 | ⟨e, w1, h1, h2, -⟩
    · rw [h1] at hr
      rcases F.result t p w r hr with ⟨h2, -⟩ | ⟨h2, -⟩
      · exact .inl h2
      · exact .inr ⟨_, h2⟩
    · rw [h1] at hr; cases hr

/-! ### the loop -/

/-- two reduction steps that agree -/
structure StepLists (c : Ctx) (sol : Mech) (red red' : ReduceFn) : Prop extends KeepsFile c sol red where
  agree : ∀ t p p' w w', p.map RModel.view = p'.map RModel.view → w.fs = w'.fs →
    w.fs c.modelFile = some sol → StepAgree (red t p w) (red' t p' w')

/-- two states of the loop that differ in limbo species only -/
structure LoopAgree (c : Ctx) (sol : Mech) (s s' : LoopState) : Prop where
  first : s.first = s'.first
  errCur : s.errCur = s'.errCur
  thr : s.thr = s'.thr
  inc : s.inc = s'.inc
  prev : s.prev.view = s'.prev.view
  last : s.last.map RModel.view = s'.last.map RModel.view
  fs : s.w.fs = s'.w.fs
  file : s.w.fs c.modelFile = some sol

/-- two whole runs that agree -/
def RunAgree (a b : RunResult) : Prop :=
  a.2.fs = b.2.fs ∧
    a.1.map (fun x => (x.map RModel.view).toOption) = b.1.map (fun x => (x.map RModel.view).toOption)

theorem loopStep_lists {red red' : ReduceFn} (S : Setting c sol) (H : StepLists c sol red red')
    (rnd : ℚ → ℚ) (ex : ℚ) (limit : PyF) {s s' : LoopState} (A : LoopAgree c sol s s') :
    (∃ t t', loopStep red rnd ex limit s = .running t ∧ loopStep red' rnd ex limit s' = .running t' ∧
      LoopAgree c sol t t') ∨
    (loopStep red rnd ex limit s = .left s ∧ loopStep red' rnd ex limit s' = .left s') ∨
    ∃ e e' w w', loopStep red rnd ex limit s = .raised e w ∧ loopStep red' rnd ex limit s' = .raised e' w' ∧
      w.fs = w'.fs := by
  unfold loopStep
  rw [← A.errCur]
  by_cases hle : s.errCur.le limit = true
  swap
  · rw [if_neg hle, if_neg hle]; exact .inr (.inl ⟨rfl, rfl⟩)
  rw [if_pos hle, if_pos hle, ← A.thr, ← A.inc, ← A.first]
  have hag := H.agree s.thr (some s.prev) (some s'.prev) s.w s'.w (by simp [A.prev]) A.fs A.file
  have hfile := H.file s.thr (some s.prev) s.w A.file
  have hname := H.name s.thr (some s.prev) s.w
  rcases hag.cases with ⟨r, r', w, w', h1, h2, h3, h4⟩ | ⟨e, e', w, w', h1, h2, h3⟩
  swap
  · rw [h1, h2]; exact .inr (.inr ⟨e, e', w, w', rfl, rfl, h3⟩)
  rw [h1] at hfile hname
  rw [h1, h2]
  dsimp only at hfile hname ⊢
  have hm : r.model = r'.model := (Prod.ext_iff.1 h3).1
  have hn : r.filename = r'.filename := (Prod.ext_iff.1 (Prod.ext_iff.1 h3).2).1
  have he : r.error = r'.error := (Prod.ext_iff.1 (Prod.ext_iff.1 h3).2).2
  have hpm : s.prev.model = s'.prev.model := (Prod.ext_iff.1 A.prev).1
  rw [← he, ← hm, ← hn, ← hpm]
  by_cases hx : (s.first && limit.lt r.error) = true
  · rw [if_pos hx, if_pos hx]
    by_cases hex : rnd (s.thr / 10) ≤ ex
    · rw [if_pos hex, if_pos hex]
      exact .inr (.inr ⟨_, _, _, _, rfl, rfl, h4⟩)
    · rw [if_neg hex, if_neg hex]
      exact .inl ⟨_, _, rfl, rfl, ⟨rfl, rfl, rfl, rfl, A.prev, by simp [h3], h4, hfile⟩⟩
  · rw [if_neg hx, if_neg hx]
    by_cases hc : s.prev.model.nSpecies ≠ r.model.nSpecies
    · rw [if_pos hc, if_pos hc]
      obtain ⟨g1, g2⟩ := removeFile_fs h4 r.filename
      have hkeep : (removeFile w r.filename).2.fs c.modelFile = some sol := by
        rcases hname r rfl with h0 | ⟨n, h0⟩
        · cases h0; exact absurd rfl hc
        · have hne : c.modelFile ≠ r.filename := by rw [h0]; exact fun h => S.noclash n h.symm
          unfold removeFile
          split_ifs
          · show (w.set _ _).fs _ = _
            rw [World.set_fs_ne _ _ _ _ hne]; exact hfile
          · exact hfile
      rcases hrf : removeFile w r.filename with ⟨x, w2⟩
      rcases hrf' : removeFile w' r.filename with ⟨x', w2'⟩
      rw [hrf, hrf'] at g1 g2
      rw [hrf] at hkeep
      dsimp only at g1 g2 hkeep
      subst g1
      rcases x with e | _
      · exact .inr (.inr ⟨_, _, _, _, rfl, rfl, g2⟩)
      · exact .inl ⟨_, _, rfl, rfl, ⟨rfl, rfl, rfl, rfl, h3, by simp [h3], g2, hkeep⟩⟩
    · rw [if_neg hc, if_neg hc]
      exact .inl ⟨_, _, rfl, rfl, ⟨rfl, rfl, rfl, rfl, h3, by simp [h3], h4, hfile⟩⟩

theorem runWith_lists {red red' : ReduceFn} (S : Setting c sol) (H : StepLists c sol red red')
    {fin fin' : LoopState → Except Err RModel × World}
    (hf : ∀ s s', LoopAgree c sol s s' → StepAgree (fin s) (fin' s'))
    (rnd : ℚ → ℚ) (ex : ℚ) (limit : PyF) (fuel : Nat) {s s' : LoopState} (A : LoopAgree c sol s s') :
    RunAgree (runWith red fin rnd ex limit fuel s) (runWith red' fin' rnd ex limit fuel s') := by
  induction fuel generalizing s s' with
  | zero => exact ⟨A.fs, rfl⟩
  | succ fuel ih =>
    rcases loopStep_lists S H rnd ex limit A with ⟨t, t', h1, h2, h3⟩ | ⟨h1, h2⟩ | ⟨e, e', w, w', h1, h2, h3⟩
    · have a1 : runWith red fin rnd ex limit (fuel + 1) s = runWith red fin rnd ex limit fuel t := by
        unfold runWith; rw [whileLoop, h1]
      have a2 : runWith red' fin' rnd ex limit (fuel + 1) s' = runWith red' fin' rnd ex limit fuel t' := by
        unfold runWith; rw [whileLoop, h2]
      rw [a1, a2]; exact ih h3
    · have a1 : runWith red fin rnd ex limit (fuel + 1) s = (some (fin s).1, (fin s).2) := by
        unfold runWith; rw [whileLoop, h1]
      have a2 : runWith red' fin' rnd ex limit (fuel + 1) s' = (some (fin' s').1, (fin' s').2) := by
        unfold runWith; rw [whileLoop, h2]
      rw [a1, a2]
      obtain ⟨g1, g2⟩ := hf s s' A
      exact ⟨g1, by simp [g2]⟩
    · have a1 : runWith red fin rnd ex limit (fuel + 1) s = (some (.error e), w) := by
        unfold runWith; rw [whileLoop, h1]
      have a2 : runWith red' fin' rnd ex limit (fuel + 1) s' = (some (.error e'), w') := by
        unfold runWith; rw [whileLoop, h2]
      rw [a1, a2]
      exact ⟨h3, rfl⟩

theorem finishDrg_lists {red red' : ReduceFn} (H : StepLists c sol red red') (rnd : ℚ → ℚ) (limit : PyF)
    (path : Text) (s s' : LoopState) (A : LoopAgree c sol s s') :
    StepAgree (finishDrg red rnd limit path s) (finishDrg red' rnd limit path s') := by
  unfold finishDrg backStep
  rw [← A.errCur, ← A.thr, ← A.inc]
  by_cases hl : limit.lt s.errCur = true
  · rw [if_pos hl, if_pos hl]; exact H.agree _ _ _ _ _ rfl A.fs A.file
  · rw [if_neg hl, if_neg hl]
    rcases option_view_cases A.last with ⟨h1, h2⟩ | ⟨r, r', h1, h2, h3⟩ <;> rw [h1, h2]
    · exact .error A.fs
    · have hm : r.model = r'.model := (Prod.ext_iff.1 h3).1
      dsimp only
      rw [← hm]
      exact .error (writeYamlTuple_fs A.fs _ _)

theorem finishOther_lists {red red' : ReduceFn} (H : StepLists c sol red red') (rnd : ℚ → ℚ) (limit : PyF)
    (path : Text) (s s' : LoopState) (A : LoopAgree c sol s s') :
    StepAgree (finishOther red rnd limit path s) (finishOther red' rnd limit path s') := by
  unfold finishOther backStep
  rw [← A.thr, ← A.inc]
  rcases option_view_cases A.last with ⟨h1, h2⟩ | ⟨r, r', h1, h2, h3⟩ <;> rw [h1, h2]
  · exact .error A.fs
  · have hm : r.model = r'.model := (Prod.ext_iff.1 h3).1
    have he : r.error = r'.error := (Prod.ext_iff.1 (Prod.ext_iff.1 h3).2).2
    dsimp only
    rw [← hm, ← he]
    by_cases hl : limit.lt r.error = true
    · rw [if_pos hl, if_pos hl]; exact H.agree _ _ _ _ _ rfl A.fs A.file
    · rw [if_neg hl, if_neg hl]; exact .error (writeYamlTuple_fs A.fs _ _)

theorem loopInit_lists (L : SameLists c c') (rnd : ℚ → ℚ) {w w' : World} (hw : w.fs = w'.fs)
    (hf : w.fs c.modelFile = some sol) :
    LoopAgree c sol (loopInit rnd sol c.modelFile w) (loopInit rnd sol c'.modelFile w') := by
  rw [L.file]
  exact ⟨rfl, rfl, rfl, rfl, rfl, rfl, hw, hf⟩

/-- whole runs with the same targets, retained species and states in another order or repeated,
and with simulations that give the same errors -/
theorem runMethodS_lists {m : Method} (L : SameLists c c') (S : Setting c sol)
    (hu : m = .drgep → RndOk c.rndMul ∧ ∀ M ∈ c.matrices, UnitMatrix M sol.names.length)
    (hs : ∀ m, (sim m).toOption = (sim' m).toOption) (rnd : ℚ → ℚ) (limit : PyF) :
    ∃ N, ∀ dfuel ≥ N, ∀ fuel w w', w.fs = w'.fs → w.fs c.modelFile = some sol →
      RunAgree (runMethodS m c sim rnd limit dfuel fuel w)
        (runMethodS m c' sim' rnd limit dfuel fuel w') := by
  have ht : c'.targets = [] ↔ c.targets = [] := by
    simp only [List.eq_nil_iff_forall_not_mem, L.targets]
  cases m with
  | drg =>
    refine ⟨0, fun dfuel _ fuel w w' hw hf => ?_⟩
    have H : StepLists c sol (reduceDrgS c sim) (reduceDrgS c' sim') :=
      ⟨.of_rel S (reduceDrg_rel c sim) (reduceDrg_fileSafe (c.total sim)),
        fun t p p' w w' hp hw hf => reduceDrg_lists L S hs t hp hw hf⟩
    have h1 : loadModel w c.modelFile = .ok sol := by unfold loadModel; rw [hf]
    have h2 : loadModel w' c'.modelFile = .ok sol := by rw [L.file, ← loadModel_fs hw, h1]
    show RunAgree (runDrgS c sim rnd limit fuel w) (runDrgS c' sim' rnd limit fuel w')
    unfold runDrgS
    rw [h1, h2]
    dsimp only
    by_cases hc : c.targets = []
    · rw [if_pos hc, if_pos (ht.2 hc)]; exact ⟨hw, rfl⟩
    · rw [if_neg hc, if_neg (fun h => hc (ht.1 h)), L.path]
      exact runWith_lists S H (finishDrg_lists H rnd limit c.path) rnd _ limit fuel (loopInit_lists L rnd hw hf)
  | pfa =>
    refine ⟨0, fun dfuel _ fuel w w' hw hf => ?_⟩
    have H : StepLists c sol (reducePfaS c sim) (reducePfaS c' sim') :=
      ⟨.of_rel S (reducePfa_rel c sim) (reducePfa_fileSafe (c.total sim)),
        fun t p p' w w' hp hw hf => reducePfa_lists L S hs t hp hw hf⟩
    have h1 : loadModel w c.modelFile = .ok sol := by unfold loadModel; rw [hf]
    have h2 : loadModel w' c'.modelFile = .ok sol := by rw [L.file, ← loadModel_fs hw, h1]
    show RunAgree (runPfaS c sim rnd limit fuel w) (runPfaS c' sim' rnd limit fuel w')
    unfold runPfaS
    rw [h1, h2]
    dsimp only
    by_cases hc : c.targets = []
    · rw [if_pos hc, if_pos (ht.2 hc)]; exact ⟨hw, rfl⟩
    · rw [if_neg hc, if_neg (fun h => hc (ht.1 h)), L.path]
      exact runWith_lists S H (finishOther_lists H rnd limit c.path) rnd _ limit fuel (loopInit_lists L rnd hw hf)
  | drgep =>
    obtain ⟨hr, hM⟩ := hu rfl
    obtain ⟨N, hN⟩ := C16_order_irrelevant hr S.nodup S.targets hM (fun t => (L.targets t).symm)
      (fun M => (L.matrices M).symm)
    refine ⟨N, fun dfuel hd fuel w w' hw hf => ?_⟩
    obtain ⟨imp, i1, i2⟩ := hN dfuel hd
    have H : StepLists c sol (reduceDrgepS c sim imp) (reduceDrgepS c' sim' imp) :=
      ⟨.of_rel S (reduceDrgep_rel c sim imp) (reduceDrgep_fileSafe (c.total sim) imp),
        fun t p p' w w' hp hw hf => reduceDrgep_lists L hs imp t hp hw hf⟩
    have h1 : loadModel w c.modelFile = .ok sol := by unfold loadModel; rw [hf]
    have h2 : loadModel w' c'.modelFile = .ok sol := by rw [L.file, ← loadModel_fs hw, h1]
    show RunAgree (runDrgepS c sim rnd limit dfuel fuel w) (runDrgepS c' sim' rnd limit dfuel fuel w')
    unfold runDrgepS
    rw [h1, h2]
    dsimp only
    by_cases hc : c.targets = []
    · rw [if_pos hc, if_pos (ht.2 hc)]; exact ⟨hw, rfl⟩
    · rw [if_neg hc, if_neg (fun h => hc (ht.1 h)), L.rndMul, i1, i2, L.path]
      dsimp only
      obtain ⟨g1, g2⟩ := runWith_lists S H (finishOther_lists H rnd limit c.path) rnd (rnd (1 / 1000000))
        limit fuel (loopInit_lists L rnd hw hf)
      rcases hx : runWith (reduceDrgepS c sim imp) (finishOther (reduceDrgepS c sim imp) rnd limit c.path) rnd
        (rnd (1 / 1000000)) limit fuel (loopInit rnd sol c.modelFile w) with ⟨x, w1⟩
      rcases hy : runWith (reduceDrgepS c' sim' imp) (finishOther (reduceDrgepS c' sim' imp) rnd limit c.path) rnd
        (rnd (1 / 1000000)) limit fuel (loopInit rnd sol c'.modelFile w') with ⟨y, w1'⟩
      rw [hx, hy] at g1 g2
      dsimp only at g1 g2
      have happ : ∀ (r : RModel) (w : World) l, (appendLimbo r w l).1.view = r.view ∧ (appendLimbo r w l).2.fs = w.fs := by
        intro r w l
        unfold appendLimbo
        split <;> exact ⟨rfl, rfl⟩
      rcases x with _ | (e | r) <;> rcases y with _ | (e' | r') <;>
        simp [Except.map, Except.toOption] at g2
      · exact ⟨g1, rfl⟩
      · exact ⟨g1, rfl⟩
      · dsimp only
        refine ⟨by rw [(happ _ _ _).2, (happ _ _ _).2]; exact g1, ?_⟩
        simp only [Option.map_some, Except.map, Except.toOption, (happ _ _ _).1, g2]

end
end Verif
