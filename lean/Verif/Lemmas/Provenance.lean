import Verif.Spec.Provenance
import Verif.Lemmas.Kinetics
/-!
# What runs write
-/
namespace Verif
open Spec

/-! ### parts of a model -/

theorem Spec.Lesser.refl (m : Mech) (r : Reaction) : Lesser m r r where
  reactants := rfl
  products := rfl
  rate := rfl
  none_iff := Iff.rfl
  third := by
    intro tb tb' h h'
    rw [h] at h'
    cases h'
    exact ⟨rfl, List.Sublist.refl _, fun e he _ => he⟩

theorem Spec.PartOf.refl (m : Mech) : PartOf m m :=
  ⟨List.Sublist.refl _, ⟨_, List.Sublist.refl _, List.forall₂_same.2 fun r _ => Lesser.refl m r⟩,
    fun r hr _ _ => hr, rfl, rfl, Or.inl rfl⟩

theorem lesser_filter {sol m : Mech} (r : Reaction) (N : List String) (hN : ∀ s ∈ m.names, s ∈ N) (r0 : Reaction)
    (h : Lesser sol r0 r) (hs : ∀ s ∈ m.names, s ∈ sol.names) : Lesser m r0 (filterThirdBody N r) := by
  have h3 := h.third
  have hn := h.none_iff
  unfold filterThirdBody
  rcases hr : r.thirdBody with _ | tb
  · dsimp only
    refine ⟨h.reactants, h.products, h.rate, hn, ?_⟩
    intro tb1 tb2 _ h2
    rw [hr] at h2; cases h2
  · dsimp only
    refine ⟨h.reactants, h.products, h.rate, by rw [hn, hr]; simp, ?_⟩
    intro tb1 tb2 h1 h2
    dsimp only at h2
    cases h2
    obtain ⟨a, b, c⟩ := h3 tb1 tb h1 hr
    refine ⟨a, List.filter_sublist.trans b, fun e he hm => ?_⟩
    exact List.mem_filter.2 ⟨c e he (hs _ hm), by simpa using hN _ hm⟩

theorem trim_names_mem {m : Mech} {excl : List String} {f p : Text} {s : String} :
    s ∈ (trim m excl f p).names ↔ Stays m excl s := by
  unfold Mech.names
  rw [trim_species]
  exact mem_finalNames m excl s

/-- a part of a part is a part -/
theorem partOf_trim {sol m : Mech} (h : PartOf sol m) (excl : List String) (f p : Text) :
    PartOf sol (trim m excl f p) := by
  classical
  have hsub : ∀ s ∈ (trim m excl f p).names, s ∈ m.names := by
    intro s hs
    obtain ⟨⟨sp, hsp, rfl⟩, -⟩ := trim_names_mem.1 hs
    exact List.mem_map.2 ⟨sp, hsp, rfl⟩
  refine ⟨?_, ?_, ?_, h.transport, h.tp, Or.inr rfl⟩
  · rw [trim_species]; exact List.filter_sublist.trans h.species
  · obtain ⟨l, hl, h2⟩ := h.reactions
    have key : ∀ (l : List Reaction) (rs : List Reaction), List.Forall₂ (Lesser m) l rs →
        ∃ l', l'.Sublist l ∧ List.Forall₂ (Lesser (trim m excl f p)) l'
          ((rs.filter (fun r => decide (Survives m excl r))).map
            (filterThirdBody ((finalSpecies m excl).map (·.name)))) := by
      intro l rs h
      induction h with
      | nil => exact ⟨[], List.Sublist.refl _, .nil⟩
      | @cons a b l rs hab _ ih =>
        obtain ⟨l', h1, h2⟩ := ih
        by_cases hb : Survives m excl b
        · rw [List.filter_cons_of_pos (by simpa using hb), List.map_cons]
          refine ⟨a :: l', h1.cons_cons a, .cons ?_ h2⟩
          exact lesser_filter b _ (fun s hs => (mem_finalNames m excl s).2 (trim_names_mem.1 hs)) a hab hsub
        · rw [List.filter_cons_of_neg (by simpa using hb)]
          exact ⟨l', h1.cons a, h2⟩
    obtain ⟨l', h1, h3⟩ := key l m.reactions h2
    exact ⟨l', h1.trans hl, by rw [trim_reactions_survive]; exact h3⟩
  · intro r hr hn hm
    have hrm := h.whole r hr hn fun s hs => hsub s (hm s hs)
    rw [trim_reactions_survive]
    refine List.mem_map.2 ⟨r, List.mem_filter.2 ⟨hrm, ?_⟩, ?_⟩
    · rw [decide_eq_true_iff]
      refine ⟨fun s hs => trim_names_mem.1 (hm s hs), ?_⟩
      rintro s ⟨tb, htb, -⟩
      rw [hn] at htb; cases htb
    · unfold filterThirdBody; rw [hn]

/-! ### what is written -/

section
variable {I : Mech → Prop}

/-- the file, if it is there, holds a model with the property -/
def HoldsAt (I : Mech → Prop) (w : World) (f : Text) : Prop := ∀ m, w.fs f = some m → I m

theorem Spec.OnlyWrites.refl (w : World) : OnlyWrites I w w := fun _ _ h => .inl h

theorem Spec.OnlyWrites.trans {w w' w'' : World} (h : OnlyWrites I w w') (h' : OnlyWrites I w' w'') :
    OnlyWrites I w w'' := fun f m hm => (h' f m hm).elim (h f m) .inr

theorem Spec.OnlyWrites.holds {w w' : World} (h : OnlyWrites I w w') {f : Text} (hf : HoldsAt I w f) :
    HoldsAt I w' f := fun m hm => (h f m hm).elim (hf m) id

theorem onlyWrites_none (w : World) (f : Text) : OnlyWrites I w (w.set f none) := by
  intro g m h
  by_cases hg : g = f
  · simp [World.set, hg] at h
  · left; simpa [World.set, hg] using h

theorem onlyWrites_some (w : World) (f : Text) {m : Mech} (hm : I m) : OnlyWrites I w (w.set f (some m)) := by
  intro g m' h
  by_cases hg : g = f
  · right
    simp [World.set, hg] at h
    rw [← h]; exact hm
  · left; simpa [World.set, hg] using h

theorem onlyWrites_clean (w : World) (d : Text) : OnlyWrites I w (cleanDir w d) := by
  intro g m h
  unfold cleanDir at h
  dsimp only at h
  split at h
  · cases h
  · exact .inl h

theorem onlyWrites_writeYaml (w : World) {m : Mech} (hm : I m) (name path : Text) :
    OnlyWrites I w (writeYaml w m name path).2 ∧ HoldsAt I (writeYaml w m name path).2 (writeYaml w m name path).1 := by
  unfold writeYaml
  dsimp only
  refine ⟨?_, ?_⟩
  · split
    · exact (onlyWrites_none w _).trans (onlyWrites_some _ _ hm)
    · exact onlyWrites_some _ _ hm
  · intro m' h
    simp [World.set] at h
    rw [← h]; exact hm

theorem onlyWrites_remove (w : World) (f : Text) : OnlyWrites I w (removeFile w f).2 := by
  unfold removeFile
  split
  · exact onlyWrites_none w f
  · exact .refl w

theorem onlyWrites_tuple (w : World) (name path : Text) : OnlyWrites I w (writeYamlTuple w name path).2 := by
  unfold writeYamlTuple
  dsimp only
  split
  · exact onlyWrites_none w _
  · exact .refl w

theorem loadModel_file {w : World} {f : Text} {sol : Mech} (h : loadModel w f = .ok sol) : w.fs f = some sol := by
  unfold loadModel at h
  rcases hf : w.fs f with _ | m
  · rw [hf] at h; cases h
  · rw [hf] at h; cases h; rfl

/-- what a function returns: only good models are written, and a returned model is good, as
is its file -/
def GoodResult (I : Mech → Prop) (w : World) (x : Except Err RModel × World) : Prop :=
  OnlyWrites I w x.2 ∧ ∀ r, x.1 = .ok r → I r.model ∧ HoldsAt I x.2 r.filename

theorem goodResult_error {w w' : World} (e : Err) (h : OnlyWrites I w w') : GoodResult I w (.error e, w') :=
  ⟨h, fun r hr => by cases hr⟩

variable (hI : ∀ m excl f p, I m → I (trim m excl f p))
include hI

theorem good_build (c : Ctx) (sim : Mech → Except Err PyF) {sol : Mech} (hs : I sol) (removed : List String)
    (w : World) : OnlyWrites I w (buildCandidate c sim sol removed w).2 ∧
      ∀ red fn err, (buildCandidate c sim sol removed w).1 = .ok (red, fn, err) →
        I red ∧ HoldsAt I (buildCandidate c sim sol removed w).2 fn := by
  have hr : I (trim sol removed ("reduced_".toList ++ c.modelFile) c.phase) := hI _ _ _ _ hs
  obtain ⟨h1, h2⟩ := onlyWrites_writeYaml w hr
    (reducedName (trim sol removed ("reduced_".toList ++ c.modelFile) c.phase).nSpecies) c.path
  unfold buildCandidate
  dsimp only
  split
  · exact ⟨h1, fun _ _ _ h => by cases h⟩
  · split
    · exact ⟨h1, fun _ _ _ h => by cases h⟩
    · refine ⟨h1, fun red fn err h => ?_⟩
      cases h
      exact ⟨hr, h2⟩

omit hI in
/-- a reduction step keeps good models -/
def GoodStep (I : Mech → Prop) (file : Text) (f : ReduceFn) : Prop :=
  ∀ thr prev w, HoldsAt I w file → (∀ p, prev = some p → I p.model ∧ HoldsAt I w p.filename) →
    GoodResult I w (f thr prev w)

omit hI in
theorem sameCount_prev {prev : Option RModel} {n : Nat} {p : RModel} (h : sameCount prev n = some p) : prev = some p := by
  unfold sameCount at h
  split at h
  · split at h
    · cases h; rfl
    · cases h
  · cases h

theorem good_drg (c : Ctx) (sim : Mech → Except Err PyF) : GoodStep I c.modelFile (reduceDrgS c sim) := by
  intro thr prev w hw hp
  unfold reduceDrgS
  split
  · exact goodResult_error _ (.refl w)
  rename_i sol hs
  have hsol := hw _ (loadModel_file hs)
  split
  · exact goodResult_error _ (.refl w)
  rename_i ret _
  split
  · rename_i p h
    have := hp p (sameCount_prev h)
    exact ⟨.refl w, fun r hr => by cases hr; exact this⟩
  dsimp only
  split
  · rename_i e w1 h
    have h1 := (good_build hI c sim hsol (sol.names.filter (fun sp => !((ret ++ c.safe).contains sp))) w).1
    rw [h] at h1
    exact goodResult_error _ h1
  · rename_i red fn err w1 h
    obtain ⟨h1, h2⟩ := good_build hI c sim hsol (sol.names.filter (fun sp => !((ret ++ c.safe).contains sp))) w
    rw [h] at h1 h2
    have h3 := h2 _ _ _ rfl
    split
    · exact ⟨h1, fun r hr => by cases hr; exact h3⟩
    · split
      · exact goodResult_error _ h1
      · exact ⟨h1, fun r hr => by cases hr; exact h3⟩

theorem good_pfa (c : Ctx) (sim : Mech → Except Err PyF) : GoodStep I c.modelFile (reducePfaS c sim) := by
  intro thr prev w hw hp
  unfold reducePfaS
  split
  · exact goodResult_error _ (.refl w)
  rename_i sol hs
  have hsol := hw _ (loadModel_file hs)
  split
  · exact goodResult_error _ (.refl w)
  rename_i ret _
  split
  · rename_i p h
    have := hp p (sameCount_prev h)
    exact ⟨.refl w, fun r hr => by cases hr; exact this⟩
  dsimp only
  split
  · rename_i e w1 h
    have h1 := (good_build hI c sim hsol (sol.names.filter (fun sp => !((ret ++ c.safe).contains sp))) w).1
    rw [h] at h1
    exact goodResult_error _ h1
  · rename_i red fn err w1 h
    obtain ⟨h1, h2⟩ := good_build hI c sim hsol (sol.names.filter (fun sp => !((ret ++ c.safe).contains sp))) w
    rw [h] at h1 h2
    have h3 := h2 _ _ _ rfl
    split
    · exact ⟨h1, fun r hr => by cases hr; exact h3⟩
    · split
      · exact goodResult_error _ h1
      · split
        · exact goodResult_error _ h1
        · exact ⟨h1, fun r hr => by cases hr; exact h3⟩

theorem good_drgep (c : Ctx) (sim : Mech → Except Err PyF) (imp : String → Option ℚ) :
    GoodStep I c.modelFile (reduceDrgepS c sim imp) := by
  intro thr prev w hw hp
  unfold reduceDrgepS
  split
  · exact goodResult_error _ (.refl w)
  rename_i sol hs
  have hsol := hw _ (loadModel_file hs)
  split
  · exact goodResult_error _ (.refl w)
  rename_i removed _
  cases prev with
  | none =>
    dsimp only
    obtain ⟨h1, h2⟩ := good_build hI c sim hsol removed w
    generalize buildCandidate c sim sol removed w = y at h1 h2
    obtain ⟨_ | ⟨red, fn, err⟩, w1⟩ := y
    · exact goodResult_error _ h1
    · have h3 := h2 _ _ _ rfl
      exact ⟨h1, fun r hr => by cases hr; exact h3⟩
  | some p =>
    dsimp only
    by_cases hc : (removed.length : Int) = (sol.nSpecies : Int) - p.model.nSpecies
    · rw [if_pos hc]
      exact ⟨.refl w, fun r hr => by cases hr; exact hp _ rfl⟩
    · rw [if_neg hc]
      dsimp only
      obtain ⟨h1, h2⟩ := good_build hI c sim hsol removed w
      generalize buildCandidate c sim sol removed w = y at h1 h2
      obtain ⟨_ | ⟨red, fn, err⟩, w1⟩ := y
      · exact goodResult_error _ h1
      · have h3 := h2 _ _ _ rfl
        exact ⟨h1, fun r hr => by cases hr; exact h3⟩

end

section
variable {I : Mech → Prop}

/-- the models a loop state refers to are good -/
def GoodState (I : Mech → Prop) (file : Text) (w0 : World) (s : LoopState) : Prop :=
  OnlyWrites I w0 s.w ∧ HoldsAt I s.w file ∧ (I s.prev.model ∧ HoldsAt I s.w s.prev.filename) ∧
    ∀ r, s.last = some r → I r.model ∧ HoldsAt I s.w r.filename

/-- the same after some iterations -/
def GoodOutcome (I : Mech → Prop) (file : Text) (w0 : World) : Outcome → Prop
  | .running t => GoodState I file w0 t
  | .left t => GoodState I file w0 t
  | .raised _ w => OnlyWrites I w0 w

theorem good_loopStep {file : Text} {f : ReduceFn} (hf : GoodStep I file f) (rnd : ℚ → ℚ) (x : ℚ) (limit : PyF)
    (w0 : World) (s : LoopState) (hs : GoodState I file w0 s) :
    GoodOutcome I file w0 (loopStep f rnd x limit s) := by
  obtain ⟨a, b, c, d⟩ := hs
  obtain ⟨h1, h2⟩ := hf s.thr (some s.prev) s.w b (fun p hp => by cases hp; exact c)
  unfold loopStep
  split
  · generalize f s.thr (some s.prev) s.w = y at h1 h2
    obtain ⟨_ | r, w1⟩ := y
    · exact a.trans h1
    · have h3 := h2 r rfl
      dsimp only at h1 h3 ⊢
      split
      · split
        · exact a.trans h1
        · exact ⟨a.trans h1, h1.holds b, ⟨c.1, h1.holds c.2⟩, fun r' hr => by cases hr; exact h3⟩
      · have h4 : OnlyWrites I w1 (if s.prev.model.nSpecies ≠ r.model.nSpecies then removeFile w1 r.filename
            else ((.ok () : Except Err Unit), w1)).2 := by
          split
          · exact onlyWrites_remove w1 _
          · exact .refl w1
        generalize (if s.prev.model.nSpecies ≠ r.model.nSpecies then removeFile w1 r.filename
          else ((.ok () : Except Err Unit), w1)) = z at h4
        obtain ⟨_ | _, w2⟩ := z
        · exact (a.trans h1).trans h4
        · exact ⟨(a.trans h1).trans h4, h4.holds (h1.holds b), ⟨h3.1, h4.holds h3.2⟩,
            fun r' hr => by cases hr; exact ⟨h3.1, h4.holds h3.2⟩⟩
  · exact ⟨a, b, c, d⟩

theorem good_while {file : Text} {f : ReduceFn} (hf : GoodStep I file f) (rnd : ℚ → ℚ) (x : ℚ) (limit : PyF)
    (w0 : World) (fuel : Nat) (s : LoopState) (hs : GoodState I file w0 s) :
    GoodOutcome I file w0 (whileLoop f rnd x limit fuel s) := by
  induction fuel generalizing s with
  | zero => exact hs
  | succ k ih =>
    have h := good_loopStep hf rnd x limit w0 s hs
    unfold whileLoop
    rcases hl : loopStep f rnd x limit s with t | t | ⟨e, w⟩
    · rw [hl] at h; exact ih t h
    · rw [hl] at h; exact h
    · rw [hl] at h; exact h

/-- what a run returns -/
def GoodRun (I : Mech → Prop) (w : World) (x : RunResult) : Prop :=
  OnlyWrites I w x.2 ∧ ∀ r, x.1 = some (.ok r) → I r.model ∧ HoldsAt I x.2 r.filename

theorem good_tuple {w0 : World} (s : LoopState) (h : OnlyWrites I w0 s.w) (name path : Text) (r : RModel) :
    GoodResult I w0 (match writeYamlTuple s.w name path with
      | (.error e, w) => (.error e, w)
      | (.ok _, w) => ((.ok r : Except Err RModel), w)) := by
  have h' := onlyWrites_tuple (I := I) s.w name path
  unfold writeYamlTuple at h' ⊢
  exact goodResult_error _ (h.trans h')

theorem goodResult_trans {w w1 : World} (h : OnlyWrites I w w1) {x : Except Err RModel × World}
    (hx : GoodResult I w1 x) : GoodResult I w x := ⟨h.trans hx.1, hx.2⟩

theorem good_finishDrg {file : Text} {f : ReduceFn} (hf : GoodStep I file f) (rnd : ℚ → ℚ) (limit : PyF) (path : Text)
    (w0 : World) (s : LoopState) (hs : GoodState I file w0 s) :
    GoodResult I w0 (finishDrg f rnd limit path s) := by
  obtain ⟨a, b, c, d⟩ := hs
  unfold finishDrg
  split
  · exact goodResult_trans a (hf _ none s.w b (fun p hp => by cases hp))
  · split
    · exact goodResult_error _ a
    · rename_i r _
      exact good_tuple s a _ _ r

theorem good_finishOther {file : Text} {f : ReduceFn} (hf : GoodStep I file f) (rnd : ℚ → ℚ) (limit : PyF) (path : Text)
    (w0 : World) (s : LoopState) (hs : GoodState I file w0 s) :
    GoodResult I w0 (finishOther f rnd limit path s) := by
  obtain ⟨a, b, c, d⟩ := hs
  unfold finishOther
  split
  · exact goodResult_error _ a
  · rename_i r _
    split
    · exact goodResult_trans a (hf _ none s.w b (fun p hp => by cases hp))
    · exact good_tuple s a _ _ r

theorem good_runWith {file : Text} {f : ReduceFn} (hf : GoodStep I file f)
    (finish : LoopState → Except Err RModel × World) (rnd : ℚ → ℚ) (x : ℚ) (limit : PyF) (fuel : Nat) (w0 : World)
    (hfin : ∀ s, GoodState I file w0 s → GoodResult I w0 (finish s)) (s : LoopState) (hs : GoodState I file w0 s) :
    GoodRun I w0 (runWith f finish rnd x limit fuel s) := by
  have h := good_while hf rnd x limit w0 fuel s hs
  unfold runWith
  generalize whileLoop f rnd x limit fuel s = o at h
  rcases o with t | t | ⟨e, w⟩
  · exact ⟨h.1, fun r hr => by cases hr⟩
  · obtain ⟨h1, h2⟩ := hfin t h
    exact ⟨h1, fun r hr => h2 r (by injection hr)⟩
  · exact ⟨h, fun r hr => by cases hr⟩

variable (hI : ∀ m excl f p, I m → I (trim m excl f p))
include hI

theorem good_method (m : Method) (c : Ctx) (sim : Mech → Except Err PyF) (rnd : ℚ → ℚ) (limit : PyF)
    (dfuel fuel : Nat) (w : World) (hw : HoldsAt I w c.modelFile) :
    GoodRun I w (runMethodS m c sim rnd limit dfuel fuel w) := by
  have hinit : ∀ sol, loadModel w c.modelFile = .ok sol →
      GoodState I c.modelFile w (loopInit rnd sol c.modelFile w) := fun sol h =>
    ⟨.refl w, hw, ⟨hw _ (loadModel_file h), hw⟩, fun r hr => by cases hr⟩
  have herr : ∀ e, GoodRun I w (some (.error e), w) := fun e => ⟨.refl w, fun r hr => by cases hr⟩
  unfold runMethodS
  cases m with
  | drg =>
    dsimp only
    unfold runDrgS
    split
    · exact herr _
    · split
      · exact herr _
      · exact good_runWith (good_drg hI c sim) _ rnd _ limit fuel w
          (fun s hs => good_finishDrg (good_drg hI c sim) rnd limit c.path w s hs) _ (hinit _ (by assumption))
  | pfa =>
    dsimp only
    unfold runPfaS
    split
    · exact herr _
    · split
      · exact herr _
      · exact good_runWith (good_pfa hI c sim) _ rnd _ limit fuel w
          (fun s hs => good_finishOther (good_pfa hI c sim) rnd limit c.path w s hs) _ (hinit _ (by assumption))
  | drgep =>
    dsimp only
    unfold runDrgepS
    split
    · exact herr _
    · rename_i sol hs
      split
      · exact herr _
      · split
        · exact herr _
        · rename_i imp _
          have h := good_runWith (good_drgep hI c sim imp) _ rnd (rnd (1 / 1000000)) limit fuel w
            (fun s hs => good_finishOther (good_drgep hI c sim imp) rnd limit c.path w s hs) _ (hinit _ hs)
          generalize runWith (reduceDrgepS c sim imp) (finishOther (reduceDrgepS c sim imp) rnd limit c.path)
            rnd (rnd (1 / 1000000)) limit fuel (loopInit rnd sol c.modelFile w) = y at h
          obtain ⟨_ | _ | r, w1⟩ := y
          · exact h
          · exact h
          · obtain ⟨h1, h2⟩ := h
            have h3 := h2 r rfl
            dsimp only [appendLimbo]
            split
            · exact ⟨fun f m hm => h1 f m hm, fun r' hr => by cases hr; exact ⟨h3.1, h3.2⟩⟩
            · exact ⟨h1, fun r' hr => by cases hr; exact ⟨h3.1, h3.2⟩⟩

/-! ### sensitivity analysis -/

theorem good_try (c : SACtx) (initial : List PyF) (file dir : Text) (sp : String) (w : World)
    (hw : HoldsAt I w file) : OnlyWrites I w (tryRemove c initial file dir sp w).2 ∧
      ∀ t fn err, (tryRemove c initial file dir sp w).1 = .ok (t, fn, err) →
        I t ∧ HoldsAt I (tryRemove c initial file dir sp w).2 fn := by
  unfold tryRemove
  split
  · exact ⟨.refl w, fun _ _ _ h => by cases h⟩
  · rename_i sol hs
    have hr : I (trim sol [sp] (candidateName sp) c.phase) := hI _ _ _ _ (hw _ (loadModel_file hs))
    obtain ⟨h1, h2⟩ := onlyWrites_writeYaml w hr (candidateName sp) dir
    dsimp only
    split
    · exact ⟨h1, fun _ _ _ h => by cases h⟩
    · split
      · exact ⟨h1, fun _ _ _ h => by cases h⟩
      · exact ⟨h1, fun _ _ _ h => by cases h; exact ⟨hr, h2⟩⟩

theorem good_evalLoop (c : SACtx) (initial : List PyF) (file dir : Text) (l : List String) (w : World)
    (hw : HoldsAt I w file) : OnlyWrites I w (evalLoop c initial file dir l w).2 := by
  induction l generalizing w with
  | nil => exact .refl w
  | cons sp l ih =>
    have h := (good_try hI c initial file dir sp w hw).1
    unfold evalLoop
    generalize tryRemove c initial file dir sp w = y at h
    obtain ⟨_ | ⟨t, fn, err⟩, w1⟩ := y
    · exact h
    · have h2 := ih w1 (h.holds hw)
      dsimp only
      generalize evalLoop c initial file dir l w1 = z at h2
      obtain ⟨_ | errs, w2⟩ := z
      · exact h.trans h2
      · exact h.trans h2

theorem good_eval (c : SACtx) (initial : List PyF) (file : Text) (l : List String) (w : World)
    (hw : HoldsAt I w file) : OnlyWrites I w (evalSpecies c initial file l w).2 :=
  (good_evalLoop hI c initial file _ l w hw).trans (onlyWrites_clean _ _)

omit hI in
/-- the current model of the analysis is good -/
def GoodSA (I : Mech → Prop) (w0 : World) (s : SAState) : Prop :=
  OnlyWrites I w0 s.w ∧ I s.cur.model ∧ HoldsAt I s.w s.cur.filename

omit hI in
/-- the same after a step -/
def GoodSAStep (I : Mech → Prop) (w0 : World) : SAStep → Prop
  | .more t => GoodSA I w0 t
  | .stop t => GoodSA I w0 t
  | .raise _ t => OnlyWrites I w0 t.w

omit hI in
/-- the same after the loop -/
def GoodSALoop (I : Mech → Prop) (w0 : World) : Option (Except Err Unit × SAState) → Prop
  | some (.ok (), t) => GoodSA I w0 t
  | some (.error _, t) => OnlyWrites I w0 t.w
  | none => True

theorem good_saStep (c : SACtx) (initial : List PyF) (w0 : World) (s : SAState) (hs : GoodSA I w0 s) :
    GoodSAStep I w0 (saStep c initial s) := by
  obtain ⟨a, b, d⟩ := hs
  have h0 : OnlyWrites I w0 s.w := a
  unfold saStep
  rcases npArgmin (s.errs.map (fun e => c.dist e s.cur.error)) with e | idx
  · exact a
  dsimp only
  rcases s.limbo[idx]? with _ | sp
  · exact a
  dsimp only
  obtain ⟨h1, h2⟩ := good_try hI c initial s.cur.filename c.tmpDir sp s.w d
  generalize tryRemove c initial s.cur.filename c.tmpDir sp s.w = y at h1 h2
  obtain ⟨e | ⟨test, fn, err⟩, w1⟩ := y
  · exact a.trans h1
  · obtain ⟨h3, h4⟩ := h2 _ _ _ rfl
    dsimp only at h1 h3 h4 ⊢
    split
    · exact ⟨a.trans h1, b, h1.holds d⟩
    · split
      · have h5 := good_eval hI c initial fn (s.limbo.eraseIdx idx) w1 h4
        generalize evalSpecies c initial fn (s.limbo.eraseIdx idx) w1 = z at h5
        obtain ⟨e | errs', w2⟩ := z
        · exact (a.trans h1).trans h5
        · dsimp only at h5 ⊢
          rcases pyMin errs' with e | least
          · exact (a.trans h1).trans h5
          · dsimp only
            split
            · exact ⟨(a.trans h1).trans h5, h3, h5.holds h4⟩
            · exact ⟨(a.trans h1).trans h5, h3, h5.holds h4⟩
      · exact ⟨a.trans h1, h3, h4⟩

theorem good_saLoop (c : SACtx) (initial : List PyF) (w0 : World) (fuel : Nat) (s : SAState) (hs : GoodSA I w0 s) :
    GoodSALoop I w0 (saLoop c initial fuel s) := by
  induction fuel generalizing s with
  | zero => trivial
  | succ k ih =>
    unfold saLoop
    split
    · exact hs
    · have h := good_saStep hI c initial w0 s hs
      rcases hl : saStep c initial s with t | t | ⟨e, t⟩
      · rw [hl] at h; exact ih t h
      · rw [hl] at h; exact h
      · rw [hl] at h; exact h

theorem good_runSA (c : SACtx) (limbo : List String) (fuel : Nat) (w : World) (hw : HoldsAt I w c.modelFile) (x : SAResult)
    (h : runSA c limbo fuel w = some x) :
    OnlyWrites I w x.w ∧ ∀ r, x.result = .ok r → I r.model ∧ x.w.fs (joinPath c.path r.filename) = some r.model := by
  unfold runSA at h
  split at h
  · cases h; exact ⟨.refl w, fun r hr => by cases hr⟩
  rename_i sol hs
  have hsol := hw _ (loadModel_file hs)
  split at h
  · cases h; exact ⟨.refl w, fun r hr => by cases hr⟩
  rename_i initial _
  dsimp only at h
  have h1 := good_eval hI c initial c.modelFile (saLimbo c.safe sol limbo) w hw
  generalize evalSpecies c initial c.modelFile (saLimbo c.safe sol limbo) w = y at h h1
  obtain ⟨e | errs, w1⟩ := y
  · cases h; exact ⟨h1, fun r hr => by cases hr⟩
  dsimp only at h h1
  have h2 := good_saLoop hI c initial w fuel ⟨⟨sol, c.modelFile, c.startErr, none⟩, saLimbo c.safe sol limbo, errs, w1⟩
    ⟨h1, hsol, h1.holds hw⟩
  generalize saLoop c initial fuel ⟨⟨sol, c.modelFile, c.startErr, none⟩, saLimbo c.safe sol limbo, errs, w1⟩ = z
    at h h2
  rcases z with _ | ⟨e | _, s⟩
  · cases h
  · cases h
    exact ⟨h2.trans (onlyWrites_clean _ _), fun r hr => by cases hr⟩
  · cases h
    obtain ⟨a, b, -⟩ := h2
    refine ⟨(a.trans (onlyWrites_clean _ _)).trans (onlyWrites_writeYaml _ b _ _).1, fun r hr => ?_⟩
    cases hr
    refine ⟨b, ?_⟩
    dsimp only
    unfold writeYaml yamlName
    rw [if_neg (by unfold reducedName; simp)]
    simp [World.set]

theorem good_main (p : MainIn) (w : World) (hw : HoldsAt I w p.modelFile) :
    OnlyWrites I w (runMain p w).2 ∧ ∀ r, (runMain p w).1 = some (.ok r) → I r.model := by
  have hsa : ∀ (w1 : World) (file : Text) err limbo shared, OnlyWrites I w w1 → HoldsAt I w1 file →
      OnlyWrites I w (saStage p file err limbo shared w1).2 ∧
        ∀ r, (saStage p file err limbo shared w1).1 = some (.ok r) → I r.model := by
    intro w1 file err limbo shared h1 hf
    unfold saStage
    rcases hr : runSA (p.saCtx file err) limbo p.saFuel w1 with _ | x
    · exact ⟨h1, fun r hr => by cases hr⟩
    · obtain ⟨h2, h3⟩ := good_runSA hI _ _ _ _ hf x hr
      refine ⟨?_, fun r hr => (h3 r (by injection hr)).1⟩
      dsimp only
      split
      · exact fun f m hm => (h1.trans h2) f m hm
      · exact h1.trans h2
  have herr : ∀ e, OnlyWrites I w ((some (.error e), w) : RunResult).2 ∧
      ∀ r, ((some (.error e), w) : RunResult).1 = some (.ok r) → I r.model :=
    fun e => ⟨.refl w, fun r hr => by cases hr⟩
  unfold runMain
  split
  · exact herr _
  split
  · exact herr _
  split
  · rename_i m _
    have h := good_method hI m (p.ctx m) p.sim p.rnd p.limit p.dfuel p.fuel w hw
    generalize runMethodS m (p.ctx m) p.sim p.rnd p.limit p.dfuel p.fuel w = y at h
    obtain ⟨_ | e | r, w1⟩ := y
    · exact ⟨h.1, fun r hr => by cases hr⟩
    · exact ⟨h.1, fun r hr => by cases hr⟩
    · obtain ⟨h1, h2⟩ := h
      have h3 := h2 r rfl
      dsimp only
      split
      · exact hsa w1 _ _ _ _ h1 h3.2
      · exact ⟨h1, fun r' hr => by cases hr; exact h3.1⟩
  · split
    · exact hsa w _ _ _ _ (.refl w) hw
    · exact herr _

end

end Verif
