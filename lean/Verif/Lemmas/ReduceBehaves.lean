import Verif.Lemmas.ReduceLoop
import Mathlib.Data.List.Perm.Subperm
/-!
The three reduction steps behave as specified.
-/
namespace Verif
open Spec Relation

theorem Spec.StrongEdge.anti {M : NMat} {names : List String} {t t' : ℚ} (h : t ≤ t') {a b : String}
    (hs : StrongEdge M names t' a b) : StrongEdge M names t a b := by
  obtain ⟨i, j, h1, h2, h3, h4⟩ := hs
  exact ⟨i, j, h1, h2, h.trans h3, h4⟩

theorem Spec.Linked.anti {M : NMat} {names targets : List String} {t t' : ℚ} (h : t ≤ t') {s : String}
    (hs : Linked M names targets t' s) : Linked M names targets t s := by
  obtain ⟨a, ha, hr⟩ := hs
  exact ⟨a, ha, ReflTransGen.mono (fun _ _ => Spec.StrongEdge.anti h) _ _ hr⟩

theorem Spec.Linked.mem {M : NMat} {names targets : List String} {t : ℚ} {s : String}
    (ht : ∀ x ∈ targets, x ∈ names) (hs : Linked M names targets t s) : s ∈ names := by
  obtain ⟨a, ha, hr⟩ := hs
  cases hr with
  | refl => exact ht _ ha
  | tail _ h2 => obtain ⟨i, j, -, hj, -⟩ := h2; exact List.mem_of_getElem? hj

theorem retainedLoop_spec {names targets : List String} (thr : ℚ)
    (hn : names.Nodup) (ht : ∀ t ∈ targets, t ∈ names) (Ms : List NMat) :
    ∀ acc, ∃ l, retainedLoop names targets thr Ms acc = .ok l ∧
      ∀ s, s ∈ l ↔ s ∈ acc ∨ ∃ M ∈ Ms, Linked M names targets thr s := by
  induction Ms with
  | nil => intro acc; exact ⟨acc, rfl, by simp⟩
  | cons M Ms ih =>
    intro acc
    obtain ⟨l, h1, -, h3⟩ := C11_trim_paths M names targets thr hn ht
    obtain ⟨r, e1, e2⟩ := ih (acc ++ l)
    refine ⟨r, ?_, ?_⟩
    · unfold retainedLoop; rw [h1]; exact e1
    · intro s
      rw [e2]
      simp only [List.mem_append, h3, List.mem_cons]
      constructor
      · rintro ((h | h) | ⟨M', hm, h⟩)
        · exact Or.inl h
        · exact Or.inr ⟨M, Or.inl rfl, h⟩
        · exact Or.inr ⟨M', Or.inr hm, h⟩
      · rintro (h | ⟨M', rfl | hm, h⟩)
        · exact Or.inl (Or.inl h)
        · exact Or.inl (Or.inr h)
        · exact Or.inr ⟨M', hm, h⟩

theorem retained_spec {names targets : List String} (thr : ℚ)
    (hn : names.Nodup) (ht : ∀ t ∈ targets, t ∈ names) (Ms : List NMat) :
    ∃ l, retained Ms names targets thr = .ok l ∧ l.Nodup ∧
      ∀ s, s ∈ l ↔ ∃ M ∈ Ms, Linked M names targets thr s := by
  obtain ⟨l, h1, h2⟩ := retainedLoop_spec thr hn ht Ms []
  refine ⟨l.dedup, ?_, List.nodup_dedup _, ?_⟩
  · unfold retained; rw [h1]; rfl
  · intro s; rw [List.mem_dedup, h2]; simp

theorem trim_names (m : Mech) (excl : List String) (f p : Text) :
    (trim m excl f p).names = m.names.filter (fun s => !(excl.contains s)) := by
  show (finalSpecies m excl).map (·.name) = _
  unfold finalSpecies Mech.names
  rw [List.filter_map]
  rfl

theorem Mech.nSpecies_eq (m : Mech) : m.nSpecies = m.names.length := by
  simp [Mech.nSpecies, Mech.names]

theorem candidate_names (c : Ctx) (sol : Mech) (kept : ℚ → String → Prop) (t : ℚ) :
    (candidate c sol kept t).names = open Classical in sol.names.filter (fun s => kept t s) := by
  classical
  unfold candidate
  rw [trim_names]
  apply List.filter_congr
  intro s hs
  by_cases h : kept t s <;> simp [h, hs]

theorem mem_candidate_names {c : Ctx} {sol : Mech} {kept : ℚ → String → Prop} {t : ℚ} {s : String} :
    s ∈ (candidate c sol kept t).names ↔ s ∈ sol.names ∧ kept t s := by
  classical
  rw [candidate_names]; simp

theorem candidate_names_nodup {c : Ctx} {sol : Mech} (kept : ℚ → String → Prop) (t : ℚ)
    (hn : sol.names.Nodup) : (candidate c sol kept t).names.Nodup := by
  classical
  rw [candidate_names]; exact hn.filter _

theorem trimmed_eq_candidate {c : Ctx} {sol : Mech} {kept : ℚ → String → Prop} {t : ℚ}
    {p : String → Bool} (h : ∀ s ∈ sol.names, p s = true ↔ ¬ kept t s) :
    trimmed c sol (sol.names.filter p) = candidate c sol kept t := by
  classical
  rw [candidate_eq]
  congr 1
  apply List.filter_congr
  intro s hs
  rw [Bool.eq_iff_iff, h s hs]; simp

theorem subset_of_length {l₁ l₂ : List String} (h1 : l₁.Nodup) (h : l₁ ⊆ l₂)
    (hl : l₂.length ≤ l₁.length) : l₂ ⊆ l₁ :=
  ((h1.subperm h).perm_of_length_le hl).symm.subset

/-! ### DRG -/

/-- the list handed to sensitivity analysis -/
def limboDrg (c : Ctx) (sol : Mech) : Option (List String) :=
  match truthy c.upper with
  | none => some []
  | some u => (retained c.matrices sol.names c.targets u).toOption

/-- when the previous model is reused (DRG, PFA) -/
def ShortDrg (c : Ctx) (sol : Mech) (t : ℚ) (n : Nat) : Prop :=
  ∃ ret, retained c.matrices sol.names c.targets t = .ok ret ∧ ret.length = n

theorem keptDrg_anti (c : Ctx) (sol : Mech) (t t' : ℚ) (s : String) (h : t ≤ t')
    (hk : KeptDrg c sol t' s) : KeptDrg c sol t s := by
  rcases hk with ⟨M, hm, hl⟩ | h2
  · exact Or.inl ⟨M, hm, hl.anti h⟩
  · exact Or.inr h2

theorem shortDrg_full' {c : Ctx} {sol : Mech} (hn : sol.names.Nodup)
    (ht : ∀ t ∈ c.targets, t ∈ sol.names) (t : ℚ)
    (h : ShortDrg c sol t sol.nSpecies) : ∀ s ∈ sol.names, KeptDrg c sol t s := by
  obtain ⟨ret, h1, h2⟩ := h
  obtain ⟨l, e1, e2, e3⟩ := retained_spec t hn ht c.matrices
  obtain rfl : ret = l := by rw [h1] at e1; cases e1; rfl
  have hsub : ret ⊆ sol.names := by
    intro s hs
    obtain ⟨M, -, hl⟩ := (e3 s).1 hs
    exact hl.mem ht
  have := subset_of_length e2 hsub (by rw [h2, Mech.nSpecies_eq])
  intro s hs
  exact Or.inl ((e3 s).1 (this hs))

theorem shortDrg_full {c : Ctx} {sol : Mech} (S : Setting c sol) (t : ℚ)
    (h : ShortDrg c sol t sol.nSpecies) : ∀ s ∈ sol.names, KeptDrg c sol t s :=
  shortDrg_full' S.nodup S.targets t h

theorem shortDrg_prev' {c : Ctx} {sol : Mech} (hn : sol.names.Nodup)
    (ht : ∀ t ∈ c.targets, t ∈ sol.names) (t t' : ℚ) (hle : t' ≤ t)
    (h : ShortDrg c sol t (candidate c sol (KeptDrg c sol) t').nSpecies) :
    ∀ s ∈ sol.names, KeptDrg c sol t' s → KeptDrg c sol t s := by
  obtain ⟨ret, h1, h2⟩ := h
  obtain ⟨l, e1, e2, e3⟩ := retained_spec t hn ht c.matrices
  obtain rfl : ret = l := by rw [h1] at e1; cases e1; rfl
  have hsub : ret ⊆ (candidate c sol (KeptDrg c sol) t').names := by
    intro s hs
    obtain ⟨M, hm, hl⟩ := (e3 s).1 hs
    exact mem_candidate_names.2 ⟨hl.mem ht, Or.inl ⟨M, hm, hl.anti hle⟩⟩
  have := subset_of_length e2 hsub (by rw [h2, Mech.nSpecies_eq])
  intro s hs hk
  exact Or.inl ((e3 s).1 (this (mem_candidate_names.2 ⟨hs, hk⟩)))

theorem shortDrg_prev {c : Ctx} {sol : Mech} (S : Setting c sol) (t t' : ℚ) (hle : t' ≤ t)
    (h : ShortDrg c sol t (candidate c sol (KeptDrg c sol) t').nSpecies) :
    ∀ s ∈ sol.names, KeptDrg c sol t' s → KeptDrg c sol t s :=
  shortDrg_prev' S.nodup S.targets t t' hle h

theorem removedDrg_iff {c : Ctx} {sol : Mech} {t : ℚ} {ret : List String}
    (e3 : ∀ s, s ∈ ret ↔ ∃ M ∈ c.matrices, Linked M sol.names c.targets t s) (s : String) :
    (!((ret ++ c.safe).contains s)) = true ↔ ¬ KeptDrg c sol t s := by
  unfold KeptDrg
  rw [← e3]
  simp

theorem sameCount_none (prev : Option RModel) (n : Nat)
    (h : ∀ p, prev = some p → n ≠ p.model.nSpecies) : sameCount prev n = none := by
  rcases prev with _ | p
  · rfl
  · simp [sameCount, h p rfl]

theorem reduceDrg_fresh' {c : Ctx} {sol : Mech} (hn : sol.names.Nodup)
    (ht : ∀ t ∈ c.targets, t ∈ sol.names) (t : ℚ) (w : World)
    (hw : w.fs c.modelFile = some sol) (prev : Option RModel)
    (hp : ∀ p, prev = some p → ¬ ShortDrg c sol t p.model.nSpecies) :
    reduceDrg c t prev w = (.ok (freshResult c sol (KeptDrg c sol) (fun _ => limboDrg c sol) t),
      w.set (redFile c (candidate c sol (KeptDrg c sol) t).nSpecies)
        (some (candidate c sol (KeptDrg c sol) t))) := by
  obtain ⟨l, e1, e2, e3⟩ := retained_spec t hn ht c.matrices
  have hlm : loadModel w c.modelFile = .ok sol := by unfold loadModel; rw [hw]
  rw [reduceDrg_eq]; unfold freshResult limboDrg
  rw [hlm]
  dsimp only
  rw [e1]
  dsimp only
  rw [sameCount_none _ _ (fun p h hl => hp p h ⟨l, e1, hl⟩)]
  dsimp only
  rw [buildCandidate_eq, trimmed_eq_candidate (kept := KeptDrg c sol) (t := t)
    (fun s _ => removedDrg_iff e3 s)]
  dsimp only
  rcases truthy c.upper with _ | u
  · rfl
  · obtain ⟨l', e1', -⟩ := retained_spec u hn ht c.matrices
    dsimp only
    rw [e1']
    rfl

theorem reduceDrg_fresh {c : Ctx} {sol : Mech} (S : Setting c sol) (t : ℚ) (w : World)
    (hw : w.fs c.modelFile = some sol) (prev : Option RModel)
    (hp : ∀ p, prev = some p → ¬ ShortDrg c sol t p.model.nSpecies) :
    reduceDrg c t prev w = (.ok (freshResult c sol (KeptDrg c sol) (fun _ => limboDrg c sol) t),
      w.set (redFile c (candidate c sol (KeptDrg c sol) t).nSpecies)
        (some (candidate c sol (KeptDrg c sol) t))) :=
  reduceDrg_fresh' S.nodup S.targets t w hw prev hp

theorem reduceDrg_behaves {c : Ctx} {sol : Mech} (S : Setting c sol) :
    Behaves c sol (reduceDrg c) (KeptDrg c sol) (ShortDrg c sol) (fun _ => limboDrg c sol) where
  fresh t w hw := reduceDrg_fresh S t w hw none (by simp)
  reuse t w p hw hs := by
    obtain ⟨ret, h1, h2⟩ := hs
    have hlm : loadModel w c.modelFile = .ok sol := by unfold loadModel; rw [hw]
    rw [reduceDrg_eq]
    rw [hlm]
    dsimp only
    rw [h1]
    dsimp only
    simp only [sameCount, h2, if_true]
  build t w p hw hs := by
    rw [reduceDrg_fresh S t w hw none (by simp), reduceDrg_fresh S t w hw (some p)]
    intro q hq
    obtain rfl : p = q := by simpa using hq
    exact hs
  anti t t' s h hk := keptDrg_anti c sol t t' s h hk
  short_full := shortDrg_full S
  short_prev := shortDrg_prev S
  noclash := S.noclash

/-! ### PFA -/

theorem reducePfa_fresh' {c : Ctx} {sol : Mech} (hn : sol.names.Nodup)
    (ht : ∀ t ∈ c.targets, t ∈ sol.names)
    (hu : truthy c.upper = none ∨ c.matrices ≠ []) (t : ℚ) (w : World)
    (hw : w.fs c.modelFile = some sol) (prev : Option RModel)
    (hp : ∀ p, prev = some p → ¬ ShortDrg c sol t p.model.nSpecies) :
    reducePfa c t prev w = (.ok (freshResult c sol (KeptDrg c sol) (fun _ => some []) t),
      w.set (redFile c (candidate c sol (KeptDrg c sol) t).nSpecies)
        (some (candidate c sol (KeptDrg c sol) t))) := by
  obtain ⟨l, e1, e2, e3⟩ := retained_spec t hn ht c.matrices
  have hlm : loadModel w c.modelFile = .ok sol := by unfold loadModel; rw [hw]
  rw [reducePfa_eq]; unfold freshResult
  rw [hlm]
  dsimp only
  rw [e1]
  dsimp only
  rw [sameCount_none _ _ (fun p h hl => hp p h ⟨l, e1, hl⟩)]
  dsimp only
  rw [buildCandidate_eq, trimmed_eq_candidate (kept := KeptDrg c sol) (t := t)
    (fun s _ => removedDrg_iff e3 s)]
  dsimp only
  rcases h : truthy c.upper with _ | u
  · rfl
  · dsimp only
    rcases hu with hu | hu
    · rw [hu] at h; cases h
    rw [List.getLast?_eq_getLast_of_ne_nil hu]
    obtain ⟨l', e1', -⟩ := C11_trim_paths (c.matrices.getLast hu) sol.names c.targets u hn
      ht
    dsimp only
    rw [e1']
    dsimp only
    have : sol.names.filter (fun sp => !((l ++ l' ++ c.safe ++
        sol.names.filter (fun sp => !((l ++ c.safe).contains sp))).contains sp)) = [] := by
      apply List.filter_eq_nil_iff.2
      intro s hs
      by_cases h1 : s ∈ l <;> by_cases h2 : s ∈ c.safe <;> simp [h1, h2, hs]
    rw [this]

theorem reducePfa_fresh {c : Ctx} {sol : Mech} (S : Setting c sol)
    (hu : truthy c.upper = none ∨ c.matrices ≠ []) (t : ℚ) (w : World)
    (hw : w.fs c.modelFile = some sol) (prev : Option RModel)
    (hp : ∀ p, prev = some p → ¬ ShortDrg c sol t p.model.nSpecies) :
    reducePfa c t prev w = (.ok (freshResult c sol (KeptDrg c sol) (fun _ => some []) t),
      w.set (redFile c (candidate c sol (KeptDrg c sol) t).nSpecies)
        (some (candidate c sol (KeptDrg c sol) t))) :=
  reducePfa_fresh' S.nodup S.targets hu t w hw prev hp

theorem reducePfa_behaves {c : Ctx} {sol : Mech} (S : Setting c sol)
    (hu : truthy c.upper = none ∨ c.matrices ≠ []) :
    Behaves c sol (reducePfa c) (KeptDrg c sol) (ShortDrg c sol) (fun _ => some []) where
  fresh t w hw := reducePfa_fresh S hu t w hw none (by simp)
  reuse t w p hw hs := by
    obtain ⟨ret, h1, h2⟩ := hs
    have hlm : loadModel w c.modelFile = .ok sol := by unfold loadModel; rw [hw]
    rw [reducePfa_eq]
    rw [hlm]
    dsimp only
    rw [h1]
    dsimp only
    simp only [sameCount, h2, if_true]
  build t w p hw hs := by
    rw [reducePfa_fresh S hu t w hw none (by simp), reducePfa_fresh S hu t w hw (some p)]
    intro q hq
    obtain rfl : p = q := by simpa using hq
    exact hs
  anti t t' s h hk := keptDrg_anti c sol t t' s h hk
  short_full := shortDrg_full S
  short_prev := shortDrg_prev S
  noclash := S.noclash

/-! ### DRGEP -/

theorem keptDrgep_anti (c : Ctx) (imp : String → Option ℚ) (t t' : ℚ) (s : String) (h : t ≤ t')
    (hk : KeptDrgep c imp t' s) : KeptDrgep c imp t s := by
  rcases hk with ⟨x, hx, hl⟩ | h2
  · exact Or.inl ⟨x, hx, h.trans hl⟩
  · exact Or.inr h2

theorem removedDrgep_spec (c : Ctx) (imp : String → Option ℚ) (t : ℚ) (names : List String)
    (h : ∀ s ∈ names, (imp s).isSome) :
    removedDrgep imp c.safe t names = .ok (open Classical in
      names.filter (fun s => ¬ KeptDrgep c imp t s)) := by
  classical
  induction names with
  | nil => rfl
  | cons a names ih =>
    unfold removedDrgep
    obtain ⟨x, hx⟩ := Option.isSome_iff_exists.1 (h a (by simp))
    rw [hx]
    dsimp only
    rw [ih (fun s hs => h s (by simp [hs]))]
    dsimp only
    rw [List.filter_cons]
    have : (x < t ∧ a ∉ c.safe) ↔ ¬ KeptDrgep c imp t a := by
      unfold KeptDrgep
      rw [hx]
      push Not
      simp
    by_cases hk : KeptDrgep c imp t a
    · rw [if_neg (by rw [this]; simpa using hk), if_neg (by simpa using hk)]
    · rw [if_pos (by rw [this]; exact hk), if_pos (by simpa using hk)]

/-- when the previous model is reused (DRGEP) -/
def ShortDrgep (c : Ctx) (sol : Mech) (imp : String → Option ℚ) (t : ℚ) (n : Nat) : Prop :=
  ∃ rem, removedDrgep imp c.safe t sol.names = .ok rem ∧
    (rem.length : Int) = (sol.nSpecies : Int) - n

theorem removed_length (c : Ctx) (sol : Mech) (kept : ℚ → String → Prop) (t : ℚ) :
    open Classical in
    (sol.names.filter (fun s => ¬ kept t s)).length + (candidate c sol kept t).nSpecies =
      sol.nSpecies := by
  classical
  rw [Mech.nSpecies_eq, Mech.nSpecies_eq, candidate_names]
  generalize sol.names = l
  induction l with
  | nil => rfl
  | cons a l ih =>
    rw [List.filter_cons, List.filter_cons]
    by_cases h : kept t a <;> simp [h] at ih ⊢ <;> omega

theorem shortDrgep_prev {c : Ctx} {sol : Mech} {imp : String → Option ℚ}
    (hn : sol.names.Nodup) (hi : ∀ s ∈ sol.names, (imp s).isSome) (t t' : ℚ) (hle : t' ≤ t)
    (h : ShortDrgep c sol imp t (candidate c sol (KeptDrgep c imp) t').nSpecies) :
    ∀ s ∈ sol.names, KeptDrgep c imp t' s → KeptDrgep c imp t s := by
  classical
  obtain ⟨rem, h1, h2⟩ := h
  rw [removedDrgep_spec c imp t _ hi] at h1
  simp only [Except.ok.injEq] at h1
  have h3 := removed_length c sol (KeptDrgep c imp) t
  rw [← h1] at h2
  have h4 : (candidate c sol (KeptDrgep c imp) t).nSpecies =
      (candidate c sol (KeptDrgep c imp) t').nSpecies := by omega
  have hsub : (candidate c sol (KeptDrgep c imp) t).names ⊆
      (candidate c sol (KeptDrgep c imp) t').names := by
    intro s hs
    rw [mem_candidate_names] at hs ⊢
    exact ⟨hs.1, keptDrgep_anti c imp t' t s hle hs.2⟩
  have := subset_of_length (candidate_names_nodup _ _ hn) hsub
    (by rw [← Mech.nSpecies_eq, ← Mech.nSpecies_eq, h4])
  intro s hs hk
  exact (mem_candidate_names.1 (this (mem_candidate_names.2 ⟨hs, hk⟩))).2

theorem shortDrgep_full {c : Ctx} {sol : Mech} {imp : String → Option ℚ}
    (hi : ∀ s ∈ sol.names, (imp s).isSome) (t : ℚ)
    (h : ShortDrgep c sol imp t sol.nSpecies) : ∀ s ∈ sol.names, KeptDrgep c imp t s := by
  classical
  obtain ⟨rem, h1, h2⟩ := h
  rw [removedDrgep_spec c imp t _ hi] at h1
  simp only [Except.ok.injEq] at h1
  have : rem = [] := by
    apply List.eq_nil_of_length_eq_zero; omega
  rw [this] at h1
  intro s hs
  have := List.filter_eq_nil_iff.1 h1 s hs
  simpa using this

theorem reduceDrgep_fresh {c : Ctx} {sol : Mech} {imp : String → Option ℚ}
    (hi : ∀ s ∈ sol.names, (imp s).isSome) (t : ℚ) (w : World)
    (hw : w.fs c.modelFile = some sol) (prev : Option RModel)
    (hp : ∀ p, prev = some p → ¬ ShortDrgep c sol imp t p.model.nSpecies) :
    reduceDrgep c imp t prev w = (.ok (freshResult c sol (KeptDrgep c imp) (fun _ => none) t),
      w.set (redFile c (candidate c sol (KeptDrgep c imp) t).nSpecies)
        (some (candidate c sol (KeptDrgep c imp) t))) := by
  classical
  have e1 := removedDrgep_spec c imp t _ hi
  have hlm : loadModel w c.modelFile = .ok sol := by unfold loadModel; rw [hw]
  have fin : ∀ x : Except Err RModel × World, x =
      (match buildCandidate c c.sim sol (sol.names.filter (fun s => ¬ KeptDrgep c imp t s)) w with
        | (.error e, w1) => (.error e, w1)
        | (.ok (red, fn, err), w1) => (.ok ⟨red, fn, err, none⟩, w1)) →
      x = (.ok (freshResult c sol (KeptDrgep c imp) (fun _ => none) t),
        w.set (redFile c (candidate c sol (KeptDrgep c imp) t).nSpecies)
        (some (candidate c sol (KeptDrgep c imp) t))) := by
    rintro x rfl
    rw [buildCandidate_eq, ← candidate_eq]
    rfl
  rw [reduceDrgep_eq]
  rw [hlm]
  dsimp only
  rw [e1]
  dsimp only
  rcases prev with _ | p
  · exact fin _ rfl
  · dsimp only
    rw [if_neg (fun hl => hp p rfl ⟨_, e1, hl⟩)]
    exact fin _ rfl

theorem reduceDrgep_behaves {c : Ctx} {sol : Mech} (S : Setting c sol) {imp : String → Option ℚ}
    (hi : ∀ s ∈ sol.names, (imp s).isSome) :
    Behaves c sol (reduceDrgep c imp) (KeptDrgep c imp) (ShortDrgep c sol imp) (fun _ => none) where
  fresh t w hw := reduceDrgep_fresh hi t w hw none (by simp)
  reuse t w p hw hs := by
    obtain ⟨ret, h1, h2⟩ := hs
    have hlm : loadModel w c.modelFile = .ok sol := by unfold loadModel; rw [hw]
    rw [reduceDrgep_eq]
    rw [hlm]
    dsimp only
    rw [h1]
    dsimp only
    rw [if_pos h2]
  build t w p hw hs := by
    rw [reduceDrgep_fresh hi t w hw none (by simp), reduceDrgep_fresh hi t w hw (some p)]
    intro q hq
    obtain rfl : p = q := by simpa using hq
    exact hs
  anti t t' s h hk := keptDrgep_anti c imp t t' s h hk
  short_full := shortDrgep_full hi
  short_prev := shortDrgep_prev S.nodup hi
  noclash := S.noclash

end Verif
