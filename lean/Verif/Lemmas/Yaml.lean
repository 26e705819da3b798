import Verif.Model.ParseDyn
import Verif.Lemmas.Parse
/-!
# Lemmas on reading the input file
-/
namespace Verif

/-! ### lookups -/

theorem sameKey_str (k : PyS) (s : String) : sameKey k (.str s) = (k == .str s) := by
  cases k <;> simp [sameKey]

theorem sameKey_str' (k : PyS) (s : String) : sameKey (.str s) k = (k == .str s) := by
  cases k <;> simp [sameKey]
  exact eq_comm

/-- entry of a dictionary under a text -/
def entryOf (l : List (PyS × PyV)) (key : String) : Option PyV := (l.find? (fun p => p.1 == .str key)).map (·.2)

theorem entryOf_putKey (l : List (PyS × PyV)) (k : PyS) (v : PyV) (key : String) :
    entryOf (putKey l k v) key = if k = .str key then some v else entryOf l key := by
  induction l with
  | nil =>
    unfold putKey entryOf
    by_cases h : k = .str key <;> simp [h]
  | cons p l ih =>
    obtain ⟨k', v'⟩ := p
    unfold putKey
    by_cases hs : sameKey k' k = true
    · rw [if_pos hs]
      by_cases h : k = .str key
      · subst h
        rw [sameKey_str] at hs
        unfold entryOf
        simp [hs]
      · have hk' : k' ≠ .str key := by
          rintro rfl
          rw [sameKey_str'] at hs
          exact h (by simpa using hs)
        unfold entryOf
        rw [if_neg h]
        simp [hk']
    · rw [if_neg hs]
      by_cases hk' : k' = .str key
      · subst hk'
        rw [sameKey_str'] at hs
        have h : k ≠ .str key := by simpa using hs
        unfold entryOf
        rw [if_neg h]
        simp
      · have h1 : ∀ m, entryOf ((k', v') :: m) key = entryOf m key := by
          intro m; unfold entryOf; simp [hk']
        rw [h1, h1, ih]

theorem entryOf_foldl (l : List (PyS × PyV)) : ∀ (m : List (PyS × PyV)) (key : String),
    entryOf (l.foldl (fun m p => putKey m p.1 p.2) m) key = (entryOf l.reverse key).or (entryOf m key) := by
  induction l with
  | nil => intro m key; simp [entryOf]
  | cons p l ih =>
    intro m key
    rw [List.foldl_cons, ih, entryOf_putKey, List.reverse_cons]
    unfold entryOf
    rw [List.find?_append]
    generalize l.reverse.find? _ = o
    cases o with
    | some x => simp
    | none =>
      by_cases h : p.1 = .str key
      · simp [h]
      · simp [h]

/-- the later of two equal keys counts -/
theorem entryOf_dictOf (l : List (PyS × PyV)) (key : String) : entryOf (dictOf l) key = entryOf l.reverse key := by
  unfold dictOf
  rw [entryOf_foldl]
  simp [entryOf]

theorem get_dict (l : List (PyS × PyV)) (key : String) (v : PyV) :
    (PyV.dict l).get key v = .ok ((entryOf l key).getD v) := rfl

theorem entryOf_last {l1 l2 : List (PyS × PyV)} {key : String} {v : PyV} (h : ∀ p ∈ l2, p.1 ≠ .str key) :
    entryOf (dictOf (l1 ++ (.str key, v) :: l2)) key = some v := by
  rw [entryOf_dictOf, List.reverse_append, List.reverse_cons]
  unfold entryOf
  rw [List.find?_append, List.find?_append]
  have : l2.reverse.find? (fun p => p.1 == .str key) = none := by
    rw [List.find?_eq_none]
    intro p hp
    simpa using h p (by simpa using hp)
  rw [this]
  simp

/-! ### constructed documents -/

theorem constructPairs_ok : ∀ {l : List (YScalar × YNode)} {ps : List (PyS × PyV)},
    constructPairs l = .ok ps ↔ List.Forall₂ (fun e p => scalarValue e.1 = .ok p.1 ∧ construct e.2 = .ok p.2) l ps := by
  intro l
  induction l with
  | nil =>
    intro ps
    rw [constructPairs]
    constructor
    · intro h; cases h; exact .nil
    · intro h; cases h; rfl
  | cons e l ih =>
    intro ps
    obtain ⟨k, x⟩ := e
    rw [constructPairs]
    constructor
    · intro h
      obtain ⟨k', h1, h⟩ := bind_ok.1 h
      obtain ⟨v, h2, h⟩ := bind_ok.1 h
      obtain ⟨vs, h3, h⟩ := bind_ok.1 h
      cases h
      exact .cons ⟨h1, h2⟩ (ih.1 h3)
    · intro h
      cases h with
      | cons h1 h2 =>
        dsimp only at h1
        exact bind_ok.2 ⟨_, h1.1, bind_ok.2 ⟨_, h1.2, bind_ok.2 ⟨_, ih.2 h2, rfl⟩⟩⟩

theorem constructSeq_ok : ∀ {l : List YNode} {vs : List PyV},
    constructSeq l = .ok vs ↔ List.Forall₂ (fun x v => construct x = .ok v) l vs := by
  intro l
  induction l with
  | nil =>
    intro ps
    rw [constructSeq]
    constructor
    · intro h; cases h; exact .nil
    · intro h; cases h; rfl
  | cons x l ih =>
    intro ps
    rw [constructSeq]
    constructor
    · intro h
      obtain ⟨v, h2, h⟩ := bind_ok.1 h
      obtain ⟨vs, h3, h⟩ := bind_ok.1 h
      cases h
      exact .cons h2 (ih.1 h3)
    · intro h
      cases h with
      | cons h1 h2 => exact bind_ok.2 ⟨_, h1, bind_ok.2 ⟨_, ih.2 h2, rfl⟩⟩

theorem scalarValue_str {s : YScalar} {u : String} (h : scalarValue s = .ok (.str u)) : s.text = u.toList := by
  unfold scalarValue at h
  by_cases hp : s.plain = true
  · rw [if_pos hp] at h
    generalize plainTag s.text = tag at h
    cases tag <;> dsimp only at h
    · cases h
    · cases h
    · cases hy : yamlInt s.text <;> rw [hy] at h <;> cases h
    · cases h
    · cases h
    · cases h
    · cases h
    · cases h; simp
  · rw [if_neg hp] at h
    cases h; simp

theorem except_map_ok {α β} {f : α → β} {x : Except Err α} {b : β} : x.map f = .ok b ↔ ∃ a, x = .ok a ∧ f a = b := by
  cases x <;> simp [Except.map]

theorem construct_map {l : List (YScalar × YNode)} {v : PyV} (h : construct (.map l) = .ok v) :
    ∃ ps, constructPairs l = .ok ps ∧ v = .dict (dictOf ps) := by
  rw [construct] at h
  obtain ⟨ps, h1, h2⟩ := except_map_ok.1 h
  exact ⟨ps, h1, h2.symm⟩

theorem forall2_split {α β} {R : α → β → Prop} : ∀ {l1 l2 : List α} {m : List β}, List.Forall₂ R (l1 ++ l2) m →
    ∃ m1 m2, List.Forall₂ R l1 m1 ∧ List.Forall₂ R l2 m2 ∧ m = m1 ++ m2 := by
  intro l1
  induction l1 with
  | nil => intro l2 m h; exact ⟨[], m, .nil, h, rfl⟩
  | cons a l1 ih =>
    intro l2 m h
    cases h with
    | cons h1 h2 =>
      obtain ⟨m1, m2, g1, g2, rfl⟩ := ih h2
      exact ⟨_ :: m1, m2, .cons h1 g1, g2, rfl⟩

theorem forall2_right {α β} {R : α → β → Prop} : ∀ {l : List α} {m : List β}, List.Forall₂ R l m → ∀ b ∈ m, ∃ a ∈ l, R a b := by
  intro l m h
  induction h with
  | nil => intro b hb; cases hb
  | cons h1 _ ih =>
    intro b hb
    rcases List.mem_cons.1 hb with rfl | hb
    · exact ⟨_, List.mem_cons_self, h1⟩
    · obtain ⟨a, ha, hr⟩ := ih b hb
      exact ⟨a, List.mem_cons_of_mem _ ha, hr⟩

/-- the value under a heading of a constructed document -/
theorem construct_entry {l1 l2 : List (YScalar × YNode)} {k : YScalar} {x : YNode} {key : String} {v : PyV}
    (h : construct (.map (l1 ++ (k, x) :: l2)) = .ok v) (hk : scalarValue k = .ok (.str key))
    (h2 : ∀ e ∈ l2, e.1.text ≠ key.toList) :
    ∃ d u, v = .dict d ∧ construct x = .ok u ∧ entryOf d key = some u := by
  obtain ⟨ps, h1, rfl⟩ := construct_map h
  rw [constructPairs_ok] at h1
  obtain ⟨p1, p2, q1, q2, rfl⟩ := forall2_split h1
  cases q2 with
  | @cons _ p _ p2 q q2 =>
    obtain ⟨pk, pv⟩ := p
    dsimp only at q
    rw [hk] at q
    obtain ⟨r1, r2⟩ := q
    cases r1
    refine ⟨_, pv, rfl, r2, entryOf_last fun p hp => ?_⟩
    obtain ⟨e, he, hep⟩ := forall2_right q2 p hp
    intro hs
    rw [hs] at hep
    exact h2 e he (scalarValue_str hep.1)

end Verif
