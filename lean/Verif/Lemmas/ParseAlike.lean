import Verif.Props.Blank
/-!
# Documents that differ where nobody looks
-/
namespace Verif
open Spec

/-- conditions with the same entries -/
def CaseAlike (v v' : PyV) : Prop :=
  v = v' ∨ ∃ d d', v = .dict d ∧ v' = .dict d' ∧ ∀ key ∈ caseKeys, entryOf d key = entryOf d' key

/-- equal values, or lists of such conditions -/
def ListAlike (v v' : PyV) : Prop := v = v' ∨ ∃ l l', v = .list l ∧ v' = .list l' ∧ List.Forall₂ CaseAlike l l'

theorem CaseAlike.get {v v' : PyV} (h : CaseAlike v v') {key : String} (hk : key ∈ caseKeys) (x : PyV) : v.get key x = v'.get key x := by
  rcases h with rfl | ⟨d, d', rfl, rfl, h⟩
  · rfl
  · rw [get_headOf, get_headOf]; unfold headOf; rw [h key hk]

theorem condDyn_alike {v v' : PyV} (h : CaseAlike v v') (ex : List PyV) : condDyn v ex = condDyn v' ex := by
  unfold condDyn
  rw [h.get (key := "temperature") (by decide), h.get (key := "pressure") (by decide), h.get (key := "equivalence-ratio") (by decide),
    h.get (key := "fuel") (by decide), h.get (key := "oxidizer") (by decide), h.get (key := "reactants") (by decide),
    h.get (key := "composition-type") (by decide)]

theorem ignitionDyn_alike (names : List String) {v v' : PyV} (h : CaseAlike v v') : ignitionDyn names v = ignitionDyn names v' := by
  unfold ignitionDyn
  simp only [condDyn_alike h]
  rw [h.get (key := "kind") (by decide), h.get (key := "end-time") (by decide), h.get (key := "max-steps") (by decide)]

theorem psrDyn_alike (names : List String) {v v' : PyV} (h : CaseAlike v v') : psrDyn names v = psrDyn names v' := by
  unfold psrDyn
  rw [condDyn_alike h]

theorem flameDyn_alike (names : List String) {v v' : PyV} (h : CaseAlike v v') : flameDyn names v = flameDyn names v' := by
  unfold flameDyn
  simp only [condDyn_alike h]
  rw [h.get (key := "width") (by decide)]

theorem casesDyn_alike {parse : PyV → Except Err CondDyn} (hp : ∀ {v v'}, CaseAlike v v' → parse v = parse v') {l l' : List PyV}
    (h : List.Forall₂ CaseAlike l l') : casesDyn parse l = casesDyn parse l' := by
  induction h with
  | nil => rfl
  | cons h1 _ ih => rw [casesDyn, casesDyn, hp h1, ih]

theorem ListAlike.truthy {v v' : PyV} (h : ListAlike v v') : v.truthy = v'.truthy := by
  rcases h with rfl | ⟨l, l', rfl, rfl, h⟩
  · rfl
  · cases h <;> rfl

theorem ListAlike.cases {v v' : PyV} (h : ListAlike v v') {parse : PyV → Except Err CondDyn}
    (hp : ∀ {v v'}, CaseAlike v v' → parse v = parse v') {β} (k : List CondDyn → Except Err β) :
    (v.iter >>= fun l => casesDyn parse l >>= k) = (v'.iter >>= fun l => casesDyn parse l >>= k) := by
  rcases h with rfl | ⟨l, l', rfl, rfl, h⟩
  · rfl
  · simp only [PyV.iter, bindOk_eq]
    rw [casesDyn_alike hp h]

/-- entries under a heading of two dictionaries -/
def EntryAlike (d d' : List (PyS × PyV)) (key : String) : Prop :=
  entryOf d key = entryOf d' key ∨
    (key ∈ condHeads ∧ ∃ u u', entryOf d key = some u ∧ entryOf d' key = some u' ∧ ListAlike u u')

theorem EntryAlike.head {d d' : List (PyS × PyV)} {key : String} (h : EntryAlike d d' key) (hk : key ∉ condHeads) (v : PyV) :
    headOf d key v = headOf d' key v := by
  rcases h with h | ⟨h, -⟩
  · unfold headOf; rw [h]
  · exact absurd h hk

theorem EntryAlike.list {d d' : List (PyS × PyV)} {key : String} (h : EntryAlike d d' key) (v : PyV) :
    ListAlike (headOf d key v) (headOf d' key v) := by
  unfold headOf
  rcases h with h | ⟨-, u, u', h1, h2, h3⟩
  · rw [h]; exact Or.inl rfl
  · rw [h1, h2]; exact h3

theorem parseDyn_alike (load : PyV → PyV → Except Err (List String)) {d d' : List (PyS × PyV)}
    (h : ∀ key ∈ topKeys, EntryAlike d d' key) : parseDyn load (.dict d) = parseDyn load (.dict d') := by
  unfold parseDyn
  simp only [get_headOf, bindOk_eq]
  rw [(h "model" (by decide)).head (by decide), (h "error" (by decide)).head (by decide), (h "method" (by decide)).head (by decide),
    (h "sensitivity-analysis" (by decide)).head (by decide), (h "targets" (by decide)).head (by decide),
    (h "upper-threshold" (by decide)).head (by decide), (h "sensitivity-type" (by decide)).head (by decide),
    (h "retained-species" (by decide)).head (by decide), (h "phase-name" (by decide)).head (by decide),
    (h "min-flame-speed" (by decide)).head (by decide)]
  have a1 := (h "autoignition-conditions" (by decide)).list (.dict [])
  have a2 := (h "psr-conditions" (by decide)).list (.dict [])
  have a3 := (h "laminar-flame-conditions" (by decide)).list (.dict [])
  rw [a1.truthy, a2.truthy, a3.truthy]
  generalize headOf d "autoignition-conditions" (.dict []) = v1 at a1 ⊢
  generalize headOf d "psr-conditions" (.dict []) = v2 at a2 ⊢
  generalize headOf d "laminar-flame-conditions" (.dict []) = v3 at a3 ⊢
  simp only [a1.cases (ignitionDyn_alike _), a2.cases (psrDyn_alike _), a3.cases (flameDyn_alike _)]

/-! ## documents -/

theorem scalarValue_error {s : YScalar} {e : Err} (h : scalarValue s = .error e) : e = .valueError := by
  unfold scalarValue at h
  split at h
  · have hi : ∀ t, ∀ e, yamlInt t = .error e → e = .valueError := by
      intro t e h
      unfold yamlInt at h
      dsimp only at h
      generalize (signPart (t.filter (· != '_'))).2 = u at h
      have hn : ∀ e, yamlNat u = .error e → e = .valueError := by
        intro e h
        unfold yamlNat at h
        have hb : ∀ b (v : Text), ∀ e, (pyIntBase b v).map (Nat.cast : Nat → ℚ) = .error e → e = .valueError := by
          intro b v e h
          unfold pyIntBase at h
          split_ifs at h <;> cases h
          rfl
        split at h
        · cases h
        · exact hb _ _ _ h
        · exact hb _ _ _ h
        · exact hb _ _ _ h
        · cases h
      cases hy : yamlNat u with
      | error e' => rw [hy] at h; cases h; exact hn _ hy
      | ok q => rw [hy] at h; cases h
    split at h
    · cases h
    · cases h
    · cases hy : yamlInt s.text with
      | error e' => rw [hy] at h; cases h; exact hi _ _ hy
      | ok q => rw [hy] at h; cases h
    · cases h
    · cases h
    · cases h; rfl
    · cases h; rfl
    · cases h
  · cases h

mutual
theorem construct_error : ∀ (y : YNode) {e : Err}, construct y = .error e → e = .valueError
  | .scalar s, e, h => by
    rw [construct] at h
    cases hs : scalarValue s with
    | error e' => rw [hs] at h; cases h; exact scalarValue_error hs
    | ok q => rw [hs] at h; cases h
  | .seq l, e, h => by
    rw [construct] at h
    cases hs : constructSeq l with
    | error e' => rw [hs] at h; cases h; exact constructSeq_error l hs
    | ok q => rw [hs] at h; cases h
  | .map l, e, h => by
    rw [construct] at h
    cases hs : constructPairs l with
    | error e' => rw [hs] at h; cases h; exact constructPairs_error l hs
    | ok q => rw [hs] at h; cases h

theorem constructSeq_error : ∀ (l : List YNode) {e : Err}, constructSeq l = .error e → e = .valueError
  | [], e, h => by rw [constructSeq] at h; cases h
  | x :: l, e, h => by
    rw [constructSeq] at h
    cases hs : construct x with
    | error e' => rw [hs] at h; cases h; exact construct_error x hs
    | ok q =>
      rw [hs] at h
      cases hs' : constructSeq l with
      | error e' => rw [hs'] at h; cases h; exact constructSeq_error l hs'
      | ok q => rw [hs'] at h; cases h

theorem constructPairs_error : ∀ (l : List (YScalar × YNode)) {e : Err}, constructPairs l = .error e → e = .valueError
  | [], e, h => by rw [constructPairs] at h; cases h
  | (k, x) :: l, e, h => by
    rw [constructPairs] at h
    cases hk : scalarValue k with
    | error e' => rw [hk] at h; cases h; exact scalarValue_error hk
    | ok k' =>
      rw [hk] at h
      cases hs : construct x with
      | error e' => rw [hs] at h; cases h; exact construct_error x hs
      | ok q =>
        rw [hs] at h
        cases hs' : constructPairs l with
        | error e' => rw [hs'] at h; cases h; exact constructPairs_error l hs'
        | ok q => rw [hs'] at h; cases h
end

/-- it is enough to compare what can be constructed -/
theorem readInputs_eq_of {load : PyV → PyV → Except Err (List String)} {y y' : YNode}
    (h1 : ∀ v, construct y = .ok v → ∃ v', construct y' = .ok v' ∧ parseDyn load v = parseDyn load v')
    (h2 : ∀ v', construct y' = .ok v' → ∃ v, construct y = .ok v) : readInputs load y = readInputs load y' := by
  unfold readInputs
  cases hy : construct y with
  | ok v =>
    obtain ⟨v', e1, e2⟩ := h1 v hy
    rw [e1]
    exact e2
  | error e =>
    cases hy' : construct y' with
    | ok v' =>
      obtain ⟨v, e1⟩ := h2 v' hy'
      rw [hy] at e1
      cases e1
    | error e' =>
      rw [construct_error _ hy, construct_error _ hy']

/-- the same keys, and values alike -/
def PairAlike (p q : PyS × PyV) : Prop :=
  p.1 = q.1 ∧ (p.2 = q.2 ∨ (∃ key ∈ condHeads, p.1 = .str key) ∧ ListAlike p.2 q.2)

theorem entryOf_alike {l l' : List (PyS × PyV)} (h : List.Forall₂ PairAlike l l') (key : String) : EntryAlike l l' key := by
  induction h with
  | nil => exact Or.inl rfl
  | @cons p q l l' h1 h2 ih =>
    unfold EntryAlike entryOf
    rw [List.find?_cons, List.find?_cons, ← h1.1]
    by_cases hk : p.1 = .str key
    · rw [hk]
      simp only [beq_self_eq_true, Option.map_some]
      rcases h1.2 with h3 | ⟨⟨key', hk', h3⟩, h4⟩
      · rw [h3]; exact Or.inl rfl
      · rw [hk] at h3
        cases h3
        exact Or.inr ⟨hk', _, _, rfl, rfl, h4⟩
    · simp only [beq_eq_false_iff_ne.2 hk]
      exact ih

theorem forall2_reverse {α β} {R : α → β → Prop} {l : List α} {l' : List β} (h : List.Forall₂ R l l') :
    List.Forall₂ R l.reverse l'.reverse := List.forall₂_reverse_iff.2 h

theorem dictOf_alike {l l' : List (PyS × PyV)} (h : List.Forall₂ PairAlike l l') (key : String) :
    EntryAlike (dictOf l) (dictOf l') key := by
  have := entryOf_alike (forall2_reverse h) key
  unfold EntryAlike at this ⊢
  rw [entryOf_dictOf, entryOf_dictOf]
  exact this

theorem mem_of_entryOf {l : List (PyS × PyV)} {key : String} {v : PyV} (h : entryOf l key = some v) : (.str key, v) ∈ l := by
  unfold entryOf at h
  cases hf : l.find? (fun p => p.1 == .str key) with
  | none => rw [hf] at h; cases h
  | some p =>
    rw [hf] at h
    cases h
    have := List.find?_some hf
    rw [← beq_iff_eq.1 this]
    exact List.mem_of_find?_eq_some hf

theorem entryOf_perm {l l' : List (PyS × PyV)} (h : l.Perm l') (hn : (l.map Prod.fst).Nodup) (key : String) :
    entryOf l key = entryOf l' key := by
  have uniq : ∀ {v v'}, (PyS.str key, v) ∈ l → (PyS.str key, v') ∈ l → v = v' := by
    intro v v' h1 h2
    have := List.inj_on_of_nodup_map hn h1 h2 rfl
    cases this
    rfl
  have none_of : ∀ {m : List (PyS × PyV)}, entryOf m key = none → ∀ v, (PyS.str key, v) ∉ m := by
    intro m hm v hv
    unfold entryOf at hm
    rw [Option.map_eq_none_iff, List.find?_eq_none] at hm
    exact hm _ hv (by simp)
  cases h1 : entryOf l key with
  | none =>
    cases h2 : entryOf l' key with
    | none => rfl
    | some v => exact absurd (h.mem_iff.2 (mem_of_entryOf h2)) (none_of h1 v)
  | some v =>
    cases h2 : entryOf l' key with
    | none => exact absurd (h.mem_iff.1 (mem_of_entryOf h1)) (none_of h2 v)
    | some v' => rw [uniq (mem_of_entryOf h1) (h.mem_iff.2 (mem_of_entryOf h2))]

theorem dictOf_perm {l l' : List (PyS × PyV)} (h : l.Perm l') (hn : (l.map Prod.fst).Nodup) (key : String) :
    entryOf (dictOf l) key = entryOf (dictOf l') key := by
  rw [entryOf_dictOf, entryOf_dictOf]
  refine entryOf_perm ((List.reverse_perm _).trans (h.trans (List.reverse_perm _).symm)) ?_ key
  rw [List.map_reverse]
  exact List.nodup_reverse.2 hn

/-- leaving out an entry that is not asked for -/
theorem dictOf_leave {l1 l2 : List (PyS × PyV)} {k : PyS} {u : PyV} {key : String} (h : k ≠ .str key) :
    entryOf (dictOf (l1 ++ (k, u) :: l2)) key = entryOf (dictOf (l1 ++ l2)) key := by
  rw [entryOf_dictOf, entryOf_dictOf]
  unfold entryOf
  simp only [List.reverse_append, List.reverse_cons, List.append_assoc, List.find?_append]
  have : List.find? (fun p : PyS × PyV => p.1 == .str key) [(k, u)] = none := by
    simp [h]
  rw [this, Option.none_or]

/-- leaving out an entry that is overwritten -/
theorem dictOf_again {l1 l2 : List (PyS × PyV)} {k : PyS} {u : PyV} (h : ∃ v, (k, v) ∈ l2) (key : String) :
    entryOf (dictOf (l1 ++ (k, u) :: l2)) key = entryOf (dictOf (l1 ++ l2)) key := by
  by_cases hk : k = .str key
  swap
  · exact dictOf_leave hk
  rw [entryOf_dictOf, entryOf_dictOf]
  unfold entryOf
  simp only [List.reverse_append, List.reverse_cons, List.append_assoc, List.find?_append]
  obtain ⟨v, hv⟩ := h
  cases hf : l2.reverse.find? (fun p => p.1 == .str key) with
  | none =>
    rw [List.find?_eq_none] at hf
    exact absurd (by simp [hk]) (hf (k, v) (by simpa using hv))
  | some q => simp

end Verif
