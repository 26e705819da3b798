import Mathlib.Data.List.Sort
import Mathlib.Tactic.Linarith
import Mathlib.Tactic.Ring
import Mathlib.Tactic.Positivity
import Verif.Model.Tools
import Verif.Spec.Tools
/-!
# Lemmas about comparing models
-/
namespace Verif

open Spec

/-! ## Sorting -/

theorem sortedBy_perm {α : Type} (key : α → Text) (l : List α) :
    (sortedBy key l).Perm l := List.mergeSort_perm _ _

theorem sortedBy_sorted {α : Type} (key : α → Text) (l : List α) :
    (sortedBy key l).Pairwise fun a b => key a ≤ key b := by
  have h := List.pairwise_mergeSort (le := fun a b : α => decide (key a ≤ key b))
    (fun a b c h1 h2 => by
      simp only [decide_eq_true_eq] at *
      exact le_trans h1 h2)
    (fun a b => by
      simp only [Bool.or_eq_true, decide_eq_true_eq]
      exact le_total _ _) l
  simpa [sortedBy] using h

theorem sortedBy_eq_of_perm {α : Type} (key : α → Text) {l k : List α} (hp : l.Perm k)
    (hn : (l.map key).Nodup) : sortedBy key l = sortedBy key k := by
  refine List.Perm.eq_of_pairwise (le := fun a b => key a ≤ key b) ?_ (sortedBy_sorted key l)
    (sortedBy_sorted key k)
    (((sortedBy_perm key l).trans hp).trans (sortedBy_perm key k).symm)
  intro a b ha hb h1 h2
  have ha' := (sortedBy_perm key l).mem_iff.1 ha
  have hb' := hp.mem_iff.2 ((sortedBy_perm key k).mem_iff.1 hb)
  exact List.inj_on_of_nodup_map hn ha' hb' (le_antisymm h1 h2)

theorem sortedBy_filter {α : Type} (key : α → Text) (l : List α) (e : Text) :
    (sortedBy key l).filter (fun a => decide (key a = e)) =
      l.filter (fun a => decide (key a = e)) := by
  have hsub : (l.filter (fun a => decide (key a = e))).Sublist (sortedBy key l) := by
    refine List.sublist_mergeSort ?_ ?_ ?_ List.filter_sublist
    · intro a b c h1 h2
      simp only [decide_eq_true_eq] at *
      exact le_trans h1 h2
    · intro a b
      simp only [Bool.or_eq_true, decide_eq_true_eq]
      exact le_total _ _
    · refine List.Pairwise.imp_of_mem (R := fun _ _ => True) ?_ (List.pairwise_of_forall (by simp))
      intro a b ha hb _
      simp only [List.mem_filter, decide_eq_true_eq] at ha hb
      simp [ha.2, hb.2]
  have h2 := hsub.filter (fun a => decide (key a = e))
  rw [List.filter_filter] at h2
  simp only [Bool.and_self] at h2
  refine (h2.eq_of_length ?_).symm
  exact ((sortedBy_perm key l).filter _).length_eq.symm

theorem sorted_eq_of_filter {α : Type} (key : α → Text) : ∀ (l k : List α),
    l.Pairwise (fun a b => key a ≤ key b) → k.Pairwise (fun a b => key a ≤ key b) →
    (∀ e, l.filter (fun a => decide (key a = e)) = k.filter (fun a => decide (key a = e))) →
    l = k := by
  intro l
  induction l with
  | nil =>
      intro k _ _ h
      cases k with
      | nil => rfl
      | cons b k => have := h (key b); simp at this
  | cons a l ih =>
      intro k hl hk h
      cases k with
      | nil => have := h (key a); simp at this
      | cons b k =>
          have hab : key a ≤ key b := by
            have hb : b ∈ (a :: l).filter (fun x => decide (key x = key b)) := by
              rw [h]; simp
            rcases List.mem_cons.1 (List.mem_of_mem_filter hb) with h1 | h1
            · rw [h1]
            · exact (List.pairwise_cons.1 hl).1 b h1
          have hba : key b ≤ key a := by
            have ha : a ∈ (b :: k).filter (fun x => decide (key x = key a)) := by
              rw [← h]; simp
            rcases List.mem_cons.1 (List.mem_of_mem_filter ha) with h1 | h1
            · rw [h1]
            · exact (List.pairwise_cons.1 hk).1 a h1
          have hkey := le_antisymm hab hba
          have h1 := h (key a)
          simp only [List.filter_cons, hkey, decide_true, if_true] at h1
          have h2 := List.cons.inj h1
          obtain rfl := h2.1
          congr 1
          refine ih k (List.pairwise_cons.1 hl).2 (List.pairwise_cons.1 hk).2 fun e => ?_
          have h3 := h e
          simp only [List.filter_cons] at h3
          split_ifs at h3
          · exact (List.cons.inj h3).2
          · exact h3

theorem sortedBy_eq_of_filter {α : Type} (key : α → Text) {l k : List α}
    (h : ∀ e, l.filter (fun a => decide (key a = e)) = k.filter (fun a => decide (key a = e))) :
    sortedBy key l = sortedBy key k := by
  refine sorted_eq_of_filter key _ _ (sortedBy_sorted key l) (sortedBy_sorted key k) fun e => ?_
  rw [sortedBy_filter, sortedBy_filter, h]

theorem sortedBy_pair {α : Type} (key : α → Text) {a b : α} (h : key a = key b) :
    sortedBy key [a, b] = [a, b] := by
  refine List.mergeSort_of_pairwise ?_
  simp [h]

/-! ## Numbers -/

theorem PyF.eq_iff {x y : PyF} : PyF.eq x y = true ↔ x = y ∧ x ≠ .nan := by
  cases x <;> cases y <;> simp [PyF.eq]

theorem PyF.eq_symm (x y : PyF) : PyF.eq x y = PyF.eq y x := by
  cases x <;> cases y <;> simp [PyF.eq, eq_comm]

theorem isclose_iff {x y : PyF} : isclose x y = true ↔ Near x y := by
  cases x <;> cases y <;> simp [isclose, Near, PyF.eq]

theorem near_self {x : PyF} (h : Defined x) : Near x x := by
  cases x with
  | fin a =>
      simp only [Near, sub_self, abs_zero]
      positivity
  | inf => trivial
  | ninf => trivial
  | nan => exact absurd rfl h

theorem isclose_self {x : PyF} (h : Defined x) : isclose x x = true :=
  isclose_iff.2 (near_self h)

theorem isclose_symm {x y : PyF} (h : ¬ Borderline x y) : isclose x y = isclose y x := by
  cases x with
  | fin a =>
      cases y with
      | fin b =>
          simp only [isclose, decide_eq_decide]
          simp only [Borderline, not_and_or, not_lt, not_le] at h
          rw [abs_sub_comm b a]
          have hc : (0 : ℚ) < 1 / 10 ^ 5 := by norm_num
          rcases le_total |a| |b| with hab | hab
          · rw [min_eq_left hab, max_eq_right hab] at h
            constructor
            · intro h1
              rcases h with h | h
              · exact h
              · exact absurd h1 (not_le.2 h)
            · intro h1
              have := mul_le_mul_of_nonneg_left hab hc.le
              linarith
          · rw [min_eq_right hab, max_eq_left hab] at h
            constructor
            · intro h1
              have := mul_le_mul_of_nonneg_left hab hc.le
              linarith
            · intro h1
              rcases h with h | h
              · exact h
              · exact absurd h1 (not_le.2 h)
      | inf => rfl
      | ninf => rfl
      | nan => rfl
  | inf => cases y <;> rfl
  | ninf => cases y <;> rfl
  | nan => cases y <;> rfl

/-! ## Dicts -/

theorem lookup_of_mem {d : List (Text × PyF)} (hn : (d.map Prod.fst).Nodup) {k : Text} {v : PyF}
    (h : (k, v) ∈ d) : d.lookup k = some v := by
  induction d with
  | nil => simp at h
  | cons p d ih =>
      obtain ⟨k', v'⟩ := p
      simp only [List.map_cons, List.nodup_cons] at hn
      rcases List.mem_cons.1 h with h1 | h1
      · cases h1; simp
      · have hne : k ≠ k' := by
          rintro rfl
          exact hn.1 (List.mem_map.2 ⟨(k, v), h1, rfl⟩)
        rw [List.lookup_cons]
        have : (k == k') = false := by simpa using hne
        rw [this]
        exact ih hn.2 h1

theorem mem_of_lookup {d : List (Text × PyF)} {k : Text} {v : PyF}
    (h : d.lookup k = some v) : (k, v) ∈ d := by
  obtain ⟨l1, l2, rfl, -⟩ := List.lookup_eq_some_iff.1 h
  simp

theorem dictEq_self {d : List (Text × PyF)} (h : GoodDict d) : dictEq d d = true := by
  simp only [dictEq, beq_self_eq_true, Bool.true_and, List.all_eq_true]
  intro kv hkv
  rw [lookup_of_mem h.1 (k := kv.1) (v := kv.2) hkv]
  exact PyF.eq_iff.2 ⟨rfl, h.2 kv hkv⟩

theorem dictEq_sound {d e : List (Text × PyF)} (h : dictEq d e = true) : SameDict d e := by
  simp only [dictEq, Bool.and_eq_true, beq_iff_eq, List.all_eq_true] at h
  refine ⟨h.1, fun kv hkv => ?_⟩
  have h1 := h.2 kv hkv
  split at h1
  · rename_i v hv
    have h2 := (PyF.eq_iff.1 h1).1
    have h3 := mem_of_lookup hv
    rw [← h2] at h3
    exact h3
  · cases h1

theorem dictEq_complete {d e : List (Text × PyF)} (he : GoodDict e) (h : SameDict d e) :
    dictEq d e = true := by
  simp only [dictEq, Bool.and_eq_true, beq_iff_eq, List.all_eq_true]
  refine ⟨h.1, fun kv hkv => ?_⟩
  have h1 := h.2 kv hkv
  rw [lookup_of_mem he.1 (k := kv.1) (v := kv.2) h1]
  exact PyF.eq_iff.2 ⟨rfl, he.2 kv h1⟩

theorem sameDict_symm {d e : List (Text × PyF)} (hd : GoodDict d) (h : SameDict d e) :
    SameDict e d := by
  refine ⟨h.1.symm, fun kv hkv => ?_⟩
  have hnd : d.Nodup := List.Nodup.of_map _ hd.1
  have hsub : d.Subperm e := List.subperm_of_subset hnd h.2
  have hp : d.Perm e := hsub.perm_of_length_le (by rw [h.1])
  exact hp.mem_iff.2 hkv

theorem dictEq_symm {d e : List (Text × PyF)} (hd : GoodDict d) (he : GoodDict e) :
    dictEq d e = dictEq e d := by
  rw [Bool.eq_iff_iff]
  constructor
  · intro h; exact dictEq_complete hd (sameDict_symm hd (dictEq_sound h))
  · intro h; exact dictEq_complete he (sameDict_symm he (dictEq_sound h))

/-! ## A model against itself -/

theorem arrClose_self {k : ArrRate PyF} (h : ∀ x, ArrNum k x → Defined x) : arrClose k k = true := by
  simp only [arrClose, Bool.and_eq_true]
  exact ⟨⟨isclose_self (h _ (Or.inl rfl)), isclose_self (h _ (Or.inr (Or.inl rfl)))⟩,
    isclose_self (h _ (Or.inr (Or.inr rfl)))⟩

theorem all_zip_self {α : Type} {p : α × α → Bool} {l : List α} (h : ∀ x ∈ l, p (x, x) = true) :
    (l.zip l).all p = true := by
  induction l with
  | nil => rfl
  | cons x l ih =>
      simp only [List.zip_cons_cons, List.all_cons, Bool.and_eq_true]
      exact ⟨h x (by simp), ih fun y hy => h y (by simp [hy])⟩

theorem bcast_self {α : Type} (l : List α) : bcast l l = .ok (l.zip l) := by simp [bcast]

theorem allclose_self {l : List PyF} (h : ∀ x ∈ l, Defined x) : allclose l l = .ok true := by
  simp only [allclose, bcast_self, Except.map]
  rw [all_zip_self fun x hx => isclose_self (h x hx)]

theorem mapM_bcast_self (l : List (List PyF)) :
    (l.zip l).mapM (fun r => bcast r.1 r.2) = .ok (l.map fun r => r.zip r) := by
  induction l with
  | nil => rfl
  | cons x l ih =>
      simp only [List.zip_cons_cons, List.mapM_cons, ih, bcast_self, List.map_cons]
      rfl

theorem allclose2_self {l : List (List PyF)} (h : ∀ r ∈ l, ∀ x ∈ r, Defined x) :
    allclose2 l l = .ok true := by
  have h1 : (l.map fun r => r.zip r).flatten.all (fun p => isclose p.1 p.2) = true := by
    rw [List.all_eq_true]
    intro p hp
    simp only [List.mem_flatten, List.mem_map] at hp
    obtain ⟨_, ⟨r, hr, rfl⟩, hp⟩ := hp
    exact List.all_eq_true.1 (all_zip_self (p := fun p : PyF × PyF => isclose p.1 p.2)
      fun x hx => isclose_self (h r hr x hx)) p hp
  show (do
    let rows ← bcast l l
    let entries ← rows.mapM fun r : List PyF × List PyF => bcast r.1 r.2
    Except.ok (entries.flatten.all fun p => isclose p.1 p.2)) = Except.ok true
  rw [bcast_self]
  show (do
    let entries ← (l.zip l).mapM fun r => bcast r.1 r.2
    Except.ok (entries.flatten.all fun p => isclose p.1 p.2)) = Except.ok true
  rw [mapM_bcast_self]
  show Except.ok _ = _
  rw [h1]

theorem rateMatch_self {r : RateObj PyF} (h : ∀ x, RateNum r x → Defined x) :
    rateMatch r r = .ok true := by
  cases r with
  | simple k a => simp [rateMatch, arrClose_self h]
  | falloff k c lo hi cs =>
      have h1 := arrClose_self (k := lo) fun x hx => h x (Or.inl hx)
      have h2 := arrClose_self (k := hi) fun x hx => h x (Or.inr (Or.inl hx))
      have h3 := allclose_self (l := cs) fun x hx => h x (Or.inr (Or.inr hx))
      simp [rateMatch, h1, h2, h3]
  | plog t =>
      simp only [rateMatch, ne_eq, not_true_eq_false, if_false]
      congr 1
      refine all_zip_self fun r hr => ?_
      have hr' := (List.mergeSort_perm t _).mem_iff.1 hr
      simp only [Bool.and_eq_true]
      exact ⟨isclose_self (h _ ⟨r, hr', Or.inl rfl⟩),
        arrClose_self fun x hx => h x ⟨r, hr', Or.inr hx⟩⟩
  | cheb t p n d =>
      have h1 := isclose_self (h t.1 (by simp [RateNum]))
      have h2 := isclose_self (h t.2 (by simp [RateNum]))
      have h3 := isclose_self (h p.1 (by simp [RateNum]))
      have h4 := isclose_self (h p.2 (by simp [RateNum]))
      have h5 := allclose2_self (l := d) fun r hr x hx => h x (by
        simp only [RateNum]; exact Or.inr (Or.inr (Or.inr (Or.inr ⟨r, hr, hx⟩))))
      simp [rateMatch, h1, h2, h3, h4, h5]

theorem thirdMatch_self {t : Option (Collider PyF)}
    (h : ∀ b ∈ t, Defined b.dflt ∧ GoodDict b.effs) : thirdMatch t t = true := by
  cases t with
  | none => rfl
  | some b =>
      have hb := h b rfl
      simp only [thirdMatch, Bool.and_eq_true]
      exact ⟨PyF.eq_iff.2 ⟨rfl, hb.1⟩, dictEq_self hb.2⟩

theorem rxnMatch_self {r : Rxn PyF} (h1 : ∀ x, RateNum r.rate x → Defined x)
    (h2 : GoodDict r.reactants) (h3 : GoodDict r.products)
    (h4 : ∀ b ∈ r.third, Defined b.dflt ∧ GoodDict b.effs) : rxnMatch r r = .ok true := by
  simp [rxnMatch, dictEq_self h2, dictEq_self h3, rateMatch_self h1, thirdMatch_self h4]

theorem transportMatch_self {t : Option (Transport PyF)} (h : ∀ a ∈ t, TransportDefined a) :
    transportMatch t t = true := by
  cases t with
  | none => rfl
  | some a =>
      obtain ⟨h1, h2, h3, h4, h5, h6⟩ := h a rfl
      have e : ∀ {x : PyF}, Defined x → PyF.eq x x = true := fun hx => PyF.eq_iff.2 ⟨rfl, hx⟩
      simp only [transportMatch, decide_true, Bool.true_and, e h1, e h2, e h3, e h4, e h5]
      exact all_zip_self fun x hx => e (h6 x hx)

theorem speciesMatch_self {s : Spec1 PyF} (h1 : ∀ x, ThermoNum s x → Defined x)
    (h2 : GoodDict s.comp) (h3 : ∀ a ∈ s.transport, TransportDefined a) :
    speciesMatch s s = true := by
  have a : ∀ T, isclose (s.eval T).1 (s.eval T).1 = true := fun T =>
    isclose_self (h1 _ ⟨T, Or.inl rfl⟩)
  have b : ∀ T, isclose (s.eval T).2.1 (s.eval T).2.1 = true := fun T =>
    isclose_self (h1 _ ⟨T, Or.inr (Or.inl rfl)⟩)
  have c : ∀ T, isclose (s.eval T).2.2 (s.eval T).2.2 = true := fun T =>
    isclose_self (h1 _ ⟨T, Or.inr (Or.inr rfl)⟩)
  simp [speciesMatch, dictEq_self h2, transportMatch_self h3, a, b, c]

theorem forPairs_self {α : Type} {f : α → α → Except Err Bool} {l : List α}
    (h : ∀ x ∈ l, f x x = .ok true) : forPairs f l l = .ok true := by
  induction l with
  | nil => rfl
  | cons x l ih =>
      rw [forPairs, h x (by simp)]
      exact ih fun y hy => h y (by simp [hy])

/-! ## Swapping the arguments -/

theorem forPairs_symm {α : Type} {f g : α → α → Except Err Bool} : ∀ {l k : List α},
    (∀ x ∈ l, ∀ y ∈ k, f x y = g y x) → forPairs f l k = forPairs g k l := by
  intro l
  induction l with
  | nil => intro k _; cases k <;> rfl
  | cons x l ih =>
      intro k h
      cases k with
      | nil => rfl
      | cons y k =>
          rw [forPairs, forPairs, h x (by simp) y (by simp),
            ih fun a ha b hb => h a (by simp [ha]) b (by simp [hb])]

theorem all_zip_symm {α : Type} {p q : α × α → Bool} : ∀ {l k : List α},
    (∀ x ∈ l, ∀ y ∈ k, p (x, y) = q (y, x)) → (l.zip k).all p = (k.zip l).all q := by
  intro l
  induction l with
  | nil => intro k _; simp
  | cons x l ih =>
      intro k h
      cases k with
      | nil => simp
      | cons y k =>
          simp only [List.zip_cons_cons, List.all_cons]
          rw [h x (by simp) y (by simp), ih fun a ha b hb => h a (by simp [ha]) b (by simp [hb])]

theorem bcast_swap {α : Type} (l k : List α) :
    bcast k l = (bcast l k).map fun ps => ps.map Prod.swap := by
  unfold bcast
  by_cases h : l.length = k.length
  · rw [if_pos h, if_pos h.symm]
    simp [Except.map, List.zip_swap]
  · rw [if_neg h, if_neg (Ne.symm h)]
    match l, k, h with
    | [], [], h => exact absurd rfl h
    | [x], [y], h => exact absurd rfl h
    | [], [y], _ => rfl
    | [x], [], _ => rfl
    | [], _ :: _ :: _, _ => rfl
    | _ :: _ :: _, [], _ => rfl
    | [x], y :: z :: k, _ => simp [Except.map, Function.comp_def]
    | x :: w :: l, [y], _ => simp [Except.map, Function.comp_def]
    | _ :: _ :: _, _ :: _ :: _, _ => rfl

theorem bcast_mem {α : Type} {l k : List α} {ps : List (α × α)} (h : bcast l k = .ok ps) :
    ∀ p ∈ ps, p.1 ∈ l ∧ p.2 ∈ k := by
  unfold bcast at h
  split at h
  · cases h
    intro p hp
    exact List.of_mem_zip hp
  · split at h
    · cases h
      intro p hp
      obtain ⟨y, hy, rfl⟩ := List.mem_map.1 hp
      exact ⟨by simp, hy⟩
    · cases h
      intro p hp
      obtain ⟨y, hy, rfl⟩ := List.mem_map.1 hp
      exact ⟨hy, by simp⟩
    · cases h

theorem all_swap {ps : List (PyF × PyF)} (h : ∀ p ∈ ps, isclose p.1 p.2 = isclose p.2 p.1) :
    (ps.map Prod.swap).all (fun p => isclose p.1 p.2) = ps.all fun p => isclose p.1 p.2 := by
  induction ps with
  | nil => rfl
  | cons p ps ih =>
      simp only [List.map_cons, List.all_cons, Prod.fst_swap, Prod.snd_swap]
      rw [h p (by simp), ih fun q hq => h q (by simp [hq])]

theorem allclose_symm {l k : List PyF} (h : ∀ x ∈ l, ∀ y ∈ k, isclose x y = isclose y x) :
    allclose l k = allclose k l := by
  unfold allclose
  rw [bcast_swap l k]
  cases hb : bcast l k with
  | error e => rfl
  | ok ps =>
      simp only [Except.map]
      rw [all_swap fun p hp => h _ (bcast_mem hb p hp).1 _ (bcast_mem hb p hp).2]

theorem mapM_bcast_swap (rows : List (List PyF × List PyF)) :
    (rows.map Prod.swap).mapM (fun r => bcast r.1 r.2) =
      (rows.mapM fun r => bcast r.1 r.2).map fun es => es.map fun ps => ps.map Prod.swap := by
  induction rows with
  | nil => rfl
  | cons r rows ih =>
      simp only [List.map_cons, List.mapM_cons, Prod.fst_swap, Prod.snd_swap, ih]
      rw [bcast_swap r.1 r.2]
      cases bcast r.1 r.2 with
      | error e => rfl
      | ok ps => cases List.mapM (fun r => bcast r.1 r.2) rows <;> rfl

theorem mapM_bcast_mem {rows : List (List PyF × List PyF)} : ∀ {es},
    rows.mapM (fun r => bcast r.1 r.2) = Except.ok es →
    ∀ ps ∈ es, ∃ r ∈ rows, bcast r.1 r.2 = .ok ps := by
  induction rows with
  | nil => intro es h; cases h; simp
  | cons r rows ih =>
      intro es h
      simp only [List.mapM_cons] at h
      cases hb : bcast r.1 r.2 with
      | error e => rw [hb] at h; cases h
      | ok ps =>
          rw [hb] at h
          cases hm : List.mapM (fun r => bcast r.1 r.2) rows with
          | error e => rw [hm] at h; cases h
          | ok es' =>
              rw [hm] at h
              cases h
              intro qs hqs
              rcases List.mem_cons.1 hqs with rfl | hqs
              · exact ⟨r, by simp, hb⟩
              · obtain ⟨r', hr', h'⟩ := ih hm qs hqs
                exact ⟨r', by simp [hr'], h'⟩

theorem allclose2_symm {l k : List (List PyF)}
    (h : ∀ r ∈ l, ∀ x ∈ r, ∀ s ∈ k, ∀ y ∈ s, isclose x y = isclose y x) :
    allclose2 l k = allclose2 k l := by
  unfold allclose2
  rw [bcast_swap l k]
  cases hb : bcast l k with
  | error e => rfl
  | ok rows =>
      show (do
        let entries ← rows.mapM fun r : List PyF × List PyF => bcast r.1 r.2
        Except.ok (entries.flatten.all fun p => isclose p.1 p.2)) = (do
        let entries ← (rows.map Prod.swap).mapM fun r : List PyF × List PyF => bcast r.1 r.2
        Except.ok (entries.flatten.all fun p => isclose p.1 p.2))
      rw [mapM_bcast_swap]
      cases hm : List.mapM (fun r => bcast r.1 r.2) rows with
      | error e => rfl
      | ok es =>
          show Except.ok _ = Except.ok _
          congr 1
          rw [← List.map_flatten, all_swap]
          intro p hp
          obtain ⟨ps, hps, hp⟩ := List.mem_flatten.1 hp
          obtain ⟨r, hr, hbr⟩ := mapM_bcast_mem hm ps hps
          have h1 := bcast_mem hb r hr
          have h2 := bcast_mem hbr p hp
          exact h _ h1.1 _ h2.1 _ h1.2 _ h2.2

theorem arrClose_symm {a b : ArrRate PyF}
    (h : ∀ x y, ArrNum a x → ArrNum b y → isclose x y = isclose y x) :
    arrClose a b = arrClose b a := by
  unfold arrClose
  rw [h a.A b.A (Or.inl rfl) (Or.inl rfl), h a.b b.b (Or.inr (Or.inl rfl)) (Or.inr (Or.inl rfl)),
    h a.E b.E (Or.inr (Or.inr rfl)) (Or.inr (Or.inr rfl))]

theorem rateMatch_symm {r s : RateObj PyF}
    (h : ∀ x y, RateNum r x → RateNum s y → isclose x y = isclose y x) :
    rateMatch r s = rateMatch s r := by
  cases r with
  | simple k a =>
      cases s with
      | simple l b =>
          simp only [rateMatch]
          rw [arrClose_symm h]
          simp [eq_comm]
      | _ => rfl
  | falloff k c lo hi cs =>
      cases s with
      | falloff l c' lo' hi' cs' =>
          simp only [rateMatch]
          rw [arrClose_symm (a := lo) (b := lo') fun x y hx hy => h x y (Or.inl hx) (Or.inl hy),
            arrClose_symm (a := hi) (b := hi') fun x y hx hy =>
              h x y (Or.inr (Or.inl hx)) (Or.inr (Or.inl hy)),
            allclose_symm (l := cs) (k := cs') fun x hx y hy =>
              h x y (Or.inr (Or.inr hx)) (Or.inr (Or.inr hy))]
          simp only [ne_comm]
      | _ => rfl
  | plog t =>
      cases s with
      | plog u =>
          simp only [rateMatch]
          by_cases hl : t.length = u.length
          · rw [if_neg (by simpa using hl), if_neg (by simpa using hl.symm)]
            congr 1
            refine all_zip_symm fun a ha b hb => ?_
            have ha' := (List.mergeSort_perm t _).mem_iff.1 ha
            have hb' := (List.mergeSort_perm u _).mem_iff.1 hb
            simp only
            rw [h a.1 b.1 ⟨a, ha', Or.inl rfl⟩ ⟨b, hb', Or.inl rfl⟩,
              arrClose_symm (a := a.2) (b := b.2) fun x y hx hy =>
                h x y ⟨a, ha', Or.inr hx⟩ ⟨b, hb', Or.inr hy⟩]
          · rw [if_pos hl, if_pos (Ne.symm hl)]
      | _ => rfl
  | cheb t p n d =>
      cases s with
      | cheb t' p' n' d' =>
          simp only [rateMatch]
          rw [h t.1 t'.1 (by simp [RateNum]) (by simp [RateNum]),
            h t.2 t'.2 (by simp [RateNum]) (by simp [RateNum]),
            h p.1 p'.1 (by simp [RateNum]) (by simp [RateNum]),
            h p.2 p'.2 (by simp [RateNum]) (by simp [RateNum]),
            allclose2_symm (l := d) (k := d') fun r hr x hx s hs y hy =>
              h x y (Or.inr (Or.inr (Or.inr (Or.inr ⟨r, hr, hx⟩))))
                (Or.inr (Or.inr (Or.inr (Or.inr ⟨s, hs, hy⟩))))]
      | _ => rfl

theorem thirdMatch_symm {t u : Option (Collider PyF)} (ht : ∀ b ∈ t, GoodDict b.effs)
    (hu : ∀ b ∈ u, GoodDict b.effs) : thirdMatch t u = thirdMatch u t := by
  cases t with
  | none => cases u <;> rfl
  | some a =>
      cases u with
      | none => rfl
      | some b =>
          simp only [thirdMatch]
          rw [PyF.eq_symm, dictEq_symm (ht a rfl) (hu b rfl)]

theorem rxnMatch_symm {r s : Rxn PyF}
    (h : ∀ x y, RateNum r.rate x → RateNum s.rate y → isclose x y = isclose y x)
    (hr : GoodDict r.reactants) (hr' : GoodDict s.reactants) (hp : GoodDict r.products)
    (hp' : GoodDict s.products) (ht : ∀ b ∈ r.third, GoodDict b.effs)
    (ht' : ∀ b ∈ s.third, GoodDict b.effs) : rxnMatch r s = rxnMatch s r := by
  unfold rxnMatch
  rw [rateMatch_symm h, dictEq_symm hr hr', dictEq_symm hp hp', thirdMatch_symm ht ht']
  simp only [ne_comm]

theorem transportMatch_symm {t u : Option (Transport PyF)} (h : t.isSome = u.isSome) :
    transportMatch t u = transportMatch u t := by
  cases t with
  | none => cases u with
    | none => rfl
    | some b => cases h
  | some a =>
      cases u with
      | none => cases h
      | some b =>
          simp only [transportMatch]
          rw [PyF.eq_symm a.wellDepth, PyF.eq_symm a.diameter, PyF.eq_symm a.dipole,
            PyF.eq_symm a.polar, PyF.eq_symm a.rot,
            all_zip_symm (l := a.extra) (k := b.extra) (p := fun p : PyF × PyF => PyF.eq p.1 p.2)
              (q := fun p : PyF × PyF => PyF.eq p.1 p.2) (fun x _ y _ => PyF.eq_symm x y)]
          simp only [eq_comm]

theorem speciesMatch_symm {s t : Spec1 PyF}
    (h : ∀ x y, ThermoNum s x → ThermoNum t y → isclose x y = isclose y x)
    (hs : GoodDict s.comp) (ht : GoodDict t.comp)
    (hp : s.name = t.name → s.transport.isSome = t.transport.isSome) :
    speciesMatch s t = speciesMatch t s := by
  unfold speciesMatch
  have h1 : ∀ T, isclose (s.eval T).1 (t.eval T).1 = isclose (t.eval T).1 (s.eval T).1 :=
    fun T => h _ _ ⟨T, Or.inl rfl⟩ ⟨T, Or.inl rfl⟩
  have h2 : ∀ T, isclose (s.eval T).2.1 (t.eval T).2.1 = isclose (t.eval T).2.1 (s.eval T).2.1 :=
    fun T => h _ _ ⟨T, Or.inr (Or.inl rfl)⟩ ⟨T, Or.inr (Or.inl rfl)⟩
  have h3 : ∀ T, isclose (s.eval T).2.2 (t.eval T).2.2 = isclose (t.eval T).2.2 (s.eval T).2.2 :=
    fun T => h _ _ ⟨T, Or.inr (Or.inr rfl)⟩ ⟨T, Or.inr (Or.inr rfl)⟩
  by_cases hn : s.name = t.name
  · rw [transportMatch_symm (hp hn), dictEq_symm hs ht]
    simp only [h1, h2, h3, eq_comm]
  · have hn' : ¬ t.name = s.name := fun e => hn e.symm
    simp [hn, hn']

/-! ## What agreement means -/

theorem forPairs_sound {α : Type} {f : α → α → Except Err Bool} : ∀ {l k : List α},
    l.length = k.length → forPairs f l k = .ok true → List.Forall₂ (fun x y => f x y = .ok true) l k := by
  intro l
  induction l with
  | nil => intro k hk _; cases k with
    | nil => exact .nil
    | cons _ _ => cases hk
  | cons x l ih =>
      intro k hk h
      cases k with
      | nil => cases hk
      | cons y k =>
          rw [forPairs] at h
          split at h
          · cases h
          · cases h
          · rename_i h1
            exact .cons h1 (ih (by simpa using hk) h)

theorem arrClose_sound {a b : ArrRate PyF} (h : arrClose a b = true) : ArrNear a b := by
  simp only [arrClose, Bool.and_eq_true, isclose_iff] at h
  exact ⟨h.1.1, h.1.2, h.2⟩

theorem zip_all_sound {α : Type} {p : α × α → Bool} : ∀ {l k : List α}, l.length = k.length →
    (l.zip k).all p = true → List.Forall₂ (fun x y => p (x, y) = true) l k := by
  intro l
  induction l with
  | nil => intro k hk _; cases k with
    | nil => exact .nil
    | cons _ _ => cases hk
  | cons x l ih =>
      intro k hk h
      cases k with
      | nil => cases hk
      | cons y k =>
          simp only [List.zip_cons_cons, List.all_cons, Bool.and_eq_true] at h
          exact .cons h.1 (ih (by simpa using hk) h.2)

theorem allclose_sound {l k : List PyF} (h : allclose l k = .ok true) (hl : l.length = k.length) :
    List.Forall₂ Near l k := by
  simp only [allclose, bcast, if_pos hl, Except.map, Except.ok.injEq] at h
  exact (zip_all_sound hl h).imp fun x y hxy => isclose_iff.1 hxy

theorem allclose2_rows : ∀ {l k : List (List PyF)}, l.map List.length = k.map List.length →
    ∃ es, (l.zip k).mapM (fun r : List PyF × List PyF => bcast r.1 r.2) = Except.ok es ∧
      (es.flatten.all (fun p => isclose p.1 p.2) = true → List.Forall₂ (List.Forall₂ Near) l k) := by
  intro l
  induction l with
  | nil => intro k hk; cases k with
    | nil => exact ⟨[], rfl, fun _ => .nil⟩
    | cons _ _ => cases hk
  | cons r l ih =>
      intro k hk
      cases k with
      | nil => cases hk
      | cons s k =>
          simp only [List.map_cons, List.cons.injEq] at hk
          obtain ⟨es, he, hes⟩ := ih hk.2
          refine ⟨(r.zip s) :: es, ?_, ?_⟩
          · simp only [List.zip_cons_cons, List.mapM_cons, he]
            simp only [bcast, if_pos hk.1]
            rfl
          · intro h
            simp only [List.flatten_cons, List.all_append, Bool.and_eq_true] at h
            exact .cons ((zip_all_sound hk.1 h.1).imp fun x y hxy => isclose_iff.1 hxy) (hes h.2)

theorem allclose2_sound {l k : List (List PyF)} (h : allclose2 l k = .ok true)
    (hl : l.map List.length = k.map List.length) : List.Forall₂ (List.Forall₂ Near) l k := by
  obtain ⟨es, he, hes⟩ := allclose2_rows hl
  have hlen : l.length = k.length := by simpa using congrArg List.length hl
  apply hes
  have hb : bcast l k = .ok (l.zip k) := by simp [bcast, hlen]
  unfold allclose2 at h
  rw [hb] at h
  have h' : (do
    let entries ← (l.zip k).mapM fun r : List PyF × List PyF => bcast r.1 r.2
    Except.ok (entries.flatten.all fun p => isclose p.1 p.2)) = Except.ok true := h
  rw [he] at h'
  exact Except.ok.inj h'

theorem rateMatch_sound {r s : RateObj PyF} (h : rateMatch r s = .ok true) : RateNear r s := by
  cases r with
  | simple k a =>
      cases s with
      | simple l b =>
          simp only [rateMatch, Except.ok.injEq, Bool.and_eq_true, decide_eq_true_eq] at h
          obtain ⟨rfl, h⟩ := h
          exact .simple (arrClose_sound h)
      | _ => cases h
  | falloff k c lo hi cs =>
      cases s with
      | falloff l c' lo' hi' cs' =>
          simp only [rateMatch] at h
          by_cases hk : k = l
          · subst hk
            simp only [ne_eq, not_true_eq_false, if_false] at h
            split at h
            · cases h
            · rename_i h1
              simp only [Bool.not_eq_true', Bool.not_eq_false, Bool.and_eq_true] at h1
              exact .falloff (arrClose_sound h1.1) (arrClose_sound h1.2) (allclose_sound h)
          · rw [if_pos hk] at h; cases h
      | _ => cases h
  | plog t =>
      cases s with
      | plog u =>
          simp only [rateMatch] at h
          by_cases hl : t.length = u.length
          · rw [if_neg (by simpa using hl)] at h
            have h' := Except.ok.inj h
            refine .plog (List.mergeSort_perm t _).symm (List.mergeSort_perm u _).symm
              ((zip_all_sound ?_ h').imp fun p q hpq => ?_)
            · rw [List.length_mergeSort, List.length_mergeSort, hl]
            · simp only [Bool.and_eq_true] at hpq
              exact ⟨isclose_iff.1 hpq.1, arrClose_sound hpq.2⟩
          · rw [if_pos hl] at h; cases h
      | _ => cases h
  | cheb t p n d =>
      cases s with
      | cheb t' p' n' d' =>
          simp only [rateMatch] at h
          split at h
          · cases h
          · rename_i h1
            split at h
            · cases h
            · rename_i h2
              simp only [Bool.not_eq_true', Bool.not_eq_false, Bool.and_eq_true,
                isclose_iff] at h1 h2
              exact .cheb h2.1 h2.2 h1.1 h1.2 (allclose2_sound h)
      | _ => cases h

theorem thirdMatch_sound {t u : Option (Collider PyF)} (h : thirdMatch t u = true) :
    SameThird t u := by
  cases t with
  | none => cases u with
    | none => trivial
    | some b => cases h
  | some a => cases u with
    | none => cases h
    | some b =>
        simp only [thirdMatch, Bool.and_eq_true] at h
        exact ⟨(PyF.eq_iff.1 h.1).1, dictEq_sound h.2⟩

theorem rxnMatch_sound {r s : Rxn PyF} (h : rxnMatch r s = .ok true) : RxnNear r s := by
  unfold rxnMatch at h
  split at h
  · cases h
  rename_i h1
  split at h
  · cases h
  rename_i h2
  split at h
  · cases h
  rename_i h3
  split at h
  · cases h
  rename_i h4
  split at h
  · cases h
  · cases h
  rename_i h5
  have h6 := Except.ok.inj h
  simp only [Bool.not_eq_true', Bool.not_eq_false] at h2 h3
  exact ⟨not_not.1 h1, dictEq_sound h2, dictEq_sound h3, not_not.1 h4, rateMatch_sound h5,
    thirdMatch_sound h6⟩

theorem speciesMatch_sound {s t : Spec1 PyF} (h : speciesMatch s t = true) : SpeciesNear s t := by
  simp only [speciesMatch, Bool.and_eq_true, decide_eq_true_eq, List.all_eq_true, isclose_iff] at h
  obtain ⟨⟨⟨h1, h2⟩, h3⟩, -⟩ := h
  exact ⟨h1, dictEq_sound h2, fun T hT => (h3 T hT).1.1, fun T hT => (h3 T hT).1.2,
    fun T hT => (h3 T hT).2⟩

theorem compare_parts {m n : Soln PyF} (h : compareModels m n = .ok true) :
    m.species.length = n.species.length ∧ m.reactions.length = n.reactions.length ∧
    List.Forall₂ (fun s t => speciesMatch s t = true)
      (sortedBy Spec1.name m.species) (sortedBy Spec1.name n.species) ∧
    List.Forall₂ (fun r s => rxnMatch r s = .ok true)
      (sortedBy Rxn.eqn m.reactions) (sortedBy Rxn.eqn n.reactions) := by
  unfold compareModels at h
  split at h
  · cases h
  rename_i h1
  split at h
  · cases h
  rename_i h2
  split at h
  · cases h
  · cases h
  rename_i h3
  have h1 := not_not.1 h1
  have h2 := not_not.1 h2
  have l1 := (sortedBy_perm Spec1.name m.species).length_eq
  have l2 := (sortedBy_perm Spec1.name n.species).length_eq
  have l3 := (sortedBy_perm Rxn.eqn m.reactions).length_eq
  have l4 := (sortedBy_perm Rxn.eqn n.reactions).length_eq
  refine ⟨h1, h2, (forPairs_sound (by rw [l1, l2, h1]) h3).imp fun s t h => Except.ok.inj h,
    forPairs_sound (by rw [l3, l4, h2]) h⟩

end Verif
