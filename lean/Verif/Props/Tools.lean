import Mathlib.Tactic.NormNum
import Verif.Lemmas.ParseInputs
import Verif.Lemmas.Path
import Verif.Lemmas.Tools
import Verif.Lemmas.Reduce
/-!
# Properties of comparing and converting models (C52, C53, C54, C78)
-/
namespace Verif
open Spec

/-! ## C52: a model equals its reorderings -/

theorem compare_of_sorted {m n : Soln PyF} (hw : WellDefined m)
    (h1 : m.species.length = n.species.length) (h2 : m.reactions.length = n.reactions.length)
    (hs : sortedBy Spec1.name m.species = sortedBy Spec1.name n.species)
    (hr : sortedBy Rxn.eqn m.reactions = sortedBy Rxn.eqn n.reactions) :
    compareModels m n = .ok true := by
  unfold compareModels
  rw [if_neg (by simpa using h1), if_neg (by simpa using h2), ← hs, ← hr,
    forPairs_self (f := fun s t => Except.ok (speciesMatch s t))]
  · refine forPairs_self fun r hr => ?_
    have hr' := (sortedBy_perm _ _).mem_iff.1 hr
    exact rxnMatch_self (fun x hx => hw.nums x (Or.inr ⟨r, hr', hx⟩)) (hw.reactants r hr')
      (hw.products r hr') (hw.third r hr')
  · intro s hs
    have hs' := (sortedBy_perm _ _).mem_iff.1 hs
    rw [speciesMatch_self (fun x hx => hw.nums x (Or.inl ⟨s, hs', hx⟩)) (hw.comp s hs')
      (hw.transport s hs')]

/-- A model compares equal to every reordering of its species and reactions that keeps reactions
with the same equation in the same order; in particular to itself, and to every reordering when the
equations are distinct.  Missing for the full claim: exchanging two reactions with the same
equation, see `C52_duplicates_refuted`. -/
theorem C52_reorder_partial (m n : Soln PyF) (hw : WellDefined m)
    (hs : m.species.Perm n.species) (hr : m.reactions.Perm n.reactions)
    (hd : ∀ e, m.reactions.filter (fun r => r.eqn = e) = n.reactions.filter (fun r => r.eqn = e)) :
    compareModels m n = .ok true :=
  compare_of_sorted hw hs.length_eq hr.length_eq (sortedBy_eq_of_perm _ hs hw.names)
    (sortedBy_eq_of_filter _ hd)

/-- With distinct equations every reordering compares equal. -/
theorem C52_distinct_partial (m n : Soln PyF) (hw : WellDefined m)
    (hs : m.species.Perm n.species) (hr : m.reactions.Perm n.reactions)
    (hd : (m.reactions.map Rxn.eqn).Nodup) : compareModels m n = .ok true :=
  compare_of_sorted hw hs.length_eq hr.length_eq (sortedBy_eq_of_perm _ hs hw.names)
    (sortedBy_eq_of_perm _ hr hd)

theorem forall2_filter {α : Type} {P : α → α → Prop} {key : α → Text} (e : Text) :
    ∀ {l k : List α}, List.Forall₂ P l k → l.map key = k.map key →
    List.Forall₂ P (l.filter fun a => decide (key a = e)) (k.filter fun a => decide (key a = e)) := by
  intro l k h
  induction h with
  | nil => intro _; exact .nil
  | @cons a b l k hab _ ih =>
      intro hk
      simp only [List.map_cons, List.cons.injEq] at hk
      simp only [List.filter_cons, hk.1]
      split
      · exact .cons hab (ih hk.2)
      · exact ih hk.2

/-- Exchanging two neighbouring reactions that have the same equation but do not agree (a pair of
duplicate reactions) makes the comparison fail, although the model has the same reactions. -/
theorem C52_duplicates_refuted (m n : Soln PyF) (l k : List (Rxn PyF)) (r s : Rxn PyF)
    (hm : m.reactions = l ++ r :: s :: k) (hn : n.reactions = l ++ s :: r :: k)
    (heq : r.eqn = s.eqn) (hne : ¬ RxnNear r s) : compareModels m n ≠ .ok true := by
  intro h
  obtain ⟨-, -, -, h4⟩ := compare_parts h
  have hp : m.reactions.Perm n.reactions := by
    rw [hm, hn]
    exact List.Perm.append_left _ (List.Perm.swap _ _ _)
  have hkeys : (sortedBy Rxn.eqn m.reactions).map Rxn.eqn =
      (sortedBy Rxn.eqn n.reactions).map Rxn.eqn := by
    refine List.Perm.eq_of_pairwise (le := (· ≤ ·)) (fun a b _ _ h1 h2 => le_antisymm h1 h2)
      (List.pairwise_map.2 (sortedBy_sorted _ _)) (List.pairwise_map.2 (sortedBy_sorted _ _)) ?_
    exact (((sortedBy_perm _ _).trans hp).trans (sortedBy_perm _ _).symm).map _
  have h5 := forall2_filter r.eqn h4 hkeys
  rw [sortedBy_filter, sortedBy_filter, hm, hn] at h5
  simp only [List.filter_append, List.filter_cons, heq, decide_true, if_true] at h5
  have h6 := List.forall₂_drop (l.filter fun a => decide (a.eqn = s.eqn)).length h5
  rw [List.drop_left, List.drop_left] at h6
  cases h6 with
  | cons h6 _ => exact hne (rxnMatch_sound h6)

/-- a species -/
def exToolSp : Spec1 PyF where
  name := "H2".toList
  comp := [("H".toList, .fin 2)]
  tmin := .fin 300
  tmax := .fin 5000
  coeffs := []
  eval := fun T => (.fin 29000, .fin (29000 * T), .fin 130000)
  transport := none

/-- products of the reactions below -/
def exToolProducts : List (Text × PyF) := [("H2O2".toList, .fin 1), ("O2".toList, .fin 1)]

theorem exToolProducts_ok : GoodDict exToolProducts := by
  refine ⟨?_, fun kv hkv => ?_⟩
  · show List.Nodup ["H2O2".toList, "O2".toList]
    decide
  · simp only [exToolProducts, List.mem_cons, List.not_mem_nil, or_false] at hkv
    rcases hkv with rfl | rfl <;> exact PyF.noConfusion

/-- two duplicate reactions -/
def exToolR1 : Rxn PyF where
  eqn := "2 HO2 <=> H2O2 + O2".toList
  reactants := [("HO2".toList, .fin 2)]
  products := exToolProducts
  reversible := true
  orders := []
  dup := true
  rate := .simple "Arrhenius".toList ⟨.fin 130000000, .fin 0, .fin (-6800000)⟩
  third := none

def exToolR2 : Rxn PyF :=
  { exToolR1 with rate := .simple "Arrhenius".toList ⟨.fin 420000000000, .fin 0, .fin 50200000⟩ }

def exToolM : Soln PyF := ⟨"m".toList, ["H".toList, "O".toList], [exToolSp], [exToolR1, exToolR2]⟩

theorem exToolM_ok : WellDefined exToolM where
  names := by simp [exToolM]
  nums := by
    rintro x (⟨s, hs, T, h⟩ | ⟨r, hr, h⟩)
    · simp only [exToolM, List.mem_singleton] at hs
      subst hs
      rcases h with rfl | rfl | rfl <;> simp [Defined, exToolSp]
    · simp only [exToolM, List.mem_cons, List.not_mem_nil, or_false] at hr
      rcases hr with rfl | rfl <;> rcases h with rfl | rfl | rfl <;> simp [Defined]
  comp := by
    intro s hs
    obtain rfl := List.mem_singleton.1 hs
    refine ⟨List.nodup_singleton _, fun kv hkv => ?_⟩
    obtain rfl := List.mem_singleton.1 hkv
    exact PyF.noConfusion
  transport := by
    intro s hs t ht
    obtain rfl := List.mem_singleton.1 hs
    cases ht
  reactants := by
    have h : GoodDict exToolR1.reactants := by
      refine ⟨List.nodup_singleton _, fun kv hkv => ?_⟩
      obtain rfl := List.mem_singleton.1 hkv
      exact PyF.noConfusion
    intro r hr
    simp only [exToolM, List.mem_cons, List.not_mem_nil, or_false] at hr
    rcases hr with rfl | rfl
    · exact h
    · simp only [exToolR2]; exact h
  products := by
    have h : GoodDict exToolR1.products := exToolProducts_ok
    intro r hr
    simp only [exToolM, List.mem_cons, List.not_mem_nil, or_false] at hr
    rcases hr with rfl | rfl
    · exact h
    · simp only [exToolR2]; exact h
  third := by
    intro r hr b hb
    simp only [exToolM, List.mem_cons, List.not_mem_nil, or_false] at hr
    rcases hr with rfl | rfl <;> cases hb

theorem exToolR_ne : ¬ RxnNear exToolR1 exToolR2 := by
  intro h
  have key : ∀ (k l : Text) (a b : ArrRate PyF), RateNear (.simple k a) (.simple l b) →
      ArrNear a b := by
    intro k l a b h
    cases h with
    | simple h => exact h
  have h2 := (key _ _ _ _ h.rate).1
  simp only [Near] at h2
  norm_num [abs_of_nonneg, abs_of_neg] at h2

example : compareModels exToolM exToolM = .ok true :=
  C52_reorder_partial _ _ exToolM_ok (List.Perm.refl _) (List.Perm.refl _) fun _ => rfl

example : compareModels exToolM { exToolM with reactions := [exToolR2, exToolR1] } ≠ .ok true :=
  C52_duplicates_refuted _ _ [] [] exToolR1 exToolR2 rfl rfl rfl exToolR_ne

example : compareModels { exToolM with reactions := [exToolR1] } { exToolM with reactions := [exToolR1] } =
    .ok true :=
  C52_distinct_partial _ _
    ⟨exToolM_ok.names,
      fun x hx => exToolM_ok.nums x (hx.imp id fun ⟨r, hr, h⟩ => ⟨r, by
        simp only [List.mem_singleton] at hr; simp [exToolM, hr], h⟩),
      exToolM_ok.comp, exToolM_ok.transport,
      fun r hr => exToolM_ok.reactants r (by simp only [List.mem_singleton] at hr; simp [exToolM, hr]),
      fun r hr => exToolM_ok.products r (by simp only [List.mem_singleton] at hr; simp [exToolM, hr]),
      fun r hr => exToolM_ok.third r (by simp only [List.mem_singleton] at hr; simp [exToolM, hr])⟩
    (List.Perm.refl _) (List.Perm.refl _) (by simp)

/-! ## C53: the comparison is not symmetric -/

/-- The comparison is symmetric (also in the exceptions it raises) when species of the same name
both have or both lack transport data and no pair of compared numbers is borderline.  Missing for
the full claim: the two cases of `C53_transport_refuted` and `C53_tolerance_refuted`. -/
theorem C53_symmetric_partial (m n : Soln PyF) (hm : WellDefined m) (hn : WellDefined n)
    (ht : ∀ s ∈ m.species, ∀ t ∈ n.species, s.name = t.name →
      s.transport.isSome = t.transport.isSome)
    (hb : ∀ x y, ModelNum m x → ModelNum n y → ¬ Borderline x y) :
    compareModels m n = compareModels n m := by
  unfold compareModels
  rw [forPairs_symm (f := fun s t => Except.ok (speciesMatch s t))
      (g := fun s t => Except.ok (speciesMatch s t)) (l := sortedBy Spec1.name m.species),
    forPairs_symm (f := rxnMatch) (g := rxnMatch) (l := sortedBy Rxn.eqn m.reactions)]
  · simp only [ne_comm]
  · intro r hr s hs
    have hr' := (sortedBy_perm _ _).mem_iff.1 hr
    have hs' := (sortedBy_perm _ _).mem_iff.1 hs
    exact rxnMatch_symm
      (fun x y hx hy => isclose_symm (hb x y (Or.inr ⟨r, hr', hx⟩) (Or.inr ⟨s, hs', hy⟩)))
      (hm.reactants r hr') (hn.reactants s hs') (hm.products r hr') (hn.products s hs')
      (fun b hb => (hm.third r hr' b hb).2) (fun b hb => (hn.third s hs' b hb).2)
  · intro s hs t ht'
    have hs' := (sortedBy_perm _ _).mem_iff.1 hs
    have ht'' := (sortedBy_perm _ _).mem_iff.1 ht'
    rw [speciesMatch_symm
      (fun x y hx hy => isclose_symm (hb x y (Or.inl ⟨s, hs', hx⟩) (Or.inl ⟨t, ht'', hy⟩)))
      (hm.comp s hs') (hn.comp t ht'') (ht s hs' t ht'')]

/-- the same model with transport data filled in where there was none -/
def Spec.withTransport (t : Transport PyF) (m : Soln PyF) : Soln PyF :=
  { m with species := m.species.map fun s =>
      { s with transport := some (s.transport.getD t) } }

theorem forPairs_ok {α : Type} (p : α → α → Bool) : ∀ l k : List α,
    forPairs (fun s t => .ok (p s t)) l k = .ok ((l.zip k).all fun x => p x.1 x.2) := by
  intro l
  induction l with
  | nil => intro k; cases k <;> rfl
  | cons x l ih =>
      intro k
      cases k with
      | nil => rfl
      | cons y k =>
          rw [forPairs]
          cases h : p x y <;> simp [h, ih]

theorem sortedBy_map {α : Type} (key : α → Text) (f : α → α) (h : ∀ a, key (f a) = key a)
    (l : List α) : sortedBy key (l.map f) = (sortedBy key l).map f := by
  unfold sortedBy
  rw [List.map_mergeSort]
  intro a _ b _
  simp [h]

/-- A model some of whose species have no transport data compares equal to the same model with
transport data added, but not the other way round. -/
theorem C53_transport_refuted (m : Soln PyF) (hw : WellDefined m) (t : Transport PyF)
    (s : Spec1 PyF) (hs : s ∈ m.species) (hno : s.transport = none) :
    compareModels m (Spec.withTransport t m) = .ok true ∧
    compareModels (Spec.withTransport t m) m = .ok false := by
  have hsort : sortedBy Spec1.name (Spec.withTransport t m).species =
      (sortedBy Spec1.name m.species).map fun s =>
        { s with transport := some (s.transport.getD t) } :=
    sortedBy_map Spec1.name (fun s => { s with transport := some (s.transport.getD t) })
      (fun _ => rfl) _
  have hself : ∀ s ∈ m.species, speciesMatch s s = true := fun s hs =>
    speciesMatch_self (fun x hx => hw.nums x (Or.inl ⟨s, hs, hx⟩)) (hw.comp s hs)
      (hw.transport s hs)
  constructor
  · unfold compareModels
    rw [if_neg (by simp [Spec.withTransport]), if_neg (by simp [Spec.withTransport]), hsort,
      forPairs_ok]
    have : ((sortedBy Spec1.name m.species).zip ((sortedBy Spec1.name m.species).map fun s =>
        { s with transport := some (s.transport.getD t) })).all
        (fun x => speciesMatch x.1 x.2) = true := by
      rw [List.all_eq_true]
      intro p hp
      rw [List.zip_map_right] at hp
      obtain ⟨q, hq, rfl⟩ := List.mem_map.1 hp
      have hq1 := List.of_mem_zip hq
      have hqq : q.1 = q.2 := by
        obtain ⟨i, hi, h⟩ := List.mem_iff_getElem.1 hq
        rw [← h]; simp
      have hmem := (sortedBy_perm _ _).mem_iff.1 hq1.1
      have h1 := hself q.1 hmem
      obtain ⟨a, b⟩ := q
      simp only at hqq
      subst hqq
      simp only [speciesMatch, Bool.and_eq_true] at h1
      simp only [Prod.map, id_eq, speciesMatch, Bool.and_eq_true]
      refine ⟨h1.1, ?_⟩
      cases ht : a.transport with
      | none => rfl
      | some u =>
          rw [ht] at h1
          exact h1.2
    rw [this]
    refine forPairs_self fun r hr => ?_
    have hr' := (sortedBy_perm _ _).mem_iff.1 hr
    exact rxnMatch_self (fun x hx => hw.nums x (Or.inr ⟨r, hr', hx⟩)) (hw.reactants r hr')
      (hw.products r hr') (hw.third r hr')
  · unfold compareModels
    rw [if_neg (by simp [Spec.withTransport]), if_neg (by simp [Spec.withTransport]), hsort,
      forPairs_ok]
    have : (((sortedBy Spec1.name m.species).map fun s =>
        { s with transport := some (s.transport.getD t) }).zip (sortedBy Spec1.name m.species)).all
        (fun x => speciesMatch x.1 x.2) = false := by
      rw [List.all_eq_false]
      have hs' := (sortedBy_perm Spec1.name m.species).mem_iff.2 hs
      refine ⟨({ s with transport := some (s.transport.getD t) }, s), ?_, ?_⟩
      · rw [List.zip_map_left]
        refine List.mem_map.2 ⟨(s, s), ?_, rfl⟩
        obtain ⟨i, hi, h⟩ := List.mem_iff_getElem.1 hs'
        refine List.mem_iff_getElem.2 ⟨i, by simpa using hi, ?_⟩
        simp [h]
      · simp [speciesMatch, hno, transportMatch]
    rw [this]

/-- Two one-species models that differ in one heat capacity at a borderline distance: the
comparison holds when the larger value comes second and fails the other way round. -/
theorem C53_tolerance_refuted (m n : Soln PyF) (s : Spec1 PyF) (a b : ℚ) (hw : WellDefined m)
    (hm : m.species = [{ s with eval := fun T => (.fin a, (s.eval T).2) }])
    (hn : n.species = [{ s with eval := fun T => (.fin b, (s.eval T).2) }])
    (hr : m.reactions = n.reactions) (hb : Borderline (.fin a) (.fin b)) (hab : |a| < |b|) :
    compareModels m n = .ok true ∧ compareModels n m = .ok false := by
  have hs : ∀ x : Spec1 PyF, sortedBy Spec1.name [x] = [x] := fun x =>
    List.mergeSort_of_pairwise (by simp)
  have hself := speciesMatch_self (s := { s with eval := fun T => (.fin a, (s.eval T).2) })
    (fun x hx => hw.nums x (Or.inl ⟨_, by rw [hm]; simp, hx⟩))
    (hw.comp _ (by rw [hm]; simp)) (hw.transport _ (by rw [hm]; simp))
  simp only [speciesMatch, Bool.and_eq_true] at hself
  simp only [Borderline, min_eq_left hab.le, max_eq_right hab.le] at hb
  have h1 : isclose (.fin a) (.fin b) = true := by simpa [isclose] using hb.2
  have h2 : isclose (.fin b) (.fin a) = false := by
    simp only [isclose, decide_eq_false_iff_not, not_le]
    rw [abs_sub_comm]
    exact hb.1
  constructor
  · unfold compareModels
    rw [if_neg (by simp [hm, hn]), if_neg (by simp [hr]), hm, hn, hs, hs]
    have : speciesMatch { s with eval := fun T => (PyF.fin a, (s.eval T).2) }
        { s with eval := fun T => (PyF.fin b, (s.eval T).2) } = true := by
      simp only [speciesMatch, Bool.and_eq_true]
      refine ⟨⟨hself.1.1, ?_⟩, hself.2⟩
      have h3 := hself.1.2
      simp only [List.all_eq_true, Bool.and_eq_true] at h3 ⊢
      exact fun T hT => ⟨⟨h1, (h3 T hT).1.2⟩, (h3 T hT).2⟩
    simp only [forPairs, this]
    rw [← hr]
    refine forPairs_self fun r hr => ?_
    have hr' := (sortedBy_perm _ _).mem_iff.1 hr
    exact rxnMatch_self (fun x hx => hw.nums x (Or.inr ⟨r, hr', hx⟩)) (hw.reactants r hr')
      (hw.products r hr') (hw.third r hr')
  · unfold compareModels
    rw [if_neg (by simp [hm, hn]), if_neg (by simp [hr]), hm, hn, hs, hs]
    have : speciesMatch { s with eval := fun T => (PyF.fin b, (s.eval T).2) }
        { s with eval := fun T => (PyF.fin a, (s.eval T).2) } = false := by
      simp [speciesMatch, h2]
    simp only [forPairs, this]

example : ∀ t, compareModels exToolM (Spec.withTransport t exToolM) = .ok true ∧
    compareModels (Spec.withTransport t exToolM) exToolM = .ok false := fun t =>
  C53_transport_refuted exToolM exToolM_ok t exToolSp (by simp [exToolM]) rfl

example : Borderline (.fin 100000) (.fin (1000010000005 / 10000000)) ∧
    |(100000 : ℚ)| < |1000010000005 / 10000000| := by
  constructor
  · simp only [Borderline]
    norm_num [abs_of_nonneg, abs_of_neg]
  · norm_num [abs_of_nonneg]

/-! ## C78: what agreement means -/

/-- Models that compare equal have, for each species of one, a species of the other with the same
name and composition and near thermodynamic values, and for each reaction of one, a reaction of the
other of the same type with the same reactants, products and third body and near rate parameters;
and the other way round.  Missing for the full claim: reversibility and explicit orders, which are
not compared (`C78_reversible_refuted`), and transport data (`C53_transport_refuted`). -/
theorem C78_agree_partial (m n : Soln PyF) (h : compareModels m n = .ok true) :
    m.species.length = n.species.length ∧ m.reactions.length = n.reactions.length ∧
    (∀ s ∈ m.species, ∃ t ∈ n.species, SpeciesNear s t) ∧
    (∀ t ∈ n.species, ∃ s ∈ m.species, SpeciesNear s t) ∧
    (∀ r ∈ m.reactions, ∃ s ∈ n.reactions, RxnNear r s) ∧
    (∀ s ∈ n.reactions, ∃ r ∈ m.reactions, RxnNear r s) := by
  obtain ⟨h1, h2, h3, h4⟩ := compare_parts h
  refine ⟨h1, h2, fun s hs => ?_, fun t ht => ?_, fun r hr => ?_, fun s hs => ?_⟩
  · obtain ⟨t, ht, h⟩ := forall2_left h3 ((sortedBy_perm _ _).mem_iff.2 hs)
    exact ⟨t, (sortedBy_perm _ _).mem_iff.1 ht, speciesMatch_sound h⟩
  · obtain ⟨s, hs, h⟩ := forall2_right h3 ((sortedBy_perm _ _).mem_iff.2 ht)
    exact ⟨s, (sortedBy_perm _ _).mem_iff.1 hs, speciesMatch_sound h⟩
  · obtain ⟨t, ht, h⟩ := forall2_left h4 ((sortedBy_perm _ _).mem_iff.2 hr)
    exact ⟨t, (sortedBy_perm _ _).mem_iff.1 ht, rxnMatch_sound h⟩
  · obtain ⟨t, ht, h⟩ := forall2_right h4 ((sortedBy_perm _ _).mem_iff.2 hs)
    exact ⟨t, (sortedBy_perm _ _).mem_iff.1 ht, rxnMatch_sound h⟩

/-- Models that compare equal have the same transport data, exactly, for every species of the first
that has any.  Missing for the full claim: species of the first without transport data
(`C53_transport_refuted`). -/
theorem C78_transport_partial (m n : Soln PyF) (h : compareModels m n = .ok true) :
    ∀ s ∈ m.species, s.transport ≠ none →
      ∃ t ∈ n.species, t.name = s.name ∧ t.transport = s.transport := by
  obtain ⟨-, -, h3, -⟩ := compare_parts h
  intro s hs hne
  obtain ⟨t, ht, hm⟩ := forall2_left h3 ((sortedBy_perm _ _).mem_iff.2 hs)
  refine ⟨t, (sortedBy_perm _ _).mem_iff.1 ht, (speciesMatch_sound hm).1.symm, ?_⟩
  simp only [speciesMatch, Bool.and_eq_true] at hm
  have ht := hm.2
  cases ha : s.transport with
  | none => exact absurd ha hne
  | some a =>
      rw [ha] at ht
      cases hb : t.transport with
      | none => rw [hb] at ht; cases ht
      | some b =>
          rw [hb] at ht
          obtain ⟨g1, w1, d1, i1, p1, r1, x1⟩ := a
          obtain ⟨g2, w2, d2, i2, p2, r2, x2⟩ := b
          simp only [transportMatch, Bool.and_eq_true, decide_eq_true_eq, PyF.eq_iff, List.all_eq_true] at ht
          obtain ⟨⟨⟨⟨⟨⟨⟨e1, e2, -⟩, e3, -⟩, e4, -⟩, e5, -⟩, e6, -⟩, e7⟩, e8⟩ := ht
          have e9 : x1 = x2 := by
            refine List.ext_getElem e7 fun i h1 h2 => ?_
            have := e8 (x1[i], x2[i]) (by
              rw [List.mem_iff_getElem]
              exact ⟨i, by simpa using ⟨h1, h2⟩, by simp⟩)
            exact this.1
          simp only [e1, e2, e3, e4, e5, e6, e9]

/-- a model with transport data -/
def exToolT : Soln PyF := ⟨"m".toList, ["H".toList], [{ exToolSp with
  transport := some ⟨"linear".toList, .fin 1, .fin 2, .fin 0, .fin 1, .fin 280, []⟩ }], []⟩

example : compareModels exToolT exToolT = .ok true ∧ ∃ s ∈ exToolT.species, s.transport ≠ none := by
  refine ⟨?_, _, List.mem_singleton.2 rfl, by simp⟩
  decide +kernel

/-- Changing the direction of reactions from reversible to irreversible (or back), and their
explicit orders, is not noticed, as long as the new equations sort in the same order. -/
theorem C78_reversible_refuted (m : Soln PyF) (hw : WellDefined m) (f : Rxn PyF → Rxn PyF)
    (hf : ∀ r, ∃ e o, f r = { r with eqn := e, orders := o, reversible := !r.reversible })
    (hord : ∀ r ∈ m.reactions, ∀ s ∈ m.reactions, (r.eqn ≤ s.eqn ↔ (f r).eqn ≤ (f s).eqn)) :
    compareModels m { m with reactions := m.reactions.map f } = .ok true := by
  have hsort : sortedBy Rxn.eqn (m.reactions.map f) = (sortedBy Rxn.eqn m.reactions).map f := by
    unfold sortedBy
    rw [List.map_mergeSort]
    intro a ha b hb
    simp [hord a ha b hb]
  unfold compareModels
  rw [if_neg (by simp), if_neg (by simp)]
  simp only
  rw [forPairs_self (f := fun s t => Except.ok (speciesMatch s t))]
  · simp only
    rw [hsort]
    have : ∀ l : List (Rxn PyF), (∀ r ∈ l, r ∈ m.reactions) →
        forPairs rxnMatch l (l.map f) = .ok true := by
      intro l
      induction l with
      | nil => intro _; rfl
      | cons r l ih =>
          intro hl
          have hr := hl r (by simp)
          have h1 := rxnMatch_self (fun x hx => hw.nums x (Or.inr ⟨r, hr, hx⟩))
            (hw.reactants r hr) (hw.products r hr) (hw.third r hr)
          have h2 : rxnMatch r (f r) = .ok true := by
            obtain ⟨e, o, he⟩ := hf r
            rw [he, ← h1]
            rfl
          rw [List.map_cons, forPairs, h2]
          exact ih fun s hs => hl s (by simp [hs])
    exact this _ fun r hr => (sortedBy_perm _ _).mem_iff.1 hr
  · intro s hs
    have hs' := (sortedBy_perm _ _).mem_iff.1 hs
    rw [speciesMatch_self (fun x hx => hw.nums x (Or.inl ⟨s, hs', hx⟩)) (hw.comp s hs')
      (hw.transport s hs')]

example : compareModels exToolM { exToolM with reactions := exToolM.reactions.map fun r =>
      { r with eqn := "2 HO2 => H2O2 + O2".toList, reversible := !r.reversible } } = .ok true :=
  C78_reversible_refuted exToolM exToolM_ok _ (fun r => ⟨_, r.orders, rfl⟩) (by
    intro r hr s hs
    simp only [exToolM, List.mem_cons, List.not_mem_nil, or_false] at hr hs
    rcases hr with rfl | rfl <;> rcases hs with rfl | rfl <;> simp [exToolR2])

/-! ## C54: directions and names of conversions -/

/-- A file `dir/base.ext` or `base.ext` with a cantera extension is read by cantera and written in
Chemkin format to `base.inp` in the output path. -/
theorem C54_to_chemkin (dir base ext path : Text) (thermo transport : Option Text)
    (hb : ∃ c ∈ base, c ≠ '.') (hs : '/' ∉ base)
    (he : ext ∈ ["yaml".toList, "yml".toList, "cti".toList]) :
    convertAction (dir ++ '/' :: (base ++ '.' :: ext)) thermo transport path =
      .toChemkin (dir ++ '/' :: (base ++ '.' :: ext)) (base ++ ".inp".toList) path ∧
    convertAction (base ++ '.' :: ext) thermo transport path =
      .toChemkin (base ++ '.' :: ext) (base ++ ".inp".toList) path := by
  have hx : ∀ c ∈ ext, c ≠ '.' ∧ c ≠ '/' := by
    simp only [List.mem_cons, List.not_mem_nil, or_false] at he
    rcases he with rfl | rfl | rfl <;> decide
  have hns : '/' ∉ base ++ '.' :: ext := by
    intro h
    rcases List.mem_append.1 h with h | h
    · exact hs h
    · rcases List.mem_cons.1 h with h | h
      · exact absurd h (by decide)
      · exact (hx _ h).2 rfl
  have hin : '.' :: ext = ".yaml".toList ∨ '.' :: ext = ".yml".toList ∨
      '.' :: ext = ".cti".toList := by
    simp only [List.mem_cons, List.not_mem_nil, or_false] at he
    rcases he with rfl | rfl | rfl <;> decide
  constructor
  · unfold convertAction
    rw [basename_dir hns, splitext_spec hb hs hx]
    simp only
    rw [if_pos hin]
  · unfold convertAction
    rw [basename_bare hns, splitext_spec hb hs hx]
    simp only
    rw [if_pos hin]

/-- Any other file `dir/base.ext` is handed to `ck2yaml` together with the thermo and transport
files that were given, and `base.yaml` in the output path is written and returned. -/
theorem C54_to_yaml (dir base ext path : Text) (thermo transport : Option Text)
    (hb : ∃ c ∈ base, c ≠ '.') (hs : '/' ∉ base) (hx : ∀ c ∈ ext, c ≠ '.' ∧ c ≠ '/')
    (he : ext ∉ ["yaml".toList, "yml".toList, "cti".toList]) :
    ∃ args, convertAction (dir ++ '/' :: (base ++ '.' :: ext)) thermo transport path =
        .toYaml args (joinPath path (base ++ ".yaml".toList)) ∧
      ("--input=".toList ++ (dir ++ '/' :: (base ++ '.' :: ext))) ∈ args ∧
      ("--output=".toList ++ joinPath path (base ++ ".yaml".toList)) ∈ args ∧
      "--permissive".toList ∈ args ∧
      (∀ f, ("--thermo=".toList ++ f) ∈ args ↔ thermo = some f ∧ f ≠ []) ∧
      (∀ f, ("--transport=".toList ++ f) ∈ args ↔ transport = some f ∧ f ≠ []) := by
  have hns : '/' ∉ base ++ '.' :: ext := by
    intro h
    rcases List.mem_append.1 h with h | h
    · exact hs h
    · rcases List.mem_cons.1 h with h | h
      · exact absurd h (by decide)
      · exact (hx _ h).2 rfl
  have hin : ¬ ('.' :: ext = ".yaml".toList ∨ '.' :: ext = ".yml".toList ∨
      '.' :: ext = ".cti".toList) := by
    intro h
    apply he
    rcases h with h | h | h
    · have : ext = "yaml".toList := (List.cons.inj h).2
      simp [this]
    · have : ext = "yml".toList := (List.cons.inj h).2
      simp [this]
    · have : ext = "cti".toList := (List.cons.inj h).2
      simp [this]
  unfold convertAction
  rw [basename_dir hns, splitext_spec hb hs hx]
  simp only
  rw [if_neg hin]
  have hg : ∀ o : Option Text, givenFile o = none ∧ (∀ f, ¬ (o = some f ∧ f ≠ [])) ∨
      ∃ g, givenFile o = some g ∧ o = some g ∧ g ≠ [] := by
    intro o
    match o with
    | none => exact Or.inl ⟨rfl, by simp⟩
    | some [] => exact Or.inl ⟨rfl, by simp⟩
    | some (c :: cs) => exact Or.inr ⟨c :: cs, rfl, rfl, by simp⟩
  refine ⟨_, rfl, by simp, by simp, by simp, fun f => ?_, fun f => ?_⟩
  · rcases hg thermo with ⟨h1, h2⟩ | ⟨g, h1, h2, h3⟩ <;>
    rcases hg transport with ⟨h4, h5⟩ | ⟨k, h4, h5, h6⟩ <;> rw [h1, h4]
    · simpa using h2 f
    · simpa using h2 f
    · subst h2
      simp
      constructor
      · rintro rfl; exact ⟨rfl, h3⟩
      · rintro ⟨h, -⟩; exact h.symm
    · subst h2
      simp
      constructor
      · rintro rfl; exact ⟨rfl, h3⟩
      · rintro ⟨h, -⟩; exact h.symm
  · rcases hg thermo with ⟨h1, h2⟩ | ⟨g, h1, h2, h3⟩ <;>
    rcases hg transport with ⟨h4, h5⟩ | ⟨k, h4, h5, h6⟩ <;> rw [h1, h4]
    · simpa using h5 f
    · subst h5
      simp
      constructor
      · rintro rfl; exact ⟨rfl, h6⟩
      · rintro ⟨h, -⟩; exact h.symm
    · simpa using h5 f
    · subst h5
      simp
      constructor
      · rintro rfl; exact ⟨rfl, h6⟩
      · rintro ⟨h, -⟩; exact h.symm

/-- A hidden file such as `.yaml` has no extension: it is handed to `ck2yaml`, and `.yaml` is put after
its whole name. -/
theorem C54_hidden (dir dots ext path : Text) (thermo transport : Option Text)
    (hd : ∀ c ∈ dots, c = '.') (hx : ∀ c ∈ ext, c ≠ '.' ∧ c ≠ '/') :
    ∃ args args', convertAction (dir ++ '/' :: (dots ++ '.' :: ext)) thermo transport path =
        .toYaml args (joinPath path (dots ++ '.' :: ext ++ ".yaml".toList)) ∧
      convertAction (dots ++ '.' :: ext) thermo transport path =
        .toYaml args' (joinPath path (dots ++ '.' :: ext ++ ".yaml".toList)) := by
  have hns : '/' ∉ dots ++ '.' :: ext := by
    intro h
    rcases List.mem_append.1 h with h | h
    · exact absurd (hd _ h) (by decide)
    · rcases List.mem_cons.1 h with h | h
      · exact absurd h (by decide)
      · exact (hx _ h).2 rfl
  have hno : ¬ (([] : Text) = ".yaml".toList ∨ ([] : Text) = ".yml".toList ∨ ([] : Text) = ".cti".toList) := by
    decide
  have key : ∀ file, basename file = dots ++ '.' :: ext → ∃ args, convertAction file thermo transport path =
      .toYaml args (joinPath path (dots ++ '.' :: ext ++ ".yaml".toList)) := by
    intro file hf
    unfold convertAction
    rw [hf, splitext_hidden hd hx]
    simp only [if_neg hno]
    exact ⟨_, rfl⟩
  obtain ⟨args, h1⟩ := key _ (basename_dir hns)
  obtain ⟨args', h2⟩ := key _ (basename_bare hns)
  exact ⟨args, args', h1, h2⟩

example : ∃ args args', convertAction "models/.yaml".toList none none "out".toList =
      .toYaml args "out/.yaml.yaml".toList ∧
    convertAction ".yaml".toList none none "out".toList = .toYaml args' "out/.yaml.yaml".toList :=
  C54_hidden "models".toList [] "yaml".toList "out".toList none none (by simp) (by decide)

/-- Whatever the input name, the name written is a bare file name joined to the output path: the
directory of the input does not appear in it. -/
theorem C54_no_leak (file path : Text) (thermo transport : Option Text) :
    (∀ f n p, convertAction file thermo transport path = .toChemkin f n p → '/' ∉ n ∧ p = path) ∧
    (∀ args out, convertAction file thermo transport path = .toYaml args out →
      ∃ n, '/' ∉ n ∧ out = joinPath path n) := by
  have h := splitext_no_slash (basename_no_slash file)
  unfold convertAction
  simp only
  constructor
  · intro f n p h1
    split at h1
    · cases h1
      refine ⟨fun h2 => ?_, rfl⟩
      rcases List.mem_append.1 h2 with h2 | h2
      · exact h h2
      · exact absurd h2 (by decide)
    · cases h1
  · intro args out h1
    split at h1
    · cases h1
    · cases h1
      refine ⟨_, fun h2 => ?_, rfl⟩
      rcases List.mem_append.1 h2 with h2 | h2
      · exact h h2
      · exact absurd h2 (by decide)

example : convertAction "models/gri30.yaml".toList none none "out".toList =
    .toChemkin "models/gri30.yaml".toList "gri30.inp".toList "out".toList :=
  (C54_to_chemkin "models".toList "gri30".toList "yaml".toList "out".toList none none
    ⟨'g', by decide, by decide⟩ (by decide) (by decide)).1

example : (∃ c ∈ "chem".toList, c ≠ '.') ∧ '/' ∉ "chem".toList ∧
    (∀ c ∈ "inp".toList, c ≠ '.' ∧ c ≠ '/') ∧
    "inp".toList ∉ ["yaml".toList, "yml".toList, "cti".toList] := by decide

/-! ## C65: writing a model as YAML -/

/-- `soln2yaml.write` returns the path joined with the name, or with the name of the solution if
none is given; loading that file gives the model, and every other file is as before. -/
theorem C65_write (w : World) (m : Mech) (name path : Text) :
    let out := (writeYaml w m name path).1
    let w' := (writeYaml w m name path).2
    (name ≠ [] → out = joinPath path name) ∧
    (name = [] → out = joinPath path (m.name ++ ".yaml".toList)) ∧
    loadModel w' out = .ok m ∧ (∀ g, g ≠ out → w'.fs g = w.fs g) ∧ w'.limbo = w.limbo := by
  simp only [writeYaml_eq, yamlName]
  refine ⟨fun h => by rw [if_neg h], fun h => by rw [if_pos h], ?_, fun g hg => ?_, rfl⟩
  · simp [loadModel, World.set]
  · simp only [World.set]
    rw [if_neg hg]

example (w : World) (m : Mech) : loadModel (writeYaml w m "a.yaml".toList "out".toList).2
    "out/a.yaml".toList = .ok m := (C65_write w m "a.yaml".toList "out".toList).2.2.1

end Verif
