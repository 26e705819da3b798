import Verif.Lemmas.Load
import Verif.Props.Trim
/-!
# C96: loading a trimmed model
-/
namespace Verif
open Spec

/-- **C96** (partial): exactly when a loadable model is still loadable after trimming: no kept
reaction has an order in a removed species, and every kept reaction that is declared a duplicate has
another kept reaction it clashes with among the species that stay. -/
theorem C96_loadable_partial (at' : Nat → Attrs) (m : Mech) (excl : List String) (f p : Text)
    (L : Loadable at' m) :
    Loadable at' (trim m excl f p) ↔
      (∀ r ∈ m.reactions, Survives m excl r → ∀ s q, (s, q) ∈ (at' r.rate).orders → s ∉ excl) ∧
      ∀ r ∈ m.reactions, Survives m excl r → (at' r.rate).dup = true →
        ∃ r' ∈ m.reactions.erase r, Survives m excl r' ∧
          Clash at' (m.names.filter (fun s => s ∉ excl)) r r' := by
  set N := (finalSpecies m excl).map (·.name) with hN
  have hnames : (trim m excl f p).names = N := rfl
  have hNeq : N = m.names.filter (fun s => s ∉ excl) := by
    rw [hN, finalSpecies, Mech.names, List.filter_map]
    congr 1
    apply List.filter_congr
    intro sp _
    simp
  have hmem : ∀ y, y ∈ (trim m excl f p).reactions ↔
      ∃ r ∈ m.reactions, Survives m excl r ∧ filterThirdBody N r = y := by
    intro y
    rw [trim_reactions_map, List.mem_map]
    constructor
    · rintro ⟨r, hr, rfl⟩
      rw [List.mem_filter, trimStep_isSome_iff] at hr
      exact ⟨r, hr.1, hr.2, rfl⟩
    · rintro ⟨r, hr, hs, rfl⟩
      exact ⟨r, by rw [List.mem_filter, trimStep_isSome_iff]; exact ⟨hr, hs⟩, rfl⟩
  have herase : ∀ r ∈ m.reactions, Survives m excl r → ∀ y,
      y ∈ (trim m excl f p).reactions.erase (filterThirdBody N r) ↔
        ∃ x ∈ m.reactions.erase r, Survives m excl x ∧ filterThirdBody N x = y := by
    intro r hr hs y
    rw [trim_reactions_map, mem_erase_map _
      (by rw [List.mem_filter, trimStep_isSome_iff]; exact ⟨hr, hs⟩)]
    constructor
    · rintro ⟨x, hx, h⟩
      rw [mem_filter_erase hs] at hx
      exact ⟨x, hx.1, hx.2, h⟩
    · rintro ⟨x, hx, h1, h2⟩
      exact ⟨x, (mem_filter_erase hs).2 ⟨hx, h1⟩, h2⟩
  have hrate : ∀ r, (filterThirdBody N r).rate = r.rate := fun r => (filterThirdBody_fields N r).2.2
  constructor
  · intro T
    constructor
    · intro r hr hs s q hq
      have h1 := T.orders _ ((hmem _).2 ⟨r, hr, hs, rfl⟩) s q (by rw [hrate]; exact hq)
      rw [hnames, hNeq, List.mem_filter] at h1
      simpa using h1.2
    · intro r hr hs hd
      obtain ⟨y, hy, hc⟩ := T.partner _ ((hmem _).2 ⟨r, hr, hs, rfl⟩) (by rw [hrate]; exact hd)
      obtain ⟨x, hx, h1, rfl⟩ := (herase r hr hs y).1 hy
      rw [hnames, clash_filter, hNeq] at hc
      exact ⟨x, hx, h1, hc⟩
  · rintro ⟨h1, h2⟩
    refine ⟨?_, (C03_closed m excl f p).1, ?_, ?_, ?_⟩
    · rw [hnames, hNeq]; exact L.nodup.filter _
    · intro y hy s q hq
      obtain ⟨r, hr, hs, rfl⟩ := (hmem y).1 hy
      rw [hrate] at hq
      rw [hnames, hNeq, List.mem_filter]
      exact ⟨L.orders r hr s q hq, by simpa using h1 r hr hs s q hq⟩
    · intro y hy y' hy' hc
      obtain ⟨r, hr, hs, rfl⟩ := (hmem y).1 hy
      obtain ⟨x, hx, -, rfl⟩ := (herase r hr hs y').1 hy'
      rw [hnames, clash_filter] at hc
      rw [hrate, hrate]
      exact L.declared r hr x hx (clash_mono (hc := hc) (by
        intro s hs; rw [hNeq, List.mem_filter] at hs; exact hs.1))
    · intro y hy hd
      obtain ⟨r, hr, hs, rfl⟩ := (hmem y).1 hy
      rw [hrate] at hd
      obtain ⟨x, hx, h3, hc⟩ := h2 r hr hs hd
      exact ⟨_, (herase r hr hs _).2 ⟨x, hx, h3, rfl⟩, by rw [hnames, clash_filter, hNeq]; exact hc⟩

/-- **C96** (partial): without reaction orders and declared duplicates trimming gives a loadable
model. -/
theorem C96_plain_partial (at' : Nat → Attrs) (m : Mech) (excl : List String) (f p : Text)
    (L : Loadable at' m)
    (h : ∀ r ∈ m.reactions, (at' r.rate).orders = [] ∧ (at' r.rate).dup = false) :
    Loadable at' (trim m excl f p) := by
  rw [C96_loadable_partial at' m excl f p L]
  refine ⟨fun r hr _ s q hq => ?_, fun r hr _ hd => ?_⟩
  · rw [(h r hr).1] at hq; cases hq
  · rw [(h r hr).2] at hd; cases hd

/-- **C96** is false: a kept reaction whose rate has an order in a removed species. -/
theorem C96_orders_refuted (at' : Nat → Attrs) (m : Mech) (excl : List String) (f p : Text)
    (L : Loadable at' m) {r : Reaction} (hr : r ∈ m.reactions) (hs : Survives m excl r) {s : String}
    {q : ℚ} (ho : (s, q) ∈ (at' r.rate).orders) (he : s ∈ excl) :
    ¬ Loadable at' (trim m excl f p) :=
  fun T => ((C96_loadable_partial at' m excl f p L).1 T).1 r hr hs s q ho he

/-- **C96** is false: removing the only collider of every partner of a declared duplicate leaves a
declared duplicate without a partner. -/
theorem C96_duplicate_refuted (at' : Nat → Attrs) (m : Mech) (excl : List String) (f p : Text)
    (L : Loadable at' m) {r : Reaction} (hr : r ∈ m.reactions) (hs : Survives m excl r)
    (hd : (at' r.rate).dup = true)
    (h : ∀ r' ∈ m.reactions.erase r, SameWay r r' ∨ Backwards r r' → ∃ s ∈ excl, SoleCollider r' s) :
    ¬ Loadable at' (trim m excl f p) := by
  intro T
  obtain ⟨x, hx, h1, h2⟩ := ((C96_loadable_partial at' m excl f p L).1 T).2 r hr hs hd
  obtain ⟨s, he, hc⟩ := h x hx (by
    rcases h2.2.1 with h3 | h3
    · exact Or.inl h3
    · exact Or.inr h3.1)
  exact h1.2 s hc he

/-! ### `H + O2 + M = HO2 + M` and `H + O2 + AR = HO2 + AR`, declared duplicates; argon is removed -/

/-- rates 1 and 2: a declared duplicate; rate 3: a global step slowed down by argon (order −1) -/
def ldAttrs : Nat → Attrs
  | 3 => ⟨[("H", 1), ("AR", -1)], false, false, 0⟩
  | _ => ⟨[], true, true, 1⟩

def ldMech : Mech :=
  { species := [⟨"H", 1⟩, ⟨"O2", 2⟩, ⟨"HO2", 3⟩, ⟨"AR", 4⟩]
    reactions :=
      [ ⟨[("H", 1), ("O2", 1)], [("HO2", 1)], some ⟨1, []⟩, 1⟩,
        ⟨[("H", 1), ("O2", 1)], [("HO2", 1)], some ⟨0, [("AR", 1)]⟩, 2⟩ ]
    transport := 0, tp := 0, name := "m".toList }

def ldMech3 : Mech :=
  { ldMech with reactions := [⟨[("H", 1), ("O2", 1)], [("HO2", 1)], none, 3⟩] }

theorem ldMech_loadable : Loadable ldAttrs ldMech := by
  have hsw : ∀ r r' : Reaction, r.reactants = r'.reactants → r.products = r'.products →
      SameWay r r' := fun r r' h1 h2 => ⟨1, one_pos, fun s => by simp [h1, h2]⟩
  refine ⟨by decide, ?_, ?_, ?_, ?_⟩
  · intro r hr s hs
    simp only [ldMech, List.mem_cons, List.not_mem_nil, or_false] at hr
    rcases hr with rfl | rfl <;>
      simp only [Mentions, HasEff, List.mem_cons, List.not_mem_nil, or_false, Prod.mk.injEq,
        Option.some.injEq, exists_eq_left'] at hs <;>
      rcases hs with (⟨c, hc⟩ | ⟨c, hc⟩) | ⟨c, hc⟩ <;>
      (try rcases hc with hc | hc) <;> simp_all [ldMech]
  · intro r hr s q hq
    simp only [ldMech, List.mem_cons, List.not_mem_nil, or_false] at hr
    rcases hr with rfl | rfl <;> simp [ldAttrs] at hq
  · intro r hr r' hr' _
    have hr2 := List.mem_of_mem_erase hr'
    simp only [ldMech, List.mem_cons, List.not_mem_nil, or_false] at hr hr2
    rcases hr with rfl | rfl <;> rcases hr2 with rfl | rfl <;> exact ⟨rfl, rfl⟩
  · intro r hr _
    simp only [ldMech, List.mem_cons, List.not_mem_nil, or_false] at hr
    rcases hr with rfl | rfl
    · refine ⟨⟨[("H", 1), ("O2", 1)], [("HO2", 1)], some ⟨0, [("AR", 1)]⟩, 2⟩, by decide +kernel,
        rfl, Or.inl (hsw _ _ rfl rfl), ?_⟩
      intro tb tb' h h'
      cases h; cases h'
      exact ⟨"AR", by decide, by decide +kernel⟩
    · refine ⟨⟨[("H", 1), ("O2", 1)], [("HO2", 1)], some ⟨1, []⟩, 1⟩, by decide +kernel,
        rfl, Or.inl (hsw _ _ rfl rfl), ?_⟩
      intro tb tb' h h'
      cases h; cases h'
      exact ⟨"AR", by decide, by decide +kernel⟩

theorem ldMech3_loadable : Loadable ldAttrs ldMech3 := by
  refine ⟨by decide, ?_, ?_, ?_, ?_⟩
  · intro r hr s hs
    simp only [ldMech3, List.mem_cons, List.not_mem_nil, or_false] at hr
    subst hr
    simp only [Mentions, HasEff, List.mem_cons, List.not_mem_nil, or_false, Prod.mk.injEq,
      reduceCtorEq, false_and, exists_false] at hs
    rcases hs with ⟨c, hc⟩ | ⟨c, hc⟩ <;> (try rcases hc with hc | hc) <;>
      simp_all [ldMech3, ldMech]
  · intro r hr s q hq
    simp only [ldMech3, List.mem_cons, List.not_mem_nil, or_false] at hr
    subst hr
    simp only [ldAttrs, List.mem_cons, Prod.mk.injEq, List.not_mem_nil, or_false] at hq
    rcases hq with hq | hq <;> rw [hq.1] <;> decide
  · intro r hr r' hr' _
    simp only [ldMech3, List.mem_cons, List.not_mem_nil, or_false] at hr
    subst hr
    simp [ldMech3] at hr'
  · intro r hr hd
    simp only [ldMech3, List.mem_cons, List.not_mem_nil, or_false] at hr
    subst hr
    simp [ldAttrs] at hd

/-- argon is removed: the first reaction stays a declared duplicate, its partner is gone -/
example : ¬ Loadable ldAttrs (trim ldMech ["AR"] [] []) := by
  refine C96_duplicate_refuted ldAttrs ldMech ["AR"] [] [] ldMech_loadable
    (r := ⟨[("H", 1), ("O2", 1)], [("HO2", 1)], some ⟨1, []⟩, 1⟩) (by simp [ldMech]) ?_ rfl ?_
  · refine ⟨fun s hs => ?_, fun s hs => ?_⟩
    · simp only [Mentions, List.mem_cons, List.not_mem_nil, or_false, Prod.mk.injEq] at hs
      refine ⟨?_, ?_⟩ <;> rcases hs with ⟨c, hc | hc⟩ | ⟨c, hc⟩ <;> simp [hc.1, ldMech]
    · obtain ⟨tb, h, -, q, h2⟩ := hs
      cases h; cases h2
  · intro r' hr' _
    have : r' = ⟨[("H", 1), ("O2", 1)], [("HO2", 1)], some ⟨0, [("AR", 1)]⟩, 2⟩ := by
      simpa [ldMech] using hr'
    subst this
    exact ⟨"AR", by simp, ⟨0, [("AR", 1)]⟩, rfl, rfl, 1, rfl⟩

/-- the order in argon outlives argon -/
example : ¬ Loadable ldAttrs (trim ldMech3 ["AR"] [] []) := by
  refine C96_orders_refuted ldAttrs ldMech3 ["AR"] [] [] ldMech3_loadable
    (r := ⟨[("H", 1), ("O2", 1)], [("HO2", 1)], none, 3⟩) (by simp [ldMech3]) ?_
    (s := "AR") (q := -1) (by simp [ldAttrs]) (by simp)
  refine ⟨fun s hs => ?_, fun s hs => ?_⟩
  · simp only [Mentions, List.mem_cons, List.not_mem_nil, or_false, Prod.mk.injEq] at hs
    refine ⟨?_, ?_⟩ <;> rcases hs with ⟨c, hc | hc⟩ | ⟨c, hc⟩ <;> simp [hc.1, ldMech, ldMech3]
  · obtain ⟨tb, h, -⟩ := hs
    cases h

/-- removing hydrogen removes both duplicates, and the rest can be loaded -/
example : Loadable ldAttrs (trim ldMech ["H"] [] []) := by
  rw [C96_loadable_partial ldAttrs ldMech ["H"] [] [] ldMech_loadable]
  have : ∀ r ∈ ldMech.reactions, ¬ Survives ldMech ["H"] r := by
    intro r hr hs
    simp only [ldMech, List.mem_cons, List.not_mem_nil, or_false] at hr
    rcases hr with rfl | rfl <;> exact (hs.1 "H" (Or.inl ⟨1, by simp⟩)).2 (by simp)
  exact ⟨fun r hr hs => absurd hs (this r hr), fun r hr hs => absurd hs (this r hr)⟩

end Verif
