import Verif.Lemmas.Kinetics
/-!
# C137: what a reduced model means

The rate equations of a trimmed model, compared with those of the full model where the
removed species are absent.
-/
namespace Verif
open Spec

open Classical in
/-- **C137.** Every reaction that is kept runs, where the removed species are absent, at the
rate it has in the full model, under any law: the same participants, the same data and the
same third-body concentration. -/
theorem C137_rates (m : Mech) (excl : List String) (f p : Text) :
    List.Forall₂ (fun r r' => ∀ (K : Law) (c : String → ℝ), Absent c excl →
        progress K (trim m excl f p) c r' = progress K m c r ∧ ∀ s, gain r' s = gain r s)
      (m.reactions.filter (fun r => decide (Survives m excl r)))
      (trim m excl f p).reactions := by
  rw [trim_reactions_survive, List.forall₂_map_right_iff, List.forall₂_same]
  intro r hr K c hc
  have hs : Survives m excl r := by simpa using (List.mem_filter.1 hr).2
  exact ⟨progress_trim K m excl f p c hc r fun s h => (hs.1 s h).2,
    fun s => gain_filterThirdBody _ r s⟩

open Classical in
/-- **C137.** The right-hand side of the rate equations of the reduced model is that of the
full one less the reactions that need a removed species. -/
theorem C137_production (K : Law) (m : Mech) (excl : List String) (f p : Text)
    (c : String → ℝ) (hc : Absent c excl) (s : String) :
    production K m c s = production K (trim m excl f p) c s +
      productionBy K m c (m.reactions.filter (fun r => decide (¬ Survives m excl r))) s := by
  unfold production
  have h : productionBy K (trim m excl f p) c (trim m excl f p).reactions s =
      productionBy K m c (m.reactions.filter (fun r => decide (Survives m excl r))) s := by
    unfold productionBy
    rw [trim_reactions_survive, List.map_map]
    congr 1
    apply List.map_congr_left
    intro r hr
    have hs : Survives m excl r := by simpa using (List.mem_filter.1 hr).2
    simp only [Function.comp]
    rw [progress_trim K m excl f p c hc r fun s h => (hs.1 s h).2, gain_filterThirdBody]
  rw [h]
  exact sum_split m.reactions (Survives m excl) _

/-- **C137.** If the reactions that need a removed species stand still while it is absent,
removing it loses nothing: the trajectories of the reduced model are those of the full
model in which the removed species are absent. -/
theorem C137_trajectories (K : ℝ → Law) (m : Mech) (excl : List String) (f p : Text)
    (hidle : ∀ t c, Absent c excl → ∀ r ∈ m.reactions, ¬ Survives m excl r →
      progress (K t) m c r = 0)
    (c : ℝ → String → ℝ) (hc : ∀ t, Absent (c t) excl) :
    Follows K (trim m excl f p) c ↔ Follows K m c := by
  classical
  have h : ∀ t s, production (K t) m (c t) s = production (K t) (trim m excl f p) (c t) s := by
    intro t s
    rw [C137_production (K t) m excl f p (c t) (hc t) s]
    have h0 : productionBy (K t) m (c t)
        (m.reactions.filter (fun r => decide (¬ Survives m excl r))) s = 0 := by
      unfold productionBy
      apply List.sum_eq_zero
      intro x hx
      obtain ⟨r, hr, rfl⟩ := List.mem_map.1 hx
      have hm := List.mem_filter.1 hr
      rw [hidle t (c t) (hc t) r hm.1 (by simpa using hm.2), mul_zero]
    rw [h0, add_zero]
  unfold Follows
  constructor <;> intro hf t s
  · rw [h]; exact hf t s
  · rw [← h]; exact hf t s

/-- A product of concentrations with an absent participant is zero. -/
theorem prod_touched (m : Mech) (excl : List String) (c : String → ℝ) (hc : Absent c excl)
    (pw : ℝ → ℚ → ℝ) (hpw : ∀ q, 0 < q → pw 0 q = 0) (l : List (String × ℚ))
    (hl : ∀ e ∈ l, 0 < e.2) (ht : Touches excl l) :
    ((parts m c l).map fun e => pw e.2.2 e.1).prod = 0 := by
  obtain ⟨s, hs, q, hq⟩ := ht
  apply List.prod_eq_zero
  unfold parts
  rw [List.map_map, List.mem_map]
  exact ⟨(s, q), hq, by simp [hc s hs, hpw q (hl _ hq)]⟩

/-- The sole collider being absent, there is no third body. -/
theorem bath_sole (m : Mech) (excl : List String) (c : String → ℝ) (hc : Absent c excl)
    (tb : ThirdBody) (s : String) (q : ℚ) (h0 : tb.defaultEff = 0) (he : tb.effs = [(s, q)])
    (hs : s ∈ excl) : bathOf m c tb = 0 := by
  unfold bathOf
  apply List.sum_eq_zero
  intro x hx
  obtain ⟨sp, -, rfl⟩ := List.mem_map.1 hx
  by_cases h : sp.name = s
  · rw [h, hc s hs, mul_zero]
  · have hb : (sp.name == s) = false := by simpa using h
    simp [effOf, he, h0, List.lookup_cons, hb]

open Classical in
/-- **C137.** Under irreversible mass action the reduced model lacks exactly the reactions
that make a removed species out of species that stay. -/
theorem C137_leaks (kf : Nat → List (Option Nat) → List (Option Nat) → ℝ)
    (pw : ℝ → ℚ → ℝ) (hpw : ∀ q, 0 < q → pw 0 q = 0)
    (m : Mech) (hm : Closed m) (hp : PositiveCoeffs m) (excl : List String) (f p : Text)
    (c : String → ℝ) (hc : Absent c excl) (s : String) :
    production (massAction kf (fun _ _ _ => 0) pw) m c s =
      production (massAction kf (fun _ _ _ => 0) pw) (trim m excl f p) c s +
      productionBy (massAction kf (fun _ _ _ => 0) pw) m c
        (m.reactions.filter (fun r => decide (Leaks excl r))) s := by
  rw [C137_production _ m excl f p c hc s]
  congr 1
  unfold productionBy
  rw [sum_split (m.reactions.filter _) (Leaks excl)]
  have hz : ((List.filter (fun a => decide (¬ Leaks excl a))
      (List.filter (fun r => decide (¬ Survives m excl r)) m.reactions)).map fun r =>
        (gain r s : ℝ) * progress (massAction kf (fun _ _ _ => 0) pw) m c r).sum = 0 := by
    apply List.sum_eq_zero
    intro x hx
    obtain ⟨r, hr, rfl⟩ := List.mem_map.1 hx
    have h1 := List.mem_filter.1 hr
    have h2 := List.mem_filter.1 h1.1
    have hl : ¬ Leaks excl r := by simpa using h1.2
    have hs : ¬ Survives m excl r := by simpa using h2.2
    have : progress (massAction kf (fun _ _ _ => 0) pw) m c r = 0 := by
      by_cases hsole : ∃ s, SoleCollider r s ∧ s ∈ excl
      · obtain ⟨s, ⟨tb, htb, h0, q, he⟩, hse⟩ := hsole
        unfold progress massAction
        rw [htb]
        simp [bath_sole m excl c hc tb s q h0 he hse]
      · have hso : ∀ s, SoleCollider r s → s ∉ excl := fun s h he => hsole ⟨s, h, he⟩
        have htr : Touches excl r.reactants := by
          by_contra hn
          apply hs
          refine ⟨fun s hms => ⟨hm r h2.1 s (Or.inl hms), fun hse => ?_⟩, hso⟩
          rcases hms with ⟨q, hq⟩ | ⟨q, hq⟩
          · exact hn ⟨s, hse, q, hq⟩
          · exact hl ⟨hn, ⟨s, hse, q, hq⟩, hso⟩
        unfold progress massAction
        simp only []
        rw [prod_touched m excl c hc pw hpw _ (hp r h2.1).1 htr]
        simp
    rw [this, mul_zero]
  rw [hz, add_zero]
  congr 2
  rw [List.filter_filter]
  apply List.filter_congr
  intro r hr
  rw [Bool.eq_iff_iff]
  simp only [Bool.and_eq_true, decide_eq_true_eq]
  constructor
  · exact fun h => h.1
  · intro h
    refine ⟨h, fun hs => ?_⟩
    obtain ⟨s, hse, q, hq⟩ := h.2.1
    exact (hs.1 s (Or.inr ⟨q, hq⟩)).2 hse

/-- **C137.** Under reversible mass action nothing is lost if every reaction that mentions a
removed species has one on both sides, or a removed species as its only collider. -/
theorem C137_exact (kf kr : ℝ → Nat → List (Option Nat) → List (Option Nat) → ℝ)
    (pw : ℝ → ℚ → ℝ) (hpw : ∀ q, 0 < q → pw 0 q = 0)
    (m : Mech) (hm : Closed m) (hp : PositiveCoeffs m) (excl : List String) (f p : Text)
    (hb : ∀ r ∈ m.reactions, (Touches excl r.reactants ↔ Touches excl r.products))
    (c : ℝ → String → ℝ) (hc : ∀ t, Absent (c t) excl) :
    Follows (fun t => massAction (kf t) (kr t) pw) (trim m excl f p) c ↔
      Follows (fun t => massAction (kf t) (kr t) pw) m c := by
  apply C137_trajectories
  · intro t c hc r hr hs
    by_cases hsole : ∃ s, SoleCollider r s ∧ s ∈ excl
    · obtain ⟨s, ⟨tb, htb, h0, q, he⟩, hse⟩ := hsole
      unfold progress massAction
      rw [htb]
      simp [bath_sole m excl c hc tb s q h0 he hse]
    · have hso : ∀ s, SoleCollider r s → s ∉ excl := fun s h he => hsole ⟨s, h, he⟩
      have htr : Touches excl r.reactants := by
        by_contra hn
        apply hs
        refine ⟨fun s hms => ⟨hm r hr s (Or.inl hms), fun hse => ?_⟩, hso⟩
        rcases hms with ⟨q, hq⟩ | ⟨q, hq⟩
        · exact hn ⟨s, hse, q, hq⟩
        · exact hn ((hb r hr).2 ⟨s, hse, q, hq⟩)
      unfold progress massAction
      rw [prod_touched m excl c hc pw hpw _ (hp r hr).1 htr,
        prod_touched m excl c hc pw hpw _ (hp r hr).2 ((hb r hr).1 htr)]
      simp
  · exact hc

/-- H + A = B with a third body, B = A with argon as the only collider, and a reaction with
argon among the listed efficiencies. -/
def exRates : Mech :=
  { species := [⟨"H", 1⟩, ⟨"A", 2⟩, ⟨"B", 3⟩, ⟨"AR", 4⟩]
    reactions := [⟨[("H", 1), ("A", 1)], [("B", 1)], some ⟨1, [("AR", 1/2)]⟩, 0⟩,
      ⟨[("B", 1)], [("A", 1)], some ⟨0, [("AR", 1)]⟩, 1⟩,
      ⟨[("B", 1)], [("H", 2)], none, 2⟩]
    transport := 0, tp := 0, name := [] }

theorem exRates_closed : Closed exRates := by
  intro r hr s hs
  simp only [exRates, List.mem_cons, List.not_mem_nil, or_false] at hr
  rcases hr with rfl | rfl | rfl <;>
    simp only [Mentions, HasEff, List.mem_cons, List.not_mem_nil, or_false, Prod.mk.injEq,
      Option.some.injEq, reduceCtorEq, false_and, exists_eq_left'] at hs <;>
    rcases hs with (⟨c, hc⟩ | ⟨c, hc⟩) | ⟨c, hc⟩ <;>
    (try rcases hc with hc | hc) <;> simp_all [exRates]

theorem exRates_positive : PositiveCoeffs exRates := by
  intro r hr
  simp only [exRates, List.mem_cons, List.not_mem_nil, or_false] at hr
  rcases hr with rfl | rfl | rfl <;> simp

/-- Not vacuous: argon takes part in no reaction but as a collider; one of the three reactions
is dropped and the efficiency in another, and every trajectory without argon is unchanged. -/
example (kf kr : ℝ → Nat → List (Option Nat) → List (Option Nat) → ℝ)
    (pw : ℝ → ℚ → ℝ) (hpw : ∀ q, 0 < q → pw 0 q = 0) (c : ℝ → String → ℝ)
    (hc : ∀ t, c t "AR" = 0) :
    (trim exRates ["AR"] [] []).reactions =
        [⟨[("H", 1), ("A", 1)], [("B", 1)], some ⟨1, []⟩, 0⟩,
          ⟨[("B", 1)], [("H", 2)], none, 2⟩] ∧
    (Follows (fun t => massAction (kf t) (kr t) pw) (trim exRates ["AR"] [] []) c ↔
      Follows (fun t => massAction (kf t) (kr t) pw) exRates c) := by
  refine ⟨by decide +kernel, ?_⟩
  apply C137_exact kf kr pw hpw exRates exRates_closed exRates_positive
  · intro r hr
    simp only [exRates, List.mem_cons, List.not_mem_nil, or_false] at hr
    rcases hr with rfl | rfl | rfl <;> simp [Touches]
  · intro t s hs
    simp only [List.mem_singleton] at hs
    subst hs; exact hc t

/-- Not vacuous: with B removed the first reaction leaks, the other two do not. -/
example : Leaks ["B"] ⟨[("H", 1), ("A", 1)], [("B", 1)], some ⟨1, [("AR", 1/2)]⟩, 0⟩ ∧
    ¬ Leaks ["B"] ⟨[("B", 1)], [("A", 1)], some ⟨0, [("AR", 1)]⟩, 1⟩ ∧
    ¬ Leaks ["B"] ⟨[("B", 1)], [("H", 2)], none, 2⟩ := by
  refine ⟨⟨by simp [Touches], by simp [Touches], ?_⟩, fun h => h.1 (by simp [Touches]),
    fun h => h.1 (by simp [Touches])⟩
  rintro s ⟨tb, htb, h0, -⟩
  simp only [Option.some.injEq] at htb
  subst htb
  simp at h0

end Verif
