import Verif.Spec.Load
import Verif.Lemmas.Trim
/-! # Loading a trimmed model -/
namespace Verif
open Spec

theorem filterThirdBody_fields (N : List String) (r : Reaction) :
    (filterThirdBody N r).reactants = r.reactants ∧ (filterThirdBody N r).products = r.products ∧
    (filterThirdBody N r).rate = r.rate := by
  unfold filterThirdBody; split <;> exact ⟨rfl, rfl, rfl⟩

theorem lookup_filter_mem (N : List String) (s : String) (hs : s ∈ N) (l : List (String × ℚ)) :
    (l.filter (fun e => N.contains e.1)).lookup s = l.lookup s := by
  induction l with
  | nil => rfl
  | cons e l ih =>
    by_cases he : e.1 ∈ N
    · rw [List.filter_cons_of_pos (by simpa using he), List.lookup_cons, List.lookup_cons, ih]
    · rw [List.filter_cons_of_neg (by simpa using he), ih, List.lookup_cons]
      have : (s == e.1) = false := by
        rw [beq_eq_false_iff_ne]; rintro rfl; exact he hs
      rw [this]

/-- after trimming, the collider test sees the same efficiencies for the species that are left -/
theorem clash_filter (at' : Nat → Attrs) (N : List String) (r r' : Reaction) :
    Clash at' N (filterThirdBody N r) (filterThirdBody N r') ↔ Clash at' N r r' := by
  obtain ⟨a1, a2, a3⟩ := filterThirdBody_fields N r
  obtain ⟨b1, b2, b3⟩ := filterThirdBody_fields N r'
  have key : ∀ x : Reaction, ∀ tb, x.thirdBody = some tb →
      ∃ tb', (filterThirdBody N x).thirdBody = some tb' ∧ ∀ s ∈ N, efficiency tb' s = efficiency tb s := by
    intro x tb hx
    refine ⟨{ tb with effs := tb.effs.filter (fun e => N.contains e.1) }, by
      simp [filterThirdBody, hx], fun s hs => ?_⟩
    unfold efficiency
    dsimp only
    rw [lookup_filter_mem N s hs]
  have none : ∀ x : Reaction, x.thirdBody = none → (filterThirdBody N x).thirdBody = none := by
    intro x hx; simp [filterThirdBody, hx]
  unfold Clash SameWay Backwards
  rw [a1, a2, a3, b1, b2, b3]
  refine and_congr_right fun _ => and_congr_right fun _ => ?_
  rcases hx : r.thirdBody with _ | tb
  · rw [none r hx]; simp
  obtain ⟨t1, e1, f1⟩ := key r tb hx
  rcases hy : r'.thirdBody with _ | tb'
  · rw [none r' hy]; simp
  obtain ⟨t2, e2, f2⟩ := key r' tb' hy
  rw [e1, e2]
  constructor
  · intro h u v hu hv
    cases hu; cases hv
    obtain ⟨s, hs, hne⟩ := h t1 t2 rfl rfl
    exact ⟨s, hs, by rwa [f1 s hs, f2 s hs] at hne⟩
  · intro h u v hu hv
    cases hu; cases hv
    obtain ⟨s, hs, hne⟩ := h tb tb' rfl rfl
    exact ⟨s, hs, by rwa [f1 s hs, f2 s hs]⟩

theorem clash_mono {at' : Nat → Attrs} {N N' : List String} {r r' : Reaction} (h : ∀ s ∈ N, s ∈ N')
    (hc : Clash at' N r r') : Clash at' N' r r' :=
  ⟨hc.1, hc.2.1, fun tb tb' h1 h2 => by
    obtain ⟨s, hs, hne⟩ := hc.2.2 tb tb' h1 h2
    exact ⟨s, h s hs, hne⟩⟩

/-- the other reactions of a mapped list -/
theorem mem_erase_map {α β : Type} [DecidableEq α] [DecidableEq β] (g : α → β) {l : List α} {a : α}
    (ha : a ∈ l) (y : β) : y ∈ (l.map g).erase (g a) ↔ ∃ x ∈ l.erase a, g x = y := by
  have h1 : (l.map g).Perm (g a :: (l.erase a).map g) := (List.perm_cons_erase ha).map g
  have h2 := h1.erase (g a)
  rw [List.erase_cons_head] at h2
  rw [h2.mem_iff, List.mem_map]

/-- trimming as a choice of reactions followed by dropping efficiencies -/
theorem trim_reactions_map (m : Mech) (excl : List String) (f p : Text) :
    (trim m excl f p).reactions =
      (m.reactions.filter (fun r => (trimStep excl ((finalSpecies m excl).map (·.name)) r).isSome)).map
        (filterThirdBody ((finalSpecies m excl).map (·.name))) := by
  rw [trim_reactions, filterMap_eq_map_filter _ _ (fun x y h => trimStep_eq_some _ _ _ _ h)]

theorem mem_filter_erase {m : Mech} {excl : List String} {r x : Reaction} (hs : Survives m excl r) :
    x ∈ (m.reactions.filter
        (fun r => (trimStep excl ((finalSpecies m excl).map (·.name)) r).isSome)).erase r ↔
      x ∈ m.reactions.erase r ∧ Survives m excl x := by
  rw [List.erase_filter, List.mem_filter, trimStep_isSome_iff]

end Verif
