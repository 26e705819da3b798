import Mathlib.Tactic.Ring
import Mathlib.Tactic.Linarith
import Verif.Spec.Kinetics
import Verif.Lemmas.Trim
/-!
# Rates in a trimmed model
-/
namespace Verif
open Spec

theorem lookup_filter_key {α} (p : String → Bool) (s : String) (hs : p s = true)
    (l : List (String × α)) :
    (l.filter (fun e => p e.1)).lookup s = l.lookup s := by
  induction l with
  | nil => rfl
  | cons e l ih =>
    obtain ⟨k, v⟩ := e
    by_cases hk : s = k
    · subst hk
      simp [List.filter_cons, hs, List.lookup_cons]
    · have hb : (s == k) = false := by simpa using hk
      by_cases hp : p k = true
      · simp [List.filter_cons, hp, List.lookup_cons, hb, ih]
      · simp [List.filter_cons, hp, List.lookup_cons, hb, ih]

theorem thermoOf_trim (m : Mech) (excl : List String) (f p : Text) (s : String)
    (hs : s ∉ excl) : thermoOf (trim m excl f p) s = thermoOf m s := by
  unfold thermoOf
  rw [trim_species]
  unfold finalSpecies
  rw [List.find?_filter]
  congr 1
  apply congrArg (fun q => List.find? q m.species)
  funext sp
  by_cases h : sp.name = s
  · subst h; simp [hs]
  · have : (sp.name == s) = false := by simpa using h
    simp [this]

theorem bath_species (excl : List String) (c : String → ℝ) (hc : Absent c excl)
    (g : String → ℝ) (l : List Species) :
    ((l.filter (fun sp => !(excl.contains sp.name))).map fun sp => g sp.name * c sp.name).sum
      = (l.map fun sp => g sp.name * c sp.name).sum := by
  induction l with
  | nil => rfl
  | cons sp l ih =>
    by_cases h : sp.name ∈ excl
    · rw [List.filter_cons_of_neg (by simp [h]), List.map_cons, List.sum_cons, ih,
        hc _ h, mul_zero, zero_add]
    · have hx : (!(excl.contains sp.name)) = true := by simpa using h
      rw [List.filter_cons_of_pos (p := fun sp : Species => !(excl.contains sp.name)) hx,
        List.map_cons, List.sum_cons, List.map_cons, List.sum_cons, ih]

theorem filterThirdBody_sides (names : List String) (r : Reaction) :
    (filterThirdBody names r).reactants = r.reactants ∧
    (filterThirdBody names r).products = r.products ∧
    (filterThirdBody names r).rate = r.rate := by
  unfold filterThirdBody; split <;> exact ⟨rfl, rfl, rfl⟩

theorem gain_filterThirdBody (names : List String) (r : Reaction) (s : String) :
    gain (filterThirdBody names r) s = gain r s := by
  unfold gain
  rw [(filterThirdBody_sides names r).1, (filterThirdBody_sides names r).2.1]

theorem parts_congr (m m' : Mech) (c : String → ℝ) (l : List (String × ℚ))
    (h : ∀ e ∈ l, thermoOf m' e.1 = thermoOf m e.1) : parts m' c l = parts m c l := by
  unfold parts
  apply List.map_congr_left
  intro e he
  rw [h e he]

theorem bath_trim (m : Mech) (excl : List String) (f p : Text) (c : String → ℝ)
    (hc : Absent c excl) (tb : ThirdBody) :
    bathOf (trim m excl f p) c
      ⟨tb.defaultEff, tb.effs.filter
          (fun e => ((finalSpecies m excl).map (·.name)).contains e.1)⟩ = bathOf m c tb := by
  have key := bath_species excl c hc (fun s => (effOf tb s : ℝ)) m.species
  unfold bathOf
  rw [trim_species, ← key]
  unfold finalSpecies
  congr 1
  apply List.map_congr_left
  intro sp hsp
  congr 2
  unfold effOf
  rw [lookup_filter_key (fun s => ((m.species.filter
    (fun sp => !(excl.contains sp.name))).map (·.name)).contains s)]
  rw [List.contains_iff_mem]
  exact List.mem_map_of_mem hsp

theorem progress_trim (K : Law) (m : Mech) (excl : List String) (f p : Text) (c : String → ℝ)
    (hc : Absent c excl) (r : Reaction) (hr : ∀ s, Mentions r s → s ∉ excl) :
    progress K (trim m excl f p) c (filterThirdBody ((finalSpecies m excl).map (·.name)) r) =
      progress K m c r := by
  obtain ⟨h1, h2, h3⟩ := filterThirdBody_sides ((finalSpecies m excl).map (·.name)) r
  unfold progress
  rw [h1, h2, h3]
  rw [parts_congr m (trim m excl f p) c r.reactants fun e he =>
      thermoOf_trim m excl f p _ (hr _ (Or.inl ⟨_, he⟩)),
    parts_congr m (trim m excl f p) c r.products fun e he =>
      thermoOf_trim m excl f p _ (hr _ (Or.inr ⟨_, he⟩))]
  congr 1
  unfold filterThirdBody
  rcases htb : r.thirdBody with _ | tb
  · simp [htb]
  · simp only [Option.map_some]
    rw [bath_trim m excl f p c hc tb]

open Classical in
theorem trim_reactions_survive (m : Mech) (excl : List String) (f p : Text) :
    (trim m excl f p).reactions =
      (m.reactions.filter (fun r => decide (Survives m excl r))).map
        (filterThirdBody ((finalSpecies m excl).map (·.name))) := by
  rw [trim_reactions, filterMap_eq_map_filter _ _ (trimStep_eq_some _ _)]
  congr 1
  apply List.filter_congr
  intro r _
  rw [Bool.eq_iff_iff, decide_eq_true_iff]
  exact trimStep_isSome_iff m excl r

theorem sum_split {α} (l : List α) (q : α → Prop) [DecidablePred q] (g : α → ℝ) :
    (l.map g).sum = ((l.filter (fun a => decide (q a))).map g).sum +
      ((l.filter (fun a => decide (¬ q a))).map g).sum := by
  induction l with
  | nil => simp
  | cons a l ih =>
    by_cases h : q a
    · simp [h] at ih ⊢; rw [ih]; ring
    · simp [h] at ih ⊢; rw [ih]; ring

end Verif
