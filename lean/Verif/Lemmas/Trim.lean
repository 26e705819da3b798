import Verif.Spec.Trim
import Mathlib.Data.List.Forall2
import Mathlib.Tactic.Common
namespace Verif
open Spec

/-- one iteration of the reaction loop as an option -/
def trimStep (excl names : List String) (r : Reaction) : Option Reaction :=
  if skipExplicitThirdBody excl r then none
  else if allSpeciesKept names r then some (filterThirdBody names r) else none

theorem reactionLoop_eq (excl names : List String) (rs acc : List Reaction) :
    reactionLoop excl names acc rs = acc ++ rs.filterMap (trimStep excl names) := by
  induction rs generalizing acc with
  | nil => simp [reactionLoop]
  | cons r rs ih =>
    simp only [reactionLoop, List.filterMap_cons, trimStep]
    split_ifs with h1 h2 <;> simp_all

theorem mem_finalNames (m : Mech) (excl : List String) (s : String) :
    s ∈ (finalSpecies m excl).map (·.name) ↔ Stays m excl s := by
  simp only [finalSpecies, List.mem_map, List.mem_filter, Stays]
  constructor
  · rintro ⟨sp, ⟨h1, h2⟩, rfl⟩
    exact ⟨⟨sp, h1, rfl⟩, by simpa using h2⟩
  · rintro ⟨⟨sp, h1, rfl⟩, h2⟩
    exact ⟨sp, ⟨h1, by simpa using h2⟩, rfl⟩

theorem skip_iff (excl : List String) (r : Reaction) :
    skipExplicitThirdBody excl r = true ↔ ∃ s ∈ excl, SoleCollider r s := by
  unfold skipExplicitThirdBody SoleCollider
  rcases htb : r.thirdBody with _ | tb
  · simp
  · simp only [Option.some.injEq]
    by_cases h0 : tb.defaultEff = 0
    · rcases he : tb.effs with _ | ⟨e, _ | ⟨e2, es⟩⟩
      · simp [h0, he]
      · simp only [h0, beq_self_eq_true, if_true, List.contains_iff_mem]
        constructor
        · intro h; exact ⟨e.1, h, tb, rfl, h0, e.2, by simp [he]⟩
        · rintro ⟨s, hs, tb', rfl, -, q, hq⟩
          rw [he] at hq; simp only [List.cons.injEq, and_true] at hq; subst hq; exact hs
      · simp only [h0, beq_self_eq_true, if_true, Bool.false_eq_true, false_iff]
        rintro ⟨s, hs, tb', rfl, -, q, hq⟩
        rw [he] at hq; simp at hq
    · simp only [beq_iff_eq, h0, if_false, Bool.false_eq_true, false_iff]
      rintro ⟨s, hs, tb', rfl, h, -⟩
      exact h0 h

theorem allKept_iff (names : List String) (r : Reaction) :
    allSpeciesKept names r = true ↔ ∀ s, Mentions r s → s ∈ names := by
  unfold allSpeciesKept Mentions
  simp only [List.all_append, Bool.and_eq_true, List.all_eq_true, List.mem_map,
    List.contains_iff_mem]
  constructor
  · rintro ⟨h1, h2⟩ s (⟨c, hc⟩ | ⟨c, hc⟩)
    · exact h2 s ⟨(s, c), hc, rfl⟩
    · exact h1 s ⟨(s, c), hc, rfl⟩
  · intro h
    refine ⟨?_, ?_⟩
    · rintro s ⟨⟨a, c⟩, hc, rfl⟩; exact h _ (Or.inr ⟨c, hc⟩)
    · rintro s ⟨⟨a, c⟩, hc, rfl⟩; exact h _ (Or.inl ⟨c, hc⟩)

theorem trimStep_isSome_iff (m : Mech) (excl : List String) (r : Reaction) :
    (trimStep excl ((finalSpecies m excl).map (·.name)) r).isSome ↔ Survives m excl r := by
  have h1 := skip_iff excl r
  have h2 := allKept_iff ((finalSpecies m excl).map (·.name)) r
  simp only [mem_finalNames] at h2
  unfold trimStep Survives
  constructor
  · intro h
    split_ifs at h with a b
    · simp at h
    · exact ⟨h2.1 b, fun s hs hx => a (h1.2 ⟨s, hx, hs⟩)⟩
    · simp at h
  · rintro ⟨a, b⟩
    have : ¬ skipExplicitThirdBody excl r = true := by
      intro h; obtain ⟨s, hs, hc⟩ := h1.1 h; exact b s hc hs
    simp [this, h2.2 a]

theorem trimStep_eq_some (excl names : List String) (r r' : Reaction) :
    trimStep excl names r = some r' →
      r' = filterThirdBody names r := by
  unfold trimStep
  intro h
  split_ifs at h
  simpa using h.symm

theorem filterThirdBody_same (m : Mech) (excl : List String) (r : Reaction) :
    SameButEff m excl r (filterThirdBody ((finalSpecies m excl).map (·.name)) r) := by
  classical
  unfold SameButEff filterThirdBody
  rcases htb : r.thirdBody with _ | tb
  · simp [htb]
  · refine ⟨rfl, rfl, rfl, by simp, ?_⟩
    intro tb' h
    obtain rfl : tb = tb' := by simpa using h
    refine ⟨_, rfl, rfl, List.filter_sublist, ?_⟩
    intro e
    have := mem_finalNames m excl e.1
    by_cases hs : Stays m excl e.1
    · simp only [hs, iff_true] at this
      rw [if_pos hs]
      exact List.count_filter (by simpa using this)
    · simp only [hs, iff_false] at this
      rw [if_neg hs, List.count_eq_zero]
      intro h'
      exact this (by simpa using (List.mem_filter.1 h').2)

end Verif

namespace Verif
open Spec

theorem trim_species (m : Mech) (excl : List String) (f p : Text) :
    (trim m excl f p).species = finalSpecies m excl := rfl

theorem trim_reactions (m : Mech) (excl : List String) (f p : Text) :
    (trim m excl f p).reactions =
      m.reactions.filterMap (trimStep excl ((finalSpecies m excl).map (·.name))) := by
  simp [trim, reactionLoop_eq]

theorem filterMap_eq_map_filter {α β} (f : α → Option β) (g : α → β)
    (h : ∀ x y, f x = some y → y = g x) (l : List α) :
    l.filterMap f = (l.filter (fun x => (f x).isSome)).map g := by
  induction l with
  | nil => rfl
  | cons a l ih =>
    rcases hf : f a with _ | y
    · simp [hf, ih]
    · simp [hf, ih, h a y hf]

theorem filterThirdBody_mentions (names : List String) (r : Reaction) (s : String) :
    Mentions (filterThirdBody names r) s ↔ Mentions r s := by
  unfold filterThirdBody Mentions; split <;> rfl

theorem filterThirdBody_hasEff (names : List String) (r : Reaction) (s : String) :
    HasEff (filterThirdBody names r) s ↔ HasEff r s ∧ s ∈ names := by
  unfold filterThirdBody HasEff
  rcases htb : r.thirdBody with _ | tb
  · simp [htb]
  · simp only [Option.some.injEq, List.contains_eq_mem]
    constructor
    · rintro ⟨_, rfl, q, hq⟩
      simp only [List.mem_filter, decide_eq_true_eq] at hq
      exact ⟨⟨tb, rfl, q, hq.1⟩, hq.2⟩
    · rintro ⟨⟨_, rfl, q, hq⟩, hs⟩
      exact ⟨_, rfl, q, by simp [List.mem_filter, hq, hs]⟩

theorem stays_append (m : Mech) (a b : List String) (s : String) :
    Stays m (a ++ b) s ↔ Stays m a s ∧ s ∉ b := by
  simp only [Stays, List.mem_append, not_or]; tauto

theorem finalSpecies_append (m : Mech) (a b : List String) (f p : Text) :
    finalSpecies (trim m a f p) b = finalSpecies m (a ++ b) := by
  simp [finalSpecies, trim, List.filter_filter, Bool.and_comm]

theorem filterThirdBody_twice (N N' : List String) (h : ∀ s ∈ N', s ∈ N) (r : Reaction) :
    filterThirdBody N' (filterThirdBody N r) = filterThirdBody N' r := by
  unfold filterThirdBody
  rcases htb : r.thirdBody with _ | tb
  · simp [htb]
  · simp only [List.filter_filter]
    congr 4
    funext e
    by_cases he : e.1 ∈ N'
    · simp [he, h _ he]
    · simp [he]

theorem sole_hasEff {r : Reaction} {s : String} (h : SoleCollider r s) : HasEff r s := by
  obtain ⟨tb, h1, -, q, h2⟩ := h
  exact ⟨tb, h1, q, by simp [h2]⟩

theorem sole_filter {N : List String} {r : Reaction} {s : String} (h : SoleCollider r s)
    (hs : s ∈ N) : SoleCollider (filterThirdBody N r) s := by
  obtain ⟨tb, h1, h0, q, h2⟩ := h
  refine ⟨{ tb with effs := tb.effs.filter (fun e => N.contains e.1) }, ?_, h0, q, ?_⟩
  · simp [filterThirdBody, h1]
  · simp [h2, hs]

theorem trim_noop (m : Mech) (excl : List String) (f p : Text) (hc : Closed m)
    (he : ∀ s ∈ excl, ∀ sp ∈ m.species, sp.name ≠ s) :
    (trim m excl f p).species = m.species ∧ (trim m excl f p).reactions = m.reactions := by
  have hsp : finalSpecies m excl = m.species := by
    apply List.filter_eq_self.2
    intro sp hsp
    simp only [Bool.not_eq_true', List.contains_eq_mem, decide_eq_false_iff_not]
    exact fun h => he _ h sp hsp rfl
  refine ⟨by rw [trim_species, hsp], ?_⟩
  rw [trim_reactions]
  have hstep : ∀ r ∈ m.reactions,
      trimStep excl ((finalSpecies m excl).map (·.name)) r = some r := by
    intro r hr
    have hsv : Survives m excl r := by
      refine ⟨fun s hs => ?_, fun s hs hx => ?_⟩
      · have h := hc r hr s (Or.inl hs)
        exact ⟨h, fun hx => by obtain ⟨sp, h1, h2⟩ := h; exact he s hx sp h1 h2⟩
      · obtain ⟨sp, h1, h2⟩ := hc r hr s (Or.inr (sole_hasEff hs))
        exact he s hx sp h1 h2
    have h1 := (trimStep_isSome_iff m excl r).2 hsv
    obtain ⟨r', h'⟩ := Option.isSome_iff_exists.1 h1
    rw [h', trimStep_eq_some _ _ _ _ h']
    congr 1
    unfold filterThirdBody
    rcases htb : r.thirdBody with _ | tb
    · rfl
    · have : tb.effs.filter (fun e => ((finalSpecies m excl).map (·.name)).contains e.1)
          = tb.effs := by
        apply List.filter_eq_self.2
        intro e hem
        obtain ⟨sp, h1, h2⟩ := hc r hr e.1 (Or.inr ⟨tb, htb, e.2, hem⟩)
        rw [List.contains_iff_mem, hsp, ← h2]
        exact List.mem_map.2 ⟨sp, h1, rfl⟩
      simp only [this]
      rw [← htb]
  have : ∀ l : List Reaction, (∀ r ∈ l, r ∈ m.reactions) → l.filterMap
      (trimStep excl ((finalSpecies m excl).map (·.name))) = l := by
    intro l hl
    induction l with
    | nil => rfl
    | cons a l ih =>
      rw [List.filterMap_cons, hstep a (hl a (by simp))]
      simp only [ih (fun r hr => hl r (by simp [hr]))]
  exact this _ (fun r hr => hr)

theorem collapses_iff (m : Mech) (a b : List String) (r : Reaction) :
    CollapsesTo m a b r ↔
      ∃ s ∈ b, SoleCollider (filterThirdBody ((finalSpecies m a).map (·.name)) r) s := by
  have hfun : (fun e : String × ℚ => @decide (Stays m a e.1) (Classical.propDecidable _)) =
      (fun e => ((finalSpecies m a).map (·.name)).contains e.1) := by
    funext e
    rw [Bool.eq_iff_iff, List.contains_iff_mem, mem_finalNames]
    exact @decide_eq_true_iff _ (Classical.propDecidable _)
  unfold CollapsesTo SoleCollider filterThirdBody
  rw [hfun]
  rcases htb : r.thirdBody with _ | tb
  · simp [htb]
  · constructor
    · rintro ⟨tb', h1, h0, e, h2, h3⟩
      obtain rfl : tb = tb' := by simpa using h1
      exact ⟨e.1, h3, _, rfl, h0, e.2, by simpa using h2⟩
    · rintro ⟨s, hs, tb', h1, h0, q, h2⟩
      simp only [Option.some.injEq] at h1
      subst h1
      exact ⟨tb, rfl, h0, (s, q), h2, hs⟩

/-- two-stage trimming of one reaction -/
def twoStep (m : Mech) (a b : List String) (r : Reaction) : Option Reaction :=
  (trimStep a ((finalSpecies m a).map (·.name)) r).bind
    (trimStep b ((finalSpecies m (a ++ b)).map (·.name)))

theorem twoStep_spec (m : Mech) (a b : List String) (r : Reaction) (hr : r ∈ m.reactions)
    (hc : Closed m) :
    (∀ x, twoStep m a b r = some x →
      trimStep (a ++ b) ((finalSpecies m (a ++ b)).map (·.name)) r = some x) ∧
    (twoStep m a b r = trimStep (a ++ b) ((finalSpecies m (a ++ b)).map (·.name)) r ↔
      ¬ (Survives m (a ++ b) r ∧ CollapsesTo m a b r)) := by
  set Na := (finalSpecies m a).map (·.name) with hNa
  set Nab := (finalSpecies m (a ++ b)).map (·.name) with hNab
  have hsub : ∀ s ∈ Nab, s ∈ Na := by
    intro s hs
    rw [hNab, mem_finalNames, stays_append] at hs
    rw [hNa, mem_finalNames]; exact hs.1
  have hone : ∀ x, trimStep (a ++ b) Nab r = some x → x = filterThirdBody Nab r :=
    fun x h => trimStep_eq_some _ _ _ _ h
  have hsv := trimStep_isSome_iff m (a ++ b) r
  have hsva := trimStep_isSome_iff m a r
  rw [collapses_iff]
  have fwd : ∀ x, twoStep m a b r = some x → trimStep (a ++ b) Nab r = some x := by
    intro x hx
    unfold twoStep at hx
    obtain ⟨r1, h1, h2⟩ := Option.bind_eq_some_iff.1 hx
    have e1 := trimStep_eq_some _ _ _ _ h1
    have e2 := trimStep_eq_some _ _ _ _ h2
    have s1 := hsva.1 (by rw [h1]; rfl)
    have hk : allSpeciesKept Nab r1 = true ∧ ¬ skipExplicitThirdBody b r1 = true := by
      unfold trimStep at h2; split_ifs at h2 with p q; exact ⟨q, p⟩
    have s2 : Survives m (a ++ b) r := by
      refine ⟨fun s hs => ?_, fun s hs => ?_⟩
      · have := (allKept_iff _ _).1 hk.1 s
          (by rw [e1, filterThirdBody_mentions]; exact hs)
        rwa [hNab, mem_finalNames] at this
      · rw [List.mem_append, not_or]
        have ha := s1.2 s hs
        refine ⟨ha, fun hb => hk.2 ((skip_iff _ _).2 ⟨s, hb, ?_⟩)⟩
        rw [e1]
        refine sole_filter hs ?_
        rw [mem_finalNames]
        exact ⟨hc r hr s (Or.inr (sole_hasEff hs)), ha⟩
    obtain ⟨y, hy⟩ := Option.isSome_iff_exists.1 (hsv.2 s2)
    rw [hy, hone y hy, e2, e1, filterThirdBody_twice _ _ hsub]
  refine ⟨fwd, ?_⟩
  constructor
  · rintro heq ⟨hs, s, hsb, hsole⟩
    obtain ⟨y, hy⟩ := Option.isSome_iff_exists.1 (hsv.2 hs)
    rw [hy] at heq
    unfold twoStep at heq
    obtain ⟨r1, h1, h2⟩ := Option.bind_eq_some_iff.1 heq
    have e1 := trimStep_eq_some _ _ _ _ h1
    unfold trimStep at h2
    have : skipExplicitThirdBody b r1 = true :=
      (skip_iff _ _).2 ⟨s, hsb, by rw [e1]; exact hsole⟩
    simp [this] at h2
  · intro hn
    by_cases hs : Survives m (a ++ b) r
    · obtain ⟨y, hy⟩ := Option.isSome_iff_exists.1 (hsv.2 hs)
      have sa : Survives m a r :=
        ⟨fun s h => ((stays_append _ _ _ _).1 (hs.1 s h)).1,
         fun s h hx => hs.2 s h (List.mem_append_left _ hx)⟩
      obtain ⟨r1, h1⟩ := Option.isSome_iff_exists.1 (hsva.2 sa)
      have e1 := trimStep_eq_some _ _ _ _ h1
      have hk : allSpeciesKept Nab r1 = true := by
        rw [allKept_iff]
        intro s h
        rw [e1, filterThirdBody_mentions] at h
        rw [hNab, mem_finalNames]; exact hs.1 s h
      have hns : ¬ skipExplicitThirdBody b r1 = true := by
        rw [skip_iff]; rintro ⟨s, hb, hsole⟩
        exact hn ⟨hs, s, hb, by rw [← e1]; exact hsole⟩
      have h2 : trimStep b Nab r1 = some (filterThirdBody Nab r1) := by
        simp [trimStep, hk, hns]
      unfold twoStep
      rw [h1, Option.bind_some, h2, hy, hone y hy, e1, filterThirdBody_twice _ _ hsub]
    · have h0 : trimStep (a ++ b) Nab r = none := by
        rcases h : trimStep (a ++ b) Nab r with _ | y
        · rfl
        · exact absurd (hsv.1 (by rw [h]; rfl)) hs
      rw [h0]
      rcases h : twoStep m a b r with _ | y
      · rfl
      · rw [fwd y h] at h0; exact absurd h0 (by simp)

theorem two_stage_reactions (m : Mech) (a b : List String) (f p f' p' : Text) :
    (trim (trim m a f p) b f' p').reactions = m.reactions.filterMap (twoStep m a b) := by
  rw [trim_reactions, trim_reactions, finalSpecies_append, List.filterMap_filterMap]
  rfl

theorem filterMap_sublist_of {α β} (l : List α) (f g : α → Option β)
    (h : ∀ r ∈ l, ∀ x, f r = some x → g r = some x) :
    (l.filterMap f).Sublist (l.filterMap g) ∧
    (l.filterMap f = l.filterMap g ↔ ∀ r ∈ l, f r = g r) := by
  induction l with
  | nil => simp
  | cons a l ih =>
    obtain ⟨i1, i2⟩ := ih (fun r hr => h r (by simp [hr]))
    rcases hf : f a with _ | x
    · rcases hg : g a with _ | y
      · simp [hf, hg, i1, i2]
      · simp only [List.filterMap_cons, hf, hg]
        refine ⟨i1.trans (List.sublist_cons_self _ _), ?_⟩
        constructor
        · intro he
          have := i1.length_le
          rw [he] at this
          simp at this
        · intro hh
          have := hh a (by simp)
          simp [hf, hg] at this
    · have hg := h a (by simp) x hf
      simp [hf, hg, i1, i2]

end Verif
