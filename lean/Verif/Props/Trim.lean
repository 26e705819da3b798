import Verif.Lemmas.Trim
/-!
# C01–C05: `trim` (`reduce_model.py`)
-/
namespace Verif
open Spec

/-- a model used by the non-vacuity examples: three species, three reactions -/
def exMech : Mech :=
  { species := [⟨"H2", 1⟩, ⟨"O2", 2⟩, ⟨"OH", 3⟩, ⟨"AR", 4⟩]
    reactions :=
      [ ⟨[("H2", 1), ("O2", 1)], [("OH", 2)], none, 1⟩,
        ⟨[("H2", 1)], [("H2", 1)], some ⟨0, [("AR", 1)]⟩, 2⟩,
        ⟨[("O2", 1)], [("O2", 1)], some ⟨1, [("AR", 1/2), ("H2", 2)]⟩, 3⟩ ]
    transport := 0, tp := 0, name := "m".toList }

/-- **C01.** The species kept are exactly the species not excluded: same order (a
sublist), same data and multiplicity. -/
theorem C01_species (m : Mech) (excl : List String) (f p : Text) :
    (trim m excl f p).species.Sublist m.species ∧
    ∀ s : Species, (trim m excl f p).species.count s =
      if s.name ∈ excl then 0 else m.species.count s := by
  rw [trim_species]
  refine ⟨List.filter_sublist, fun s => ?_⟩
  by_cases h : s.name ∈ excl
  · rw [if_pos h, List.count_eq_zero]
    intro hm
    have := (List.mem_filter.1 hm).2
    simp [h] at this
  · rw [if_neg h]; exact List.count_filter (by simpa using h)

example : (trim exMech ["AR", "XX", "AR"] [] []).species = [⟨"H2", 1⟩, ⟨"O2", 2⟩, ⟨"OH", 3⟩] := by
  decide

/-- **C01.** Everything else of the model is carried over: transport model and state are
preserved, and the new phase is called `phase_name`, or the stem of the new file name. -/
theorem C01_metadata (m : Mech) (excl : List String) (f p : Text) :
    (trim m excl f p).transport = m.transport ∧ (trim m excl f p).tp = m.tp ∧
    (p ≠ [] → (trim m excl f p).name = p) ∧
    (p = [] → (trim m excl f p).name = (splitext f).1) := by
  simp only [trim]
  refine ⟨trivial, trivial, fun h => by simp [h], fun h => by simp [h]⟩

/-- **C02.** The reactions kept are exactly those that do not need a removed species, in
the original order and multiplicity, changed only by dropping efficiencies of species
that are gone. -/
theorem C02_reactions (m : Mech) (excl : List String) (f p : Text) :
    ∃ kept : List Reaction, kept.Sublist m.reactions ∧
      (∀ r, kept.count r = open Classical in
        if Survives m excl r then m.reactions.count r else 0) ∧
      List.Forall₂ (SameButEff m excl) kept (trim m excl f p).reactions := by
  classical
  set N := (finalSpecies m excl).map (·.name) with hN
  refine ⟨m.reactions.filter (fun r => (trimStep excl N r).isSome), List.filter_sublist,
    ?_, ?_⟩
  · intro r
    have h := trimStep_isSome_iff m excl r
    by_cases hs : Survives m excl r
    · rw [if_pos hs]; exact List.count_filter (h.2 hs)
    · rw [if_neg hs, List.count_eq_zero]
      intro hm
      exact hs (h.1 (List.mem_filter.1 hm).2)
  · rw [trim_reactions, filterMap_eq_map_filter _ (filterThirdBody N)
      (fun x y h => trimStep_eq_some _ _ _ _ h)]
    rw [List.forall₂_map_right_iff]
    exact List.forall₂_same.2 (fun r _ => filterThirdBody_same m excl r)

example : (trim exMech ["AR"] [] []).reactions =
    [⟨[("H2", 1), ("O2", 1)], [("OH", 2)], none, 1⟩,
     ⟨[("O2", 1)], [("O2", 1)], some ⟨1, [("H2", 2)]⟩, 3⟩] := by
  decide +kernel

/-- **C03.** A trimmed model is closed, and nothing excluded occurs in it (whether or not
the input model was closed). -/
theorem C03_closed (m : Mech) (excl : List String) (f p : Text) :
    Closed (trim m excl f p) ∧
    ∀ s ∈ excl, (∀ sp ∈ (trim m excl f p).species, sp.name ≠ s) ∧
      ∀ r ∈ (trim m excl f p).reactions, ¬ Mentions r s ∧ ¬ HasEff r s := by
  have key : ∀ r ∈ (trim m excl f p).reactions, ∀ s, Mentions r s ∨ HasEff r s →
      Stays m excl s := by
    intro r hr s hs
    rw [trim_reactions, List.mem_filterMap] at hr
    obtain ⟨r0, -, h0⟩ := hr
    have hsome := (trimStep_isSome_iff m excl r0).1 (by rw [h0]; rfl)
    have := trimStep_eq_some _ _ _ _ h0
    subst this
    rw [filterThirdBody_mentions, filterThirdBody_hasEff, mem_finalNames] at hs
    rcases hs with hs | hs
    · exact hsome.1 s hs
    · exact hs.2
  refine ⟨?_, ?_⟩
  · intro r hr s hs
    have h := key r hr s hs
    rw [← mem_finalNames] at h
    simpa [trim_species] using h
  · intro s hs
    refine ⟨?_, fun r hr => ⟨fun h => (key r hr s (Or.inl h)).2 hs,
      fun h => (key r hr s (Or.inr h)).2 hs⟩⟩
    rintro sp hsp rfl
    have : sp.name ∈ (finalSpecies m excl).map (·.name) := List.mem_map.2 ⟨sp, hsp, rfl⟩
    exact ((mem_finalNames _ _ _).1 this).2 hs

/-- **C04.** Excluding names that are not in a closed model changes nothing. -/
theorem C04_irrelevant_names (m : Mech) (excl : List String) (f p : Text) (hc : Closed m)
    (he : ∀ s ∈ excl, ∀ sp ∈ m.species, sp.name ≠ s) :
    (trim m excl f p).species = m.species ∧ (trim m excl f p).reactions = m.reactions :=
  trim_noop m excl f p hc he

/-- **C04.** Trimming twice with the same list is the same as once. -/
theorem C04_idempotent (m : Mech) (excl : List String) (f p f' p' : Text) :
    (trim (trim m excl f p) excl f' p').species = (trim m excl f p).species ∧
    (trim (trim m excl f p) excl f' p').reactions = (trim m excl f p).reactions := by
  have h := C03_closed m excl f p
  exact trim_noop _ _ _ _ h.1 (fun s hs => (h.2 s hs).1)

/-- **C04.** Only the set of excluded names matters. -/
theorem C04_set_only (m : Mech) (e e' : List String) (f p : Text)
    (h : ∀ s, s ∈ e ↔ s ∈ e') : trim m e f p = trim m e' f p := by
  have hc : ∀ s, e.contains s = e'.contains s := by
    intro s; rw [Bool.eq_iff_iff, List.contains_iff_mem, List.contains_iff_mem]; exact h s
  have h1 : finalSpecies m e = finalSpecies m e' := by
    unfold finalSpecies; simp only [hc]
  have h2 : ∀ r, skipExplicitThirdBody e r = skipExplicitThirdBody e' r := by
    intro r; unfold skipExplicitThirdBody; simp only [hc]
  have h3 : ∀ N acc rs, reactionLoop e N acc rs = reactionLoop e' N acc rs := by
    intro N acc rs
    induction rs generalizing acc with
    | nil => rfl
    | cons r rs ih => simp only [reactionLoop, h2, ih]
  unfold trim
  simp only [h1, h3]

theorem exMech_closed : Closed exMech := by
  intro r hr s hs
  simp only [exMech, List.mem_cons, List.not_mem_nil, or_false] at hr
  rcases hr with rfl | rfl | rfl <;>
    simp only [Mentions, HasEff, List.mem_cons, List.not_mem_nil, or_false, Prod.mk.injEq,
      Option.some.injEq, reduceCtorEq, false_and, exists_eq_left'] at hs <;>
    rcases hs with (⟨c, hc⟩ | ⟨c, hc⟩) | ⟨c, hc⟩ <;>
    (try rcases hc with hc | hc) <;> simp_all [exMech]

example : Closed exMech ∧ ∀ s ∈ ["CH4"], ∀ sp ∈ exMech.species, sp.name ≠ s :=
  ⟨exMech_closed, by decide⟩

/-- **C05 is false of the code.**  A reaction whose third body has zero default efficiency
and two efficiency entries survives the removal of both colliders in one call, but not in
two calls.  (`exMech` with the third body of the second reaction changed.) -/
theorem C05_staged_trim_refuted :
    ¬ ∀ (m : Mech) (a b : List String) (f p f' p' : Text), Closed m →
      (trim (trim m a f p) b f' p').reactions = (trim m (a ++ b) f p).reactions := by
  intro h
  let m : Mech :=
    { species := [⟨"H", 0⟩, ⟨"A", 0⟩, ⟨"B", 0⟩]
      reactions := [⟨[("H", 1)], [("H", 1)], some ⟨0, [("A", 1), ("B", 1)]⟩, 0⟩]
      transport := 0, tp := 0, name := [] }
  have hc : Closed m := by
    intro r hr s hs
    simp only [m, List.mem_cons, List.not_mem_nil, or_false] at hr
    subst hr
    simp only [Mentions, HasEff, List.mem_cons, List.not_mem_nil, or_false, Prod.mk.injEq,
      Option.some.injEq] at hs
    rcases hs with (⟨c, hc⟩ | ⟨c, hc⟩) | ⟨tb, rfl, q, hq⟩
    · simp_all [m]
    · simp_all [m]
    · simp only [List.mem_cons, Prod.mk.injEq, List.not_mem_nil, or_false] at hq
      rcases hq with hq | hq <;> simp_all [m]
  have := h m ["A"] ["B"] [] [] [] [] hc
  revert this
  decide +kernel

/-- **C05 (partial).**  What is missing from C05 is exactly the collapse case: for every
closed model the species agree, the staged result never has *more* reactions, and the two
results agree if and only if no surviving reaction is a collapse case. -/
theorem C05_staged_trim_partial (m : Mech) (a b : List String) (f p f' p' f'' p'' : Text)
    (hc : Closed m) :
    (trim (trim m a f p) b f' p').species = (trim m (a ++ b) f'' p'').species ∧
    (trim (trim m a f p) b f' p').reactions.Sublist (trim m (a ++ b) f'' p'').reactions ∧
    ((trim (trim m a f p) b f' p').reactions = (trim m (a ++ b) f'' p'').reactions ↔
      ∀ r ∈ m.reactions, ¬ (Survives m (a ++ b) r ∧ CollapsesTo m a b r)) := by
  refine ⟨finalSpecies_append m a b f p, ?_⟩
  rw [two_stage_reactions, trim_reactions]
  have h := filterMap_sublist_of m.reactions (twoStep m a b)
    (trimStep (a ++ b) ((finalSpecies m (a ++ b)).map (·.name)))
    (fun r hr => (twoStep_spec m a b r hr hc).1)
  refine ⟨h.1, h.2.trans ?_⟩
  exact forall₂_congr (fun r hr => (twoStep_spec m a b r hr hc).2)

/-- Sufficient condition in plain terms: no zero-default third body with several entries. -/
theorem C05_staged_trim_simple_partial (m : Mech) (a b : List String)
    (f p f' p' f'' p'' : Text) (hc : Closed m)
    (hs : ∀ r ∈ m.reactions, ∀ tb, r.thirdBody = some tb → tb.defaultEff = 0 →
      tb.effs.length ≤ 1) :
    (trim (trim m a f p) b f' p').species = (trim m (a ++ b) f'' p'').species ∧
    (trim (trim m a f p) b f' p').reactions = (trim m (a ++ b) f'' p'').reactions := by
  obtain ⟨h1, -, h3⟩ := C05_staged_trim_partial m a b f p f' p' f'' p'' hc
  refine ⟨h1, h3.2 ?_⟩
  rintro r hr ⟨hsv, tb, htb, h0, e, he, heb⟩
  have hl := hs r hr tb htb h0
  have hmem' := (List.mem_filter.1 (he ▸ List.mem_singleton.2 rfl : e ∈ tb.effs.filter _)).1
  rcases ht : tb.effs with _ | ⟨e1, _ | ⟨e2, es⟩⟩
  · simp [ht] at hmem'
  · rw [ht] at hmem'
    obtain rfl : e = e1 := by simpa using hmem'
    exact hsv.2 e.1 ⟨tb, htb, h0, e.2, ht⟩ (List.mem_append_right _ heb)
  · simp [ht] at hl

example : Closed exMech ∧ ∀ r ∈ exMech.reactions, ∀ tb, r.thirdBody = some tb →
    tb.defaultEff = 0 → tb.effs.length ≤ 1 := by
  refine ⟨exMech_closed, ?_⟩
  intro r hr tb htb h0
  simp only [exMech, List.mem_cons, List.not_mem_nil, or_false] at hr
  rcases hr with rfl | rfl | rfl <;> simp at htb <;> subst htb <;> simp_all

end Verif
