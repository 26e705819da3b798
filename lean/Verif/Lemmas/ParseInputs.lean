import Verif.Lemmas.Parse
/-!
# Lemmas about `parse_inputs`
-/
namespace Verif
open Spec

/-- what `retainNames` does to a list -/
theorem retainNames_list (T : Names) (l s : List String) :
    ∃ added, retainNames T l (.list s) = .ok (.list (s ++ added)) ∧ added.Nodup ∧
      (∀ sp ∈ added, T.has sp = false ∧ sp ∉ s ∧ sp ∈ l) ∧
      ∀ sp ∈ l, T.has sp = true ∨ sp ∈ s ++ added := by
  induction l generalizing s with
  | nil => exact ⟨[], by simp [retainNames], by simp, by simp, by simp⟩
  | cons sp l ih =>
    by_cases h : (!(T.has sp) && !((Names.list s).has sp)) = true
    · obtain ⟨added, h1, h2, h3, h4⟩ := ih (s ++ [sp])
      have hT : T.has sp = false := by simp at h; exact h.1
      have hs : sp ∉ s := by simp [Names.has] at h; exact h.2
      refine ⟨sp :: added, ?_, ?_, ?_, ?_⟩
      · simp only [retainNames, h, if_true, Names.append]
        show retainNames T l (.list (s ++ [sp])) = _
        rw [h1]; simp
      · refine List.nodup_cons.2 ⟨fun hm => ?_, h2⟩
        exact (h3 sp hm).2.1 (by simp)
      · intro x hx
        rcases List.mem_cons.1 hx with rfl | hx
        · exact ⟨hT, hs, by simp⟩
        · obtain ⟨a, b, c⟩ := h3 x hx
          exact ⟨a, fun hh => b (by simp [hh]), by simp [c]⟩
      · intro x hx
        rcases List.mem_cons.1 hx with rfl | hx
        · right; simp
        · rcases h4 x hx with h | h
          · exact .inl h
          · right; simpa using h
    · obtain ⟨added, h1, h2, h3, h4⟩ := ih s
      refine ⟨added, ?_, h2, ?_, ?_⟩
      · simp only [retainNames]; rw [if_neg h]; exact h1
      · intro x hx; obtain ⟨a, b, c⟩ := h3 x hx; exact ⟨a, b, by simp [c]⟩
      · intro x hx
        rcases List.mem_cons.1 hx with rfl | hx
        · simp only [Bool.and_eq_true, Bool.not_eq_true', not_and, Bool.not_eq_false] at h
          by_cases hT : T.has x = true
          · exact .inl hT
          · have := h (by simpa using hT)
            right; simp only [Names.has, List.contains_iff_mem] at this; simp [this]
        · exact h4 x hx

theorem retainNames_str (T : Names) (l : List String) (s : String) (n : Names)
    (h : retainNames T l (.str s) = .ok n) :
    n = .str s ∧ ∀ sp ∈ l, T.has sp = true ∨ (Names.str s).has sp = true := by
  induction l with
  | nil => simp [retainNames] at h; exact ⟨h.symm, by simp⟩
  | cons sp l ih =>
    simp only [retainNames] at h
    by_cases hb : (!(T.has sp) && !((Names.str s).has sp)) = true
    · rw [if_pos hb] at h; cases h
    · rw [if_neg hb] at h
      obtain ⟨h1, h2⟩ := ih h
      refine ⟨h1, fun x hx => ?_⟩
      rcases List.mem_cons.1 hx with rfl | hx
      · simp only [Bool.and_eq_true, Bool.not_eq_true', not_and, Bool.not_eq_false] at hb
        by_cases hT : T.has x = true
        · exact .inl hT
        · exact .inr (hb (by simpa using hT))
      · exact h2 x hx

theorem retainNames_covered (T n : Names) (l : List String)
    (h : ∀ sp ∈ l, T.has sp = true ∨ n.has sp = true) : retainNames T l n = .ok n := by
  induction l with
  | nil => rfl
  | cons sp l ih =>
    simp only [retainNames]
    rw [if_neg, ih (fun x hx => h x (by simp [hx]))]
    rcases h sp (by simp) with h | h <;> simp [h]

theorem retainNames_cover {T n n' : Names} {l : List String} (h : retainNames T l n = .ok n') :
    (∀ sp ∈ l, T.has sp = true ∨ n'.has sp = true) ∧ ∀ sp, n.has sp = true → n'.has sp = true := by
  cases n with
  | list s =>
    obtain ⟨added, h1, _, _, h4⟩ := retainNames_list T l s
    rw [h1] at h; cases h
    refine ⟨fun sp hsp => ?_, fun sp hsp => ?_⟩
    · simpa [Names.has] using h4 sp hsp
    · simp only [Names.has, List.contains_iff_mem] at hsp ⊢; simp [hsp]
  | str s =>
    obtain ⟨rfl, h2⟩ := retainNames_str T l s n' h
    exact ⟨h2, fun _ h => h⟩

theorem retainSpecies_cover {T n n' : Names} {ks : List Cond} (h : retainSpecies T ks n = .ok n') :
    (∀ k ∈ ks, ∃ l, k.species = .ok l ∧ ∀ sp ∈ l, T.has sp = true ∨ n'.has sp = true) ∧
      ∀ sp, n.has sp = true → n'.has sp = true := by
  induction ks generalizing n with
  | nil => cases h; exact ⟨by simp, fun _ h => h⟩
  | cons k ks ih =>
    simp only [retainSpecies, bind_ok] at h
    obtain ⟨l, hl, m, hm, h⟩ := h
    obtain ⟨h1, h2⟩ := ih h
    obtain ⟨h3, h4⟩ := retainNames_cover hm
    refine ⟨fun k' hk => ?_, fun sp h => h2 sp (h4 sp h)⟩
    rcases List.mem_cons.1 hk with rfl | hk
    · exact ⟨l, hl, fun sp hsp => (h3 sp hsp).imp id (h2 sp)⟩
    · exact h1 k' hk

theorem retainSpecies_covered {T n : Names} {ks : List Cond}
    (h : ∀ k ∈ ks, ∃ l, k.species = .ok l ∧ ∀ sp ∈ l, T.has sp = true ∨ n.has sp = true) :
    retainSpecies T ks n = .ok n := by
  induction ks with
  | nil => rfl
  | cons k ks ih =>
    obtain ⟨l, hl, hc⟩ := h k (by simp)
    simp only [retainSpecies, bind_ok]
    exact ⟨l, hl, n, retainNames_covered T n l hc, ih (fun k hk => h k (by simp [hk]))⟩

theorem retainSpecies_list (T : Names) (ks : List Cond) (s : List String)
    (hk : ∀ k ∈ ks, ∃ l, k.species = .ok l) :
    ∃ added, retainSpecies T ks (.list s) = .ok (.list (s ++ added)) ∧ added.Nodup ∧
      (∀ sp ∈ added, T.has sp = false ∧ sp ∉ s ∧ ∃ k ∈ ks, ∃ l, k.species = .ok l ∧ sp ∈ l) := by
  induction ks generalizing s with
  | nil => exact ⟨[], by simp [retainSpecies], by simp, by simp⟩
  | cons k ks ih =>
    obtain ⟨l, hl⟩ := hk k (by simp)
    obtain ⟨a1, h1, n1, m1, _⟩ := retainNames_list T l s
    obtain ⟨a2, h2, n2, m2⟩ := ih (s ++ a1) (fun k hkk => hk k (by simp [hkk]))
    refine ⟨a1 ++ a2, ?_, ?_, ?_⟩
    · simp only [retainSpecies, bind_ok]
      exact ⟨l, hl, _, h1, by rw [h2]; simp⟩
    · refine List.nodup_append.2 ⟨n1, n2, fun x hx y hy he => ?_⟩
      subst he
      exact (m2 x hy).2.1 (by simp [hx])
    · intro sp hsp
      rcases List.mem_append.1 hsp with h | h
      · obtain ⟨a, b, c⟩ := m1 sp h
        exact ⟨a, b, k, by simp, l, hl, c⟩
      · obtain ⟨a, b, k', hk', l', hl', c⟩ := m2 sp h
        exact ⟨a, fun hh => b (by simp [hh]), k', by simp [hk'], l', hl', c⟩

/-- species of a well formed condition are species of the model -/
theorem species_in_model {names : List String} {k : Cond} {l : List String}
    (hk : CondOk names k) (hl : k.species = .ok l) : ∀ sp ∈ l, sp ∈ names := by
  have hnone : ∀ v m, NotGiven v → v.keys = .ok m → m = [] := by
    intro v m h1 h2
    cases v with
    | dict d => simp [NotGiven] at h1; subst h1; simp [Val.keys] at h2; exact h2
    | list e => cases e <;> simp_all [Val.keys, NotGiven]
    | str s => simp [NotGiven] at h1; subst h1; simp [Val.keys] at h2; exact h2
    | num x => cases h2
    | bool b => cases h2
    | null => cases h2
  have hsome : ∀ v m, Composition names v → v.keys = .ok m → ∀ sp ∈ m, sp ∈ names := by
    rintro v m ⟨d, rfl, _, hd⟩ h2 sp hsp
    cases h2
    obtain ⟨e, he, rfl⟩ := List.mem_map.1 hsp
    exact (hd e he).1
  simp only [Cond.species, bind_ok, pure_ok] at hl
  obtain ⟨f, hf, o, ho, r, hr, rfl⟩ := hl
  rcases hk.2.2 with ⟨_, h1, h2, h3, _⟩ | ⟨h1, _, h2, h3, _⟩
  · have := hnone _ _ h3 hr
    subst this
    intro sp hsp
    simp only [List.append_nil, List.mem_append] at hsp
    exact hsp.elim (hsome _ _ h1 hf sp) (hsome _ _ h2 ho sp)
  · have e1 := hnone _ _ h2 hf
    have e2 := hnone _ _ h3 ho
    subst e1 e2
    simpa using hsome _ _ h1 hr

/-- what a successful `parse_inputs` has checked -/
structure ParsedOk (load : String → String → Except Err (List String)) (d : InputDict)
    (r : ReductionInputs) (names : List String) : Prop where
  loaded : load d.model d.phase = .ok names
  method : d.method = "" ∨ (d.method ∈ ["DRG", "DRGEP", "PFA"] ∧ d.targets.truthy = true)
  something : d.method ≠ "" ∨ d.sensitivity = true
  targets : ∀ sp ∈ d.targets.iter, sp ∈ names
  retained : ∀ sp ∈ (d.retained.getD (.list [])).iter, sp ∈ names
  ignition : List.Forall₂ (IgnitionOk names) d.ignition r.ignition
  psr : List.Forall₂ (PsrOk names) d.psr r.psr
  flame : List.Forall₂ (FlameOk names) d.flame r.flame
  safe : retainSpecies d.targets (r.ignition.map (·.toCond) ++ r.psr ++ r.flame.map (·.toCond))
    (d.retained.getD (.list [])) = .ok r.safe

theorem parseInputs_ok {load d r d'} (h : parseInputs load d = .ok (r, d')) :
    ∃ names, ParsedOk load d r names ∧ d' = { d with retained := d.retained.map (fun _ => r.safe) } ∧
      r.targets = d.targets ∧ r.method = d.method ∧ r.sensitivity = d.sensitivity := by
  simp only [parseInputs, bind_ok, pyAssert_ok, pure_ok] at h
  obtain ⟨_, hmod, _, herr, _, hsth, _, hmeth, names, hload, _, ht, _, hs, _, hc, ign, hi, psr, hp,
    fl, hf, safe, hsafe, hr⟩ := h
  cases hr
  refine ⟨names, ⟨hload, ?_, by simpa using hsth, by simpa using ht, by simpa using hs, ?_, ?_, ?_, hsafe⟩,
    rfl, rfl, rfl, rfl⟩
  · by_cases hm : d.method = ""
    · exact .inl hm
    · right
      simp only [hm, pyWhen, decide_true, if_true, bind_ok, pyAssert_ok, ne_eq, not_false_eq_true] at hmeth
      obtain ⟨_, h1, h2⟩ := hmeth
      exact ⟨by simpa using h1, h2⟩
  · exact (parseCases_ok.1 hi).imp (fun _ _ h => (parseIgnition_ok _ _ _).1 h)
  · exact (parseCases_ok.1 hp).imp (fun _ _ h => (parsePsr_ok _ _ _).1 h)
  · exact (parseCases_ok.1 hf).imp (fun _ _ h => (parseFlame_ok _ _ _).1 h)

theorem forall2_right {α β} {R : α → β → Prop} {l : List α} {m : List β}
    (h : List.Forall₂ R l m) {b : β} (hb : b ∈ m) : ∃ a ∈ l, R a b := by
  induction h with
  | nil => simp at hb
  | cons h _ ih =>
    rcases List.mem_cons.1 hb with rfl | hb
    · exact ⟨_, by simp, h⟩
    · obtain ⟨a, ha, hr⟩ := ih hb; exact ⟨a, by simp [ha], hr⟩

theorem forall2_left {α β} {R : α → β → Prop} {l : List α} {m : List β}
    (h : List.Forall₂ R l m) {a : α} (ha : a ∈ l) : ∃ b ∈ m, R a b := by
  induction h with
  | nil => simp at ha
  | cons h _ ih =>
    rcases List.mem_cons.1 ha with rfl | ha
    · exact ⟨_, by simp, h⟩
    · obtain ⟨b, hb, hr⟩ := ih ha; exact ⟨b, by simp [hb], hr⟩

/-- every condition of the result is a well formed condition of the input -/
theorem ParsedOk.cond {load d r names} (h : ParsedOk load d r names) {k : Cond}
    (hk : k ∈ r.ignition.map (·.toCond) ++ r.psr ++ r.flame.map (·.toCond)) :
    ∃ c ∈ d.ignition ++ d.psr ++ d.flame, Given c k ∧ CondOk names k := by
  simp only [List.mem_append, List.mem_map] at hk
  rcases hk with (⟨i, hi, rfl⟩ | hk) | ⟨i, hi, rfl⟩
  · obtain ⟨c, hc, h1, h2, _⟩ := forall2_right h.ignition hi
    exact ⟨c, by simp [hc], h1, h2⟩
  · obtain ⟨c, hc, h1, h2⟩ := forall2_right h.psr hk
    exact ⟨c, by simp [hc], h1, h2⟩
  · obtain ⟨c, hc, h1, h2, _⟩ := forall2_right h.flame hi
    exact ⟨c, by simp [hc], h1, h2⟩

theorem ParsedOk.case {load d r names} (h : ParsedOk load d r names) {c : Case}
    (hc : c ∈ d.ignition ++ d.psr ++ d.flame) :
    ∃ k ∈ r.ignition.map (·.toCond) ++ r.psr ++ r.flame.map (·.toCond), Given c k := by
  simp only [List.mem_append] at hc
  rcases hc with (hc | hc) | hc
  · obtain ⟨i, hi, h1, _⟩ := forall2_left h.ignition hc
    exact ⟨i.toCond, by simp only [List.mem_append, List.mem_map]; exact .inl (.inl ⟨i, hi, rfl⟩), h1⟩
  · obtain ⟨i, hi, h1, _⟩ := forall2_left h.psr hc
    exact ⟨i, by simp only [List.mem_append]; exact .inl (.inr hi), h1⟩
  · obtain ⟨i, hi, h1, _⟩ := forall2_left h.flame hc
    exact ⟨i.toCond, by simp only [List.mem_append, List.mem_map]; exact .inr ⟨i, hi, rfl⟩, h1⟩

theorem species_mem {k : Cond} {l : List String} (h : k.species = .ok l) (sp : String) :
    sp ∈ l ↔ ∃ v ∈ [k.fuel, k.oxidizer, k.reactants], ∃ entries, v = .dict entries ∧
      ∃ x, (sp, x) ∈ entries := by
  have hkeys : ∀ (v : Val) (m : List String), v.keys = .ok m →
      (sp ∈ m ↔ ∃ entries, v = .dict entries ∧ ∃ x, (sp, x) ∈ entries) := by
    intro v m hm
    cases v with
    | dict d => cases hm; simp
    | list e => cases e <;> simp [Val.keys] at hm; subst hm; simp
    | str s =>
      unfold Val.keys at hm
      split at hm <;> simp_all
    | num x => cases hm
    | bool b => cases hm
    | null => cases hm
  simp only [Cond.species, bind_ok, pure_ok] at h
  obtain ⟨f, hf, o, ho, r, hr, rfl⟩ := h
  simp only [List.mem_append, hkeys _ _ hf, hkeys _ _ ho, hkeys _ _ hr, List.mem_cons,
    List.not_mem_nil, or_false, exists_eq_or_imp, exists_eq_left]
  exact or_assoc

end Verif
