import Verif.Spec.Parse
import Mathlib.Data.List.Forall2
/-!
# Lemmas about the condition parsers
-/
namespace Verif
open Spec

theorem bind_ok {α β} {x : Except Err α} {f : α → Except Err β} {b : β} :
    (x >>= f) = .ok b ↔ ∃ a, x = .ok a ∧ f a = .ok b := by
  cases x with
  | error e =>
    refine ⟨fun h => ?_, fun ⟨a, h, _⟩ => ?_⟩
    · cases h
    · cases h
  | ok a =>
    refine ⟨fun h => ⟨a, rfl, h⟩, fun ⟨a', h, h2⟩ => ?_⟩
    cases h; exact h2

theorem bind_error {α β} {x : Except Err α} {f : α → Except Err β} {e : Err} :
    (x >>= f) = .error e ↔ x = .error e ∨ ∃ a, x = .ok a ∧ f a = .error e := by
  cases x with
  | error e' =>
    refine ⟨fun h => .inl ?_, fun h => ?_⟩
    · cases h; rfl
    · rcases h with h | ⟨a, h, _⟩
      · cases h; rfl
      · cases h
  | ok a =>
    refine ⟨fun h => .inr ⟨a, rfl, h⟩, fun h => ?_⟩
    rcases h with h | ⟨a', h, h2⟩
    · cases h
    · cases h; exact h2

theorem pyAssert_ok {b : Bool} {u : Unit} : pyAssert b = .ok u ↔ b = true := by
  cases b <;> simp [pyAssert]

theorem pyAssert_error {b : Bool} {e : Err} (h : pyAssert b = .error e) : e = .assertionError := by
  cases b <;> simp [pyAssert] at h; exact h.symm

theorem pyWhen_true {x : Except Err Unit} : pyWhen true x = x := rfl

theorem pyWhen_false {x : Except Err Unit} : pyWhen false x = .ok () := rfl

theorem lookup_holds (c : Case) (key : String) (d v : Val) :
    c.get key d = v ↔ Holds c key d v := by
  unfold Case.get Holds
  induction c with
  | nil => simp; exact eq_comm
  | cons e c ih =>
    obtain ⟨k, w⟩ := e
    by_cases hk : key = k
    · subst hk
      simp only [List.lookup_cons_self, Option.getD_some]
      constructor
      · rintro rfl; exact .inl ⟨[], c, rfl, by simp⟩
      · rintro (⟨pre, post, he, hp⟩ | ⟨h, _⟩)
        · cases pre with
          | nil => simp at he; exact he.1
          | cons p pre => simp at he; exact absurd (by rw [← he.1]) (hp p (by simp))
        · exact absurd rfl (h (key, w) (by simp))
    · rw [List.lookup_cons, beq_false_of_ne hk]
      refine ih.trans ?_
      constructor
      · rintro (⟨pre, post, he, hp⟩ | ⟨h, hv⟩)
        · exact .inl ⟨(k, w) :: pre, post, by simp [he], by
            intro e he; rcases List.mem_cons.1 he with rfl | he
            · exact fun h => hk h.symm
            · exact hp e he⟩
        · exact .inr ⟨by
            intro e he; rcases List.mem_cons.1 he with rfl | he
            · exact fun h => hk h.symm
            · exact h e he, hv⟩
      · rintro (⟨pre, post, he, hp⟩ | ⟨h, hv⟩)
        · cases pre with
          | nil => simp at he; exact absurd he.1.1.symm hk
          | cons p pre => simp at he; exact .inl ⟨pre, post, he.2, fun e he => hp e (by simp [he])⟩
        · exact .inr ⟨fun e he => h e (by simp [he]), hv⟩

theorem given_iff (c : Case) (k : Cond) : Given c k ↔ condOf c = k := by
  constructor
  · rintro ⟨h1, h2, h3, h4, h5, h6, h7⟩
    rw [← lookup_holds] at h1 h2 h3 h4 h5 h6 h7
    cases k
    simp only [condOf, h1, h2, h3, h4, h5, h6, h7]
  · rintro rfl
    constructor <;> exact (lookup_holds _ _ _ _).1 rfl

theorem notGiven_iff (v : Val) : NotGiven v ↔ v.truthy = false := by
  cases v with
  | num x => cases x <;> simp [NotGiven, Val.truthy, PyF.eq]
  | bool b => simp [NotGiven, Val.truthy]
  | str s => simp [NotGiven, Val.truthy]
  | null => simp [NotGiven, Val.truthy]
  | list e => cases e <;> simp [NotGiven, Val.truthy]
  | dict d => simp [NotGiven, Val.truthy]

theorem gt0_positive (v : Val) : v.gt0 = .ok true ↔ Positive v := by
  cases v <;> simp [Val.gt0, Positive]

theorem assertPositive_ok {v : Val} {u : Unit} : assertPositive v = .ok u ↔ Positive v := by
  rw [← gt0_positive, assertPositive, bind_ok]
  constructor
  · rintro ⟨a, h, h2⟩; rw [pyAssert_ok] at h2; rw [h, h2]
  · intro h; exact ⟨true, h, rfl⟩

theorem assertPositive_error {v : Val} {e : Err} (hn : Numeric v)
    (h : assertPositive v = .error e) : e = .assertionError := by
  rcases bind_error.1 h with h | ⟨a, _, h⟩
  · cases v <;> simp [Numeric, Val.gt0] at hn h
  · exact pyAssert_error h

theorem positive_truthy {v : Val} (h : Positive v) : v.truthy = true := by
  rcases h with ⟨x, rfl, hx⟩ | rfl
  · cases x <;> simp_all [Val.truthy, PyF.eq, PyF.lt]
    intro h; subst h; simp at hx
  · rfl

theorem checkEntries_ok (names : List String) (d : List (String × Scalar)) (u : Unit) :
    checkEntries names d = .ok u ↔ ∀ e ∈ d, e.1 ∈ names ∧ PositiveAmount e.2 := by
  induction d with
  | nil => simp [checkEntries]
  | cons e d ih =>
    obtain ⟨k, v⟩ := e
    have hv : (∃ a, v.gt0 = .ok a ∧ a = true) ↔ PositiveAmount v := by
      cases v <;> simp [Scalar.gt0, PositiveAmount]
    simp only [checkEntries, bind_ok, pyAssert_ok, List.mem_cons, forall_eq_or_imp, ← ih]
    constructor
    · rintro ⟨a, ⟨b, hb, hbt⟩, _, hk, hr⟩
      exact ⟨⟨by simpa using hk, hv.1 ⟨b, hb, hbt⟩⟩, hr⟩
    · rintro ⟨⟨hk, hp⟩, hr⟩
      obtain ⟨b, hb, hbt⟩ := hv.2 hp
      exact ⟨(), ⟨b, hb, hbt⟩, (), by simpa using hk, hr⟩

theorem checkAmounts_ok {names : List String} {v : Val} {u : Unit} (ht : v.truthy = true) :
    checkAmounts names v = .ok u ↔ Composition names v := by
  cases v with
  | dict d =>
    have hd : d ≠ [] := by simpa [Val.truthy] using ht
    simp [checkAmounts, checkEntries_ok, Composition, hd]
  | list e => cases e <;> simp_all [checkAmounts, Composition, Val.truthy]
  | str s =>
    have hs : s ≠ "" := by simpa [Val.truthy] using ht
    unfold checkAmounts
    split <;> simp_all [Composition]
  | num x => simp [checkAmounts, Composition]
  | bool b => simp [checkAmounts, Composition]
  | null => simp [checkAmounts, Composition]

theorem composition_truthy {names : List String} {v : Val} (h : Composition names v) :
    v.truthy = true := by
  obtain ⟨d, rfl, hd, _⟩ := h
  simpa [Val.truthy] using hd

theorem checkEntries_error (names : List String) (d : List (String × Scalar)) (e : Err)
    (hd : ∀ e ∈ d, (∃ x, e.2 = .num x) ∨ ∃ b, e.2 = .bool b)
    (h : checkEntries names d = .error e) : e = .assertionError := by
  induction d with
  | nil => simp [checkEntries] at h
  | cons x d ih =>
    obtain ⟨k, v⟩ := x
    simp only [checkEntries] at h
    rcases bind_error.1 h with h | ⟨_, _, h⟩
    · rcases bind_error.1 h with h | ⟨_, _, h⟩
      · rcases hd (k, v) (by simp) with ⟨x, hx⟩ | ⟨b, hb⟩ <;> simp_all [Scalar.gt0]
      · exact pyAssert_error h
    · rcases bind_error.1 h with h | ⟨_, _, h⟩
      · exact pyAssert_error h
      · exact ih (fun e he => hd e (by simp [he])) h

theorem checkAmounts_error {names : List String} {v : Val} {e : Err} (hv : Amounts v)
    (ht : v.truthy = true) (h : checkAmounts names v = .error e) : e = .assertionError := by
  rcases hv with hv | ⟨d, rfl, hd⟩
  · rw [notGiven_iff, ht] at hv; cases hv
  · exact checkEntries_error names d e hd h

theorem checkMixture_ok (names : List String) (k : Cond) (u : Unit) :
    checkMixture names k = .ok u ↔
      Positive k.equiv ∧ Composition names k.fuel ∧ Composition names k.oxidizer := by
  simp only [checkMixture, bind_ok, assertPositive_ok, pyAssert_ok]
  constructor
  · rintro ⟨_, he, _, hf, _, hfa, _, ho, hoa⟩
    exact ⟨he, (checkAmounts_ok hf).1 hfa, (checkAmounts_ok ho).1 hoa⟩
  · rintro ⟨he, hf, ho⟩
    have h1 := composition_truthy hf
    have h2 := composition_truthy ho
    exact ⟨(), he, (), h1, (), (checkAmounts_ok h1).2 hf, (), h2, (checkAmounts_ok h2).2 ho⟩

theorem checkMixture_error {names : List String} {k : Cond} {e : Err} (ht : Typed k)
    (h : checkMixture names k = .error e) : e = .assertionError := by
  simp only [checkMixture, bind_error, pyAssert_ok] at h
  rcases h with h | ⟨_, _, h | ⟨_, hf, h | ⟨_, _, h | ⟨_, ho, h⟩⟩⟩⟩
  · exact assertPositive_error ht.equiv h
  · exact pyAssert_error h
  · exact checkAmounts_error ht.fuel hf h
  · exact pyAssert_error h
  · exact checkAmounts_error ht.oxidizer ho h

theorem checkComposition_ok (names : List String) (k : Cond) (u : Unit) :
    checkComposition names k = .ok u ↔ CompositionGiven names k := by
  unfold checkComposition CompositionGiven
  simp only [notGiven_iff]
  by_cases hm : (k.equiv.truthy || k.fuel.truthy || k.oxidizer.truthy) = true
  · by_cases hr : k.reactants.truthy = true
    · simp only [hm, hr, bind_ok, pyAssert_ok]
      constructor
      · rintro ⟨_, h, _⟩; simp at h
      · rintro (⟨_, _, _, h, _⟩ | ⟨_, h1, h2, h3, _⟩)
        · simp at h
        · simp [h1, h2, h3] at hm
    · have hr' : k.reactants.truthy = false := by simpa using hr
      simp only [hm, hr', bind_ok, pyAssert_ok, pyWhen_true, pyWhen_false, checkMixture_ok]
      constructor
      · rintro ⟨_, _, _, ⟨he, hf, ho⟩, _, _, _, hc, hc2⟩
        refine .inl ⟨he, hf, ho, trivial, ?_⟩
        rw [positive_truthy he] at hc2
        simp only [Bool.or_eq_true, decide_eq_true_eq] at hc
        rcases hc with hc | hc
        · exact hc
        · simp [hc] at hc2
      · rintro (⟨he, hf, ho, _, hc⟩ | ⟨h, _⟩)
        · exact ⟨(), by simp, (), ⟨he, hf, ho⟩, (), trivial, (), by simp [hc], by simp [hc]⟩
        · exact absurd (composition_truthy h) hr
  · have hm' : (k.equiv.truthy || k.fuel.truthy || k.oxidizer.truthy) = false := by simpa using hm
    have hm3 := hm'
    simp only [Bool.or_eq_false_iff] at hm3
    obtain ⟨⟨h1, h2⟩, h3⟩ := hm3
    simp only [hm', bind_ok, pyAssert_ok, pyWhen_false]
    constructor
    · rintro ⟨_, h, _, _, _, hr, _, hc, _⟩
      have ht : k.reactants.truthy = true := by
        by_contra hx
        simp [Bool.not_eq_true _ ▸ hx] at h
      rw [ht, pyWhen_true] at hr
      exact .inr ⟨(checkAmounts_ok ht).1 hr, h1, h2, h3, by simpa using hc⟩
    · rintro (⟨h, _⟩ | ⟨hr, _, _, _, hc⟩)
      · rw [positive_truthy h] at h1; cases h1
      · have ht := composition_truthy hr
        refine ⟨(), by simp [ht], (), trivial, (), ?_, (), by simpa using hc, by simp [h1]⟩
        rw [ht, pyWhen_true]; exact (checkAmounts_ok ht).2 hr

theorem checkComposition_error {names : List String} {k : Cond} {e : Err} (ht : Typed k)
    (h : checkComposition names k = .error e) : e = .assertionError := by
  simp only [checkComposition, bind_error] at h
  rcases h with h | ⟨_, _, h | ⟨_, _, h | ⟨_, _, h | ⟨_, _, h⟩⟩⟩⟩
  · exact pyAssert_error h
  · rcases hb : (k.equiv.truthy || k.fuel.truthy || k.oxidizer.truthy) <;> rw [hb] at h
    · cases h
    · exact checkMixture_error ht h
  · rcases hr : k.reactants.truthy <;> rw [hr] at h
    · cases h
    · exact checkAmounts_error ht.reactants hr h
  · exact pyAssert_error h
  · exact pyAssert_error h

theorem pure_ok {α} {a b : α} : (pure a : Except Err α) = .ok b ↔ a = b :=
  ⟨fun h => Except.ok.inj h, fun h => h ▸ rfl⟩

theorem pure_error {α} {a : α} {e : Err} : (pure a : Except Err α) = .error e ↔ False := by
  constructor
  · intro h; cases h
  · exact False.elim

theorem parseIgnition_ok (names : List String) (c : Case) (r : IgnInput) :
    parseIgnition names c = .ok r ↔ IgnitionOk names c r := by
  simp only [parseIgnition, IgnitionOk, CondOk, bind_ok, pyAssert_ok, assertPositive_ok,
    checkComposition_ok, pure_ok, given_iff, ← lookup_holds]
  constructor
  · rintro ⟨_, hk, _, ht, _, hp, _, hc, rfl⟩
    exact ⟨rfl, ⟨ht, hp, hc⟩, rfl, by simpa using hk, rfl, rfl⟩
  · rintro ⟨h1, ⟨ht, hp, hc⟩, h2, hk, h3, h4⟩
    rw [← h1] at ht hp hc
    rw [← h2] at hk
    refine ⟨(), by simpa using hk, (), ht, (), hp, (), hc, ?_⟩
    rw [h1, h2, h3, h4]

theorem parsePsr_ok (names : List String) (c : Case) (r : Cond) :
    parsePsr names c = .ok r ↔ PsrOk names c r := by
  simp only [parsePsr, PsrOk, CondOk, bind_ok, assertPositive_ok,
    checkComposition_ok, pure_ok, given_iff]
  constructor
  · rintro ⟨_, ht, _, hp, _, hc, rfl⟩
    exact ⟨rfl, ht, hp, hc⟩
  · rintro ⟨rfl, ht, hp, hc⟩
    exact ⟨(), ht, (), hp, (), hc, rfl⟩

theorem parseFlame_ok (names : List String) (c : Case) (r : FlameInput) :
    parseFlame names c = .ok r ↔ FlameOk names c r := by
  simp only [parseFlame, FlameOk, CondOk, bind_ok, assertPositive_ok,
    checkComposition_ok, pure_ok, given_iff, ← lookup_holds]
  constructor
  · rintro ⟨_, ht, _, hp, _, hw, _, hc, rfl⟩
    exact ⟨rfl, ⟨ht, hp, hc⟩, rfl, hw⟩
  · rintro ⟨h1, ⟨ht, hp, hc⟩, h2, hw⟩
    rw [← h1] at ht hp hc
    rw [← h2] at hw
    refine ⟨(), ht, (), hp, (), hw, (), hc, ?_⟩
    rw [h1, h2]

theorem parseCases_ok {β} {parse : Case → Except Err β} {cs : List Case} {rs : List β} :
    parseCases parse cs = .ok rs ↔ List.Forall₂ (fun c r => parse c = .ok r) cs rs := by
  induction cs generalizing rs with
  | nil =>
    simp only [parseCases, List.forall₂_nil_left_iff]
    exact ⟨fun h => (Except.ok.inj h).symm, fun h => h ▸ rfl⟩
  | cons c cs ih =>
    simp only [parseCases, bind_ok, pure_ok, ih]
    constructor
    · rintro ⟨x, hx, xs, hxs, rfl⟩; exact .cons hx hxs
    · rintro (_ | ⟨hx, hxs⟩); exact ⟨_, hx, _, hxs, rfl⟩

theorem parseCases_error {β} {parse : Case → Except Err β} {cs : List Case} {e : Err}
    (h : parseCases parse cs = .error e) : ∃ c ∈ cs, parse c = .error e := by
  induction cs with
  | nil => cases h
  | cons c cs ih =>
    simp only [parseCases, bind_error, pure_error] at h
    rcases h with h | ⟨_, _, h | ⟨_, _, h⟩⟩
    · exact ⟨c, by simp, h⟩
    · obtain ⟨c', hc, h⟩ := ih h; exact ⟨c', by simp [hc], h⟩
    · cases h

end Verif
