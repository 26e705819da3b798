import Verif.Props.Parse
import Verif.Model.Program
import Verif.Spec.Inputs
/-!
# Which input files are accepted, and what is passed on (C98)
-/
namespace Verif
open Spec

variable {load : String → String → Except Err (List String)} {d : InputDict}
  {names ts ss : List String}

theorem eq_zero_iff (x : PyF) : x.eq (.fin 0) = true ↔ x = .fin 0 := by
  cases x with
  | fin q => simp [PyF.eq]
  | _ => simp [PyF.eq]

theorem keys_ok {v : Val} : (∃ l, v.keys = .ok l) ↔ (∃ e, v = .dict e) ∨ v = .list true ∨ v = .str "" := by
  constructor
  · rintro ⟨l, h⟩
    unfold Val.keys at h
    split at h
    · exact .inl ⟨_, rfl⟩
    · exact .inr (.inl rfl)
    · exact .inr (.inr rfl)
    · cases h
  · rintro (⟨e, rfl⟩ | rfl | rfl)
    · exact ⟨_, rfl⟩
    · exact ⟨_, rfl⟩
    · exact ⟨_, rfl⟩

theorem species_ok_iff {k : Cond} :
    (∃ l, k.species = .ok l) ↔ (∃ l, k.fuel.keys = .ok l) ∧ (∃ l, k.oxidizer.keys = .ok l) ∧
      ∃ l, k.reactants.keys = .ok l := by
  simp only [Cond.species, bind_ok, pure_ok]
  constructor
  · rintro ⟨l, f, hf, o, ho, r, hr, -⟩
    exact ⟨⟨f, hf⟩, ⟨o, ho⟩, ⟨r, hr⟩⟩
  · rintro ⟨⟨f, hf⟩, ⟨o, ho⟩, ⟨r, hr⟩⟩
    exact ⟨_, f, hf, o, ho, r, hr, rfl⟩

theorem noBareKeys_species (h : NoBareKeys d) {c : Case} (hc : c ∈ d.ignition ++ d.psr ++ d.flame)
    {k : Cond} (hg : Given c k) : ∃ l, k.species = .ok l :=
  species_ok_iff.2 ⟨keys_ok.2 (h c hc "fuel" (by simp) _ hg.fuel),
    keys_ok.2 (h c hc "oxidizer" (by simp) _ hg.oxidizer),
    keys_ok.2 (h c hc "reactants" (by simp) _ hg.reactants)⟩

theorem forall2_exists {α β} {R : α → β → Prop} {l : List α} (h : ∀ a ∈ l, ∃ b, R a b) :
    ∃ m, List.Forall₂ R l m := by
  induction l with
  | nil => exact ⟨[], .nil⟩
  | cons a l ih =>
    obtain ⟨b, hb⟩ := h a (by simp)
    obtain ⟨m, hm⟩ := ih (fun a ha => h a (by simp [ha]))
    exact ⟨b :: m, .cons hb hm⟩

theorem retained_getD (L : Lists d ts ss) : d.retained.getD (.list []) = .list ss := by
  rcases L.retained with h | ⟨h, rfl⟩ <;> rw [h] <;> rfl

theorem task_iff (hts : d.targets = .list ts) :
    ((d.method ≠ "" || d.sensitivity) = true ∧
      ∃ u, pyWhen (d.method ≠ "") (do
        pyAssert (["DRG", "DRGEP", "PFA"].contains d.method)
        pyAssert d.targets.truthy) = .ok u) ↔
    (d.method = "" ∧ d.sensitivity = true) ∨
    ((d.method = "DRG" ∨ d.method = "DRGEP" ∨ d.method = "PFA") ∧ ∃ t, t ∈ ts) := by
  have htr : d.targets.truthy = true ↔ ∃ t, t ∈ ts := by
    rw [hts]
    simp only [Names.truthy, ne_eq, decide_not, Bool.not_eq_true', decide_eq_false_iff_not]
    rw [← ne_eq, List.ne_nil_iff_exists_cons]
    constructor
    · rintro ⟨b, l, rfl⟩; exact ⟨b, by simp⟩
    · rintro ⟨t, ht⟩
      cases ts with
      | nil => cases ht
      | cons b l => exact ⟨b, l, rfl⟩
  by_cases hm : d.method = ""
  · simp [hm, pyWhen]
  · simp only [hm, ne_eq, not_false_eq_true, decide_true, Bool.true_or, true_and, pyWhen, if_true,
      bind_ok, pyAssert_ok, false_and, false_or, htr]
    constructor
    · rintro ⟨_, _, h1, h2⟩
      exact ⟨by simpa using h1, h2⟩
    · rintro ⟨h1, h2⟩
      exact ⟨(), (), by simpa using h1, h2⟩

/-- what is left to check after the model has been loaded -/
theorem parseInputs_iff (L : Lists d ts ss) (hload : load d.model d.phase = .ok names) :
    (∃ r d', parseInputs load d = .ok (r, d')) ↔ WellFormed names d ts ss ∧ NoBareKeys d := by
  constructor
  · rintro ⟨r, d', h⟩
    obtain ⟨names', hp, -, -, hsp⟩ := species_ok h
    have : names' = names := by
      have := hp.loaded
      rw [hload] at this; exact (Except.ok.inj this).symm
    subst this
    simp only [parseInputs, bind_ok, pyAssert_ok, pure_ok] at h
    obtain ⟨_, hmod, _, herr, _, hsth, u, hmeth, _, -, _, ht, _, hs, _, hc, _⟩ := h
    refine ⟨⟨by simpa using hmod, ?_, (task_iff L.targets).1 ⟨hsth, u, hmeth⟩, ?_, ?_, ?_, ?_, ?_⟩, ?_⟩
    · intro he
      rw [he] at herr
      simp [PyF.eq] at herr
    · rintro s (h | h)
      · exact hp.targets s (by rw [L.targets]; exact h)
      · exact hp.retained s (by rw [retained_getD L]; exact h)
    · have : d.ignition ++ d.psr ++ d.flame ≠ [] := by
        intro he
        simp only [List.append_eq_nil_iff] at he
        simp [he.1.1, he.1.2, he.2] at hc
      obtain ⟨c, l, he⟩ := List.exists_cons_of_ne_nil this
      have : c ∈ d.ignition ++ d.psr ++ d.flame := by rw [he]; simp
      simp only [List.mem_append, or_assoc] at this
      exact ⟨c, this⟩
    · intro c hc
      obtain ⟨b, -, hb⟩ := forall2_left hp.ignition hc
      exact ⟨b, hb⟩
    · intro c hc
      obtain ⟨b, -, hb⟩ := forall2_left hp.psr hc
      exact ⟨b, hb⟩
    · intro c hc
      obtain ⟨b, -, hb⟩ := forall2_left hp.flame hc
      exact ⟨b, hb⟩
    · intro c hc key hkey v hv
      obtain ⟨k, hk, hg⟩ := hp.case hc
      obtain ⟨l, hl, -⟩ := hsp k hk
      obtain ⟨h1, h2, h3⟩ := species_ok_iff.1 ⟨l, hl⟩
      rw [← lookup_holds] at hv
      simp only [List.mem_cons, List.not_mem_nil, or_false] at hkey
      rcases hkey with rfl | rfl | rfl
      · rw [← hv, (lookup_holds _ _ _ _).2 hg.fuel]; exact keys_ok.1 h1
      · rw [← hv, (lookup_holds _ _ _ _).2 hg.oxidizer]; exact keys_ok.1 h2
      · rw [← hv, (lookup_holds _ _ _ _).2 hg.reactants]; exact keys_ok.1 h3
  · rintro ⟨W, B⟩
    obtain ⟨ign, hi⟩ := forall2_exists W.ignition
    obtain ⟨psr, hp⟩ := forall2_exists W.psr
    obtain ⟨fl, hf⟩ := forall2_exists W.flame
    have hk : ∀ k ∈ ign.map (·.toCond) ++ psr ++ fl.map (·.toCond), ∃ l, k.species = .ok l := by
      intro k hk
      simp only [List.mem_append, List.mem_map] at hk
      rcases hk with (⟨i, hm, rfl⟩ | hm) | ⟨i, hm, rfl⟩
      · obtain ⟨c, hc, h1, -⟩ := forall2_right hi hm
        exact noBareKeys_species B (by simp [hc]) h1
      · obtain ⟨c, hc, h1, -⟩ := forall2_right hp hm
        exact noBareKeys_species B (by simp [hc]) h1
      · obtain ⟨c, hc, h1, -⟩ := forall2_right hf hm
        exact noBareKeys_species B (by simp [hc]) h1
    obtain ⟨added, h1, -⟩ := retainSpecies_list d.targets _ ss hk
    obtain ⟨t1, u, t2⟩ := (task_iff L.targets).2 W.task
    simp only [parseInputs, bind_ok, pyAssert_ok, pure_ok]
    refine ⟨_, _, (), by simpa using W.model, (), ?_, (), t1, u, t2, names, hload, (), ?_, (), ?_, (), ?_,
      ign, parseCases_ok.2 (hi.imp fun _ _ => (parseIgnition_ok _ _ _).2),
      psr, parseCases_ok.2 (hp.imp fun _ _ => (parsePsr_ok _ _ _).2),
      fl, parseCases_ok.2 (hf.imp fun _ _ => (parseFlame_ok _ _ _).2), .list (ss ++ added), ?_, rfl⟩
    · rw [Bool.not_eq_true', ← Bool.not_eq_true, eq_zero_iff]
      exact W.error
    · rw [L.targets]
      simpa [Names.iter] using fun s hs => W.known s (.inl hs)
    · rw [retained_getD L]
      simpa [Names.iter] using fun s hs => W.known s (.inr hs)
    · obtain ⟨c, hc⟩ := W.conditions
      rcases hc with hc | hc | hc
      · simp [List.ne_nil_of_mem hc]
      · simp [List.ne_nil_of_mem hc]
      · simp [List.ne_nil_of_mem hc]
    · rw [retained_getD L]; exact h1

/-- **C98.** An input file is accepted exactly when its model can be loaded and it is as documented,
with no key without a value among the parts of a mixture.  Missing for the full claim: such keys
(`C98_bare_key_refuted`), and the type of sensitivity analysis is not checked
(`C98_type_refuted`). -/
theorem C98_accepted_partial (L : Lists d ts ss) :
    (∃ r d', parseInputs load d = .ok (r, d')) ↔
      ∃ names, load d.model d.phase = .ok names ∧ WellFormed names d ts ss ∧ NoBareKeys d := by
  constructor
  · rintro ⟨r, d', h⟩
    obtain ⟨names, hp, -⟩ := parseInputs_ok h
    exact ⟨names, hp.loaded, (parseInputs_iff L hp.loaded).1 ⟨r, d', h⟩⟩
  · rintro ⟨names, hl, h⟩
    exact (parseInputs_iff L hl).2 h

/-- **C98.** Every value of an accepted file is passed on as given or with its default. -/
theorem C98_passed_on {r : ReductionInputs} {d' : InputDict} (h : parseInputs load d = .ok (r, d')) :
    ∃ names, load d.model d.phase = .ok names ∧ PassedOn names d r := by
  obtain ⟨names, hp, -, -⟩ := parseInputs_ok h
  refine ⟨names, hp.loaded, ?_⟩
  simp only [parseInputs, bind_ok, pyAssert_ok, pure_ok] at h
  obtain ⟨_, -, _, -, _, -, _, -, _, -, _, -, _, -, _, -, _, -, _, -, _, -, safe, -, hr⟩ := h
  cases hr
  refine ⟨rfl, rfl, rfl, rfl, rfl, ?_, rfl, rfl, rfl, hp.ignition, hp.psr, hp.flame⟩
  dsimp only [UpperFor]
  rcases hu : d.upper with _ | u <;> rcases hs : d.sensitivity with _ | _
  · right; simp
  · left; simp
  · right; simp
  · by_cases h0 : u.eq (.fin 0) = true
    · left
      rw [(eq_zero_iff u).1 h0]
      simp [PyF.eq]
    · right
      simp only [h0, Bool.and_true, Bool.false_eq_true, if_false, and_true]
      rintro ⟨-, h | h⟩
      · cases h
      · exact h0 ((eq_zero_iff u).2 (Option.some.inj h))

/-- **C98.** When every value has the type it should have, a file that is not accepted raises
`AssertionError`, or what loading the model raises. -/
theorem C98_rejected_partial (L : Lists d ts ss) (T : WellTyped d) (B : NoBareKeys d) {e : Err}
    (h : parseInputs load d = .error e) :
    e = .assertionError ∨ load d.model d.phase = .error e := by
  simp only [parseInputs, bind_error, pure_error] at h
  rcases h with h | ⟨_, _, h | ⟨_, _, h | ⟨_, _, h | ⟨_, _, h | ⟨names, _, h | ⟨_, _, h | ⟨_, _, h |
    ⟨_, _, h | ⟨ign, hi, h | ⟨psr, hp, h | ⟨fl, hf, h | ⟨_, _, h⟩⟩⟩⟩⟩⟩⟩⟩⟩⟩⟩⟩
  · exact .inl (pyAssert_error h)
  · exact .inl (pyAssert_error h)
  · exact .inl (pyAssert_error h)
  · left
    by_cases hm : d.method = ""
    · simp [hm, pyWhen] at h
    · simp only [hm, ne_eq, not_false_eq_true, decide_true, pyWhen, if_true, bind_error] at h
      rcases h with h | ⟨_, _, h⟩ <;> exact pyAssert_error h
  · exact .inr h
  · exact .inl (pyAssert_error h)
  · exact .inl (pyAssert_error h)
  · exact .inl (pyAssert_error h)
  · exact .inl ((C48_assertion_partial names d.ignition
      (fun c hc => T.1 c (by simp [hc]))).1 e h)
  · exact .inl ((C48_assertion_partial names d.psr
      (fun c hc => T.1 c (by simp [hc]))).2.1 e h)
  · exact .inl ((C48_assertion_partial names d.flame
      (fun c hc => T.1 c (by simp [hc]))).2.2 T.2 e h)
  · exfalso
    have hk : ∀ k ∈ ign.map (·.toCond) ++ psr ++ fl.map (·.toCond), ∃ l, k.species = .ok l := by
      intro k hk
      simp only [List.mem_append, List.mem_map] at hk
      rcases hk with (⟨i, hm, rfl⟩ | hm) | ⟨i, hm, rfl⟩
      · obtain ⟨c, hc, h1⟩ := forall2_right (parseCases_ok.1 hi) hm
        exact noBareKeys_species B (by simp [hc]) ((parseIgnition_ok _ _ _).1 h1).1
      · obtain ⟨c, hc, h1⟩ := forall2_right (parseCases_ok.1 hp) hm
        exact noBareKeys_species B (by simp [hc]) ((parsePsr_ok _ _ _).1 h1).1
      · obtain ⟨c, hc, h1⟩ := forall2_right (parseCases_ok.1 hf) hm
        exact noBareKeys_species B (by simp [hc]) ((parseFlame_ok _ _ _).1 h1).1
    obtain ⟨added, h1, -⟩ := retainSpecies_list d.targets _ ss hk
    rw [retained_getD L, h1] at h
    cases h
  · exact h.elim

theorem keys_error {v : Val} {e : Err} (h : v.keys = .error e) : e = .typeError := by
  unfold Val.keys at h
  split at h <;> cases h
  rfl

theorem species_error {k : Cond} {e : Err} (h : k.species = .error e) : e = .typeError := by
  simp only [Cond.species, bind_error, pure_error] at h
  rcases h with h | ⟨_, _, h | ⟨_, _, h | ⟨_, _, h⟩⟩⟩
  · exact keys_error h
  · exact keys_error h
  · exact keys_error h
  · exact h.elim

theorem retainSpecies_error (T : Names) (ks : List Cond) (s : List String)
    (h : ∃ k ∈ ks, ∀ l, k.species ≠ .ok l) : retainSpecies T ks (.list s) = .error .typeError := by
  induction ks generalizing s with
  | nil => obtain ⟨k, hk, -⟩ := h; cases hk
  | cons k ks ih =>
    rcases hk : k.species with e | l
    · rw [retainSpecies, hk, species_error hk]; rfl
    · obtain ⟨a, h1, -⟩ := retainNames_list T l s
      obtain ⟨k', hk', hn⟩ := h
      rcases List.mem_cons.1 hk' with rfl | hk'
      · exact absurd hk (hn l)
      · rw [retainSpecies, hk]
        show (retainNames T l (.list s) >>= fun s => retainSpecies T ks s) = _
        rw [h1]
        exact ih _ ⟨k', hk', hn⟩

/-- **C98, refuted.** A key without a value for the fuel, the oxidizer or the reactants of a
condition that is given the other way (`fuel:` beside `reactants`) passes the checks of the
conditions, and then ends the parsing of every otherwise well formed file with `TypeError`. -/
theorem C98_bare_key_refuted (L : Lists d ts ss) (hload : load d.model d.phase = .ok names)
    (W : WellFormed names d ts ss) (hB : ¬ NoBareKeys d) : parseInputs load d = .error .typeError := by
  obtain ⟨ign, hi⟩ := forall2_exists W.ignition
  obtain ⟨psr, hp⟩ := forall2_exists W.psr
  obtain ⟨fl, hf⟩ := forall2_exists W.flame
  have hk : ∃ k ∈ ign.map (·.toCond) ++ psr ++ fl.map (·.toCond), ∀ l, k.species ≠ .ok l := by
    by_contra hcon
    push Not at hcon
    apply hB
    have hcase : ∀ c ∈ d.ignition ++ d.psr ++ d.flame, ∃ k, Given c k ∧ ∃ l, k.species = .ok l := by
      intro c hc
      simp only [List.mem_append] at hc
      rcases hc with (hc | hc) | hc
      · obtain ⟨i, hm, h1, -⟩ := forall2_left hi hc
        exact ⟨i.toCond, h1, hcon _ (by
          simp only [List.mem_append, List.mem_map]; exact .inl (.inl ⟨i, hm, rfl⟩))⟩
      · obtain ⟨i, hm, h1, -⟩ := forall2_left hp hc
        exact ⟨i, h1, hcon _ (by simp only [List.mem_append]; exact .inl (.inr hm))⟩
      · obtain ⟨i, hm, h1, -⟩ := forall2_left hf hc
        exact ⟨i.toCond, h1, hcon _ (by
          simp only [List.mem_append, List.mem_map]; exact .inr ⟨i, hm, rfl⟩)⟩
    intro c hc key hkey v hv
    obtain ⟨k, hg, l, hl⟩ := hcase c hc
    obtain ⟨h1, h2, h3⟩ := species_ok_iff.1 ⟨l, hl⟩
    rw [← lookup_holds] at hv
    simp only [List.mem_cons, List.not_mem_nil, or_false] at hkey
    rcases hkey with rfl | rfl | rfl
    · rw [← hv, (lookup_holds _ _ _ _).2 hg.fuel]; exact keys_ok.1 h1
    · rw [← hv, (lookup_holds _ _ _ _).2 hg.oxidizer]; exact keys_ok.1 h2
    · rw [← hv, (lookup_holds _ _ _ _).2 hg.reactants]; exact keys_ok.1 h3
  have hr := retainSpecies_error d.targets _ ss hk
  obtain ⟨t1, u, t2⟩ := (task_iff L.targets).2 W.task
  simp only [parseInputs, bind_error, pure_error]
  refine .inr ⟨(), pyAssert_ok.2 (by simpa using W.model), .inr ⟨(), pyAssert_ok.2 ?_,
    .inr ⟨(), pyAssert_ok.2 t1, .inr ⟨u, t2, .inr ⟨names, hload, .inr ⟨(), pyAssert_ok.2 ?_,
    .inr ⟨(), pyAssert_ok.2 ?_, .inr ⟨(), pyAssert_ok.2 ?_,
    .inr ⟨ign, parseCases_ok.2 (hi.imp fun _ _ => (parseIgnition_ok _ _ _).2),
    .inr ⟨psr, parseCases_ok.2 (hp.imp fun _ _ => (parsePsr_ok _ _ _).2),
    .inr ⟨fl, parseCases_ok.2 (hf.imp fun _ _ => (parseFlame_ok _ _ _).2), .inl ?_⟩⟩⟩⟩⟩⟩⟩⟩⟩⟩⟩
  · rw [Bool.not_eq_true', ← Bool.not_eq_true, eq_zero_iff]
    exact W.error
  · rw [L.targets]
    simpa [Names.iter] using fun s hs => W.known s (.inl hs)
  · rw [retained_getD L]
    simpa [Names.iter] using fun s hs => W.known s (.inr hs)
  · obtain ⟨c, hc⟩ := W.conditions
    rcases hc with hc | hc | hc
    · simp [List.ne_nil_of_mem hc]
    · simp [List.ne_nil_of_mem hc]
    · simp [List.ne_nil_of_mem hc]
  · rw [retained_getD L]; exact hr

theorem runMain_type (p : MainIn) (w : World) {s : String} (h1 : s ≠ "") (h2 : s ≠ "greedy") :
    runMain { p with sensitivityType := s } w = runMain { p with sensitivityType := "initial" } w := by
  have hc : ∀ f e, MainIn.saCtx { p with sensitivityType := s } f e =
      MainIn.saCtx { p with sensitivityType := "initial" } f e := by
    intro f e
    simp [MainIn.saCtx, h1, h2]
  have hs : ∀ f e l b w, saStage { p with sensitivityType := s } f e l b w =
      saStage { p with sensitivityType := "initial" } f e l b w := by
    intro f e l b w
    unfold saStage
    rw [hc]
  unfold runMain
  simp only [hs]
  rfl

/-- **C98, refuted.** The type of sensitivity analysis is not checked: with any text in its place
an accepted file is accepted, and whatever is neither `greedy` nor empty (`Greedy`, for example)
gives exactly the run of `initial`. -/
theorem C98_type_refuted {r : ReductionInputs} {d' : InputDict} (h : parseInputs load d = .ok (r, d'))
    {s : String} (h1 : s ≠ "") (h2 : s ≠ "greedy") :
    parseInputs load { d with sensitivityType := s } =
      .ok ({ r with sensitivityType := s }, { d' with sensitivityType := s }) ∧
    ∀ (K : Cantera IgnInput Cond FlameInput) (rnd : ℚ → ℚ) (sh : Shell) (path : String) (threads : Int)
      (dk : Disk) (dfuel fuel saFuel : Nat) (w : World),
      fullMain K rnd (mainArgs sh { r with sensitivityType := s } path threads) dk dfuel fuel saFuel w =
      fullMain K rnd (mainArgs sh { r with sensitivityType := "initial" } path threads) dk dfuel fuel
        saFuel w := by
  constructor
  · simp only [parseInputs, bind_ok, pyAssert_ok, pure_ok] at h ⊢
    obtain ⟨_, a1, _, a2, _, a3, u, a4, n, a5, _, a6, _, a7, _, a8, i, a9, p, a10, f, a11, safe, a12, hr⟩ := h
    cases hr
    exact ⟨(), a1, (), a2, (), a3, u, a4, n, a5, (), a6, (), a7, (), a8, i, a9, p, a10, f, a11, safe, a12, rfl⟩
  · intro K rnd sh path threads dk dfuel fuel saFuel w
    have hr : ∀ dd M b, runMain (mainIn K rnd (mainArgs sh { r with sensitivityType := s } path threads)
          dd M b dfuel fuel saFuel) w =
        runMain (mainIn K rnd (mainArgs sh { r with sensitivityType := "initial" } path threads)
          dd M b dfuel fuel saFuel) w := fun dd M b =>
      runMain_type (mainIn K rnd (mainArgs sh { r with sensitivityType := "initial" } path threads)
          dd M b dfuel fuel saFuel) w h1 h2
    unfold fullMain
    simp only [hr]
    rfl

/-! ### The input file of `Props.Parse` -/

/-- species of its model -/
def exLoad : String → String → Except Err (List String) :=
  fun _ _ => .ok ["H2", "CH4", "O2", "N2", "O", "H", "OH"]

theorem exInput_lists : Lists exInput ["CH4", "O2"] ["N2"] := ⟨rfl, .inl rfl⟩

theorem exInput_accepted : ∃ r d', parseInputs exLoad exInput = .ok (r, d') := by
  rcases h : parseInputs exLoad exInput with e | ⟨r, d'⟩
  · have : (parseInputs exLoad exInput).toOption.isSome = true := by decide +kernel
    rw [h] at this; cases this
  · exact ⟨r, d', rfl⟩

/-- it is well formed -/
theorem exInput_wellFormed :
    WellFormed ["H2", "CH4", "O2", "N2", "O", "H", "OH"] exInput ["CH4", "O2"] ["N2"] ∧
      NoBareKeys exInput :=
  (parseInputs_iff exInput_lists rfl).1 exInput_accepted

/-- the same file with an empty `fuel:` beside the reactants of the flame -/
def exBare : InputDict := { exInput with flame := [("fuel", .null) :: exFlameCase] }

example : parseInputs exLoad exBare = .error .typeError := by
  refine C98_bare_key_refuted (names := ["H2", "CH4", "O2", "N2", "O", "H", "OH"])
    (ts := ["CH4", "O2"]) (ss := ["N2"]) ⟨rfl, .inl rfl⟩ rfl ?_ ?_
  · obtain ⟨h1, h2, h3, h4, ⟨c, hc⟩, h6, h7, h8⟩ := exInput_wellFormed.1
    refine ⟨h1, h2, h3, h4, ⟨exCase, .inl (by simp [exBare, exInput])⟩, h6, h7, ?_⟩
    intro c hc
    simp only [exBare, List.mem_singleton] at hc
    subst hc
    exact ⟨FlameInput.mk (condOf (("fuel", .null) :: exFlameCase)) (.num (.fin float01)),
      (parseFlame_ok _ _ _).1 (by decide +kernel)⟩
  · intro hB
    have := hB (("fuel", .null) :: exFlameCase) (by simp [exBare]) "fuel" (by simp) .null
      ((lookup_holds _ _ _ _).1 (by decide +kernel))
    simp at this

example : ∃ r d', parseInputs exLoad { exInput with sensitivityType := "Greedy" } = .ok (r, d') := by
  obtain ⟨r, d', h⟩ := exInput_accepted
  exact ⟨_, _, (C98_type_refuted h (by decide) (by decide)).1⟩

/-- an error limit of zero is refused: `AssertionError` -/
example : parseInputs exLoad { exInput with error := .fin 0 } = .error .assertionError := by decide +kernel

/-- what is wrong with it, in the words of C98 -/
example : ¬ ∃ names, exLoad "mech.yaml" "" = .ok names ∧
    WellFormed names { exInput with error := .fin 0 } ["CH4", "O2"] ["N2"] ∧
    NoBareKeys { exInput with error := .fin 0 } := fun ⟨_, _, W, _⟩ => W.error rfl

theorem exInput_typed : WellTyped { exInput with error := .fin 0 } := by
  refine ⟨fun c hc k hk => ?_, fun c hc v hv => ?_⟩
  · rw [given_iff] at hk
    subst hk
    simp only [exInput, List.append_nil, List.mem_append, List.mem_singleton] at hc
    rcases hc with rfl | rfl
    · exact ⟨trivial, trivial, trivial, .inr ⟨_, rfl, by simp⟩, .inr ⟨_, rfl, by simp⟩, .inl rfl⟩
    · exact ⟨trivial, trivial, trivial, .inl rfl, .inl rfl, .inr ⟨_, rfl, by simp⟩⟩
  · simp only [exInput, List.mem_singleton] at hc
    subst hc
    rw [← lookup_holds] at hv
    subst hv
    trivial

example (e : Err) (h : parseInputs exLoad { exInput with error := .fin 0 } = .error e) :
    e = .assertionError ∨ exLoad "mech.yaml" "" = .error e :=
  C98_rejected_partial (ts := ["CH4", "O2"]) (ss := ["N2"]) ⟨rfl, .inl rfl⟩ exInput_typed
    (exInput_wellFormed.2) h

end Verif
