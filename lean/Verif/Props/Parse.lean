import Verif.Lemmas.ParseInputs
/-!
# Properties of input parsing (C48, C49, C75, C76)
-/
namespace Verif
open Spec

/-! ## C48: conditions -/

/-- Autoignition conditions are accepted exactly when every one is well formed, and the records
hold the values given. -/
theorem C48_ignition (names : List String) (cs : List Case) (rs : List IgnInput) :
    parseCases (parseIgnition names) cs = .ok rs ↔ List.Forall₂ (IgnitionOk names) cs rs := by
  rw [parseCases_ok]
  exact ⟨fun h => h.imp fun _ _ => (parseIgnition_ok _ _ _).1,
    fun h => h.imp fun _ _ => (parseIgnition_ok _ _ _).2⟩

/-- the same for reactor conditions -/
theorem C48_psr (names : List String) (cs : List Case) (rs : List Cond) :
    parseCases (parsePsr names) cs = .ok rs ↔ List.Forall₂ (PsrOk names) cs rs := by
  rw [parseCases_ok]
  exact ⟨fun h => h.imp fun _ _ => (parsePsr_ok _ _ _).1,
    fun h => h.imp fun _ _ => (parsePsr_ok _ _ _).2⟩

/-- the same for flame conditions -/
theorem C48_flame (names : List String) (cs : List Case) (rs : List FlameInput) :
    parseCases (parseFlame names) cs = .ok rs ↔ List.Forall₂ (FlameOk names) cs rs := by
  rw [parseCases_ok]
  exact ⟨fun h => h.imp fun _ _ => (parseFlame_ok _ _ _).1,
    fun h => h.imp fun _ _ => (parseFlame_ok _ _ _).2⟩

/-- When every value has the type it should have, a rejected list of conditions raises
`AssertionError`.  Missing for the full claim: values of other types, see `C48_type_refuted`. -/
theorem C48_assertion_partial (names : List String) (cs : List Case)
    (ht : ∀ c ∈ cs, ∀ k, Given c k → Typed k) :
    (∀ e, parseCases (parseIgnition names) cs = .error e → e = .assertionError) ∧
    (∀ e, parseCases (parsePsr names) cs = .error e → e = .assertionError) ∧
    ((∀ c ∈ cs, ∀ w, Holds c "width" (.num (.fin float01)) w → Numeric w) →
      ∀ e, parseCases (parseFlame names) cs = .error e → e = .assertionError) := by
  have hT : ∀ c ∈ cs, Typed (condOf c) := fun c hc => ht c hc _ ((given_iff c _).2 rfl)
  refine ⟨fun e h => ?_, fun e h => ?_, fun hw e h => ?_⟩
  · obtain ⟨c, hc, h⟩ := parseCases_error h
    simp only [parseIgnition, bind_error, pure_error] at h
    rcases h with h | ⟨_, _, h | ⟨_, _, h | ⟨_, _, h | ⟨_, _, h⟩⟩⟩⟩
    · exact pyAssert_error h
    · exact assertPositive_error (hT c hc).temperature h
    · exact assertPositive_error (hT c hc).pressure h
    · exact checkComposition_error (hT c hc) h
    · exact h.elim
  · obtain ⟨c, hc, h⟩ := parseCases_error h
    simp only [parsePsr, bind_error, pure_error] at h
    rcases h with h | ⟨_, _, h | ⟨_, _, h | ⟨_, _, h⟩⟩⟩
    · exact assertPositive_error (hT c hc).temperature h
    · exact assertPositive_error (hT c hc).pressure h
    · exact checkComposition_error (hT c hc) h
    · exact h.elim
  · obtain ⟨c, hc, h⟩ := parseCases_error h
    simp only [parseFlame, bind_error, pure_error] at h
    rcases h with h | ⟨_, _, h | ⟨_, _, h | ⟨_, _, h | ⟨_, _, h⟩⟩⟩⟩
    · exact assertPositive_error (hT c hc).temperature h
    · exact assertPositive_error (hT c hc).pressure h
    · exact assertPositive_error (hw c hc _ ((lookup_holds _ _ _ _).1 rfl)) h
    · exact checkComposition_error (hT c hc) h
    · exact h.elim

/-- Refutes the second half of C48: a temperature that is text (`temperature: 1000 K`) is answered
with `TypeError`, whatever else the conditions say. -/
theorem C48_type_refuted (names : List String) (c : Case) (cs : List Case) (s : String)
    (hT : Holds c "temperature" (.num (.fin 0)) (.str s)) :
    parseCases (parsePsr names) (c :: cs) = .error .typeError ∧
    parseCases (parseFlame names) (c :: cs) = .error .typeError ∧
    (Holds c "kind" (.str "") (.str "constant volume") →
      parseCases (parseIgnition names) (c :: cs) = .error .typeError) := by
  have h : (condOf c).temperature = .str s := (lookup_holds _ _ _ _).2 hT
  have hp : assertPositive (condOf c).temperature = .error .typeError := by rw [h]; rfl
  refine ⟨?_, ?_, fun hk => ?_⟩
  · simp only [parseCases, parsePsr, hp]; rfl
  · simp only [parseCases, parseFlame, hp]; rfl
  · have hk' : c.get "kind" (.str "") = .str "constant volume" := (lookup_holds _ _ _ _).2 hk
    simp only [parseCases, parseIgnition, hp, hk']; rfl

/-- an autoignition condition -/
def exCase : Case :=
  [("kind", .str "constant volume"), ("temperature", .num (.fin 1000)), ("pressure", .num (.fin 1)),
   ("equivalence-ratio", .num (.fin 1)), ("fuel", .dict [("CH4", .num (.fin 1))]),
   ("oxidizer", .dict [("O2", .num (.fin 1)), ("N2", .num (.fin (376 / 100)))])]

/-- a flame condition with reactants -/
def exFlameCase : Case :=
  [("temperature", .num (.fin 300)), ("pressure", .num (.fin 1)), ("composition-type", .str "mass"),
   ("reactants", .dict [("H2", .num (.fin 1)), ("O2", .num (.fin 8))])]

example : parseCases (parseIgnition ["CH4", "O2", "N2"]) [exCase] =
    .ok [IgnInput.mk (condOf exCase) (.str "constant volume") (.num (.fin 0))
      (.num (.fin 10000))] := by decide +kernel

example : ∃ k, parseFlame ["H2", "O2"] exFlameCase = .ok k ∧ k.width = .num (.fin float01) :=
  ⟨FlameInput.mk (condOf exFlameCase) (.num (.fin float01)), by decide +kernel, rfl⟩

/-- rejected by an assertion: a species that is not in the model -/
example : parseFlame ["H2"] exFlameCase = .error .assertionError := by decide +kernel

example : ∀ k, Given exFlameCase k → Typed k := by
  intro k hk
  rw [given_iff] at hk
  subst hk
  refine ⟨trivial, trivial, trivial, .inl ?_, .inl ?_, .inr ⟨_, rfl, ?_⟩⟩
  · rfl
  · rfl
  · simp

example : Holds [("temperature", .str "1000 K")] "temperature" (.num (.fin 0)) (.str "1000 K") :=
  (lookup_holds _ _ _ _).1 rfl

/-! ## C75: the state set up for a simulation -/

/-- the composition the user gave, as it must be set -/
def Spec.Intended (names : List String) (c : Case) (g : GasSet) : Prop :=
  (∃ φ f o, Holds c "equivalence-ratio" (.num (.fin 0)) φ ∧ Holds c "fuel" (.list true) f ∧
      Holds c "oxidizer" (.list true) o ∧ Positive φ ∧ Composition names f ∧ Composition names o ∧
      g = .equivalence φ f o) ∨
  (∃ r, Holds c "reactants" (.list true) r ∧ Composition names r ∧
      ((Holds c "composition-type" (.str "mole") (.str "mole") ∧ g = .moles r) ∨
       (Holds c "composition-type" (.str "mole") (.str "mass") ∧ g = .masses r)))

theorem setup_intended {names : List String} {c : Case} {k : Cond} (hg : Given c k)
    (hk : CondOk names k) : Spec.Intended names c (setupGas k) := by
  rcases hk.2.2 with ⟨he, hf, ho, _, _⟩ | ⟨hr, he, _, _, hc⟩
  · refine .inl ⟨_, _, _, hg.equiv, hg.fuel, hg.oxidizer, he, hf, ho, ?_⟩
    rw [setupGas, if_pos (positive_truthy he)]
  · refine .inr ⟨_, hg.reactants, hr, ?_⟩
    rw [notGiven_iff] at he
    have h7 := hg.compType
    rcases hc with hc | hc
    · rw [hc] at h7
      exact .inl ⟨h7, by simp [setupGas, he, hc]⟩
    · rw [hc] at h7
      exact .inr ⟨h7, by simp [setupGas, he, hc]⟩

/-- A simulation made from an accepted condition starts from the mixture the user described:
the given equivalence ratio of the given fuel and oxidizer, or the given reactants in the given
basis; for all three kinds of simulation. -/
theorem C75_setup (names : List String) (c : Case) :
    (∀ r, parseIgnition names c = .ok r → Spec.Intended names c (setupGas r.toCond)) ∧
    (∀ r, parsePsr names c = .ok r → Spec.Intended names c (setupGas r)) ∧
    (∀ r, parseFlame names c = .ok r → Spec.Intended names c (setupGas r.toCond)) := by
  refine ⟨fun r h => ?_, fun r h => ?_, fun r h => ?_⟩
  · obtain ⟨h1, h2, _⟩ := (parseIgnition_ok _ _ _).1 h
    exact setup_intended h1 h2
  · obtain ⟨h1, h2⟩ := (parsePsr_ok _ _ _).1 h
    exact setup_intended h1 h2
  · obtain ⟨h1, h2, _⟩ := (parseFlame_ok _ _ _).1 h
    exact setup_intended h1 h2

example : setupGas (condOf exFlameCase) =
    .masses (.dict [("H2", .num (.fin 1)), ("O2", .num (.fin 8))]) := by decide +kernel

/-! ## C49: retained species -/

theorem has_iter_list (l : List String) (sp : String) : (Names.list l).has sp = true ↔ sp ∈ l := by
  simp [Names.has]

theorem species_ok {load d r d'} (h : parseInputs load d = .ok (r, d')) :
    ∃ names, ParsedOk load d r names ∧
      d' = { d with retained := d.retained.map (fun _ => r.safe) } ∧ r.targets = d.targets ∧
      ∀ k ∈ r.ignition.map (·.toCond) ++ r.psr ++ r.flame.map (·.toCond), ∃ l, k.species = .ok l ∧
        ∀ sp ∈ l, d.targets.has sp = true ∨ r.safe.has sp = true := by
  obtain ⟨names, hp, hd, ht, _⟩ := parseInputs_ok h
  exact ⟨names, hp, hd, ht, (retainSpecies_cover hp.safe).1⟩

/-- After a successful `parse_inputs` with lists of names: the retained species are those given,
in order, followed by new ones without repetition; every fuel, oxidizer and reactant species is a
target or retained; only such species were added; all targets and retained species are in the
model. -/
theorem C49_protected (load : String → String → Except Err (List String)) (d d' : InputDict)
    (r : ReductionInputs) (ts ss : List String) (h : parseInputs load d = .ok (r, d'))
    (hts : d.targets = .list ts) (hss : d.retained.getD (.list []) = .list ss) :
    ∃ names added, load d.model d.phase = .ok names ∧ r.targets = .list ts ∧
      r.safe = .list (ss ++ added) ∧ added.Nodup ∧
      (∀ sp ∈ added, sp ∉ ss ∧ sp ∉ ts ∧ Needs d sp) ∧
      (∀ sp, Needs d sp → sp ∈ ts ++ ss ++ added) ∧
      (∀ sp ∈ ts ++ ss ++ added, sp ∈ names) := by
  obtain ⟨names, hp, _, ht, hsp⟩ := species_ok h
  obtain ⟨added, h1, h2, h3⟩ := retainSpecies_list d.targets
    (r.ignition.map (·.toCond) ++ r.psr ++ r.flame.map (·.toCond)) ss
    (fun k hk => let ⟨l, hl, _⟩ := hsp k hk; ⟨l, hl⟩)
  have hsafe := hp.safe
  rw [hss, h1] at hsafe
  have hsafe : r.safe = .list (ss ++ added) := (Except.ok.inj hsafe).symm
  have hadd : ∀ sp ∈ added, sp ∉ ss ∧ sp ∉ ts ∧ Needs d sp ∧ sp ∈ names := by
    intro sp hsp'
    obtain ⟨a, b, k, hk, l, hl, hm⟩ := h3 sp hsp'
    obtain ⟨c, hc, hg, hok⟩ := hp.cond hk
    refine ⟨b, ?_, ?_, species_in_model hok hl sp hm⟩
    · rw [hts] at a
      intro hh
      rw [(has_iter_list _ _).2 hh] at a; cases a
    · obtain ⟨v, hv, entries, rfl, hx⟩ := (species_mem hl sp).1 hm
      simp only [List.mem_cons, List.not_mem_nil, or_false] at hv
      rcases hv with hv | hv | hv
      · exact ⟨c, hc, "fuel", by simp, entries, hv ▸ hg.fuel, hx⟩
      · exact ⟨c, hc, "oxidizer", by simp, entries, hv ▸ hg.oxidizer, hx⟩
      · exact ⟨c, hc, "reactants", by simp, entries, hv ▸ hg.reactants, hx⟩
  refine ⟨names, added, hp.loaded, ht.trans hts, hsafe, h2, fun sp hm => ?_, ?_, ?_⟩
  · obtain ⟨a, b, c, _⟩ := hadd sp hm; exact ⟨a, b, c⟩
  · rintro sp ⟨c, hc, key, hkey, entries, hh, hx⟩
    obtain ⟨k, hk, hg⟩ := hp.case hc
    obtain ⟨l, hl, hcov⟩ := hsp k hk
    have hm : sp ∈ l := by
      rw [species_mem hl]
      simp only [List.mem_cons, List.not_mem_nil, or_false] at hkey
      rw [← lookup_holds] at hh
      rcases hkey with rfl | rfl | rfl
      · refine ⟨k.fuel, by simp, entries, ?_, hx⟩
        rw [← hh]; exact ((lookup_holds _ _ _ _).2 hg.fuel).symm
      · refine ⟨k.oxidizer, by simp, entries, ?_, hx⟩
        rw [← hh]; exact ((lookup_holds _ _ _ _).2 hg.oxidizer).symm
      · refine ⟨k.reactants, by simp, entries, ?_, hx⟩
        rw [← hh]; exact ((lookup_holds _ _ _ _).2 hg.reactants).symm
    rcases hcov sp hm with h | h
    · rw [hts, has_iter_list] at h; simp [h]
    · rw [hsafe, has_iter_list] at h
      simp only [List.mem_append] at h ⊢; tauto
  · intro sp hm
    simp only [List.mem_append] at hm
    rcases hm with (hm | hm) | hm
    · exact hp.targets sp (by rw [hts]; exact hm)
    · exact hp.retained sp (by rw [hss]; exact hm)
    · exact (hadd sp hm).2.2.2

/-- Parsing the dictionary again, which by then holds the extended list, gives the same result and
leaves it unchanged. -/
theorem C49_again (load : String → String → Except Err (List String)) (d d' : InputDict)
    (r : ReductionInputs) (h : parseInputs load d = .ok (r, d')) :
    parseInputs load d' = .ok (r, d') := by
  obtain ⟨names, hp, hd, _, hsp⟩ := species_ok h
  cases hret : d.retained with
  | none =>
    have : d' = d := by rw [hd, hret]; cases d; simp_all
    rw [this] at h ⊢; exact h
  | some n0 =>
    have hd2 : d' = { d with retained := some r.safe } := by rw [hd, hret]; rfl
    have hcov := retainSpecies_covered hsp
    have hsafe := hp.safe
    rw [hret] at hsafe
    have hin : ∀ sp ∈ r.safe.iter, sp ∈ names := by
      have hret' := hp.retained
      rw [hret] at hret'
      cases n0 with
      | list ss =>
        obtain ⟨added, h1, _, h3⟩ := retainSpecies_list d.targets
          (r.ignition.map (·.toCond) ++ r.psr ++ r.flame.map (·.toCond)) ss
          (fun k hk => let ⟨l, hl, _⟩ := hsp k hk; ⟨l, hl⟩)
        rw [Option.getD_some, h1] at hsafe
        rw [← Except.ok.inj hsafe]
        intro sp hm
        rcases List.mem_append.1 hm with hm | hm
        · exact hret' sp hm
        · obtain ⟨_, _, k, hk, l, hl, hx⟩ := h3 sp hm
          obtain ⟨c, _, _, hok⟩ := hp.cond hk
          exact species_in_model hok hl sp hx
      | str s =>
        have : ∀ ks, retainSpecies d.targets ks (.str s) = .ok r.safe → r.safe = .str s := by
          intro ks
          induction ks with
          | nil => intro h; exact (Except.ok.inj h).symm
          | cons k ks ih =>
            intro h
            simp only [retainSpecies, bind_ok] at h
            obtain ⟨l, _, m, hm, h⟩ := h
            obtain ⟨rfl, _⟩ := retainNames_str _ _ _ _ hm
            exact ih h
        rw [this _ hsafe]; exact hret'
    have h0 := h
    simp only [parseInputs, bind_ok, pyAssert_ok, pure_ok] at h ⊢
    obtain ⟨_, hmod, _, herr, _, hsth, _, hmeth, names', hload, _, ht, _, hs, _, hc, ign, hi, psr, hps,
      fl, hf, safe, hsf, hr⟩ := h
    have hnn : names' = names := by rw [hp.loaded] at hload; exact (Except.ok.inj hload).symm
    subst hnn
    have hr1 := (Prod.mk.inj hr).1
    have hign : r.ignition = ign := by rw [← hr1]
    have hpsr : r.psr = psr := by rw [← hr1]
    have hfl : r.flame = fl := by rw [← hr1]
    have hss : r.safe = safe := by rw [← hr1]
    subst hd2
    refine ⟨(), hmod, (), herr, (), hsth, (), hmeth, names', hload, (), ht, (), ?_, (), hc, ign, hi,
      psr, hps, fl, hf, r.safe, ?_, ?_⟩
    · simpa using hin
    · rw [← hign, ← hpsr, ← hfl]; exact hcov
    · rw [Prod.mk.injEq]
      refine ⟨?_, rfl⟩
      rw [hss]; exact hr1

/-- an input file -/
def exInput : InputDict where
  model := "mech.yaml"
  error := .fin 5
  method := "DRG"
  sensitivity := false
  targets := .list ["CH4", "O2"]
  upper := none
  sensitivityType := "initial"
  retained := some (.list ["N2"])
  phase := ""
  minFlameSpeed := none
  ignition := [exCase]
  psr := []
  flame := [exFlameCase]

/-- `H2` of the flame is added to the retained species -/
example : ∃ r d', parseInputs (fun _ _ => .ok ["H2", "CH4", "O2", "N2", "O", "H", "OH"]) exInput =
    .ok (r, d') ∧ r.safe = .list ["N2", "H2"] ∧ d'.retained = some (.list ["N2", "H2"]) := by
  rcases h : parseInputs (fun _ _ => .ok ["H2", "CH4", "O2", "N2", "O", "H", "OH"]) exInput with e | ⟨r, d'⟩
  · have : (parseInputs (fun _ _ => .ok ["H2", "CH4", "O2", "N2", "O", "H", "OH"])
        exInput).toOption.isSome = true := by decide +kernel
    rw [h] at this; cases this
  · refine ⟨r, d', rfl, ?_, ?_⟩
    · have : (parseInputs (fun _ _ => .ok ["H2", "CH4", "O2", "N2", "O", "H", "OH"]) exInput).toOption.map
        (fun x => x.1.safe) = some (.list ["N2", "H2"]) := by decide +kernel
      rw [h] at this; exact Option.some.inj this
    · have : (parseInputs (fun _ _ => .ok ["H2", "CH4", "O2", "N2", "O", "H", "OH"]) exInput).toOption.map
        (fun x => x.2.retained) = some (some (.list ["N2", "H2"])) := by decide +kernel
      rw [h] at this; exact Option.some.inj this

/-! ## C76: a single name given without a list -/

/-- For names given as lists C76 holds: the targets used are the names written, and a fuel, oxidizer
or reactant species that is not one of them is retained. -/
theorem C76_list_partial (load : String → String → Except Err (List String)) (d d' : InputDict)
    (r : ReductionInputs) (ts ss : List String) (h : parseInputs load d = .ok (r, d'))
    (hts : d.targets = .list ts) (hss : d.retained.getD (.list []) = .list ss) :
    r.targets.iter = ts ∧ ∀ sp, Needs d sp → sp ∉ ts → sp ∈ r.safe.iter := by
  obtain ⟨names, added, _, h1, h2, _, _, h3, _⟩ := C49_protected load d d' r ts ss h hts hss
  refine ⟨by rw [h1]; rfl, fun sp hn hne => ?_⟩
  rw [h2]
  have := h3 sp hn
  rw [List.append_assoc, List.mem_append] at this
  exact this.resolve_left hne

example : Needs exInput "H2" := by
  refine ⟨exFlameCase, by simp [exInput], "reactants", by simp,
    [("H2", .num (.fin 1)), ("O2", .num (.fin 8))], (lookup_holds _ _ _ _).1 rfl, .num (.fin 1), ?_⟩
  simp

/-- Refutes C76: a target given as plain text is taken apart into characters.  If every character
happens to be a species (`targets: OH` in a model with `O` and `H`) the input is accepted, although
the text itself need not be a species, and the targets used are the characters. -/
theorem C76_text_refuted (load : String → String → Except Err (List String)) (d d' : InputDict)
    (r : ReductionInputs) (names ss : List String) (s : String)
    (h : parseInputs load d = .ok (r, d')) (hload : load d.model d.phase = .ok names)
    (hss : d.retained.getD (.list []) = .list ss) (hne : s ≠ "")
    (hchars : ∀ c ∈ s.toList, String.ofList [c] ∈ names) :
    ∃ r' d'', parseInputs load { d with targets := .str s } = .ok (r', d'') ∧
      r'.targets.iter = s.toList.map (fun c => String.ofList [c]) ∧
      ∀ sp : String, 2 ≤ sp.toList.length → sp.toList <:+: s.toList → sp ∉ ss →
        sp ∉ r'.targets.iter ∧ r'.safe.has sp = false := by
  obtain ⟨names', hp, _, _, hsp⟩ := species_ok h
  have hnn : names' = names := by have := hp.loaded; rw [hload] at this; exact (Except.ok.inj this).symm
  subst hnn
  simp only [parseInputs, bind_ok, pyAssert_ok, pure_ok] at h
  obtain ⟨_, hmod, _, herr, _, hsth, _, hmeth, names, hload', _, ht, _, hs, _, hc, ign, hi, psr, hps,
    fl, hf, safe, hsf, hr⟩ := h
  have hnn : names = names' := by rw [hload] at hload'; exact (Except.ok.inj hload').symm
  subst hnn
  have hr1 := (Prod.mk.inj hr).1
  have hign : r.ignition = ign := by rw [← hr1]
  have hpsr : r.psr = psr := by rw [← hr1]
  have hfl : r.flame = fl := by rw [← hr1]
  rw [hign, hpsr, hfl] at hsp
  obtain ⟨added, h1, h2, h3⟩ := retainSpecies_list (.str s)
    (ign.map (·.toCond) ++ psr ++ fl.map (·.toCond)) ss
    (fun k hk => let ⟨l, hl, _⟩ := hsp k hk; ⟨l, hl⟩)
  have hm2 : pyWhen (decide (d.method ≠ "")) (do
      pyAssert (["DRG", "DRGEP", "PFA"].contains d.method)
      pyAssert (Names.str s).truthy) = .ok () := by
    rcases hp.method with hm | ⟨hm, _⟩
    · simp [hm, pyWhen]
    · have : d.method ≠ "" := by rintro h; rw [h] at hm; simp at hm
      have hm' : ["DRG", "DRGEP", "PFA"].contains d.method = true := by simpa using hm
      have ht' : (Names.str s).truthy = true := by simpa [Names.truthy] using hne
      rw [hm', ht']
      simp only [pyWhen, this, ne_eq, not_false_eq_true, decide_true, if_true]
      rfl
  refine ⟨{ r with targets := .str s, safe := .list (ss ++ added) },
    { d with targets := .str s, retained := d.retained.map (fun _ => .list (ss ++ added)) }, ?_, ?_, ?_⟩
  · simp only [parseInputs, bind_ok, pyAssert_ok, pure_ok]
    refine ⟨(), hmod, (), herr, (), hsth, (), hm2, names, hload, (), ?_, (), ?_, (), hc, ign, hi, psr, hps,
      fl, hf, _, ?_, by rw [← hr1]⟩
    · simpa [Names.iter] using hchars
    · exact hs
    · show retainSpecies (.str s) _ (d.retained.getD (.list [])) = _
      rw [hss]; exact h1
  · rfl
  · intro sp hlen hin hns
    constructor
    · intro hm
      obtain ⟨c, _, hc⟩ := List.mem_map.1 hm
      rw [← hc] at hlen; simp at hlen
    · show (Names.list (ss ++ added)).has sp = false
      by_contra hh
      rw [Bool.not_eq_false, has_iter_list, List.mem_append] at hh
      rcases hh with hh | hh
      · exact hns hh
      · have := (h3 sp hh).1
        simp [Names.has, hin] at this

/-- `targets: OH` -/
example : (parseInputs (fun _ _ => .ok ["H2", "CH4", "O2", "N2", "O", "H", "OH"])
    { exInput with targets := .str "OH" }).toOption.map (fun x => x.1.targets.iter) =
    some ["O", "H"] := by decide +kernel

end Verif
