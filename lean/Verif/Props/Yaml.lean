import Verif.Lemmas.ParseDyn
/-!
# What is written in an input file (C131) and headings without entries (C132)
-/
namespace Verif
open Spec

/-! ## C131: names and numbers are read as they are written -/

/-- **C131** (names): a text in quotes, and a plain one that begins with a letter and is not one of the words for true, false
and nothing, is read as itself. -/
theorem C131_names_partial {s : YScalar} (h : LooksText s) : scalarValue s = .ok (.str (String.ofList s.text)) := by
  unfold scalarValue
  rcases h with h | ⟨c, t, ht, h1, h2, h3⟩
  · rw [if_neg (by simp [h])]
  · split
    · rw [ht] at h2 h3 ⊢
      rw [plainTag_word h1 h2 h3]
    · rfl

theorem scalar_boolWord {s : YScalar} (hp : s.plain = true) (h : s.text ∈ boolSpellings) : ∃ b, scalarValue s = .ok (.bool b) := by
  unfold scalarValue plainTag
  rw [if_pos hp, if_pos (by simpa using mem_boolWords.2 h)]
  exact ⟨_, rfl⟩

theorem scalar_nullWord {s : YScalar} (hp : s.plain = true) (h : s.text ∈ nullSpellings) : scalarValue s = .ok .none := by
  have : plainTag s.text = .null := by
    have hall : ∀ t ∈ nullSpellings, plainTag t = .null := by decide +kernel
    exact hall _ h
  unfold scalarValue
  rw [if_pos hp, this]

theorem scalar_valueWord {s : YScalar} (h : ValueWord s) : ∃ k, scalarValue s = .ok k ∧ k.str? = none := by
  obtain ⟨hp, h | h⟩ := h
  · obtain ⟨b, hb⟩ := scalar_boolWord hp h
    exact ⟨_, hb, rfl⟩
  · exact ⟨_, scalar_nullWord hp h, rfl⟩

theorem heading_value {s : YScalar} {key : String} (h : LooksText s) (ht : s.text = key.toList) :
    scalarValue s = .ok (.str key) := by
  rw [C131_names_partial h, ht, String.ofList_toList]

/-- the value under a heading of an accepted document -/
theorem accepted_heading {load : PyV → PyV → Except Err (List String)} {y x : YNode} {key : String} {R : InputsDyn}
    (h : readInputs load y = .ok R) (hh : Heading y key x) :
    ∃ d names u, construct y = .ok (.dict d) ∧ Accepted load d R names ∧ construct x = .ok u ∧ ∀ v, headOf d key v = u := by
  obtain ⟨l1, k, l2, rfl, h1, h2, h3⟩ := hh
  obtain ⟨d, names, h4, h5⟩ := readInputs_accepted h
  obtain ⟨d', u, h6, h7, h8⟩ := construct_entry h4 (heading_value h1 h2) h3
  cases h6
  exact ⟨d, names, u, h4, h5, h7, headOf_some h8⟩

theorem constructed_heading {y x : YNode} {key : String} {v : PyV} (h : construct y = .ok v) (hh : Heading y key x) :
    ∃ d u, v = .dict d ∧ construct x = .ok u ∧ ∀ v, headOf d key v = u := by
  obtain ⟨l1, k, l2, rfl, h1, h2, h3⟩ := hh
  obtain ⟨d', u, h6, h7, h8⟩ := construct_entry h (heading_value h1 h2) h3
  exact ⟨d', u, h6, h7, headOf_some h8⟩

theorem construct_seq {l : List YNode} {v : PyV} (h : construct (.seq l) = .ok v) :
    ∃ vs, v = .list vs ∧ List.Forall₂ (fun x v => construct x = .ok v) l vs := by
  rw [construct] at h
  obtain ⟨vs, h1, h2⟩ := except_map_ok.1 h
  exact ⟨vs, h2.symm, constructSeq_ok.1 h1⟩

theorem construct_scalar {s : YScalar} {v : PyV} (h : construct (.scalar s) = .ok v) : ∃ k, scalarValue s = .ok k ∧ v = .sc k := by
  rw [construct] at h
  obtain ⟨k, h1, h2⟩ := except_map_ok.1 h
  exact ⟨k, h1, h2.symm⟩

/-- **C131** (targets): the targets of an accepted document that lists texts are these texts, all of them species. -/
theorem C131_targets_partial {load : PyV → PyV → Except Err (List String)} {y : YNode} {ts : List YScalar} {R : InputsDyn}
    (h : readInputs load y = .ok R) (hh : Heading y "targets" (.seq (ts.map .scalar))) (ht : ∀ s ∈ ts, LooksText s) :
    R.targets = .list (ts.map fun s => pyStr (String.ofList s.text)) ∧
      ∃ model phase names, load model phase = .ok names ∧ ∀ s ∈ ts, String.ofList s.text ∈ names := by
  obtain ⟨d, names, u, -, hA, h1, h2⟩ := accepted_heading h hh
  obtain ⟨vs, rfl, h3⟩ := construct_seq h1
  have hvs : vs = ts.map fun s => pyStr (String.ofList s.text) := by
    clear h2 h1 hh
    induction ts generalizing vs with
    | nil => cases h3; rfl
    | cons s ts ih =>
      cases h3 with
      | cons g1 g2 =>
        obtain ⟨k, g3, rfl⟩ := construct_scalar g1
        rw [C131_names_partial (ht s (by simp))] at g3
        cases g3
        rw [ih (fun s hs => ht s (by simp [hs])) _ g2]
        rfl
  subst hvs
  refine ⟨by rw [hA.targets, h2], _, _, names, hA.loaded, fun s hs => ?_⟩
  have := hA.named
  rw [h2] at this
  unfold namesDyn at this
  obtain ⟨l, g1, g2⟩ := bind_ok.1 this
  cases g1
  rw [pyAssert_ok, List.all_eq_true] at g2
  have := g2 _ (List.mem_map.2 ⟨s, hs, rfl⟩)
  simpa [pyStr, PyS.isIn] using this

/-- Refutes C131 for names: a document that lists one of the words for true, false and nothing without quotes among the targets
or the species to retain is never accepted, whatever species the model has.  One of them is nitric oxide, `NO`. -/
theorem C131_words_refuted {load : PyV → PyV → Except Err (List String)} {y : YNode} {xs : List YNode} {s : YScalar} {key : String}
    (hk : key = "targets" ∨ key = "retained-species") (hh : Heading y key (.seq xs)) (hs : ValueWord s)
    (hx : .scalar s ∈ xs) : ∀ R, readInputs load y ≠ .ok R := by
  intro R h
  obtain ⟨d, names, u, -, hA, h1, h2⟩ := accepted_heading h hh
  obtain ⟨vs, rfl, h3⟩ := construct_seq h1
  have hn : namesDyn names (.list vs) = .ok () := by
    rcases hk with rfl | rfl
    · rw [← h2 (.list [])]; exact hA.named
    · rw [← h2 (.list [])]; exact hA.retained
  obtain ⟨k, hk1, hk2⟩ := scalar_valueWord hs
  have hmem : PyV.sc k ∈ vs := by
    clear h2 hn hA h1 hh
    induction h3 with
    | nil => cases hx
    | cons g1 g2 ih =>
      rcases List.mem_cons.1 hx with rfl | hx
      · obtain ⟨k', g3, rfl⟩ := construct_scalar g1
        rw [hk1] at g3; cases g3
        simp
      · exact List.mem_cons_of_mem _ (ih hx)
  unfold namesDyn at hn
  obtain ⟨l, g1, g2⟩ := bind_ok.1 hn
  cases g1
  rw [pyAssert_ok, List.all_eq_true] at g2
  have := g2 _ hmem
  cases k <;> first | (simp [PyS.str?] at hk2; done) | (simp [PyS.isIn] at this; done)

/-! ### conditions -/

/-- what an accepted condition has been checked for -/
structure CondOk (names : List String) (c : PyV) (k : CondDyn) : Prop where
  dict : ∃ d, c = .dict d ∧ k.temperature = headOf d "temperature" (pyNum 0) ∧ k.pressure = headOf d "pressure" (pyNum 0) ∧
    k.equiv = headOf d "equivalence-ratio" (pyNum 0) ∧ k.fuel = headOf d "fuel" (.list []) ∧
    k.oxidizer = headOf d "oxidizer" (.list []) ∧ k.reactants = headOf d "reactants" (.list [])
  temperature : assertPos k.temperature = .ok ()
  pressure : assertPos k.pressure = .ok ()
  composition : compositionDyn names k = .ok ()

theorem condDyn_ok {c : PyV} {ex : List PyV} {k : CondDyn} (h : condDyn c ex = .ok k) :
    ∃ d, c = .dict d ∧ k.temperature = headOf d "temperature" (pyNum 0) ∧ k.pressure = headOf d "pressure" (pyNum 0) ∧
    k.equiv = headOf d "equivalence-ratio" (pyNum 0) ∧ k.fuel = headOf d "fuel" (.list []) ∧
    k.oxidizer = headOf d "oxidizer" (.list []) ∧ k.reactants = headOf d "reactants" (.list []) := by
  have hd : ∃ d, c = .dict d := by
    unfold condDyn at h
    obtain ⟨_, h1, -⟩ := bind_ok.1 h
    exact get_not_dict h1
  obtain ⟨d, rfl⟩ := hd
  unfold condDyn at h
  simp only [get_headOf, bind_ok, Except.ok.injEq, exists_eq_left'] at h
  subst h
  exact ⟨d, rfl, rfl, rfl, rfl, rfl, rfl, rfl⟩

theorem ignitionDyn_ok {names : List String} {c : PyV} {k : CondDyn} (h : ignitionDyn names c = .ok k) : CondOk names c k := by
  unfold ignitionDyn at h
  simp only [bind_ok, Except.ok.injEq] at h
  obtain ⟨_, _, _, _, _, _, k', h1, _, _, _, h2, _, h3, _, h4, rfl⟩ := h
  exact ⟨condDyn_ok h1, h2, h3, h4⟩

theorem psrDyn_ok {names : List String} {c : PyV} {k : CondDyn} (h : psrDyn names c = .ok k) : CondOk names c k := by
  unfold psrDyn at h
  simp only [bind_ok, Except.ok.injEq] at h
  obtain ⟨k', h1, _, h2, _, h3, _, h4, rfl⟩ := h
  exact ⟨condDyn_ok h1, h2, h3, h4⟩

theorem flameDyn_ok {names : List String} {c : PyV} {k : CondDyn} (h : flameDyn names c = .ok k) : CondOk names c k := by
  unfold flameDyn at h
  simp only [bind_ok, Except.ok.injEq] at h
  obtain ⟨_, _, k', h1, _, h2, _, h3, _, _, _, h4, rfl⟩ := h
  exact ⟨condDyn_ok h1, h2, h3, h4⟩

theorem retainAllDyn_keys {t : PyV} : ∀ {ks : List CondDyn} {s r : PyV}, retainAllDyn t ks s = .ok r →
    ∀ k ∈ ks, ∃ f o x, keysDyn k.fuel = .ok f ∧ keysDyn k.oxidizer = .ok o ∧ keysDyn k.reactants = .ok x := by
  intro ks
  induction ks with
  | nil => intro s r _ k hk; cases hk
  | cons a ks ih =>
    intro s r h k hk
    rw [retainAllDyn] at h
    obtain ⟨f, h1, h⟩ := bind_ok.1 h
    obtain ⟨o, h2, h⟩ := bind_ok.1 h
    obtain ⟨x, h3, h⟩ := bind_ok.1 h
    obtain ⟨s', -, h⟩ := bind_ok.1 h
    rcases List.mem_cons.1 hk with rfl | hk
    · exact ⟨f, o, x, h1, h2, h3⟩
    · exact ih h k hk

theorem forall2_left {α β} {R : α → β → Prop} : ∀ {l : List α} {m : List β}, List.Forall₂ R l m → ∀ a ∈ l, ∃ b ∈ m, R a b := by
  intro l m h
  induction h with
  | nil => intro b hb; cases hb
  | cons h1 _ ih =>
    intro b hb
    rcases List.mem_cons.1 hb with rfl | hb
    · exact ⟨_, List.mem_cons_self, h1⟩
    · obtain ⟨a, ha, hr⟩ := ih b hb
      exact ⟨a, List.mem_cons_of_mem _ ha, hr⟩

/-- a condition of an accepted document has been checked -/
theorem accepted_condition {load : PyV → PyV → Except Err (List String)} {y c : YNode} {R : InputsDyn}
    (h : readInputs load y = .ok R) (hc : Condition y c) :
    ∃ names v k, construct c = .ok v ∧ CondOk names v k ∧
      ∃ f o x, keysDyn k.fuel = .ok f ∧ keysDyn k.oxidizer = .ok o ∧ keysDyn k.reactants = .ok x := by
  obtain ⟨key, hkey, cs, hh, hmem⟩ := hc
  obtain ⟨d, names, u, -, hA, h1, h2⟩ := accepted_heading h hh
  obtain ⟨vs, rfl, h3⟩ := construct_seq h1
  obtain ⟨v, hv, hcv⟩ := forall2_left h3 c hmem
  have hkeys := retainAllDyn_keys hA.safe
  simp only [List.mem_cons, List.not_mem_nil, or_false] at hkey
  rcases hkey with rfl | rfl | rfl
  · obtain ⟨l, g1, g2⟩ := hA.ignition
    rw [h2] at g1
    cases g1
    obtain ⟨k, hk, g3⟩ := forall2_left (casesDyn_ok.1 g2) v hv
    exact ⟨names, v, k, hcv, ignitionDyn_ok g3, hkeys k (by simp [hk])⟩
  · obtain ⟨l, g1, g2⟩ := hA.psr
    rw [h2] at g1
    cases g1
    obtain ⟨k, hk, g3⟩ := forall2_left (casesDyn_ok.1 g2) v hv
    exact ⟨names, v, k, hcv, psrDyn_ok g3, hkeys k (by simp [hk])⟩
  · obtain ⟨l, g1, g2⟩ := hA.flame
    rw [h2] at g1
    cases g1
    obtain ⟨k, hk, g3⟩ := forall2_left (casesDyn_ok.1 g2) v hv
    exact ⟨names, v, k, hcv, flameDyn_ok g3, hkeys k (by simp [hk])⟩

/-- checked compositions -/
theorem compositionDyn_ok {names : List String} {k : CondDyn} (h : compositionDyn names k = .ok ()) :
    (k.equiv.truthy = true → assertPos k.equiv = .ok ()) ∧
    (∀ v, (v = k.fuel ∨ v = k.oxidizer ∨ v = k.reactants) → v.truthy = true → amountsDyn names v = .ok ()) := by
  unfold compositionDyn at h
  simp only [bind_ok] at h
  obtain ⟨_, -, _, h1, _, h2, -⟩ := h
  have key : k.equiv.truthy = true ∨ k.fuel.truthy = true ∨ k.oxidizer.truthy = true →
      assertPos k.equiv = .ok () ∧ amountsDyn names k.fuel = .ok () ∧ amountsDyn names k.oxidizer = .ok () := by
    intro ht
    have : (k.equiv.truthy || k.fuel.truthy || k.oxidizer.truthy) = true := by
      rcases ht with ht | ht | ht <;> simp [ht]
    rw [this, pyWhen_true] at h1
    simp only [bind_ok] at h1
    obtain ⟨_, g1, _, -, _, g2, _, -, g3⟩ := h1
    exact ⟨g1, g2, g3⟩
  refine ⟨fun ht => (key (.inl ht)).1, ?_⟩
  rintro v (rfl | rfl | rfl) ht
  · exact (key (.inr (.inl ht))).2.1
  · exact (key (.inr (.inr ht))).2.2
  · rw [ht, pyWhen_true] at h2
    exact h2

theorem putKey_nontext {l : List (PyS × PyV)} {k : PyS} {v : PyV} (h : k.str? = none ∨ ∃ q ∈ l, q.1.str? = none) :
    ∃ q ∈ putKey l k v, q.1.str? = none := by
  induction l with
  | nil =>
    rcases h with h | ⟨q, hq, -⟩
    · exact ⟨(k, v), by simp [putKey], h⟩
    · cases hq
  | cons p l ih =>
    obtain ⟨k', v'⟩ := p
    rw [putKey]
    by_cases hs : sameKey k' k = true
    · rw [if_pos hs]
      rcases h with h | ⟨q, hq, hq'⟩
      · refine ⟨(k', v), by simp, ?_⟩
        cases k' <;> first | rfl | skip
        rw [sameKey_str'] at hs
        rw [eq_of_beq hs] at h
        cases h
      · rcases List.mem_cons.1 hq with rfl | hq
        · exact ⟨(k', v), by simp, hq'⟩
        · exact ⟨q, by simp [hq], hq'⟩
    · rw [if_neg hs]
      by_cases hk' : k'.str? = none
      · exact ⟨(k', v'), by simp, hk'⟩
      · obtain ⟨q, hq, hq'⟩ := ih (by
          rcases h with h | ⟨q, hq, hq'⟩
          · exact .inl h
          · rcases List.mem_cons.1 hq with rfl | hq
            · exact absurd hq' hk'
            · exact .inr ⟨q, hq, hq'⟩)
        exact ⟨q, by simp [hq], hq'⟩

theorem dictOf_nontext {ps : List (PyS × PyV)} (h : ∃ p ∈ ps, p.1.str? = none) : ∃ q ∈ dictOf ps, q.1.str? = none := by
  have key : ∀ (ps m : List (PyS × PyV)), ((∃ p ∈ ps, p.1.str? = none) ∨ ∃ p ∈ m, p.1.str? = none) →
      ∃ q ∈ ps.foldl (fun m p => putKey m p.1 p.2) m, q.1.str? = none := by
    intro ps
    induction ps with
    | nil =>
      rintro m (⟨p, hp, -⟩ | h)
      · cases hp
      · exact h
    | cons a ps ih =>
      intro m h
      rw [List.foldl_cons]
      apply ih
      rcases h with ⟨p, hp, hp'⟩ | h
      · rcases List.mem_cons.1 hp with rfl | hp
        · exact .inr (putKey_nontext (.inl hp'))
        · exact .inl ⟨p, hp, hp'⟩
      · exact .inr (putKey_nontext (.inr h))
  exact key ps [] (.inl h)

/-- Refutes C131 for names in compositions: nor is a document accepted that has such a word as a species of a fuel, an oxidizer
or a mixture of reactants. -/
theorem C131_composition_refuted {load : PyV → PyV → Except Err (List String)} {y c x : YNode} {es : List (YScalar × YNode)}
    {part : String} {s : YScalar} (hc : Condition y c) (hp : part ∈ ["fuel", "oxidizer", "reactants"])
    (hh : Heading c part (.map es)) (hs : ValueWord s) (hx : (s, x) ∈ es) : ∀ R, readInputs load y ≠ .ok R := by
  intro R h
  obtain ⟨names, v, k, h1, hk, -⟩ := accepted_condition h hc
  obtain ⟨d, u, rfl, h2, h3⟩ := constructed_heading h1 hh
  obtain ⟨ps, h4, rfl⟩ := construct_map h2
  obtain ⟨p, hp1, hp2, -⟩ := forall2_left (constructPairs_ok.1 h4) _ hx
  obtain ⟨k', hk1, hk2⟩ := scalar_valueWord hs
  dsimp only at hp2
  rw [hk1] at hp2
  cases hp2
  obtain ⟨q, hq, hq'⟩ := dictOf_nontext ⟨p, hp1, hk2⟩
  have htr : (PyV.dict (dictOf ps)).truthy = true := by
    show (!(dictOf ps).isEmpty) = true
    cases hd : dictOf ps with
    | nil => rw [hd] at hq; cases hq
    | cons => rfl
  obtain ⟨d', hd, -, -, -, e1, e2, e3⟩ := hk.dict
  cases hd
  have hv : (PyV.dict (dictOf ps)) = k.fuel ∨ (PyV.dict (dictOf ps)) = k.oxidizer ∨ (PyV.dict (dictOf ps)) = k.reactants := by
    simp only [List.mem_cons, List.not_mem_nil, or_false] at hp
    rcases hp with rfl | rfl | rfl
    · exact .inl (by rw [e1, h3])
    · exact .inr (.inl (by rw [e2, h3]))
    · exact .inr (.inr (by rw [e3, h3]))
  have := (compositionDyn_ok hk.composition).2 _ hv htr
  obtain ⟨⟨t, ht, -⟩, -⟩ := entriesDyn_ok (show entriesDyn names (dictOf ps) = .ok () from this) q hq
  rw [ht] at hq'
  cases hq'

/-- The exception is not the one that names the species: the message of the assertion cannot be put together
(`sampling.py:766-770`). -/
theorem C131_key_refuted {names : List String} {k : PyS} {q : ℚ} {rest : List (PyS × PyV)} (hk : k.str? = none) :
    amountsDyn names (.dict ((k, .sc (.num (.fin q))) :: rest)) = .error .typeError := by
  have hin : k.isIn names = false := by
    cases k with
    | str s => cases hk
    | _ => rfl
  show entriesDyn names ((k, .sc (.num (.fin q))) :: rest) = .error .typeError
  have hg : (PyV.sc (.num (.fin q))).gt0 = .ok (decide (0 < q)) := rfl
  unfold entriesDyn
  rw [hg, hin]
  show (assertKey (decide (0 < q)) k >>= fun _ => assertKey false k >>= fun _ => entriesDyn names rest) = _
  unfold assertKey
  rw [hk]
  by_cases h0 : 0 < q
  · simp [h0]; rfl
  · simp [h0]; rfl

/-! ### numbers -/

/-- **C131** (numbers): a decimal number with a point and, if it has an exponent, a sign in it, is read as the float nearest to
it; a number of digits only that does not begin with zero, possibly with a minus sign, is read as that number. -/
theorem C131_numbers_partial :
    (∀ (neg : Bool) (i f : Text) (x : Option (Bool × Text)), i ≠ [] → i.all Char.isDigit = true → f.all Char.isDigit = true →
      goodExp x → scalarValue ⟨true, pointText neg i f x⟩ =
        .ok (.num (rndInf ((if neg then -1 else 1) * ((numeral 10 (i ++ f) : ℚ) * 10 ^ (eVal x - (f.length : Int))))))) ∧
    (∀ (neg : Bool) (a : Char) (i : Text), (a :: i).all Char.isDigit = true → a ≠ '0' →
      scalarValue ⟨true, (if neg then ['-'] else []) ++ a :: i⟩ =
        .ok (.num (.fin ((if neg then -1 else 1) * (numeral 10 (a :: i) : ℚ))))) := by
  constructor
  · intro neg i f x hi hd hf hx
    have htag : plainTag (pointText neg i f x) = .float := by
      unfold plainTag
      have hb : boolWords.contains (pointText neg i f x) = false := by
        have hdot : '.' ∈ pointText neg i f x := by simp [pointText]
        by_contra hh
        rw [Bool.not_eq_false] at hh
        have hall : ∀ t ∈ boolWords, '.' ∉ t := by decide +kernel
        exact hall _ (by simpa using hh) hdot
      rw [hb, isFloatText_dec neg hi hd hf hx]
      rfl
    unfold scalarValue
    rw [if_pos rfl, htag]
    dsimp only
    rw [yamlFloat_dec neg hi hd hf hx]
  · intro neg a i hd h0
    cases neg
    · show scalarValue ⟨true, a :: i⟩ = _
      unfold scalarValue
      rw [if_pos rfl, plainTag_int hd h0]
      dsimp only
      rw [yamlInt_decimal hd h0, if_neg (by simp), one_mul]
      rfl
    · show scalarValue ⟨true, '-' :: a :: i⟩ = _
      unfold scalarValue
      rw [if_pos rfl, plainTag_negint hd h0]
      dsimp only
      rw [yamlInt_negative hd h0, if_pos rfl, neg_one_mul]
      rfl

/-- a number with an odd exponent is a text -/
theorem scalar_odd {t : Text} (h : OddNumber t) : scalarValue ⟨true, t⟩ = .ok (.str (String.ofList t)) := by
  have htag : plainTag t = .str := by
    cases h with
    | @nopoint i x e hi hd he hx hxd sign hs =>
      have hed : e.isDigit = false := by rcases he with rfl | rfl <;> decide
      have hmem : ∀ c : Char, c.isDigit = false → c ≠ '-' → c ≠ '+' → c ∉ sign ++ x := by
        intro c hc h1 h2
        have := isDigit_absent hxd hc
        simp only [List.mem_cons, List.not_mem_nil, or_false] at hs
        rcases hs with rfl | rfl | rfl <;> simp [this, h1, h2]
      apply plainTag_tail hi hd hed (by rcases he with rfl | rfl <;> decide) (by rcases he with rfl | rfl <;> decide)
        (by rcases he with rfl | rfl <;> decide) (by rcases he with rfl | rfl <;> decide)
        (by rcases he with rfl | rfl <;> decide) (hmem ':' (by decide) (by decide) (by decide))
      apply not_float_nopoint hi hd
      rw [List.mem_cons, not_or]
      exact ⟨by rcases he with rfl | rfl <;> decide, hmem '.' (by decide) (by decide) (by decide)⟩
    | @nosign i f x e hi hd hf he hx hxd =>
      apply plainTag_tail hi hd (by decide) (by decide) (by decide) (by decide) (by decide) (by decide)
      · rw [List.mem_append, List.mem_cons]
        rintro (h | h | h)
        · exact isDigit_absent hf (by decide) h
        · rcases he with rfl | rfl <;> exact absurd h (by decide)
        · exact isDigit_absent hxd (by decide) h
      · exact not_float_nosign he hi hd hf hxd
  unfold scalarValue
  rw [if_pos rfl, htag]

/-- Refutes C131 for numbers: with a temperature, pressure or equivalence ratio whose exponent lacks a sign or a point before it
(`1e3`, `1.5e3`, `1e+3`) a document is never accepted. -/
theorem C131_exponent_refuted {load : PyV → PyV → Except Err (List String)} {y c : YNode} {part : String} {t : Text}
    (hc : Condition y c) (hp : part ∈ ["temperature", "pressure", "equivalence-ratio"])
    (hh : Heading c part (.scalar ⟨true, t⟩)) (ht : OddNumber t) : ∀ R, readInputs load y ≠ .ok R := by
  intro R h
  obtain ⟨names, v, k, h1, hk, -⟩ := accepted_condition h hc
  obtain ⟨d, u, rfl, h2, h3⟩ := constructed_heading h1 hh
  obtain ⟨u', hu, rfl⟩ := construct_scalar h2
  rw [scalar_odd ht] at hu
  cases hu
  obtain ⟨d', hd, e1, e2, e3, -⟩ := hk.dict
  cases hd
  have hne : String.ofList t ≠ "" := by
    intro he
    have : t = [] := by
      have := congrArg String.toList he
      simpa using this
    subst this
    generalize hw : ([] : Text) = w at ht
    cases ht with
    | nopoint hi => simp at hw
    | nosign hi => simp at hw
  simp only [List.mem_cons, List.not_mem_nil, or_false] at hp
  rcases hp with rfl | rfl | rfl
  · have := hk.temperature
    rw [e1, h3] at this
    cases this
  · have := hk.pressure
    rw [e2, h3] at this
    cases this
  · rw [h3] at e3
    have := (compositionDyn_ok hk.composition).1 (by rw [e3]; simpa [PyV.truthy, PyS.truthy] using hne)
    rw [e3] at this
    cases this

theorem entryOf_other {l1 l2 : List (PyS × PyV)} {key key' : String} {u u' : PyV} (h : key' ≠ key) :
    entryOf (dictOf (l1 ++ (.str key, u) :: l2)) key' = entryOf (dictOf (l1 ++ (.str key, u') :: l2)) key' := by
  rw [entryOf_dictOf, entryOf_dictOf]
  unfold entryOf
  simp only [List.reverse_append, List.reverse_cons, List.append_assoc, List.find?_append]
  have : ∀ u : PyV, List.find? (fun p : PyS × PyV => p.1 == .str key') [(PyS.str key, u)] = none := by
    intro u
    simp [Ne.symm h]
  rw [this, this]

theorem parseDyn_error {load : PyV → PyV → Except Err (List String)} {d d' : List (PyS × PyV)} {R : InputsDyn}
    (hsame : ∀ key, key ≠ "error" → entryOf d' key = entryOf d key) (ht : (headOf d' "error" (pyNum 0)).truthy = true)
    (h : parseDyn load (.dict d) = .ok R) :
    parseDyn load (.dict d') = .ok { R with error := headOf d' "error" (pyNum 0) } := by
  have hk : ∀ key v, key ≠ "error" → headOf d' key v = headOf d key v := by
    intro key v hne; unfold headOf; rw [hsame key hne]
  unfold parseDyn at h ⊢
  simp only [get_headOf, bind_ok, Except.ok.injEq, exists_eq_left'] at h ⊢
  obtain ⟨x1, h1, x2, -, h3⟩ := h
  rw [hk "model" _ (by decide), hk "method" _ (by decide), hk "sensitivity-analysis" _ (by decide),
    hk "targets" _ (by decide), hk "upper-threshold" _ (by decide), hk "sensitivity-type" _ (by decide),
    hk "retained-species" _ (by decide), hk "phase-name" _ (by decide), hk "min-flame-speed" _ (by decide),
    hk "autoignition-conditions" _ (by decide), hk "psr-conditions" _ (by decide), hk "laminar-flame-conditions" _ (by decide)]
  refine ⟨x1, h1, (), by rw [ht]; rfl, ?_⟩
  obtain ⟨y1, g1, y2, g2, names, g3, y4, g4, y5, g5, y6, g6, l1, g7, y8, g8, l2, g9, y10, g10, l3, g11, y12, g12, y13, g13, rfl⟩ := h3
  exact ⟨y1, g1, y2, g2, names, g3, y4, g4, y5, g5, y6, g6, l1, g7, y8, g8, l2, g9, y10, g10, l3, g11, y12, g12, y13, g13, rfl⟩

/-- Refutes C131 for the error limit: with a limit so written the document is accepted, and the limit is a text.  (Comparing
an error with it raises `TypeError` after the simulations of the starting model.) -/
theorem C131_limit_refuted {load : PyV → PyV → Except Err (List String)} {l1 l2 : List (YScalar × YNode)} {k : YScalar}
    {x : YNode} {t : Text} {R : InputsDyn} (h : readInputs load (.map (l1 ++ (k, x) :: l2)) = .ok R) (hk : LooksText k)
    (hk' : k.text = "error".toList) (h2 : ∀ e ∈ l2, e.1.text ≠ "error".toList) (ht : OddNumber t) :
    readInputs load (.map (l1 ++ (k, .scalar ⟨true, t⟩) :: l2)) = .ok { R with error := pyStr (String.ofList t) } := by
  unfold readInputs at h ⊢
  obtain ⟨v, h3, h4⟩ := bind_ok.1 h
  obtain ⟨ps, h5, rfl⟩ := construct_map h3
  rw [constructPairs_ok] at h5
  obtain ⟨p1, p2, q1, q2, rfl⟩ := forall2_split h5
  cases q2 with
  | @cons _ p _ p2 q q2 =>
    obtain ⟨pk, pv⟩ := p
    dsimp only at q
    rw [heading_value hk hk'] at q
    obtain ⟨r1, r2⟩ := q
    cases r1
    have hcon : construct (.map (l1 ++ (k, .scalar ⟨true, t⟩) :: l2)) =
        .ok (.dict (dictOf (p1 ++ (.str "error", pyStr (String.ofList t)) :: p2))) := by
      rw [construct]
      refine except_map_ok.2 ⟨p1 ++ (.str "error", pyStr (String.ofList t)) :: p2, ?_, rfl⟩
      rw [constructPairs_ok]
      refine List.rel_append q1 (.cons ⟨heading_value hk hk', ?_⟩ q2)
      rw [construct, scalar_odd ht]
      rfl
    rw [hcon]
    have hlast : ∀ u, entryOf (dictOf (p1 ++ (.str "error", u) :: p2)) "error" = some u := by
      intro u
      refine entryOf_last fun p hp => ?_
      obtain ⟨e, he, hep⟩ := forall2_right q2 p hp
      intro hs
      rw [hs] at hep
      exact h2 e he (scalarValue_str hep.1)
    have hh : headOf (dictOf (p1 ++ (.str "error", pyStr (String.ofList t)) :: p2)) "error" (pyNum 0) = pyStr (String.ofList t) :=
      headOf_some (hlast _) _
    have := parseDyn_error (d' := dictOf (p1 ++ (.str "error", pyStr (String.ofList t)) :: p2))
      (fun key hne => entryOf_other hne) (by
        rw [hh]
        have hne : t ≠ [] := by
          rintro rfl
          generalize hw : ([] : Text) = w at ht
          cases ht with
          | nopoint hi => simp at hw
          | nosign hi => simp at hw
        have : String.ofList t ≠ "" := fun he => hne (by simpa using congrArg String.toList he)
        simpa [PyV.truthy, PyS.truthy, pyStr] using this) h4
    rw [hh] at this
    exact this

theorem numeral_cons (b : Nat) (c : Char) (t : Text) : numeral b (c :: t) = (c.toNat - 48) * b ^ t.length + numeral b t := by
  unfold numeral
  rw [List.reverse_cons, List.map_append, Nat.ofDigits_append]
  simp
  ring

theorem numeral_le (t : Text) : numeral 8 t ≤ numeral 10 t := by
  induction t with
  | nil => simp [numeral]
  | cons c t ih =>
    rw [numeral_cons, numeral_cons]
    have : (8 : Nat) ^ t.length ≤ 10 ^ t.length := Nat.pow_le_pow_left (by norm_num) _
    exact Nat.add_le_add (Nat.mul_le_mul_left _ this) ih

theorem numeral_lt (t : Text) (ho : t.all (fun c => decide ('0' ≤ c) && decide (c ≤ '7')) = true) (h : 8 ≤ numeral 10 t) :
    numeral 8 t < numeral 10 t := by
  induction t with
  | nil => simp [numeral] at h
  | cons c t ih =>
    rw [List.all_cons, Bool.and_eq_true] at ho
    have hle := numeral_le t
    rw [numeral_cons] at h ⊢
    rw [numeral_cons]
    have hc : c.toNat - 48 ≤ 7 := by
      have := ho.1
      simp only [Bool.and_eq_true, decide_eq_true_eq] at this
      have h7 : c.toNat ≤ 55 := Char.le_def.1 this.2
      omega
    by_cases h0 : c.toNat - 48 = 0
    · rw [h0] at h ⊢
      simp only [Nat.zero_mul, Nat.zero_add] at h ⊢
      exact ih ho.2 h
    · cases t with
      | nil => simp [numeral] at h; omega
      | cons a t =>
        have hp : (8 : Nat) ^ (a :: t).length < 10 ^ (a :: t).length := Nat.pow_lt_pow_left (by norm_num) (by simp)
        exact Nat.add_lt_add_of_lt_of_le (Nat.mul_lt_mul_of_pos_left hp (Nat.pos_of_ne_zero h0)) hle

/-- Refutes C131 for integers: digits from zero to seven after a leading zero are taken to base eight, which makes a smaller
number than the one written.  With an eight or nine among them it is a text. -/
theorem C131_octal_refuted {v : Text} (hd : v.all Char.isDigit = true) (h : 8 ≤ numeral 10 v) :
    if v.all (fun c => decide ('0' ≤ c) && decide (c ≤ '7')) = true
    then ∃ n : Nat, scalarValue ⟨true, '0' :: v⟩ = .ok (.num (.fin n)) ∧ n < numeral 10 ('0' :: v)
    else scalarValue ⟨true, '0' :: v⟩ = .ok (.str (String.ofList ('0' :: v))) := by
  split
  case isFalse ho =>
    unfold scalarValue
    rw [if_pos rfl, plainTag_zero hd (by simpa using ho)]
  case isTrue ho =>
    have hv : v ≠ [] := by rintro rfl; simp [numeral] at h
    obtain ⟨h1, h2⟩ := octal_value hv ho
    refine ⟨numeral 8 v, ?_, ?_⟩
    · unfold scalarValue
      rw [if_pos rfl, h1]
      dsimp only
      rw [h2]
      rfl
    · rw [numeral_cons]
      simpa using numeral_lt v ho h

/-! ### examples -/

/-- plain text -/
def exPlain (t : String) : YScalar := ⟨true, t.toList⟩

/-- text in quotes -/
def exQuoted (t : String) : YScalar := ⟨false, t.toList⟩

/-- a document with one condition; the targets, the temperature and the error limit are given -/
def exDocument (targets : List YScalar) (fuel temperature error : YScalar) : YNode :=
  .map [(exPlain "model", .scalar (exPlain "gas.yaml")), (exPlain "error", .scalar error),
    (exPlain "method", .scalar (exPlain "DRG")), (exPlain "targets", .seq (targets.map .scalar)),
    (exPlain "autoignition-conditions", .seq [.map [(exPlain "kind", .scalar (exPlain "constant volume")),
      (exPlain "temperature", .scalar temperature), (exPlain "pressure", .scalar (exPlain "1.0")),
      (exPlain "equivalence-ratio", .scalar (exPlain "1.0")), (exPlain "fuel", .map [(fuel, .scalar (exPlain "1"))]),
      (exPlain "oxidizer", .map [(exPlain "O2", .scalar (exPlain "1.5E+0"))])]])]

/-- a model with four species -/
def exLoadDyn : PyV → PyV → Except Err (List String) := fun _ _ => .ok ["H2", "O2", "NO", "N2"]

/-- accepted, with nitric oxide in quotes -/
example : (readInputs exLoadDyn (exDocument [exQuoted "NO", exPlain "H2"] (exPlain "H2") (exPlain "1000") (exPlain "10"))).toOption.isSome = true := by
  decide +kernel

/-- not accepted without quotes, though the model has the species -/
example : (readInputs exLoadDyn (exDocument [exPlain "NO", exPlain "H2"] (exPlain "H2") (exPlain "1000") (exPlain "10"))).toOption.isSome = false ∧
    (readInputs exLoadDyn (exDocument [exPlain "H2"] (exPlain "NO") (exPlain "1000") (exPlain "10"))).toOption.isSome = false ∧
    (readInputs exLoadDyn (exDocument [exPlain "H2"] (exQuoted "NO") (exPlain "1000") (exPlain "10"))).toOption.isSome = true := by
  decide +kernel

/-- numbers: a temperature written with an odd exponent, an error limit so written, a temperature with a leading zero -/
example : (readInputs exLoadDyn (exDocument [exPlain "H2"] (exPlain "H2") (exPlain "1e3") (exPlain "10"))).toOption.isSome = false ∧
    (readInputs exLoadDyn (exDocument [exPlain "H2"] (exPlain "H2") (exPlain "1.0e3") (exPlain "10"))).toOption.isSome = false ∧
    (readInputs exLoadDyn (exDocument [exPlain "H2"] (exPlain "H2") (exPlain "1.0e+3") (exPlain "10"))).toOption.isSome = true ∧
    (readInputs exLoadDyn (exDocument [exPlain "H2"] (exPlain "H2") (exPlain "1000") (exPlain "1e1"))).toOption.isSome = true ∧
    (readInputs exLoadDyn (exDocument [exPlain "H2"] (exPlain "H2") (exPlain "01000") (exPlain "10"))).toOption.isSome = true := by
  decide +kernel

example : Heading (exDocument [exPlain "NO"] (exPlain "H2") (exPlain "1e3") (exPlain "10")) "targets" (.seq [.scalar (exPlain "NO")]) ∧
    ValueWord (exPlain "NO") :=
  ⟨⟨[_, _, _], _, [_], rfl, .inr ⟨'t', _, rfl, by decide, by decide +kernel, by decide +kernel⟩, rfl, by decide +kernel⟩,
    rfl, .inl (by decide +kernel)⟩

/-- the hypotheses of the refutation for numbers -/
example : ∃ c, Condition (exDocument [exPlain "H2"] (exPlain "H2") (exPlain "1e3") (exPlain "10")) c ∧
    Heading c "temperature" (.scalar ⟨true, "1e3".toList⟩) ∧ OddNumber "1e3".toList := by
  refine ⟨_, ⟨_, List.mem_cons_self, _, ⟨[_, _, _, _], _, [], rfl, .inr ⟨'a', _, rfl, by decide, by decide +kernel, by decide +kernel⟩, rfl,
    by simp⟩, List.mem_cons_self⟩, ⟨[_], _, [_, _, _, _], rfl, .inr ⟨'t', _, rfl, by decide, by decide +kernel, by decide +kernel⟩, rfl, by decide +kernel⟩, ?_⟩
  exact OddNumber.nopoint (i := ['1']) (x := ['3']) (e := 'e') (by simp) (by decide) (.inl rfl) (by simp) (by decide) [] (by simp)

/-- a pressure of `010` atmospheres is eight -/
example : scalarValue (exPlain "010") = .ok (.num (.fin 8)) := by decide +kernel

end Verif
