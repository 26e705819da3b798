import Verif.Spec.Argparse
/-!
# Lemmas about the argument parser
-/
namespace Verif
open Spec

theorem lookupOpt_names {t : Text} {d : Dest} (h : t ∈ optionNames d) : lookupOpt t = some d := by
  have : ∀ d, ∀ t ∈ optionNames d, lookupOpt t = some d := by intro d; cases d <;> decide
  exact this d t h

theorem lookupOpt_mem {t : Text} {d : Dest} (h : lookupOpt t = some d) : t ∈ optionNames d := by
  unfold lookupOpt at h
  cases hf : optTable.find? (fun e => e.1 = t) with
  | none => rw [hf] at h; cases h
  | some e =>
      rw [hf] at h
      have h1 := List.find?_some hf
      have h2 := List.mem_of_find?_eq_some hf
      have h3 : ∀ e ∈ optTable, e.1 ∈ optionNames e.2 := by decide
      simp only [decide_eq_true_eq] at h1
      simp only [Option.map_some, Option.some.injEq] at h
      rw [← h1, ← h]
      exact h3 e h2

theorem lookupOpt_none {t : Text} (h : ∀ d, t ∉ optionNames d) : lookupOpt t = none := by
  cases hl : lookupOpt t with
  | none => rfl
  | some d => exact absurd (lookupOpt_mem hl) (h d)

theorem names_shape : ∀ (d : Dest), ∀ t ∈ optionNames d, '=' ∉ t ∧ t.head? = some '-' ∧ 2 ≤ t.length ∧
    (t.length = 2 ∨ "--".toList <+: t) ∧ t ≠ "--".toList ∧ ∀ c ∈ (t.drop 1).take 1, c.isDigit = false := by
  intro d; cases d <;> decide

theorem namesOpt_shape {t : Text} {d : Dest} (h : NamesOpt t d) : '=' ∉ t ∧ t.head? = some '-' ∧
    2 ≤ t.length ∧ t ≠ "--".toList := by
  rcases h with h | ⟨⟨u, rfl⟩, h2, h3, -⟩
  · obtain ⟨h1, h2, h3, -, h4, -⟩ := names_shape d t h
    exact ⟨h1, h2, h3, h4⟩
  · exact ⟨h3, rfl, by simp, h2⟩

theorem partitionEq_none : ∀ {t : Text}, '=' ∉ t → partitionEq t = (t, none)
  | [], _ => rfl
  | c :: cs, h => by
      simp only [List.mem_cons, not_or] at h
      rw [partitionEq, if_neg (fun hc => h.1 hc.symm), partitionEq_none h.2]

theorem partitionEq_eq : ∀ {t : Text} (v : Text), '=' ∉ t → partitionEq (t ++ '=' :: v) = (t, some v)
  | [], v, _ => by simp [partitionEq]
  | c :: cs, v, h => by
      simp only [List.mem_cons, not_or] at h
      rw [List.cons_append, partitionEq, if_neg (fun hc => h.1 hc.symm), partitionEq_eq v h.2]

theorem mem_optTable {e : Text × Dest} : e ∈ optTable ↔ e.1 ∈ optionNames e.2 := by
  constructor
  · have h3 : ∀ e ∈ optTable, e.1 ∈ optionNames e.2 := by decide
    exact h3 e
  · have : ∀ d, ∀ t ∈ optionNames d, (t, d) ∈ optTable := by intro d; cases d <;> decide
    exact this e.2 e.1

/-- an abbreviation has exactly one continuation -/
theorem filter_abbrev {t : Text} {d : Dest} (h1 : "--".toList <+: t)
    (h3 : ∃ name ∈ optionNames d, t <+: name) (h4 : ∀ d', (∃ name ∈ optionNames d', t <+: name) → d' = d) :
    ∃ name, optTable.filter (fun e => t.isPrefixOf e.1) = [(name, d)] := by
  have hd : ∀ e ∈ optTable.filter (fun e => t.isPrefixOf e.1), e.2 = d := by
    intro e he
    rw [List.mem_filter] at he
    exact h4 e.2 ⟨e.1, mem_optTable.1 he.1, List.isPrefixOf_iff_prefix.1 he.2⟩
  have hnd : ((optTable.filter fun e => "--".toList.isPrefixOf e.1).map Prod.snd).Nodup := by decide
  have hsub : (optTable.filter fun e => t.isPrefixOf e.1).Sublist
      (optTable.filter fun e => "--".toList.isPrefixOf e.1) := by
    have : optTable.filter (fun e => t.isPrefixOf e.1) =
        (optTable.filter fun e => "--".toList.isPrefixOf e.1).filter fun e => t.isPrefixOf e.1 := by
      rw [List.filter_filter]
      apply List.filter_congr
      intro e _
      cases hp : t.isPrefixOf e.1
      · simp
      · rw [List.isPrefixOf_iff_prefix] at hp
        simp only [Bool.true_and]
        symm
        rw [List.isPrefixOf_iff_prefix]
        exact h1.trans hp
    rw [this]
    exact List.filter_sublist
  have hnd' := (hsub.map Prod.snd).nodup hnd
  obtain ⟨name, hn1, hn2⟩ := h3
  have hmem : (name, d) ∈ optTable.filter (fun e => t.isPrefixOf e.1) :=
    List.mem_filter.2 ⟨mem_optTable.2 hn1, List.isPrefixOf_iff_prefix.2 hn2⟩
  match hF : optTable.filter (fun e => t.isPrefixOf e.1) with
  | [] => rw [hF] at hmem; simp at hmem
  | [e] =>
      rw [hF] at hmem
      refine ⟨name, ?_⟩
      rw [List.mem_singleton.1 hmem]
      exact hF
  | e :: e' :: r =>
      rw [hF] at hnd' hd
      have := hd e (by simp)
      have := hd e' (by simp)
      simp_all

theorem classify_name {t : Text} {d : Dest} (h : NamesOpt t d) :
    ∃ s, classify t = .ok (.opt d s none) := by
  obtain ⟨h1, h2, h3, h4⟩ := namesOpt_shape h
  have hne : ¬ (t = [] ∨ t.head? ≠ some '-') := by
    rintro (h | h)
    · rw [h] at h3; simp at h3
    · exact h h2
  unfold classify
  rw [if_neg hne]
  cases hl : lookupOpt t with
  | some d' =>
      refine ⟨isShort t, ?_⟩
      have hm := lookupOpt_mem hl
      have : d' = d := by
        rcases h with h | ⟨-, -, -, -, h5⟩
        · have := lookupOpt_names h
          rw [hl] at this
          exact Option.some.inj this
        · exact h5 d' ⟨t, hm, List.prefix_refl t⟩
      rw [this]
  | none =>
      rcases h with h | ⟨p1, -, -, p4, p5⟩
      · rw [lookupOpt_names h] at hl; cases hl
      · obtain ⟨name, hF⟩ := filter_abbrev p1 p4 p5
        refine ⟨isShort name, ?_⟩
        have htake : t.take 2 = "--".toList := by
          obtain ⟨u, rfl⟩ := p1
          rfl
        dsimp only
        rw [if_neg (by omega), partitionEq_none h1]
        dsimp only
        unfold optionTuples
        rw [if_pos htake, partitionEq_none h1]
        dsimp only
        rw [hF]
        rfl

theorem classify_eq {t : Text} {d : Dest} (v : Text) (h : NamesOpt t d) :
    ∃ s, classify (t ++ '=' :: v) = .ok (.opt d s (some (true, v))) := by
  obtain ⟨h1, h2, h3, h4⟩ := namesOpt_shape h
  have hhead : (t ++ '=' :: v).head? = some '-' := by
    cases t with
    | nil => simp at h2
    | cons c cs => simpa using h2
  have hne : ¬ (t ++ '=' :: v = [] ∨ (t ++ '=' :: v).head? ≠ some '-') := by
    rintro (h | h)
    · simp at h
    · exact h hhead
  unfold classify
  rw [if_neg hne]
  have hno : lookupOpt (t ++ '=' :: v) = none := by
    apply lookupOpt_none
    intro d' hd'
    exact (names_shape d' _ hd').1 (by simp)
  rw [hno]
  dsimp only
  rw [if_neg (by simp; omega), partitionEq_eq v h1]
  dsimp only
  cases hl : lookupOpt t with
  | some d' =>
      refine ⟨isShort t, ?_⟩
      have hm := lookupOpt_mem hl
      have : d' = d := by
        rcases h with h | ⟨-, -, -, -, h5⟩
        · have := lookupOpt_names h
          rw [hl] at this
          exact Option.some.inj this
        · exact h5 d' ⟨t, hm, List.prefix_refl t⟩
      rw [this]
  | none =>
      rcases h with h | ⟨p1, -, -, p4, p5⟩
      · rw [lookupOpt_names h] at hl; cases hl
      · obtain ⟨name, hF⟩ := filter_abbrev p1 p4 p5
        refine ⟨isShort name, ?_⟩
        have htake : (t ++ '=' :: v).take 2 = "--".toList := by
          obtain ⟨u, rfl⟩ := p1
          rfl
        dsimp only
        unfold optionTuples
        rw [if_pos htake, partitionEq_eq v h1]
        dsimp only
        rw [hF]
        rfl

theorem classify_plain {v : Text} (h : v.head? ≠ some '-') : classify v = .ok (.arg v) := by
  unfold classify
  rw [if_pos (Or.inr h)]

theorem partitionEq_glued (c x : Char) (v : Text) (hc : c ≠ '=') (hx : x ≠ '=') :
    ∃ u o, partitionEq ('-' :: c :: x :: v) = ('-' :: c :: x :: u, o) := by
  refine ⟨(partitionEq v).1, (partitionEq v).2, ?_⟩
  simp [partitionEq, hc, hx]

theorem short_long_none (c x : Char) (u : Text) (hc : c ≠ '-') : lookupOpt ('-' :: c :: x :: u) = none := by
  apply lookupOpt_none
  intro d hd
  obtain ⟨-, -, -, h | ⟨w, h⟩, -⟩ := names_shape d _ hd
  · simp at h
  · have := congrArg (fun l => l[1]?) h
    simp only [List.getElem?_cons_succ, List.getElem?_cons_zero] at this
    exact hc (Option.some.inj this).symm

theorem classify_glued {t v : Text} {d : Dest} (h : t ∈ optionNames d) (hl : t.length = 2) (hv : v ≠ [])
    (hv2 : v.head? ≠ some '=') : ∃ s, classify (t ++ v) = .ok (.opt d s (some (false, v))) := by
  obtain ⟨x, v, rfl⟩ := List.exists_cons_of_ne_nil hv
  have hx : x ≠ '=' := fun h => hv2 (by rw [h]; rfl)
  have key : ∀ c : Char, c ∈ ['h', 'i', 'm', 'V'] → t = ['-', c] →
      (optionTuples ('-' :: c :: x :: v) = [.opt d true (some (false, x :: v))]) →
      classify (t ++ x :: v) = .ok (.opt d true (some (false, x :: v))) := by
    intro c hc ht ho
    have hc2 : c ≠ '-' ∧ c ≠ '=' := by
      have : ∀ c ∈ ['h', 'i', 'm', 'V'], c ≠ '-' ∧ c ≠ '=' := by decide
      exact this c hc
    rw [ht]
    show classify ('-' :: c :: x :: v) = _
    unfold classify
    rw [if_neg (by simp), short_long_none c x v hc2.1]
    dsimp only
    rw [if_neg (by simp)]
    obtain ⟨u, o, hp⟩ := partitionEq_glued c x v hc2.2 hx
    rw [hp]
    dsimp only
    rw [short_long_none c x u hc2.1]
    cases o <;> · dsimp only; rw [ho]
  have tup : ∀ c : Char, ∀ d, c ∈ ['h', 'i', 'm', 'V'] → ['-', c] ∈ optionNames d →
      optionTuples ('-' :: c :: x :: v) = [.opt d true (some (false, x :: v))] := by
    intro c d hc hd
    unfold optionTuples
    simp only [List.mem_cons, List.not_mem_nil, or_false] at hc
    rcases hc with rfl | rfl | rfl | rfl <;> cases d <;> first
      | exact absurd hd (by decide)
      | (rw [if_neg (by simp)]; simp [optTable, List.isPrefixOf, isShort])
  refine ⟨true, ?_⟩
  have hcs : ∃ c, c ∈ ['h', 'i', 'm', 'V'] ∧ t = ['-', c] := by
    have : ∀ d, ∀ t ∈ optionNames d, t.length = 2 → ∃ c ∈ ['h', 'i', 'm', 'V'], t = ['-', c] := by
      intro d; cases d <;> decide
    obtain ⟨c, h1, h2⟩ := this d t h hl
    exact ⟨c, h1, h2⟩
  obtain ⟨c, hc, ht⟩ := hcs
  exact key c hc ht (tup c d hc (ht ▸ h))

/-! ### Numbers -/

theorem digit_iff (c : Char) : digitVal c = if c.isDigit then some (c.toNat - 48) else none := by
  unfold digitVal Char.isDigit
  have h0 : ('0' ≤ c) ↔ 48 ≤ c.val := Iff.rfl
  have h9 : (c ≤ '9') ↔ c.val ≤ 57 := Iff.rfl
  by_cases h : '0' ≤ c ∧ c ≤ '9'
  · rw [if_pos h, if_pos]
    simp [← h0, ← h9, h.1, h.2]
  · rw [if_neg h, if_neg]
    simp only [ge_iff_le, Bool.and_eq_true, decide_eq_true_eq, ← h0, ← h9]
    exact h

theorem intDigits_read : ∀ (ds : Text) (acc k : Nat) (ok : Bool), readDigits acc ds = some k →
    (ok = true ∨ ds ≠ []) → intDigits acc ok ds = some k
  | [], acc, k, ok, h, ho => by
      rcases ho with rfl | ho
      · simpa [readDigits, intDigits] using h
      · simp at ho
  | c :: cs, acc, k, ok, h, _ => by
      rw [readDigits, digit_iff] at h
      rw [intDigits]
      cases hc : c.isDigit
      · rw [hc] at h; simp at h
      · rw [hc] at h
        simp only [if_true, Option.bind_some] at h ⊢
        exact intDigits_read cs _ k true h (Or.inl rfl)

theorem readDigits_digits : ∀ (ds : Text) (acc k : Nat), readDigits acc ds = some k →
    ∀ c ∈ ds, c.isDigit = true
  | [], _, _, _ => by simp
  | c :: cs, acc, k, h => by
      rw [readDigits, digit_iff] at h
      cases hc : c.isDigit
      · rw [hc] at h; simp at h
      · rw [hc] at h
        simp only [if_true, Option.bind_some] at h
        intro x hx
        rcases List.mem_cons.1 hx with rfl | hx
        · exact hc
        · exact readDigits_digits cs _ k h x hx

theorem digit_facts {c : Char} (h : c.isDigit = true) : c.isWhitespace = false ∧ c ≠ '-' ∧ c ≠ '+' ∧
    c ≠ '=' := by
  refine ⟨?_, ?_, ?_, ?_⟩
  · cases hw : c.isWhitespace
    · rfl
    · simp only [Char.isWhitespace, Bool.or_eq_true, decide_eq_true_eq] at hw
      rcases hw with ((rfl | rfl) | rfl) | rfl <;> revert h <;> decide
  · rintro rfl; revert h; decide
  · rintro rfl; revert h; decide
  · rintro rfl; revert h; decide

theorem strip_self {t : Text} (h : ∀ c ∈ t, c.isWhitespace = false) : stripText t = t := by
  have hd : ∀ l : Text, (∀ c ∈ l, c.isWhitespace = false) → l.dropWhile Char.isWhitespace = l := by
    intro l hl
    cases l with
    | nil => rfl
    | cons c cs => rw [List.dropWhile_cons, hl c (by simp)]; rfl
  unfold stripText
  rw [hd t h, hd _ (by simpa using h), List.reverse_reverse]

theorem pyInt_text {v : Text} {n : Int} (h : IntText v n) : pyInt v = some n := by
  obtain ⟨ds, k, hne, hr, h⟩ := h
  have hdig := readDigits_digits ds 0 k hr
  have hi := intDigits_read ds 0 k false hr (Or.inr hne)
  rcases h with ⟨rfl, rfl⟩ | ⟨rfl, rfl⟩
  · unfold pyInt
    rw [strip_self fun c hc => (digit_facts (hdig c hc)).1]
    obtain ⟨c, cs, rfl⟩ := List.exists_cons_of_ne_nil hne
    obtain ⟨-, h1, h2, -⟩ := digit_facts (hdig c (by simp))
    split
    · rename_i heq; exact absurd (List.cons.inj heq).1 h1
    · rename_i heq; exact absurd (List.cons.inj heq).1 h2
    · rw [hi]; rfl
  · unfold pyInt
    rw [strip_self]
    · simp only [hi]; rfl
    · intro c hc
      rcases List.mem_cons.1 hc with rfl | hc
      · decide
      · exact (digit_facts (hdig c hc)).1

theorem dropWhile_all {p : Char → Bool} : ∀ {l : Text}, (∀ c ∈ l, p c = true) → l.dropWhile p = []
  | [], _ => rfl
  | c :: cs, h => by
      rw [List.dropWhile_cons, h c (by simp)]
      exact dropWhile_all fun x hx => h x (by simp [hx])

theorem classify_int {v : Text} {n : Int} (h : IntText v n) : classify v = .ok (.arg v) := by
  obtain ⟨ds, k, hne, hr, h⟩ := h
  have hdig := readDigits_digits ds 0 k hr
  obtain ⟨c, cs, rfl⟩ := List.exists_cons_of_ne_nil hne
  have hc := digit_facts (hdig c (by simp))
  rcases h with ⟨rfl, rfl⟩ | ⟨rfl, rfl⟩
  · apply classify_plain
    intro h
    exact hc.2.1 (Option.some.inj h)
  · have hlook : ∀ u : Text, lookupOpt ('-' :: c :: u) = none := by
      intro u
      apply lookupOpt_none
      intro d hd
      have := (names_shape d _ hd).2.2.2.2.2 c (by simp)
      rw [hdig c (by simp)] at this; cases this
    unfold classify
    rw [if_neg (by simp), hlook]
    dsimp only
    rw [if_neg (by simp)]
    have heq : '=' ∉ '-' :: c :: cs := by
      intro hm
      rcases List.mem_cons.1 hm with hm | hm
      · revert hm; decide
      · exact (digit_facts (hdig _ hm)).2.2.2 rfl
    rw [partitionEq_none heq]
    dsimp only
    have ho : optionTuples ('-' :: c :: cs) = [] := by
      unfold optionTuples
      rw [if_neg (by simp only [List.take_succ_cons, List.take_zero]; intro h; exact hc.2.1 (List.cons.inj (List.cons.inj h).2).1)]
      rw [List.filterMap_eq_nil_iff]
      intro e he
      have h1 := names_shape e.2 e.1 (mem_optTable.1 he)
      have h2 : e.1 ≠ ('-' :: c :: cs).take 2 := by
        intro h
        have := h1.2.2.2.2.2 c (by rw [h]; simp)
        rw [hdig c (by simp)] at this; cases this
      have h3 : ('-' :: c :: cs).isPrefixOf e.1 = false := by
        cases hp : ('-' :: c :: cs).isPrefixOf e.1
        · rfl
        · rw [List.isPrefixOf_iff_prefix] at hp
          obtain ⟨w, hw⟩ := hp
          have := h1.2.2.2.2.2 c (by rw [← hw]; simp)
          rw [hdig c (by simp)] at this; cases this
      rw [if_neg h2, h3]; rfl
    rw [ho]
    dsimp only
    rw [if_pos]
    unfold negNumber
    simp only
    rw [dropWhile_all hdig]
    simp

/-! ### One setting -/

/-- the next token is not an argument -/
def NoArg : List Tok → Prop
  | .arg _ :: _ => False
  | _ => True

theorem tokenise_cons {t : Text} {o : Tok} (h : t ≠ "--".toList) (hc : classify t = .ok o) (ts : List Text) :
    tokenise (t :: ts) = (tokenise ts).map fun os => o :: os := by
  rw [tokenise, if_neg h, hc]

theorem chain_value {d : Dest} (h : arity d ≠ .flag) (short sep : Bool) (v : Text) :
    chain d short sep v = .ok ([], d, some v) := by
  cases v <;> rw [chain, if_neg h]

theorem textValue_arity {it : Item} {d : Dest} {v : Text} (h : it.textValue = some (d, v)) :
    arity d = .one ∧ ∀ a, takeAction a d (some v) = .ok (it.apply a) := by
  cases it <;> simp only [Item.textValue, reduceCtorEq, Option.some.injEq, Prod.mk.injEq] at h <;>
    · obtain ⟨rfl, rfl⟩ := h
      exact ⟨rfl, fun a => rfl⟩

/-- a setting and its spelling -/
theorem spelled {it : Item} {ts : List Text} (h : Spells it ts) :
    ∃ toks, (∀ more, tokenise (ts ++ more) = (tokenise more).map fun os => toks ++ os) ∧
      (∀ rest, NoArg (toks ++ rest)) ∧
      ∀ a rest, (it = .allThreads → NoArg rest) →
        consume a (toks ++ rest) = consume (it.apply a) rest := by
  cases h with
  | convert hn =>
      rename_i t
      obtain ⟨s, hc⟩ := classify_name hn
      refine ⟨[.opt .convert s none], fun more => tokenise_cons (namesOpt_shape hn).2.2.2 hc more,
        fun _ => trivial, fun a rest _ => ?_⟩
      show consume a (.opt .convert s none :: rest) = _
      rw [consume]
      rfl
  | version hn =>
      obtain ⟨s, hc⟩ := classify_name hn
      refine ⟨[.opt .version s none], fun more => tokenise_cons (namesOpt_shape hn).2.2.2 hc more,
        fun _ => trivial, fun a rest _ => ?_⟩
      show consume a (.opt .version s none :: rest) = _
      rw [consume]
      rfl
  | separate ht hn hv =>
      rename_i d v t
      obtain ⟨ha, hact⟩ := textValue_arity ht
      obtain ⟨s, hc⟩ := classify_name hn
      refine ⟨[.opt d s none, .arg v], fun more => ?_, fun _ => trivial, fun a rest _ => ?_⟩
      · show tokenise (t :: v :: more) = _
        rw [tokenise_cons (namesOpt_shape hn).2.2.2 hc, tokenise_cons _ (classify_plain hv)]
        · cases tokenise more <;> rfl
        · rintro rfl; exact hv rfl
      · show consume a (.opt d s none :: .arg v :: rest) = _
        rw [consume]
        simp only [attached, takeFlags, Option.isSome_none, Bool.false_eq_true, ha, reduceCtorEq, or_self,
          if_false, hact]
  | equals ht hn =>
      rename_i d v t
      obtain ⟨ha, hact⟩ := textValue_arity ht
      obtain ⟨s, hc⟩ := classify_eq v hn
      refine ⟨[.opt d s (some (true, v))], fun more => tokenise_cons ?_ hc more, fun _ => trivial,
        fun a rest _ => ?_⟩
      · intro h
        have : '=' ∈ "--".toList := by rw [← h]; simp
        revert this; decide
      · show consume a (.opt d s (some (true, v)) :: rest) = _
        rw [consume]
        simp only [attached, chain_value (d := d) (by rw [ha]; decide), takeFlags, Option.isSome_some, true_or, if_true, hact]
  | glued ht hn hl hv hv2 =>
      rename_i d v t
      obtain ⟨ha, hact⟩ := textValue_arity ht
      obtain ⟨s, hc⟩ := classify_glued hn hl hv hv2
      refine ⟨[.opt d s (some (false, v))], fun more => tokenise_cons ?_ hc more, fun _ => trivial,
        fun a rest _ => ?_⟩
      · intro h
        have := congrArg List.length h
        rw [List.length_append, hl] at this
        have hv3 := List.length_pos_of_ne_nil hv
        simp at this
        exact hv this
      · show consume a (.opt d s (some (false, v)) :: rest) = _
        rw [consume]
        simp only [attached, chain_value (d := d) (by rw [ha]; decide), takeFlags, Option.isSome_some, true_or, if_true, hact]
  | threads hn hv =>
      rename_i n v t
      obtain ⟨s, hc⟩ := classify_name hn
      refine ⟨[.opt .threads s none, .arg v], fun more => ?_, fun _ => trivial, fun a rest _ => ?_⟩
      · show tokenise (t :: v :: more) = _
        rw [tokenise_cons (namesOpt_shape hn).2.2.2 hc, tokenise_cons _ (classify_int hv)]
        · cases tokenise more <;> rfl
        · rintro rfl
          have := pyInt_text hv
          revert this
          have : pyInt "--".toList = none := by decide
          rw [this]; simp
      · show consume a (.opt .threads s none :: .arg v :: rest) = _
        rw [consume]
        simp only [attached, takeFlags, Option.isSome_none, Bool.false_eq_true, arity, reduceCtorEq, or_self,
          if_false, takeAction, pyInt_text hv, Item.apply]
  | threadsEq hn hv =>
      rename_i n v t
      obtain ⟨s, hc⟩ := classify_eq v hn
      refine ⟨[.opt .threads s (some (true, v))], fun more => tokenise_cons ?_ hc more, fun _ => trivial,
        fun a rest _ => ?_⟩
      · intro h
        have : '=' ∈ "--".toList := by rw [← h]; simp
        revert this; decide
      · show consume a (.opt .threads s (some (true, v)) :: rest) = _
        rw [consume]
        simp only [attached, chain_value (d := .threads) (by decide), takeFlags, Option.isSome_some, true_or, if_true,
          takeAction, pyInt_text hv, Item.apply]
  | allThreads hn =>
      rename_i t
      obtain ⟨s, hc⟩ := classify_name hn
      refine ⟨[.opt .threads s none], fun more => tokenise_cons (namesOpt_shape hn).2.2.2 hc more,
        fun _ => trivial, fun a rest hr => ?_⟩
      replace hr := hr rfl
      show consume a (.opt .threads s none :: rest) = _
      rw [consume]
      cases rest with
      | nil => rfl
      | cons o os => cases o <;> first | exact absurd hr id | rfl

/-- settings in front of other arguments -/
theorem spelled_more {its : List Item} {tss : List (List Text)} (h : List.Forall₂ Spells its tss) :
    ∃ toks, (∀ more, tokenise (tss.flatten ++ more) = (tokenise more).map fun os => toks ++ os) ∧
      (its = [] ∨ ∀ rest, NoArg (toks ++ rest)) ∧ (its = [] → toks = []) ∧
      ∀ a rest, (its.getLast? = some .allThreads → NoArg rest) →
        consume a (toks ++ rest) = consume (its.foldl Item.apply a) rest := by
  induction h with
  | nil =>
      refine ⟨[], fun more => ?_, .inl rfl, fun _ => rfl, fun a rest _ => rfl⟩
      show tokenise more = _
      cases tokenise more <;> rfl
  | @cons it ts its tss h _ ih =>
      obtain ⟨toks, h1, h2, h0, h3⟩ := ih
      obtain ⟨t1, g1, g2, g3⟩ := spelled h
      refine ⟨t1 ++ toks, fun more => ?_, .inr fun rest => ?_, by simp, fun a rest hr => ?_⟩
      · rw [List.flatten_cons, List.append_assoc, g1, h1]
        cases tokenise more <;> simp [Except.map]
      · rw [List.append_assoc]; exact g2 _
      · rw [List.append_assoc, g3 a, List.foldl_cons, h3]
        · intro hl
          apply hr
          cases its with
          | nil => simp at hl
          | cons x xs => rw [List.getLast?_cons_cons]; exact hl
        · intro hi
          rcases h2 with h2 | h2
          · rw [h0 h2]
            apply hr
            rw [h2, hi]; rfl
          · exact h2 rest

theorem spelled_all {its : List Item} {tss : List (List Text)} (h : List.Forall₂ Spells its tss) :
    ∃ toks, tokenise tss.flatten = .ok toks ∧ NoArg toks ∧
      ∀ a, consume a toks = .ok (its.foldl Item.apply a) := by
  obtain ⟨toks, h1, h2, h0, h3⟩ := spelled_more h
  refine ⟨toks, ?_, ?_, fun a => ?_⟩
  · have := h1 []
    rw [List.append_nil] at this
    rw [this]
    simp [tokenise, Except.map]
  · rcases h2 with h2 | h2
    · rw [h0 h2]; trivial
    · simpa using h2 []
  · have := h3 a [] (fun _ => trivial)
    rwa [List.append_nil] at this

/-! ### Failures -/

/-- tokens that can be part of accepted arguments -/
def Fine : Tok → Prop
  | .arg _ => True
  | .opt d s e => ∃ x, attached d s e = .ok x
  | _ => False

theorem consume_fine : ∀ (n : Nat) (toks : List Tok), toks.length ≤ n → ∀ a r, consume a toks = .ok r →
    ∀ o ∈ toks, Fine o := by
  intro n
  induction n with
  | zero =>
      intro toks hl a r _
      have : toks = [] := List.length_eq_zero_iff.1 (by omega)
      subst this; simp
  | succ n ih =>
      intro toks hl a r h
      cases toks with
      | nil => simp
      | cons o rest =>
          have hl' : rest.length ≤ n := by simp at hl; omega
          cases o with
          | arg s => rw [consume] at h; cases h; simp
          | unknown => rw [consume] at h; cases h; simp
          | dashes => rw [consume] at h; cases h; simp
          | opt d short expl =>
              rw [consume] at h
              cases h1 : attached d short expl with
              | error e => rw [h1] at h; cases h
              | ok x =>
                  have hf : Fine (.opt d short expl) := ⟨x, h1⟩
                  obtain ⟨flags, d', v⟩ := x
                  rw [h1] at h
                  dsimp only at h
                  suffices ∀ o ∈ rest, Fine o from List.forall_mem_cons.2 ⟨hf, this⟩
                  cases h2 : takeFlags a flags with
                  | error e => rw [h2] at h; cases h
                  | ok a2 =>
                      rw [h2] at h
                      dsimp only at h
                      by_cases hv : v.isSome ∨ arity d' = .flag
                      · rw [if_pos hv] at h
                        cases h3 : takeAction a2 d' v with
                        | error e => rw [h3] at h; cases h
                        | ok a3 =>
                            rw [h3] at h
                            exact ih rest hl' a3 r h
                      · rw [if_neg hv] at h
                        have other : ∀ rest' : List Tok, rest'.length ≤ n →
                            (if arity d' = .one then Except.error Err.systemExit
                              else match takeAction a2 d' none with
                                | .error e => .error e
                                | .ok a => consume a rest') = .ok r → ∀ o ∈ rest', Fine o := by
                          intro rest' hlr hh
                          split at hh
                          · cases hh
                          · split at hh
                            · cases hh
                            · exact ih rest' hlr _ r hh
                        cases rest with
                        | nil => simp
                        | cons o' rest' =>
                            have hl2 : rest'.length ≤ n := by simp at hl'; omega
                            cases o' with
                            | arg s =>
                                dsimp only at h
                                cases h3 : takeAction a2 d' (some s) with
                                | error e => rw [h3] at h; cases h
                                | ok a3 =>
                                    rw [h3] at h
                                    exact List.forall_mem_cons.2 ⟨trivial, ih rest' hl2 a3 r h⟩
                            | unknown => exact other _ hl' h
                            | dashes => exact other _ hl' h
                            | opt d2 s2 e2 => exact other _ hl' h

/-- unknown options and `--` are never accepted -/
theorem consume_ok (n : Nat) (toks : List Tok) (hl : toks.length ≤ n) (a r) (h : consume a toks = .ok r) :
    .unknown ∉ toks ∧ .dashes ∉ toks :=
  ⟨fun hm => consume_fine n toks hl a r h _ hm, fun hm => consume_fine n toks hl a r h _ hm⟩

theorem classify_error {t : Text} {e : Err} (h : classify t = .error e) : e = .systemExit := by
  unfold classify at h
  split at h
  · cases h
  · split at h
    · cases h
    · split at h
      · cases h
      · dsimp only at h
        split at h
        · cases h
        · split at h
          · cases h
          · exact (Except.error.inj h).symm
          · split at h
            · cases h
            · split at h <;> cases h

theorem tokenise_error : ∀ (ts : List Text) (e : Err), tokenise ts = .error e → e = .systemExit
  | [], _, h => by cases h
  | t :: ts, e, h => by
      rw [tokenise] at h
      split at h
      · cases h
      · split at h
        · rename_i h1
          obtain rfl := Except.error.inj h
          exact classify_error h1
        · cases h2 : tokenise ts with
          | error e' =>
              rw [h2] at h
              rw [← Except.error.inj h]
              exact tokenise_error ts e' h2
          | ok os => rw [h2] at h; cases h

theorem chain_error : ∀ (n : Nat) (e : Text), e.length ≤ n → ∀ (d : Dest) (short sep : Bool) (x : Err),
    chain d short sep e = .error x → x = .systemExit := by
  intro n
  induction n with
  | zero =>
      intro e hl d short sep x h
      have : e = [] := List.length_eq_zero_iff.1 (by omega)
      subst this
      rw [chain] at h
      split at h
      · exact (Except.error.inj h).symm
      · cases h
  | succ n ih =>
      intro e hl d short sep x h
      cases e with
      | nil =>
          rw [chain] at h
          split at h
          · exact (Except.error.inj h).symm
          · cases h
      | cons c e =>
          have mapped : ∀ (y : Except Err (List Dest × Dest × Option Text)),
              (∀ x', y = .error x' → x' = .systemExit) →
              (y.map fun r => (d :: r.1, r.2)) = .error x → x = .systemExit := by
            intro y hy hh
            cases y with
            | error x' =>
                obtain rfl := Except.error.inj hh
                exact hy _ rfl
            | ok _ => cases hh
          cases e with
          | nil =>
              rw [chain] at h
              dsimp only at h
              repeat' split at h
              all_goals first | exact (Except.error.inj h).symm | cases h
          | cons c' e' =>
              simp only [List.length_cons] at hl
              rw [chain] at h
              split at h
              · split at h
                · split at h
                  · exact (Except.error.inj h).symm
                  · split at h
                    · exact (Except.error.inj h).symm
                    · dsimp only at h
                      split at h
                      · exact mapped _ (fun x' hx => ih e' (by omega) _ _ _ x' hx) h
                      · exact mapped _ (fun x' hx => ih (c' :: e') (by simp; omega) _ _ _ x' hx) h
                · exact (Except.error.inj h).symm
              · cases h

theorem takeAction_error {a : CliArgs} {d : Dest} {v : Option Text} {x : Err}
    (h : takeAction a d v = .error x) : x = .systemExit := by
  unfold takeAction at h
  dsimp only at h
  repeat' split at h
  all_goals first | exact (Except.error.inj h).symm | cases h

theorem takeFlags_error : ∀ (ds : List Dest) (a : CliArgs) (x : Err), takeFlags a ds = .error x →
    x = .systemExit
  | [], _, _, h => by cases h
  | d :: ds, a, x, h => by
      rw [takeFlags] at h
      split at h
      · rename_i h1
        obtain rfl := Except.error.inj h
        exact takeAction_error h1
      · exact takeFlags_error ds _ x h

theorem attached_error {d : Dest} {short : Bool} {expl : Option (Bool × Text)} {x : Err}
    (h : attached d short expl = .error x) : x = .systemExit := by
  unfold attached at h
  split at h
  · cases h
  · exact chain_error _ _ le_rfl _ _ _ _ h

theorem consume_error : ∀ (n : Nat) (toks : List Tok), toks.length ≤ n → ∀ a x, consume a toks = .error x →
    x = .systemExit := by
  intro n
  induction n with
  | zero =>
      intro toks hl a x h
      have : toks = [] := List.length_eq_zero_iff.1 (by omega)
      subst this
      rw [consume] at h; cases h
  | succ n ih =>
      intro toks hl a x h
      cases toks with
      | nil => rw [consume] at h; cases h
      | cons o rest =>
          have hl' : rest.length ≤ n := by simp at hl; omega
          cases o with
          | arg s => rw [consume] at h <;> first | exact (Except.error.inj h).symm | simp
          | unknown => rw [consume] at h <;> first | exact (Except.error.inj h).symm | simp
          | dashes => rw [consume] at h <;> first | exact (Except.error.inj h).symm | simp
          | opt d short expl =>
              have other : ∀ (y : Except Err CliArgs) (rest' : List Tok), rest'.length ≤ n →
                  (∀ x', y = .error x' → x' = .systemExit) →
                  (match y with
                    | .error e => (Except.error e : Except Err CliArgs)
                    | .ok a => consume a rest') = (Except.error x : Except Err CliArgs) →
                  x = .systemExit := by
                intro y rest' hlr hy hh
                cases y with
                | error x' =>
                    obtain rfl := Except.error.inj hh
                    exact hy _ rfl
                | ok a' => exact ih rest' hlr _ _ hh
              rw [consume] at h
              split at h
              · rename_i h1
                obtain rfl := Except.error.inj h
                exact attached_error h1
              · split at h
                · rename_i h1
                  obtain rfl := Except.error.inj h
                  exact takeFlags_error _ _ _ h1
                · split at h
                  · exact other _ rest hl' (fun x' hx => takeAction_error hx) h
                  · split at h
                    · rename_i s rest' _
                      exact other _ _ (by simp at hl'; omega) (fun x' hx => takeAction_error hx) h
                    · split at h
                      · exact (Except.error.inj h).symm
                      · exact other _ rest hl' (fun x' hx => takeAction_error hx) h

theorem parseArgs_error {args : List String} {x : Err} (h : parseArgs args = .error x) : x = .systemExit := by
  unfold parseArgs at h
  split at h
  · rename_i h1
    obtain rfl := Except.error.inj h
    exact tokenise_error _ _ h1
  · exact consume_error _ _ le_rfl _ _ h

theorem tokenise_mem : ∀ (ts : List Text) (toks : List Tok), tokenise ts = .ok toks →
    ∀ t ∈ ts, ∀ o', classify t = .ok o' → o' ∈ toks ∨ .dashes ∈ toks
  | [], _, _ => by simp
  | t :: ts, toks, h => by
      intro u hu o' hc
      rw [tokenise] at h
      split at h
      · obtain rfl := Except.ok.inj h
        right; simp
      · split at h
        · cases h
        · rename_i o ho
          cases h2 : tokenise ts with
          | error e => rw [h2] at h; cases h
          | ok os =>
              rw [h2] at h
              obtain rfl := Except.ok.inj h
              rcases List.mem_cons.1 hu with rfl | hu
              · rw [hc] at ho
                obtain rfl := Except.ok.inj ho
                left; simp
              · rcases tokenise_mem ts os h2 u hu o' hc with h3 | h3
                · left; simp [h3]
                · right; simp [h3]

/-- an argument that is read as a token which cannot be accepted ends the program -/
theorem parseArgs_refused {args : List String} {t : Text} (ht : String.ofList t ∈ args) {o : Tok}
    (hc : classify t = .ok o) (hf : ¬ Fine o) : parseArgs args = .error .systemExit := by
  cases hr : parseArgs args with
  | error x => rw [parseArgs_error hr]
  | ok r =>
      exfalso
      unfold parseArgs at hr
      split at hr
      · cases hr
      · rename_i toks htoks
        have hmem : t ∈ args.map String.toList := List.mem_map.2 ⟨_, ht, by simp⟩
        have hfine := consume_fine _ _ le_rfl _ _ hr
        rcases tokenise_mem _ _ htoks t hmem _ hc with h | h
        · exact hf (hfine _ h)
        · exact hfine _ h

/-- an argument that cannot be read, and is not preceded by `--`, ends the program -/
theorem tokenise_refused : ∀ (ts : List Text) (toks : List Tok), tokenise ts = .ok toks →
    ∀ t ∈ ts, ∀ e, classify t = .error e → .dashes ∈ toks
  | [], _, _ => by simp
  | t :: ts, toks, h => by
      intro u hu e hc
      rw [tokenise] at h
      split at h
      · obtain rfl := Except.ok.inj h
        simp
      · split at h
        · cases h
        · rename_i o ho
          cases h2 : tokenise ts with
          | error e => rw [h2] at h; cases h
          | ok os =>
              rw [h2] at h
              obtain rfl := Except.ok.inj h
              rcases List.mem_cons.1 hu with rfl | hu
              · rw [hc] at ho; cases ho
              · simp [tokenise_refused ts os h2 u hu e hc]

theorem parseArgs_unreadable {args : List String} {t : Text} (ht : String.ofList t ∈ args) {e : Err}
    (hc : classify t = .error e) : parseArgs args = .error .systemExit := by
  cases hr : parseArgs args with
  | error x => rw [parseArgs_error hr]
  | ok r =>
      exfalso
      unfold parseArgs at hr
      split at hr
      · cases hr
      · rename_i toks htoks
        have hmem : t ∈ args.map String.toList := List.mem_map.2 ⟨_, ht, by simp⟩
        exact consume_fine _ _ le_rfl _ _ hr _ (tokenise_refused _ _ htoks t hmem _ hc)

end Verif
