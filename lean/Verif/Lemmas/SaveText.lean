import Verif.Spec.SaveText
import Verif.Lemmas.Repr
import Verif.Lemmas.Saved
/-!
# Reading the text of saved samples
-/
namespace Verif
open Spec

/-! ### numbers -/

theorem isDigit_iff (c : Char) : c.isDigit = true ↔ IsDig c := by
  unfold IsDig digitVal Char.isDigit
  have h : ('0' ≤ c ∧ c ≤ '9') ↔ (decide (c.val ≥ 48) && decide (c.val ≤ 57)) = true := by
    rw [Bool.and_eq_true, decide_eq_true_iff, decide_eq_true_iff]
    exact Iff.rfl
  by_cases hc : '0' ≤ c ∧ c ≤ '9'
  · simp only [if_pos hc, Option.isSome_some, iff_true]
    exact h.1 hc
  · simp only [if_neg hc, Option.isSome_none, Bool.false_eq_true, iff_false]
    exact fun h' => hc (h.2 h')

theorem readDigits_fold : ∀ (t : Text) (acc : Nat), (∀ c ∈ t, IsDig c) →
    readDigits acc t = some (t.foldl (fun n c => n * 10 + (c.toNat - 48)) acc)
  | [], acc, _ => rfl
  | c :: t, acc, h => by
      have hc : digitVal c = some (c.toNat - 48) := by
        have := h c (by simp)
        unfold IsDig at this
        unfold digitVal at this ⊢
        split_ifs with h' <;> simp_all
      simp only [readDigits, hc, Option.bind_some, List.foldl_cons]
      exact readDigits_fold t _ fun c' h' => h c' (by simp [h'])

theorem readDigits_val {t : Text} (h : ∀ c ∈ t, IsDig c) : readDigits 0 t = some (digitsVal t) :=
  readDigits_fold t 0 h

theorem takeWhile_digits {a b : Text} (ha : ∀ c ∈ a, IsDig c) (hb : ∀ c, b.head? = some c → ¬ IsDig c) :
    (a ++ b).takeWhile Char.isDigit = a :=
  takeWhile_stop (fun c hc => (isDigit_iff c).2 (ha c hc))
    (fun c hc => by rw [← Bool.not_eq_true, isDigit_iff]; exact hb c hc)

theorem dropWhile_digits {a b : Text} (ha : ∀ c ∈ a, IsDig c) (hb : ∀ c, b.head? = some c → ¬ IsDig c) :
    (a ++ b).dropWhile Char.isDigit = b :=
  dropWhile_stop (fun c hc => (isDigit_iff c).2 (ha c hc))
    (fun c hc => by rw [← Bool.not_eq_true, isDigit_iff]; exact hb c hc)

/-- digits, a point, digits and the rest -/
theorem decimalVal_point {ip fp x : Text} (h1 : ip ≠ []) (h2 : ∀ c ∈ ip, IsDig c) (h3 : ∀ c ∈ fp, IsDig c)
    (hx : ∀ c, x.head? = some c → ¬ IsDig c) :
    decimalVal (ip ++ '.' :: (fp ++ x)) = (expPart x).map fun e : Int =>
      (digitsVal (ip ++ fp) : ℚ) * 10 ^ (e - (fp.length : Int)) := by
  have hdot : ∀ c, ('.' :: (fp ++ x)).head? = some c → ¬ IsDig c := by
    intro c hc
    simp only [List.head?_cons, Option.some.injEq] at hc
    subst hc
    unfold IsDig
    decide
  unfold decimalVal
  simp only [takeWhile_digits h2 hdot, dropWhile_digits h2 hdot, fracPart, takeWhile_digits h3 hx,
    dropWhile_digits h3 hx]
  rw [if_neg (by simp [h1])]

/-- digits only -/
theorem decimalVal_digits {ip : Text} (h1 : ip ≠ []) (h2 : ∀ c ∈ ip, IsDig c) :
    decimalVal ip = some (digitsVal ip : ℚ) := by
  unfold decimalVal
  have e1 : ip.takeWhile Char.isDigit = ip := by
    have := takeWhile_digits (b := []) h2 (by simp)
    rwa [List.append_nil] at this
  have e2 : ip.dropWhile Char.isDigit = [] := by
    have := dropWhile_digits (b := []) h2 (by simp)
    rwa [List.append_nil] at this
  simp only [e1, e2, fracPart, List.append_nil, if_neg h1, expPart, Option.map_some, List.length_nil]
  simp

theorem expPart_signed (s : Char) (hs : s = '+' ∨ s = '-') {ds : Text} (h1 : ds ≠ []) (h2 : ∀ c ∈ ds, IsDig c) :
    expPart ('e' :: s :: ds) = some (if s = '-' then -(digitsVal ds : Int) else digitsVal ds) := by
  have h3 : ds.all Char.isDigit = true := by
    rw [List.all_eq_true]
    exact fun c hc => (isDigit_iff c).2 (h2 c hc)
  rcases hs with rfl | rfl <;> simp [expPart, signPart, h1, h3]

theorem expDigits (n : Nat) : (if n < 100 then padDigits 2 n else natText n) ≠ [] ∧
    (∀ c ∈ (if n < 100 then padDigits 2 n else natText n), IsDig c) ∧
    digitsVal (if n < 100 then padDigits 2 n else natText n) = n := by
  have hd : ∀ c ∈ (if n < 100 then padDigits 2 n else natText n), IsDig c := by
    split
    · exact padDigits_dig _ _
    · exact natText_dig _
  refine ⟨?_, hd, ?_⟩
  · split
    · intro h
      have := congrArg List.length h
      rw [padDigits_length] at this
      simp at this
    · exact natText_ne n
  · have h := readDigits_val hd
    have h' : readDigits 0 (if n < 100 then padDigits 2 n else natText n) = some n := by
      split
      · rename_i hn
        rw [readDigits_pad, Nat.mod_eq_of_lt (by simpa using hn)]
        simp
      · rw [readDigits_nat]; simp
    rw [h] at h'
    exact Option.some.inj h'

theorem expPart_expText (e : Int) : expPart ('e' :: expText e) = some e := by
  obtain ⟨h1, h2, h3⟩ := expDigits e.natAbs
  unfold expText
  rw [expPart_signed _ (by split <;> simp) h1 h2, h3]
  by_cases he : e < 0
  · simp only [if_pos he, if_true, Option.some.injEq]
    omega
  · rw [if_neg he, if_neg (by decide)]
    simp only [Option.some.injEq]
    omega

/-- the parts of `'%.de' % q` -/
theorem fmtExp_parts (d : Nat) (q : ℚ) : ∃ (c : Char) (fp : Text) (e : Int), IsDig c ∧ (∀ x ∈ fp, IsDig x) ∧
    fp.length = d ∧ fmtExp d q = signText q ++ (c :: '.' :: (fp ++ 'e' :: expText e)) ∧
    readNum (fmtExp d q) = some (if q < 0 then -((digitsVal (c :: fp) : ℚ) * 10 ^ (e - (d : Int)))
      else (digitsVal (c :: fp) : ℚ) * 10 ^ (e - (d : Int))) ∧
    digitsVal (c :: fp) = (sciParts d q).1 ∧ e = (sciParts d q).2 := by
  have hlt : (sciParts d q).1 < 10 ^ (d + 1) := by
    by_cases hq : q = 0
    · simp [sciParts, hq]
    · exact (sciParts_spec d hq).2.1
  have hdig : (sciParts d q).1 / 10 ^ d < 10 := by
    rw [Nat.div_lt_iff_lt_mul (by positivity)]
    calc (sciParts d q).1 < 10 ^ (d + 1) := hlt
      _ = 10 * 10 ^ d := by rw [pow_succ']
  have hc := isDig_digitCh hdig
  have hf := padDigits_dig d ((sciParts d q).1 % 10 ^ d)
  have heq : fmtExp d q = signText q ++ (digitCh ((sciParts d q).1 / 10 ^ d) :: '.' ::
      (padDigits d ((sciParts d q).1 % 10 ^ d) ++ 'e' :: expText (sciParts d q).2)) := by
    unfold fmtExp
    simp
  have hall : ∀ x ∈ digitCh ((sciParts d q).1 / 10 ^ d) :: padDigits d ((sciParts d q).1 % 10 ^ d), IsDig x := by
    intro x hx
    rcases List.mem_cons.1 hx with rfl | hx
    · exact hc
    · exact hf x hx
  refine ⟨_, _, _, hc, hf, padDigits_length _ _, heq, ?_, ?_, rfl⟩
  swap
  · have h := readDigits_val hall
    simp only [readDigits, digitVal_digitCh hdig, Option.bind_some, zero_mul, zero_add] at h
    rw [readDigits_pad, Nat.mod_mod] at h
    rw [← Option.some.inj h, mul_comm]
    exact Nat.div_add_mod (sciParts d q).1 (10 ^ d)
  rw [heq]
  apply readNum_sign q ⟨_, _, rfl, hc⟩
  have h1 := readAbs_plain (ip := [digitCh ((sciParts d q).1 / 10 ^ d)]) (by simp) (by simpa using hc) hf
    (ex := 'e' :: expText (sciParts d q).2) (Or.inr ⟨_, rfl⟩)
  simp only [List.cons_append, List.nil_append] at h1
  rw [h1, readDigits_val hall, readExp_expText, padDigits_length]
  rfl

/-! ### characters -/

/-- a character that is neither white space nor a separator -/
def Plain (c : Char) : Prop := c.isWhitespace = false ∧ c ≠ ',' ∧ c ≠ '\n' ∧ c ≠ ' ' ∧ c ≠ '\r' ∧ c ≠ '#'

instance : DecidablePred Plain := fun _ => inferInstanceAs (Decidable (_ ∧ _))

theorem NumChar.plain {c : Char} (h : NumChar c) : Plain c := by
  rcases h with h | h
  · have : ∀ e : Char, digitVal e = none → c ≠ e := fun e he => h.ne he
    refine ⟨?_, this _ (by decide), this _ (by decide), this _ (by decide), this _ (by decide), this _ (by decide)⟩
    unfold Char.isWhitespace
    simp only [Bool.or_eq_false_iff, decide_eq_false_iff_not]
    refine ⟨⟨⟨?_, ?_⟩, ?_⟩, ?_⟩ <;> exact this _ (by decide)
  · simp only [List.mem_cons, List.not_mem_nil, or_false] at h
    rcases h with rfl | rfl | rfl | rfl <;> exact ⟨by decide, by decide, by decide, by decide, by decide, by decide⟩

theorem fmtExp_chars (d : Nat) (q : ℚ) : ∀ c ∈ fmtExp d q, NumChar c := by
  obtain ⟨c, fp, e, hc, hf, -, heq, -⟩ := fmtExp_parts d q
  rw [heq]
  intro x hx
  simp only [List.mem_append, List.mem_cons] at hx
  rcases hx with hx | rfl | rfl | hx | rfl | hx
  · unfold signText at hx
    split at hx
    · simp only [List.mem_singleton] at hx
      subst hx
      exact Or.inr (by simp)
    · simp at hx
  · exact Or.inl hc
  · exact Or.inr (by simp)
  · exact Or.inl (hf x hx)
  · exact Or.inr (by simp)
  · exact expText_chars e x hx

theorem fieldText_plain (x : PyF) : ∀ c ∈ fieldText x, Plain c := by
  cases x with
  | fin q => exact fun c hc => (fmtExp_chars 18 q c hc).plain
  | inf => unfold fieldText; decide
  | ninf => unfold fieldText; decide
  | nan => unfold fieldText; decide

theorem isDig_lower {c : Char} (h : IsDig c) : c.toLower = c := by
  have h1 := (isDigit_iff c).2 h
  unfold Char.isDigit at h1
  rw [Bool.and_eq_true, decide_eq_true_iff, decide_eq_true_iff] at h1
  unfold Char.toLower
  rw [dif_neg]
  intro h2
  have h3 : c.val ≤ 57 := h1.2
  have h4 : (65 : UInt32) ≤ c.val := h2.1
  have : (65 : UInt32) ≤ 57 := UInt32.le_trans h4 h3
  revert this
  decide

theorem stripText_plain {t : Text} (h : ∀ c ∈ t, Plain c) : stripText t = t := by
  have key : ∀ u : Text, (∀ c ∈ u, Plain c) → u.dropWhile Char.isWhitespace = u := by
    intro u hu
    cases u with
    | nil => rfl
    | cons c u => rw [List.dropWhile_cons_of_neg]; rw [(hu c (by simp)).1]; simp
  unfold stripText
  rw [key t h, key _ (fun c hc => h c (List.mem_reverse.1 hc)), List.reverse_reverse]

theorem stripLine_plain {t : Text} (h : ∀ c ∈ t, c ≠ ' ' ∧ c ≠ '\r' ∧ c ≠ '\n') : stripLine t = t := by
  have key : ∀ u : Text, (∀ c ∈ u, c ≠ ' ' ∧ c ≠ '\r' ∧ c ≠ '\n') →
      u.dropWhile (fun c => c == ' ' || c == '\r' || c == '\n') = u := by
    intro u hu
    cases u with
    | nil => rfl
    | cons c u =>
      rw [List.dropWhile_cons_of_neg]
      have := hu c (by simp)
      simp [this.1, this.2.1, this.2.2]
  unfold stripLine
  simp only
  rw [key t h, key _ (fun c hc => h c (List.mem_reverse.1 hc)), List.reverse_reverse]

theorem signPart_digit {c : Char} {t : Text} (h : IsDig c) : signPart (c :: t) = (false, c :: t) := by
  have h1 : c ≠ '-' := h.ne digitVal_minus
  have h2 : c ≠ '+' := h.ne (by decide)
  unfold signPart
  split
  · rename_i heq; exact absurd (List.cons.inj heq).1 h1
  · rename_i heq; exact absurd (List.cons.inj heq).1 h2
  · rfl

/-- a number that starts with a digit -/
theorem pyFloat_digit (neg : Bool) {c : Char} {t : Text} (h : IsDig c) (ht : ∀ x ∈ t, Plain x) :
    pyFloat ((if neg then ['-'] else []) ++ c :: t) =
      (decimalVal (c :: t)).map fun v => rndInf (if neg then -v else v) := by
  have hp : ∀ x ∈ ((if neg then ['-'] else []) ++ c :: t), Plain x := by
    intro x hx
    rcases List.mem_append.1 hx with hx | hx
    · cases neg <;> simp at hx
      subst hx
      decide
    · rcases List.mem_cons.1 hx with rfl | hx
      · exact NumChar.plain (Or.inl h)
      · exact ht x hx
  have hs : signPart ((if neg then ['-'] else []) ++ c :: t) = (neg, c :: t) := by
    cases neg
    · exact signPart_digit h
    · rfl
  unfold pyFloat
  simp only [stripText_plain hp, hs, List.map_cons, isDig_lower h]
  have hi : c ≠ 'i' := h.ne (by decide)
  have hn : c ≠ 'n' := h.ne (by decide)
  rw [if_neg (by
    rintro (h' | h')
    · exact hi (List.cons.inj h').1
    · exact hi (List.cons.inj h').1), if_neg (by
      intro h'
      exact hn (List.cons.inj h').1)]

theorem signText_bool (q : ℚ) : signText q = if decide (q < 0) = true then ['-'] else [] := by
  unfold signText
  by_cases h : q < 0 <;> simp [h]

/-- `float('%.de' % q)` is the float nearest to the decimal shown -/
theorem pyFloat_fmtExp (d : Nat) (q : ℚ) : ∃ v, pyFloat (fmtExp d q) = some (rndInf v) ∧
    |v - q| ≤ |q| / (2 * 10 ^ d) := by
  obtain ⟨v, h1, h2⟩ := fmtExp_reads d q
  refine ⟨v, ?_, h2⟩
  obtain ⟨c, fp, e, hc, hf, hl, heq, hv, -⟩ := fmtExp_parts d q
  have hx : ∀ x, ('e' :: expText e).head? = some x → ¬ IsDig x := by
    intro x hx
    simp only [List.head?_cons, Option.some.injEq] at hx
    subst hx
    unfold IsDig
    decide
  have hdec := decimalVal_point (ip := [c]) (by simp) (by simpa using hc) hf hx
  rw [expPart_expText, hl] at hdec
  rw [h1] at hv
  have := Option.some.inj hv
  rw [heq, signText_bool, pyFloat_digit _ hc]
  · rw [show c :: '.' :: (fp ++ 'e' :: expText e) = [c] ++ '.' :: (fp ++ 'e' :: expText e) from rfl, hdec]
    simp only [Option.map_some, List.cons_append, List.nil_append, decide_eq_true_eq, this]
  · intro x hx
    refine (fmtExp_chars d q x ?_).plain
    rw [heq]
    simp only [List.mem_append, List.mem_cons] at hx ⊢
    tauto

theorem rndInf_near {q v : ℚ} (hq : IsFloat q) (hb : |q| < 2 ^ 1024) (h : |v - q| ≤ |q| / (2 * 10 ^ 18)) :
    rndInf v = .fin q := by
  have key : ∀ {x y : ℚ}, 0 < x → IsFloat x → |y - x| ≤ x / (2 * 10 ^ 18) → rnd754 y = x := by
    intro x y h0 hx hy
    refine rnd754_near h0 hx (lt_of_le_of_lt hy ?_)
    gcongr
    norm_num
  have hr : rnd754 v = q := by
    rcases lt_trichotomy q 0 with hneg | rfl | hpos
    · have h1 := key (x := |q|) (y := -v) (by rw [abs_pos]; exact hneg.ne) (isFloat_abs hq) (by
        rw [abs_of_neg hneg] at h ⊢
        rw [show -v - -q = -(v - q) by ring, abs_neg]
        exact h)
      have := (rnd754_neg_eq hneg (-v)).2 h1
      rwa [neg_neg] at this
    · simp only [abs_zero, zero_div, abs_nonpos_iff, sub_zero] at h
      rw [h, rndOk_rnd754.zero]
    · rw [abs_of_pos hpos] at h
      exact key hpos hq h
  unfold rndInf
  rw [hr, if_pos hb]

/-- a float is read as it was written -/
theorem pyFloat_fieldText {x : PyF} (hx : IsPyFloat x) : pyFloat (fieldText x) = some x := by
  cases x with
  | fin q =>
    obtain ⟨v, h1, h2⟩ := pyFloat_fmtExp 18 q
    rw [fieldText, h1, rndInf_near hx.1 hx.2 h2]
  | inf => decide +kernel
  | ninf => decide +kernel
  | nan => decide +kernel

theorem fieldText_ne (x : PyF) : fieldText x ≠ [] := by
  cases x with
  | fin q =>
    obtain ⟨c, fp, e, -, -, -, heq, -⟩ := fmtExp_parts 18 q
    rw [fieldText, heq]
    simp
  | inf => decide
  | ninf => decide
  | nan => decide

/-! ### lines -/

theorem splitCh_ne (sep : Char) (t : Text) : splitCh sep t ≠ [] := by
  cases t with
  | nil => simp [splitCh]
  | cons c t =>
    unfold splitCh
    split
    · simp
    · split <;> simp

theorem splitCh_none {sep : Char} : ∀ {t : Text}, sep ∉ t → splitCh sep t = [t]
  | [], _ => rfl
  | c :: t, h => by
      have h1 : c ≠ sep := fun h' => h (by simp [h'])
      have h2 : sep ∉ t := fun h' => h (by simp [h'])
      unfold splitCh
      rw [if_neg h1, splitCh_none h2]

theorem splitCh_cons {sep : Char} : ∀ {l : Text}, sep ∉ l → ∀ t : Text,
    splitCh sep (l ++ sep :: t) = l :: splitCh sep t
  | [], _, t => by simp [splitCh]
  | c :: l, h, t => by
      have h1 : c ≠ sep := fun h' => h (by simp [h'])
      have h2 : sep ∉ l := fun h' => h (by simp [h'])
      rw [List.cons_append]
      conv_lhs => unfold splitCh
      rw [if_neg h1, splitCh_cons h2]

theorem splitCh_join {sep : Char} : ∀ {ts : List Text}, ts ≠ [] → (∀ t ∈ ts, sep ∉ t) →
    splitCh sep (joinText [sep] ts) = ts
  | [], h, _ => absurd rfl h
  | [t], _, h => splitCh_none (h t (by simp))
  | t :: u :: ts, _, h => by
      rw [show joinText [sep] (t :: u :: ts) = t ++ sep :: joinText [sep] (u :: ts) by simp [joinText],
        splitCh_cons (h t (by simp)), splitCh_join (by simp) (fun t' h' => h t' (by simp [h']))]

theorem joinText_mem {sep : Text} {c : Char} : ∀ {ts : List Text}, c ∈ joinText sep ts → c ∈ sep ∨ ∃ t ∈ ts, c ∈ t
  | [], h => by simp [joinText] at h
  | [t], h => Or.inr ⟨t, by simp, h⟩
  | t :: u :: ts, h => by
      rw [show joinText sep (t :: u :: ts) = t ++ sep ++ joinText sep (u :: ts) from rfl] at h
      rcases List.mem_append.1 h with h | h
      · rcases List.mem_append.1 h with h | h
        · exact Or.inr ⟨t, by simp, h⟩
        · exact Or.inl h
      · rcases joinText_mem h with h | ⟨t', h1, h2⟩
        · exact Or.inl h
        · exact Or.inr ⟨t', by simp only [List.mem_cons] at h1 ⊢; tauto, h2⟩

theorem lineText_chars (r : Row) : ∀ c ∈ lineText r, c = ',' ∨ Plain c := by
  intro c hc
  rcases joinText_mem hc with h | ⟨t, h1, h2⟩
  · exact Or.inl (by simpa using h)
  · obtain ⟨x, -, rfl⟩ := List.mem_map.1 h1
    exact Or.inr (fieldText_plain x c h2)

/-- a line without blanks or comments -/
theorem lineFields_plain {l : Text} (h : ∀ c ∈ l, c = ',' ∨ Plain c) (h0 : l ≠ []) :
    lineFields l = (splitCh ',' l).map fun f => (pyFloat f).getD .nan := by
  have h1 : l.takeWhile (· != '#') = l := by
    have := takeWhile_stop (l := l) (k := []) (p := (· != '#')) ?_ (by simp)
    · rwa [List.append_nil] at this
    intro c hc
    rcases h c hc with rfl | h
    · decide
    · simpa using h.2.2.2.2.2
  have h2 : stripLine l = l := by
    apply stripLine_plain
    intro c hc
    rcases h c hc with rfl | h
    · decide
    · exact ⟨h.2.2.2.1, h.2.2.2.2.1, h.2.2.1⟩
  unfold lineFields
  simp only [h1, h2, if_neg h0]

theorem joinText_ne {sep : Text} : ∀ {ts : List Text}, ts ≠ [] → (∀ t ∈ ts, t ≠ []) → joinText sep ts ≠ []
  | [], h, _ => absurd rfl h
  | [t], _, h => h t (by simp)
  | t :: u :: ts, _, h => by
      rw [show joinText sep (t :: u :: ts) = t ++ sep ++ joinText sep (u :: ts) from rfl]
      have := h t (by simp)
      simp [this]

theorem lineText_ne {r : Row} (h : r ≠ []) : lineText r ≠ [] :=
  joinText_ne (by simpa using h) (by
    intro t ht
    obtain ⟨x, -, rfl⟩ := List.mem_map.1 ht
    exact fieldText_ne x)

theorem lineFields_lineText {r : Row} (h0 : r ≠ []) (h : ∀ x ∈ r, IsPyFloat x) :
    lineFields (lineText r) = r := by
  rw [lineFields_plain (lineText_chars r) (lineText_ne h0), lineText, splitCh_join (by simpa using h0)]
  · rw [List.map_map]
    conv_rhs => rw [← List.map_id r]
    apply List.map_congr_left
    intro x hx
    simp [pyFloat_fieldText (h x hx)]
  · intro t ht hc
    obtain ⟨x, -, rfl⟩ := List.mem_map.1 ht
    exact (fieldText_plain x _ hc).2.1 rfl

theorem lineText_nonl (r : Row) : '\n' ∉ lineText r := fun h => by
  rcases lineText_chars r _ h with h | h
  · exact absurd h (by decide)
  · exact h.2.2.1 rfl

theorem textRows_nil : textRows [] = [] := by decide

theorem textRows_row {r : Row} (h0 : r ≠ []) (h : ∀ x ∈ r, IsPyFloat x) (t : Text) :
    textRows (rowText r ++ t) = r :: textRows t := by
  unfold textRows rowText
  rw [List.append_assoc, List.singleton_append, splitCh_cons (lineText_nonl r), List.map_cons,
    lineFields_lineText h0 h, List.filter_cons_of_pos (by simpa using h0)]

theorem textRows_fileText : ∀ {rows : List Row}, SavableRows rows → ∀ t : Text,
    textRows (fileText rows ++ t) = rows ++ textRows t
  | [], _, t => rfl
  | r :: rows, h, t => by
      have hr := h r (by simp)
      rw [show fileText (r :: rows) = rowText r ++ fileText rows from rfl, List.append_assoc,
        textRows_row hr.1 hr.2, textRows_fileText (fun r' h' => h r' (by simp [h']))]
      rfl

/-- the part of a line that was written, if any -/
theorem textRows_part {r : Row} {k : Nat} (hk : (lineText r).take k ≠ []) :
    textRows ((lineText r).take k) = [lineFields ((lineText r).take k)] ∧
      lineFields ((lineText r).take k) = (splitCh ',' ((lineText r).take k)).map fun f => (pyFloat f).getD .nan := by
  have hc : ∀ c ∈ (lineText r).take k, c = ',' ∨ Plain c := fun c h => lineText_chars r c (List.mem_of_mem_take h)
  have e := lineFields_plain hc hk
  refine ⟨?_, e⟩
  unfold textRows
  rw [splitCh_none (fun h => lineText_nonl r (List.mem_of_mem_take h)), List.map_singleton,
    List.filter_cons_of_pos]
  · rfl
  · rw [e]
    simpa using splitCh_ne _ _

/-- A file that breaks off holds the rows written in full, and perhaps one more line that was cut. -/
theorem textRows_take : ∀ {rows : List Row}, SavableRows rows → ∀ k : Nat,
    ∃ j ≤ rows.length, textRows ((fileText rows).take k) = rows.take j ∨
      ∃ (h : j < rows.length) (i : Nat), 0 < i ∧ i < (lineText rows[j]).length ∧
        textRows ((fileText rows).take k) = rows.take j ++ [lineFields ((lineText rows[j]).take i)]
  | [], _, k => ⟨0, le_rfl, Or.inl (by simp [fileText, textRows_nil])⟩
  | r :: rows, h, k => by
      have hr := h r (by simp)
      have e0 : fileText (r :: rows) = rowText r ++ fileText rows := rfl
      by_cases hk : k < (lineText r).length
      · have e1 : (fileText (r :: rows)).take k = (lineText r).take k := by
          rw [e0, rowText, List.append_assoc, List.take_append_of_le_length hk.le]
        by_cases k0 : k = 0
        · subst k0
          exact ⟨0, by simp, Or.inl (by simp [textRows_nil])⟩
        · refine ⟨0, by simp, Or.inr ⟨by simp, k, by omega, hk, ?_⟩⟩
          rw [e1, (textRows_part (by
            rw [← List.length_pos_iff, List.length_take]
            omega)).1]
          simp
      · by_cases hk' : k = (lineText r).length
        · have e1 : (fileText (r :: rows)).take k = (lineText r).take k := by
            rw [e0, rowText, List.append_assoc, List.take_append_of_le_length hk'.le]
          refine ⟨1, by simp, Or.inl ?_⟩
          rw [e1, (textRows_part (by
            rw [hk', List.take_length]
            exact lineText_ne hr.1)).1, hk', List.take_length, lineFields_lineText hr.1 hr.2]
          simp
        · have e1 : (fileText (r :: rows)).take k = rowText r ++ (fileText rows).take (k - (lineText r).length - 1) := by
            rw [e0, List.take_append, List.take_of_length_le (by simp [rowText]; omega)]
            congr 2
            simp [rowText]
            omega
          have hrs : SavableRows rows := fun r' h' => h r' (by simp [h'])
          obtain ⟨j, hj, h'⟩ := textRows_take hrs (k - (lineText r).length - 1)
          refine ⟨j + 1, by simpa using hj, ?_⟩
          rw [e1, textRows_row hr.1 hr.2]
          rcases h' with h' | ⟨hj', i, h1, h2, h3⟩
          · left
            rw [h']
            simp
          · right
            refine ⟨by simpa using hj', i, h1, by simpa using h2, ?_⟩
            rw [h3]
            simp

end Verif
