import Verif.Lemmas.Yaml
import Verif.Lemmas.SaveText
import Verif.Spec.Yaml
import Mathlib.Tactic.Ring
/-!
# What plain scalars are read as
-/
namespace Verif
open Spec

theorem splitCh_head {sep c : Char} (h : c ≠ sep) (t : Text) : ∃ h' r, splitCh sep (c :: t) = (c :: h') :: r := by
  rw [splitCh, if_neg h]
  cases hs : splitCh sep t with
  | nil => exact absurd hs (splitCh_ne _ _)
  | cons l ls => exact ⟨l, ls, rfl⟩

theorem signPart_other {c : Char} (h1 : c ≠ '-') (h2 : c ≠ '+') (t : Text) : signPart (c :: t) = (false, c :: t) := by
  unfold signPart
  split
  · rename_i h; cases h; exact absurd rfl h1
  · rename_i h; cases h; exact absurd rfl h2
  · rfl

theorem digitOr_of_not {c : Char} (h1 : c.isDigit = false) (h2 : c ≠ '_') : digitOr_ c = false := by
  unfold digitOr_
  simp [h1, h2]

theorem isDigits_first {c : Char} (h : c.isDigit = false) (t : Text) : isDigits_ (c :: t) = false := by
  rw [isDigits_, h]; rfl

theorem not_float {c : Char} {t : Text} (h : plainStart c = true) : isFloatText (c :: t) = false := by
  simp only [plainStart, Bool.not_eq_true', Bool.or_eq_false_iff, beq_eq_false_iff_ne] at h
  obtain ⟨⟨⟨⟨⟨hd, hm⟩, hp⟩, hdot⟩, -⟩, -⟩ := h
  unfold isFloatText dropSign
  rw [signPart_other hm hp]
  have e1 : isDigits_ ((c :: t).takeWhile digitOr_) = false := by
    rw [List.takeWhile_cons]
    split
    · exact isDigits_first hd _
    · rfl
  have e2 : (match (c :: t : Text) with | '.' :: c :: v => c.isDigit && fracTail v | _ => false) = false := by
    split
    · rename_i h; cases h; exact absurd rfl hdot
    · rfl
  have e3 : (match splitCh '.' (c :: t) with
      | [a, b] => (match splitCh ':' a with
        | h :: p :: ps => isDigits_ h && (p :: ps).all isBase60 && b.all digitOr_
        | _ => false)
      | _ => false) = false := by
    obtain ⟨h', r, e⟩ := splitCh_head hdot t
    rw [e]
    cases r with
    | nil => rfl
    | cons b r =>
      cases r with
      | cons => rfl
      | nil =>
        dsimp only
        by_cases hc : c = ':'
        · subst hc
          rw [splitCh, if_pos rfl]
          cases splitCh ':' h' <;> rfl
        · obtain ⟨h2, r2, e⟩ := splitCh_head hc h'
          rw [e]
          cases r2 with
          | nil => rfl
          | cons p ps => dsimp only; rw [isDigits_first hd]; rfl
  have e4 : [".inf".toList, ".Inf".toList, ".INF".toList].contains (c :: t) = false := by
    simp [hdot]
  have e5 : [".nan".toList, ".NaN".toList, ".NAN".toList].contains (c :: t) = false := by
    simp [hdot]
  dsimp only
  rw [e1, e4, e5, Bool.false_and, Bool.false_and]
  simp only [Bool.false_or, Bool.or_false]
  exact (Bool.or_eq_false_iff).2 ⟨e2, e3⟩

theorem isDigit_zero : Char.isDigit '0' = true := by decide

theorem isPositive_first {c : Char} (h : c.isDigit = false) (t : Text) : isPositive_ (c :: t) = false := by
  rw [isPositive_, h]; rfl

theorem not_int {c : Char} {t : Text} (h : plainStart c = true) : isIntText (c :: t) = false := by
  simp only [plainStart, Bool.not_eq_true', Bool.or_eq_false_iff, beq_eq_false_iff_ne] at h
  obtain ⟨⟨⟨⟨⟨hd, hm⟩, hp⟩, hdot⟩, -⟩, -⟩ := h
  have h0 : c ≠ '0' := by rintro rfl; rw [isDigit_zero] at hd; cases hd
  unfold isIntText dropSign
  rw [signPart_other hm hp]
  dsimp only
  rw [isPositive_first hd, Bool.or_false]
  refine (Bool.or_eq_false_iff).2 ⟨?_, ?_⟩
  · split
    · rename_i h; cases h; exact absurd rfl h0
    · rename_i h; cases h; exact absurd rfl h0
    · rename_i h; cases h; exact absurd rfl h0
    · rfl
  · by_cases hc : c = ':'
    · subst hc
      rw [splitCh, if_pos rfl]
      cases splitCh ':' t <;> rfl
    · obtain ⟨h2, r2, e⟩ := splitCh_head hc t
      rw [e]
      cases r2 with
      | nil => rfl
      | cons p ps => dsimp only; rw [isPositive_first hd]; rfl

theorem not_timestamp {c : Char} {t : Text} (h : c.isDigit = false) : isTimestamp (c :: t) = false := by
  unfold isTimestamp
  have : twoDigits (c :: t) = none := by
    cases t with
    | nil => rfl
    | cons b t => rw [twoDigits, h]; rfl
  rw [this]
  rfl

theorem mem_boolWords {t : Text} : t ∈ boolWords ↔ t ∈ boolSpellings :=
  List.Perm.mem_iff (by decide +kernel)

theorem mem_nullWords {t : Text} : t ∈ nullWords ↔ t ∈ nullSpellings :=
  List.Perm.mem_iff (by decide +kernel)

theorem plainTag_word {c : Char} {t : Text} (h : plainStart c = true) (hb : (c :: t) ∉ boolSpellings) (hn : (c :: t) ∉ nullSpellings) :
    plainTag (c :: t) = .str := by
  rw [← mem_boolWords] at hb
  rw [← mem_nullWords] at hn
  unfold plainTag
  rw [if_neg (by simpa using hb), not_float h, not_int h]
  simp only [plainStart, Bool.not_eq_true', Bool.or_eq_false_iff, beq_eq_false_iff_ne] at h
  obtain ⟨⟨⟨⟨⟨hd, hm⟩, hp⟩, hdot⟩, hlt⟩, heq⟩ := h
  rw [if_neg (by simp), if_neg (by simp), if_neg (by simp [hlt]), if_neg (by simpa using hn), not_timestamp hd,
    if_neg (by simp), if_neg (by simp [heq])]

/-! ### numbers -/

theorem dropWhile_digitOr {i r : Text} (hi : i.all digitOr_ = true) (hr : ∀ c, r.head? = some c → digitOr_ c = false) :
    (i ++ r).dropWhile digitOr_ = r ∧ (i ++ r).takeWhile digitOr_ = i := by
  induction i with
  | nil =>
    cases r with
    | nil => exact ⟨rfl, rfl⟩
    | cons c r =>
      have := hr c rfl
      simp [this]
  | cons a i ih =>
    simp only [List.all_cons, Bool.and_eq_true] at hi
    simp [hi.1, ih hi.2]

theorem all_digitOr {i : Text} (h : i.all Char.isDigit = true) : i.all digitOr_ = true := by
  rw [List.all_eq_true] at h ⊢
  intro c hc
  unfold digitOr_
  rw [h c hc]; rfl

theorem isDigit_ne {c : Char} (h : c.isDigit = true) (d : Char) (hd : d.isDigit = false) : c ≠ d := by
  rintro rfl; rw [h] at hd; cases hd

theorem takeWhile_isDigit {i r : Text} (hi : i.all Char.isDigit = true) (hr : ∀ c, r.head? = some c → c.isDigit = false) :
    (i ++ r).takeWhile Char.isDigit = i ∧ (i ++ r).dropWhile Char.isDigit = r := by
  induction i with
  | nil =>
    cases r with
    | nil => exact ⟨rfl, rfl⟩
    | cons c r =>
      have := hr c rfl
      simp [this]
  | cons a i ih =>
    simp only [List.all_cons, Bool.and_eq_true] at hi
    simp [hi.1, ih hi.2]

theorem digit_toLower {c : Char} (h : c.isDigit = true) : c.toLower = c := by
  unfold Char.toLower
  rw [dif_neg]
  simp only [Char.isDigit, Bool.and_eq_true, decide_eq_true_eq] at h
  intro hu
  simp only [UInt32.le_iff_toNat_le] at h hu
  have := h.2
  have h1 : ('9' : Char).val.toNat = 57 := rfl
  have h2 : ('A' : Char).val.toNat = 65 := rfl
  omega

theorem map_toLower_digits {i : Text} (h : i.all Char.isDigit = true) : i.map Char.toLower = i := by
  rw [List.all_eq_true] at h
  conv_rhs => rw [← List.map_id i]
  exact List.map_congr_left fun c hc => digit_toLower (h c hc)

theorem filter_digits {i : Text} (h : i.all Char.isDigit = true) : i.filter (· != '_') = i := by
  rw [List.all_eq_true] at h
  rw [List.filter_eq_self]
  intro c hc
  simpa using isDigit_ne (h c hc) '_' (by decide)

theorem not_boolWord {c : Char} {t : Text} (h : c.isDigit = true) : boolWords.contains (c :: t) = false := by
  have hn := fun d hd => isDigit_ne h d hd
  simp [boolWords, hn 'y' (by decide), hn 'Y' (by decide), hn 'n' (by decide), hn 'N' (by decide),
    hn 't' (by decide), hn 'T' (by decide), hn 'f' (by decide), hn 'F' (by decide), hn 'o' (by decide), hn 'O' (by decide)]

theorem foldl_numeral (b : Nat) (t : Text) : ∀ n, t.foldl (fun n c => n * b + (c.toNat - 48)) n =
    n * b ^ t.length + numeral b t := by
  induction t with
  | nil => intro n; simp [numeral]
  | cons c t ih =>
    intro n
    rw [List.foldl_cons, ih]
    unfold numeral
    rw [List.reverse_cons, List.map_append, Nat.ofDigits_append]
    simp only [List.map_cons, List.map_nil, Nat.ofDigits_singleton, List.length_map, List.length_reverse, List.length_cons]
    ring

theorem digitsVal_numeral (t : Text) : digitsVal t = numeral 10 t := by
  unfold digitsVal
  rw [foldl_numeral]
  simp

theorem signPart_neg (neg : Bool) {i r : Text} (hi : i ≠ []) (hd : i.all Char.isDigit = true) :
    signPart ((if neg then ['-'] else []) ++ (i ++ r)) = (neg, i ++ r) := by
  cases neg with
  | true => rfl
  | false =>
    cases i with
    | nil => exact absurd rfl hi
    | cons c i =>
      simp only [List.all_cons, Bool.and_eq_true] at hd
      exact signPart_other (isDigit_ne hd.1 _ (by decide)) (isDigit_ne hd.1 _ (by decide)) _

theorem eText_head (x : Option (Bool × Text)) : ∀ c, (eText x).head? = some c → c = 'e' := by
  intro c
  rcases x with _ | ⟨s, x⟩
  · intro h; cases h
  · intro h; cases h; rfl

theorem expTail_eText {x : Option (Bool × Text)} (h : goodExp x) : expTail (eText x) = true := by
  rcases x with _ | ⟨s, x⟩
  · rfl
  · obtain ⟨h1, h2⟩ := h
    cases s <;> simp [eText, expTail, h1] <;> simpa using h2

theorem isDigits_of {i : Text} (hi : i ≠ []) (hd : i.all Char.isDigit = true) : isDigits_ i = true := by
  cases i with
  | nil => exact absurd rfl hi
  | cons c i =>
    simp only [List.all_cons, Bool.and_eq_true] at hd
    rw [isDigits_, hd.1, all_digitOr hd.2]; rfl

theorem isFloatText_dec (neg : Bool) {i f : Text} {x : Option (Bool × Text)} (hi : i ≠ []) (hd : i.all Char.isDigit = true)
    (hf : f.all Char.isDigit = true) (hx : goodExp x) : isFloatText (pointText neg i f x) = true := by
  unfold isFloatText pointText dropSign
  rw [signPart_neg neg hi hd]
  dsimp only
  obtain ⟨e1, e2⟩ := dropWhile_digitOr (i := i) (r := '.' :: (f ++ eText x)) (all_digitOr hd)
    (by intro c hc; cases hc; decide)
  rw [e1, e2, isDigits_of hi hd]
  have e3 : fracTail (('.' :: (f ++ eText x)).tail) = true := by
    show fracTail (f ++ eText x) = true
    unfold fracTail
    rw [(dropWhile_digitOr (all_digitOr hf) (by intro c hc; rw [eText_head x c hc]; decide)).1]
    exact expTail_eText hx
  rw [e3]
  simp

theorem expPart_eText {x : Option (Bool × Text)} (h : goodExp x) : expPart (eText x) = some (eVal x) := by
  rcases x with _ | ⟨s, x⟩
  · rfl
  · obtain ⟨h1, h2⟩ := h
    have hs : signPart ((if s then '-' else '+') :: x) = (s, x) := by cases s <;> rfl
    unfold eText expPart
    dsimp only
    rw [if_pos (Or.inl rfl), hs, if_neg (by simp [h1, h2]), digitsVal_numeral]
    rfl

theorem decimalVal_dec {i f : Text} {x : Option (Bool × Text)} (hi : i ≠ []) (hd : i.all Char.isDigit = true)
    (hf : f.all Char.isDigit = true) (hx : goodExp x) :
    decimalVal (i ++ '.' :: (f ++ eText x)) = some ((numeral 10 (i ++ f) : ℚ) * 10 ^ (eVal x - (f.length : Int))) := by
  unfold decimalVal
  obtain ⟨e1, e2⟩ := takeWhile_isDigit (i := i) (r := '.' :: (f ++ eText x)) hd (by intro c hc; cases hc; decide)
  obtain ⟨e3, e4⟩ := takeWhile_isDigit (i := f) (r := eText x) hf (by intro c hc; rw [eText_head x c hc]; decide)
  rw [e1, e2]
  have e5 : fracPart ('.' :: (f ++ eText x)) = (f, eText x) := by
    show ((f ++ eText x).takeWhile Char.isDigit, (f ++ eText x).dropWhile Char.isDigit) = _
    rw [e3, e4]
  rw [e5]
  dsimp only
  rw [if_neg (by simp [hi]), expPart_eText hx, digitsVal_numeral]
  rfl

theorem eText_keep {x : Option (Bool × Text)} (h : goodExp x) :
    (eText x).filter (· != '_') = eText x ∧ (eText x).map Char.toLower = eText x ∧ ':' ∉ eText x := by
  rcases x with _ | ⟨s, x⟩
  · exact ⟨rfl, rfl, by simp [eText]⟩
  · obtain ⟨h1, h2⟩ := h
    have h3 : ':' ∉ x := by
      intro hc
      rw [List.all_eq_true] at h2
      exact absurd (h2 _ hc) (by decide)
    refine ⟨?_, ?_, ?_⟩
    · cases s <;> simp [eText] <;> exact List.filter_eq_self.1 (filter_digits h2) |> fun H c hc => by simpa using H c hc
    · cases s <;> simp [eText, map_toLower_digits h2]
    · cases s <;> simp [eText, h3]

theorem yamlFloat_dec (neg : Bool) {i f : Text} {x : Option (Bool × Text)} (hi : i ≠ []) (hd : i.all Char.isDigit = true)
    (hf : f.all Char.isDigit = true) (hx : goodExp x) :
    yamlFloat (pointText neg i f x) =
      rndInf ((if neg then -1 else 1) * ((numeral 10 (i ++ f) : ℚ) * 10 ^ (eVal x - (f.length : Int)))) := by
  obtain ⟨k1, k2, k3⟩ := eText_keep hx
  have hid : ((pointText neg i f x).filter (· != '_')).map Char.toLower = pointText neg i f x := by
    unfold pointText
    rw [List.filter_append, List.filter_append, List.filter_cons, List.filter_append, filter_digits hd, filter_digits hf, k1]
    rw [if_pos (show ('.' != '_') = true by decide), List.map_append, List.map_append, List.map_cons, List.map_append, map_toLower_digits hd,
      map_toLower_digits hf, k2]
    cases neg <;> rfl
  unfold yamlFloat
  rw [hid]
  unfold pointText
  rw [signPart_neg neg hi hd]
  have hcol : (i ++ '.' :: (f ++ eText x)).contains ':' = false := by
    have a1 : ∀ {l : Text}, l.all Char.isDigit = true → ':' ∉ l := by
      intro l hl hc
      rw [List.all_eq_true] at hl
      exact absurd (hl _ hc) (by decide)
    simp [a1 hd, a1 hf, k3]
  cases i with
  | nil => exact absurd rfl hi
  | cons c i =>
    have hc : c.isDigit = true := by simp only [List.all_cons, Bool.and_eq_true] at hd; exact hd.1
    have hdot : c ≠ '.' := isDigit_ne hc _ (by decide)
    dsimp only
    rw [if_neg (by simp [hdot]), if_neg (by simp [hdot]), hcol, decimalVal_dec hi hd hf hx]
    cases neg <;> simp

/-! ### digits followed by something else -/

theorem splitCh_first {sep : Char} : ∀ {a : Text} (b : Text), sep ∉ a → splitCh sep (a ++ sep :: b) = a :: splitCh sep b
  | [], b, _ => by rw [List.nil_append, splitCh, if_pos rfl]
  | c :: a, b, h => by
    have hc : c ≠ sep := fun e => h (by simp [e])
    rw [List.cons_append, splitCh, if_neg hc, splitCh_first b (fun e => h (by simp [e]))]

theorem isDigit_absent {i : Text} (hd : i.all Char.isDigit = true) {c : Char} (hc : c.isDigit = false) : c ∉ i := by
  intro h
  rw [List.all_eq_true] at hd
  rw [hd c h] at hc
  cases hc

theorem not_timestamp_tail {i m : Text} {c : Char} (hd : i.all Char.isDigit = true) (hc : c.isDigit = false) (hm : c ≠ '-') :
    isTimestamp (i ++ c :: m) = false := by
  have key : (twoDigits (i ++ c :: m) >>= twoDigits >>= dropCh '-') = none := by
    have hn : ∀ {a : Char} {b : Text}, a.isDigit = true → dropCh '-' (a :: b) = none := by
      intro a b ha
      rw [dropCh, if_neg (isDigit_ne ha _ (by decide))]
    have two1 : ∀ {m : Text}, twoDigits (c :: m) = none := by
      intro m; cases m with
      | nil => rfl
      | cons b m => rw [twoDigits, hc]; rfl
    have two2 : ∀ {a : Char} {m : Text}, twoDigits (a :: c :: m) = none := by
      intro a m; rw [twoDigits, hc, Bool.and_false]; rfl
    have two3 : ∀ {a b : Char} {m : Text}, a.isDigit = true → b.isDigit = true → twoDigits (a :: b :: m) = some m := by
      intro a b m ha hb; rw [twoDigits, ha, hb]; rfl
    rcases i with _ | ⟨a1, _ | ⟨a2, _ | ⟨a3, _ | ⟨a4, i⟩⟩⟩⟩
    · simp [two1]
    · simp [two2]
    · simp only [List.all_cons, Bool.and_eq_true] at hd
      simp [two3 hd.1 hd.2.1, two1]
    · simp only [List.all_cons, Bool.and_eq_true] at hd
      simp [two3 hd.1 hd.2.1, two2]
    · simp only [List.all_cons, Bool.and_eq_true] at hd
      obtain ⟨h1, h2, h3, h4, h5⟩ := hd
      simp only [List.cons_append, two3 h1 h2, two3 h3 h4, Option.bind_eq_bind, Option.bind_some]
      cases i with
      | nil => rw [List.nil_append, dropCh, if_neg hm]
      | cons a i =>
        simp only [List.all_cons, Bool.and_eq_true] at h5
        exact hn h5.1
  unfold isTimestamp
  rw [key]

theorem not_int_tail {i m : Text} {c : Char} (hi : i ≠ []) (hd : i.all Char.isDigit = true) (hc : c.isDigit = false)
    (hu : c ≠ '_') (hco : c ≠ ':') (hb : c ≠ 'b') (hx : c ≠ 'x') (hm : ':' ∉ m) : isIntText (i ++ c :: m) = false := by
  have hs : signPart (i ++ c :: m) = (false, i ++ c :: m) := by
    have := signPart_neg false (r := c :: m) hi hd
    simpa using this
  have hco2 : ':' ∉ i ++ c :: m := by
    simp [isDigit_absent hd (c := ':') (by decide), hm, hco.symm]
  have hor : digitOr_ c = false := digitOr_of_not hc hu
  cases i with
  | nil => exact absurd rfl hi
  | cons a i =>
    simp only [List.all_cons, Bool.and_eq_true] at hd
    unfold isIntText dropSign
    rw [hs]
    dsimp only
    rw [splitCh_none hco2]
    have hpos : isPositive_ (a :: i ++ c :: m) = false := by
      rw [List.cons_append, isPositive_]
      have : (i ++ c :: m).all digitOr_ = false := by
        rw [List.all_append, List.all_cons, hor]; simp
      rw [this, Bool.and_false]
    rw [hpos, Bool.or_false, Bool.or_false, List.cons_append]
    split
    · rename_i v h
      simp only [List.cons.injEq] at h
      cases i with
      | nil => simp at h; exact absurd h.2.1 hb
      | cons b i =>
        simp only [List.cons_append, List.cons.injEq] at h
        simp only [List.all_cons, Bool.and_eq_true] at hd
        exact absurd h.2.1 (isDigit_ne hd.2.1 _ (by decide))
    · rename_i v h
      simp only [List.cons.injEq] at h
      cases i with
      | nil => simp at h; exact absurd h.2.1 hx
      | cons b i =>
        simp only [List.cons_append, List.cons.injEq] at h
        simp only [List.all_cons, Bool.and_eq_true] at hd
        exact absurd h.2.1 (isDigit_ne hd.2.1 _ (by decide))
    · rename_i v h1 h2 h
      simp only [List.cons.injEq] at h
      rw [← h.2, List.all_append, List.all_cons]
      have : (decide ('0' ≤ c) && decide (c ≤ '7') || c == '_') = false := by
        rw [Bool.or_eq_false_iff]
        refine ⟨?_, by simpa using hu⟩
        by_contra hh
        simp only [Bool.not_eq_false, Bool.and_eq_true, decide_eq_true_eq] at hh
        have h9 : c.isDigit = true := by
          unfold Char.isDigit
          have h7 : c.val ≤ ('9' : Char).val := UInt32.le_trans (Char.le_def.1 hh.2) (show ('7' : Char).val ≤ ('9' : Char).val by decide)
          rw [Bool.and_eq_true, decide_eq_true_eq, decide_eq_true_eq]
          exact ⟨Char.le_def.1 hh.1, h7⟩
        rw [h9] at hc; cases hc
      rw [this]
      simp
    · rfl

theorem not_words {a : Char} {t : Text} (h : a.isDigit = true) :
    boolWords.contains (a :: t) = false ∧ nullWords.contains (a :: t) = false ∧ a :: t ≠ "<<".toList ∧ a :: t ≠ "=".toList := by
  have hn := fun d hd => isDigit_ne h d hd
  refine ⟨not_boolWord h, ?_, ?_, ?_⟩
  · simp [nullWords, hn 'n' (by decide), hn 'N' (by decide), hn '~' (by decide)]
  · simp [hn '<' (by decide)]
  · simp [hn '=' (by decide)]

/-- a number that is not written as YAML wants it is a text -/
theorem plainTag_tail {i m : Text} {c : Char} (hi : i ≠ []) (hd : i.all Char.isDigit = true) (hc : c.isDigit = false)
    (hu : c ≠ '_') (hco : c ≠ ':') (hb : c ≠ 'b') (hx : c ≠ 'x') (hmi : c ≠ '-') (hm : ':' ∉ m)
    (hf : isFloatText (i ++ c :: m) = false) : plainTag (i ++ c :: m) = .str := by
  unfold plainTag
  rw [hf, not_int_tail hi hd hc hu hco hb hx hm, not_timestamp_tail hd hc hmi]
  cases i with
  | nil => exact absurd rfl hi
  | cons a i =>
    simp only [List.all_cons, Bool.and_eq_true] at hd
    obtain ⟨w1, w2, w3, w4⟩ := not_words (t := i ++ c :: m) hd.1
    rw [List.cons_append, w1, w2, if_neg (by simp), if_neg (by simp), if_neg (by simp), if_neg w3, if_neg (by simp),
      if_neg (by simp), if_neg w4]

/-- no number without a point is a float -/
theorem not_float_nopoint {i m : Text} (hi : i ≠ []) (hd : i.all Char.isDigit = true) (hm : '.' ∉ m) :
    isFloatText (i ++ m) = false := by
  have hs : signPart (i ++ m) = (false, i ++ m) := by
    have := signPart_neg false (r := m) hi hd
    simpa using this
  have hdot : '.' ∉ i ++ m := by
    simp [isDigit_absent hd (c := '.') (by decide), hm]
  unfold isFloatText dropSign
  rw [hs]
  dsimp only
  have h1 : ((i ++ m).dropWhile digitOr_).head? ≠ some '.' := by
    intro h
    have := List.mem_of_mem_head? h
    exact hdot ((List.dropWhile_sublist _).mem this)
  rw [splitCh_none hdot]
  cases i with
  | nil => exact absurd rfl hi
  | cons a i =>
    have ha : a ≠ '.' := fun e => hdot (by simp [e])
    rw [List.cons_append] at h1 ⊢
    have e4 : [".inf".toList, ".Inf".toList, ".INF".toList].contains (a :: (i ++ m)) = false := by simp [ha]
    have e5 : [".nan".toList, ".NaN".toList, ".NAN".toList].contains (a :: (i ++ m)) = false := by simp [ha]
    rw [e4, e5]
    have e1 : (((a :: (i ++ m)).dropWhile digitOr_).head? == some '.') = false := by simpa using h1
    rw [e1]
    simp only [Bool.and_false, Bool.false_and, Bool.false_or, Bool.or_false]
    split
    · rename_i h; exact absurd (List.cons.inj h).1 ha
    · rfl

/-- nor one with a point and an exponent without sign -/
theorem not_float_nosign {i f x : Text} {e : Char} (he : e = 'e' ∨ e = 'E') (hi : i ≠ []) (hd : i.all Char.isDigit = true)
    (hf : f.all Char.isDigit = true) (hx : x.all Char.isDigit = true) :
    isFloatText (i ++ '.' :: (f ++ e :: x)) = false := by
  have hs : signPart (i ++ '.' :: (f ++ e :: x)) = (false, i ++ '.' :: (f ++ e :: x)) := by
    have := signPart_neg false (r := '.' :: (f ++ e :: x)) hi hd
    simpa using this
  have hed : e.isDigit = false := by rcases he with rfl | rfl <;> decide
  have hor : digitOr_ e = false := by rcases he with rfl | rfl <;> decide
  have hep : e ≠ '.' := by rcases he with rfl | rfl <;> decide
  unfold isFloatText dropSign
  rw [hs]
  dsimp only
  obtain ⟨e1, e2⟩ := dropWhile_digitOr (i := i) (r := '.' :: (f ++ e :: x)) (all_digitOr hd)
    (by intro c hc; cases hc; decide)
  rw [e1]
  have e3 : fracTail (('.' :: (f ++ e :: x)).tail) = false := by
    show fracTail (f ++ e :: x) = false
    unfold fracTail
    rw [(dropWhile_digitOr (all_digitOr hf) (by intro c hc; cases hc; exact hor)).1]
    cases x with
    | nil => rfl
    | cons s x =>
      simp only [List.all_cons, Bool.and_eq_true] at hx
      have h1 := isDigit_ne hx.1 '-' (by decide)
      have h2 := isDigit_ne hx.1 '+' (by decide)
      simp [expTail, h1, h2]
  rw [e3]
  have hnp : '.' ∉ f ++ e :: x := by
    simp [isDigit_absent hf (c := '.') (by decide), isDigit_absent hx (c := '.') (by decide), hep.symm]
  rw [splitCh_first _ (isDigit_absent hd (by decide)), splitCh_none hnp]
  dsimp only
  rw [splitCh_none (isDigit_absent hd (c := ':') (by decide))]
  cases i with
  | nil => exact absurd rfl hi
  | cons a i =>
    simp only [List.all_cons, Bool.and_eq_true] at hd
    have ha : a ≠ '.' := isDigit_ne hd.1 _ (by decide)
    rw [List.cons_append]
    have e4 : [".inf".toList, ".Inf".toList, ".INF".toList].contains (a :: (i ++ '.' :: (f ++ e :: x))) = false := by
      simp [ha]
    have e5 : [".nan".toList, ".NaN".toList, ".NAN".toList].contains (a :: (i ++ '.' :: (f ++ e :: x))) = false := by
      simp [ha]
    rw [e4, e5]
    simp only [Bool.and_false, Bool.false_or, Bool.or_false]
    split
    · rename_i h; exact absurd (List.cons.inj h).1 ha
    · rfl

/-! ### integers -/

theorem plainTag_int {a : Char} {i : Text} (hd : (a :: i).all Char.isDigit = true) (h0 : a ≠ '0') :
    plainTag (a :: i) = .int := by
  have hd' := hd
  simp only [List.all_cons, Bool.and_eq_true] at hd'
  have h1 : isFloatText (a :: i) = false := by
    have := not_float_nopoint (i := a :: i) (m := []) (by simp) hd (by simp)
    simpa using this
  have h2 : isIntText (a :: i) = true := by
    unfold isIntText dropSign
    rw [signPart_other (isDigit_ne hd'.1 _ (by decide)) (isDigit_ne hd'.1 _ (by decide))]
    have : isPositive_ (a :: i) = true := by
      rw [isPositive_, hd'.1, all_digitOr hd'.2]; simp [h0]
    dsimp only
    rw [this]
    simp
  unfold plainTag
  rw [not_boolWord hd'.1, h1, h2]
  rfl

theorem yamlInt_decimal {a : Char} {i : Text} (hd : (a :: i).all Char.isDigit = true) (h0 : a ≠ '0') :
    yamlInt (a :: i) = .ok (.fin (numeral 10 (a :: i))) := by
  have hd' := hd
  simp only [List.all_cons, Bool.and_eq_true] at hd'
  unfold yamlInt
  rw [filter_digits hd, signPart_other (isDigit_ne hd'.1 _ (by decide)) (isDigit_ne hd'.1 _ (by decide))]
  have hc : (a :: i).contains ':' = false := by
    have := isDigit_absent hd (c := ':') (by decide)
    simpa using this
  have : yamlNat (a :: i) = .ok (numeral 10 (a :: i) : ℚ) := by
    unfold yamlNat
    split
    · rename_i h; cases h; exact absurd rfl h0
    · rename_i h; cases h; exact absurd rfl h0
    · rename_i h; cases h; exact absurd rfl h0
    · rename_i h; cases h; exact absurd rfl h0
    · rw [hc, digitsVal_numeral]
      rfl
  dsimp only
  rw [this]
  rfl

/-- `[0-7]` -/
theorem octal_digit {c : Char} (h : (decide ('0' ≤ c) && decide (c ≤ '7')) = true) : c.isDigit = true := by
  simp only [Bool.and_eq_true, decide_eq_true_eq] at h
  unfold Char.isDigit
  have h7 : c.val ≤ ('9' : Char).val := UInt32.le_trans (Char.le_def.1 h.2) (show ('7' : Char).val ≤ ('9' : Char).val by decide)
  rw [Bool.and_eq_true, decide_eq_true_eq, decide_eq_true_eq]
  exact ⟨Char.le_def.1 h.1, h7⟩

theorem baseVal_numeral {b : Nat} {t : Text} (h : t.all Char.isDigit = true) : baseVal b t = numeral b t := by
  unfold baseVal
  have : ∀ n, t.foldl (fun n c => n * b + (if c.isDigit then c.toNat - 48 else if 'a' ≤ c then c.toNat - 87 else c.toNat - 55)) n =
      t.foldl (fun n c => n * b + (c.toNat - 48)) n := by
    rw [List.all_eq_true] at h
    induction t with
    | nil => intro n; rfl
    | cons c t ih =>
      intro n
      rw [List.foldl_cons, List.foldl_cons, if_pos (h c (by simp))]
      exact ih (fun d hd => h d (by simp [hd])) _
  rw [this, foldl_numeral]
  simp

/-- a number with a leading zero and no eight or nine is taken to base eight -/
theorem octal_value {v : Text} (hv : v ≠ []) (ho : v.all (fun c => decide ('0' ≤ c) && decide (c ≤ '7')) = true) :
    plainTag ('0' :: v) = .int ∧ yamlInt ('0' :: v) = .ok (.fin (numeral 8 v)) := by
  have hd : v.all Char.isDigit = true := by
    rw [List.all_eq_true] at ho ⊢
    exact fun c hc => octal_digit (ho c hc)
  have hd0 : ('0' :: v).all Char.isDigit = true := by rw [List.all_cons, hd]; decide
  have hb : ∀ w, v ≠ 'b' :: w := by
    rintro w rfl
    rw [List.all_cons] at hd
    exact absurd hd (by simp)
  have hx : ∀ w, v ≠ 'x' :: w := by
    rintro w rfl
    rw [List.all_cons] at hd
    exact absurd hd (by simp)
  constructor
  · have h1 : isFloatText ('0' :: v) = false := by
      have := not_float_nopoint (i := '0' :: v) (m := []) (by simp) hd0 (by simp)
      simpa using this
    have h2 : isIntText ('0' :: v) = true := by
      unfold isIntText dropSign
      rw [signPart_other (by decide) (by decide)]
      dsimp only
      rw [Bool.or_eq_true, Bool.or_eq_true]
      left; left
      split
      · rename_i h; cases h; exact absurd rfl (hb _)
      · rename_i h; cases h; exact absurd rfl (hx _)
      · rename_i h; cases h
        rw [List.all_eq_true] at ho ⊢
        intro c hc
        rw [ho c hc]; rfl
      · rename_i h; exact absurd rfl (h v)
    unfold plainTag
    rw [not_boolWord (by decide), h1, h2]
    rfl
  · unfold yamlInt
    rw [filter_digits hd0, signPart_other (by decide) (by decide)]
    have hn : numeral 8 ('0' :: v) = numeral 8 v := by
      unfold numeral
      rw [List.reverse_cons, List.map_append, Nat.ofDigits_append]
      simp
    have : yamlNat ('0' :: v) = .ok (numeral 8 v : ℚ) := by
      unfold yamlNat
      split
      · rename_i h; cases h; exact absurd rfl hv
      · rename_i h; cases h; exact absurd rfl (hb _)
      · rename_i h; cases h; exact absurd rfl (hx _)
      · rename_i h; cases h
        unfold pyIntBase
        rw [if_neg (by simp), baseVal_numeral hd0, hn]
        rfl
      · rename_i h; exact absurd rfl (h v)
    dsimp only
    rw [this]
    rfl

theorem not_float_negdigits {i : Text} (hi : i ≠ []) (hd : i.all Char.isDigit = true) :
    isFloatText ('-' :: i) = false := by
  have h := not_float_nopoint (m := []) hi hd (by simp)
  rw [List.append_nil] at h
  have hs : signPart i = (false, i) := by
    have := signPart_neg false (r := []) hi hd
    simpa using this
  unfold isFloatText dropSign at h ⊢
  rw [hs] at h
  have hm : signPart ('-' :: i) = (true, i) := rfl
  rw [hm]
  dsimp only at h ⊢
  simp only [Bool.or_eq_false_iff] at h ⊢
  exact ⟨⟨⟨⟨h.1.1.1.1, by rfl⟩, h.1.1.2⟩, h.1.2⟩, by simp⟩

theorem plainTag_negint {a : Char} {i : Text} (hd : (a :: i).all Char.isDigit = true) (h0 : a ≠ '0') :
    plainTag ('-' :: a :: i) = .int := by
  have hd' := hd
  simp only [List.all_cons, Bool.and_eq_true] at hd'
  have h2 : isIntText ('-' :: a :: i) = true := by
    unfold isIntText dropSign
    have hm : signPart ('-' :: a :: i) = (true, a :: i) := rfl
    rw [hm]
    have : isPositive_ (a :: i) = true := by
      rw [isPositive_, hd'.1, all_digitOr hd'.2]; simp [h0]
    dsimp only
    rw [this]
    simp
  have hb : boolWords.contains ('-' :: a :: i) = false := by
    simp [boolWords]
  unfold plainTag
  rw [hb, not_float_negdigits (by simp) hd, h2]
  rfl

theorem yamlInt_negative {a : Char} {i : Text} (hd : (a :: i).all Char.isDigit = true) (h0 : a ≠ '0') :
    yamlInt ('-' :: a :: i) = .ok (.fin (-(numeral 10 (a :: i) : ℚ))) := by
  have hp := yamlInt_decimal hd h0
  have hd' := hd
  simp only [List.all_cons, Bool.and_eq_true] at hd'
  unfold yamlInt at hp ⊢
  have hf : ('-' :: a :: i).filter (· != '_') = '-' :: a :: i := by
    rw [List.filter_cons_of_pos (by decide), filter_digits hd]
  rw [filter_digits hd, signPart_other (isDigit_ne hd'.1 _ (by decide)) (isDigit_ne hd'.1 _ (by decide))] at hp
  have hm : signPart ('-' :: a :: i) = (true, a :: i) := rfl
  rw [hf, hm]
  dsimp only at hp ⊢
  obtain ⟨q, h1, h2⟩ := except_map_ok.1 hp
  rw [h1]
  have : q = (numeral 10 (a :: i) : ℚ) := by simpa using h2
  rw [this]
  rfl

theorem not_timestamp_digits {i : Text} (hd : i.all Char.isDigit = true) : isTimestamp i = false := by
  have hall : ∀ {t u : Text}, t.all Char.isDigit = true → twoDigits t = some u → u.all Char.isDigit = true := by
    intro t u ht hu
    unfold twoDigits at hu
    split at hu
    · simp only [List.all_cons, Bool.and_eq_true] at ht
      split at hu
      · cases hu; exact ht.2.2
      · cases hu
    · cases hu
  have hdrop : ∀ {t : Text}, t.all Char.isDigit = true → dropCh '-' t = none := by
    intro t ht
    cases t with
    | nil => rfl
    | cons a t =>
      simp only [List.all_cons, Bool.and_eq_true] at ht
      exact if_neg (isDigit_ne ht.1 _ (by decide))
  unfold isTimestamp
  have : (twoDigits i >>= twoDigits >>= dropCh '-') = none := by
    cases h1 : twoDigits i with
    | none => rfl
    | some u =>
      show (twoDigits u >>= dropCh '-') = none
      cases h2 : twoDigits u with
      | none => rfl
      | some w => exact hdrop (hall (hall hd h1) h2)
  rw [this]

/-- digits after a leading zero, one of them an eight or nine, are a text -/
theorem plainTag_zero {v : Text} (hd : v.all Char.isDigit = true)
    (h8 : v.all (fun c => decide ('0' ≤ c) && decide (c ≤ '7')) = false) : plainTag ('0' :: v) = .str := by
  have hd0 : ('0' :: v).all Char.isDigit = true := by rw [List.all_cons, hd]; decide
  have h1 : isFloatText ('0' :: v) = false := by
    have := not_float_nopoint (i := '0' :: v) (m := []) (by simp) hd0 (by simp)
    simpa using this
  have h2 : isIntText ('0' :: v) = false := by
    unfold isIntText dropSign
    rw [signPart_other (by decide) (by decide)]
    dsimp only
    rw [splitCh_none (isDigit_absent hd0 (by decide))]
    have hp : isPositive_ ('0' :: v) = false := by rw [isPositive_]; simp
    rw [hp, Bool.or_false, Bool.or_false]
    split
    · rename_i h; cases h; simp only [List.all_cons] at hd; exact absurd hd (by simp)
    · rename_i h; cases h; simp only [List.all_cons] at hd; exact absurd hd (by simp)
    · rename_i h; cases h
      rw [← Bool.not_eq_true, List.all_eq_true] at h8 ⊢
      intro hh
      apply h8
      intro c hc
      have := hh c hc
      have hu : (c == '_') = false := by
        have := isDigit_ne (List.all_eq_true.1 hd c hc) '_' (by decide)
        simpa using this
      rw [hu, Bool.or_false] at this
      exact this
    · rfl
  obtain ⟨w1, w2, w3, w4⟩ := not_words (t := v) isDigit_zero
  unfold plainTag
  rw [w1, h1, h2, w2, not_timestamp_digits hd0, if_neg (by simp), if_neg (by simp), if_neg (by simp), if_neg w3, if_neg (by simp),
      if_neg (by simp), if_neg w4]

end Verif
