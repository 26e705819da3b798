import Verif.Lemmas.Wrap
import Verif.Lemmas.Path
import Verif.Spec.Ck
/-!
# Lemmas about Chemkin output
-/
namespace Verif
open Spec

/-! ## Words of joined texts -/

theorem words_join {sep : Text} (hs : Blanks sep) : ∀ (ts : List Text), (∀ t ∈ ts, Word t) →
    words (joinText sep ts) = ts
  | [], _ => rfl
  | [t], h => words_word (h t (by simp))
  | t :: u :: ts, h => by
      have ih := words_join hs (u :: ts) fun x hx => h x (by simp [hx])
      have e : joinText sep (t :: u :: ts) = t ++ (sep ++ joinText sep (u :: ts)) := by
        simp [joinText]
      rw [e]
      have hne := hs.1
      have hb := hs.isBlank
      cases sep with
      | nil => exact absurd rfl hne
      | cons c sep =>
          rw [List.cons_append, words_cons_word (h t (by simp)) (hb c (by simp)),
            words_blanks sep _ fun x hx => hb x (by simp [hx]), ih]

theorem words_nl (t : Text) : words (t ++ ['\n']) = words t := by
  rw [words_blank t [] (c := '\n') rfl, words_nil, List.append_nil]

theorem words_slash (t : Text) : words (t ++ " /".toList) = words t ++ ["/".toList] := by
  have : t ++ " /".toList = t ++ ' ' :: "/".toList := rfl
  rw [this, words_blank t _ rfl]
  rfl

theorem rateText_words (wa wb we : Text) (ha : Word wa) (hb : Word wb) (he : Word we) :
    words (joinText sep2 [wa, wb, we]) = [wa, wb, we] :=
  words_join sep2_blanks _ (by
    intro t ht
    simp only [List.mem_cons, List.not_mem_nil, or_false] at ht
    rcases ht with rfl | rfl | rfl <;> assumption)

/-- what `build_arrhenius` writes, read back -/
theorem rate_fix (A b E : ℚ) :
    RateWords (words (joinText sep2 [fmtExp 4 A, fmtFix 3 b, fmtFix 2 E])) A b E (1 / 200) := by
  rw [rateText_words _ _ _ (fmtExp_word _ _) (fmtFix_word _ _) (fmtFix_word _ _)]
  refine ⟨_, _, _, rfl, ?_, ?_, ?_⟩
  · have := fmtExp_reads 4 A
    norm_num at this ⊢
    exact this
  · have := fmtFix_reads 3 b
    norm_num at this ⊢
    exact this
  · have := fmtFix_reads 2 E
    norm_num at this ⊢
    exact this

/-- what `build_falloff_arrhenius` writes, read back -/
theorem rate_exp (A b E : ℚ) :
    RateWords (words (joinText sep2 [fmtExp 4 A, fmtFix 3 b, fmtExp 3 E])) A b E (|E| / 2000) := by
  rw [rateText_words _ _ _ (fmtExp_word _ _) (fmtFix_word _ _) (fmtExp_word _ _)]
  refine ⟨_, _, _, rfl, ?_, ?_, ?_⟩
  · have := fmtExp_reads 4 A
    norm_num at this ⊢
    exact this
  · have := fmtFix_reads 3 b
    norm_num at this ⊢
    exact this
  · have := fmtExp_reads 3 E
    norm_num at this ⊢
    exact this

theorem join3_nonl (a b c : Text) (ha : Word a) (hb : Word b) (hc : Word c) :
    '\n' ∉ joinText sep2 [a, b, c] := by
  have w : ∀ {t : Text}, Word t → '\n' ∉ t := fun h hm => by
    have := h.2 _ hm
    simp [isBlank] at this
  intro h
  simp only [joinText, List.mem_append] at h
  rcases h with (h | h) | (h | h) | h
  · exact w ha h
  · exact absurd h (by decide)
  · exact w hb h
  · exact absurd h (by decide)
  · exact w hc h

theorem Spec.Word.nonl {t : Text} (h : Word t) : '\n' ∉ t := fun hm => by
  have := h.2 _ hm
  simp [isBlank] at this

/-! ## Lines ending in newlines -/

/-- a text of complete lines -/
def unlinesText (ls : List Text) : Text := (ls.map fun l => l ++ "\n".toList).flatten

theorem unlines_cons (l : Text) (ls : List Text) :
    unlinesText (l :: ls) = l ++ '\n' :: unlinesText ls := by
  simp [unlinesText]

theorem unlines_append (a b : List Text) : unlinesText (a ++ b) = unlinesText a ++ unlinesText b := by
  simp [unlinesText]

theorem lines_unlines : ∀ (ls : List Text) (rest : Text), (∀ l ∈ ls, '\n' ∉ l) →
    lines (unlinesText ls ++ rest) = ls ++ lines rest
  | [], _, _ => rfl
  | l :: ls, rest, h => by
      rw [unlines_cons, List.append_assoc, List.cons_append, lines_nl (h l (by simp)),
        lines_unlines ls rest fun x hx => h x (by simp [hx])]
      rfl

/-! ## Columns -/

theorem cols_here {w : Nat} {t rest : Text} (h : t.length = w) : cols (t ++ rest) 0 w = t := by
  simp [cols, ← h]

theorem cols_skip {w i n : Nat} {t rest : Text} (h : t.length = w) :
    cols (t ++ rest) (w + i) n = cols rest i n := by
  unfold cols
  rw [← h, List.drop_append, List.drop_eq_nil_of_le (Nat.le_add_right _ _)]
  simp

theorem flatten_length {w : Nat} : ∀ (ts : List Text), (∀ t ∈ ts, t.length = w) →
    ts.flatten.length = w * ts.length
  | [], _ => by simp
  | t :: ts, h => by
      rw [List.flatten_cons, List.length_append, h t (by simp),
        flatten_length ts fun x hx => h x (by simp [hx]), List.length_cons]
      ring

theorem cols_flatten {w : Nat} : ∀ (ts : List Text) (rest : Text) (i : Nat) (hi : i < ts.length),
    (∀ t ∈ ts, t.length = w) → cols (ts.flatten ++ rest) (w * i) w = ts[i]
  | t :: ts, rest, 0, _, h => by
      rw [List.flatten_cons, List.append_assoc, Nat.mul_zero]
      exact cols_here (h t (by simp))
  | t :: ts, rest, i + 1, hi, h => by
      rw [List.flatten_cons, List.append_assoc, show w * (i + 1) = w + w * i by ring,
        cols_skip (h t (by simp))]
      exact cols_flatten ts rest i (by simpa using hi) fun x hx => h x (by simp [hx])

theorem coeffText_length {c : ℚ} (h : ExpRange c) : (coeffText c).length = 15 :=
  padLeft_length (fmtExp_length (d := 8) h)

theorem coeffText_reads (c : ℚ) : FieldReads (coeffText c) c (|c| / 200000000) := by
  have := field_exp 15 8 c
  norm_num at this ⊢
  exact this

theorem padLeft_nonl {w : Nat} {t : Text} (h : '\n' ∉ t) : '\n' ∉ padLeft w t := by
  intro hm
  rcases List.mem_append.1 hm with hm | hm
  · exact absurd (List.eq_of_mem_replicate hm) (by decide)
  · exact h hm

theorem padRight_nonl {w : Nat} {t : Text} (h : '\n' ∉ t) : '\n' ∉ padRight w t := by
  intro hm
  rcases List.mem_append.1 hm with hm | hm
  · exact h hm
  · exact absurd (List.eq_of_mem_replicate hm) (by decide)

theorem replicate_nonl (n : Nat) : '\n' ∉ List.replicate n ' ' := fun hm =>
  absurd (List.eq_of_mem_replicate hm) (by decide)

theorem append_nonl {a b : Text} (ha : '\n' ∉ a) (hb : '\n' ∉ b) : '\n' ∉ a ++ b := fun hm =>
  (List.mem_append.1 hm).elim ha hb

theorem coeffs_nonl (cs : List ℚ) : '\n' ∉ (cs.map coeffText).flatten := by
  intro hm
  obtain ⟨t, ht, hn⟩ := List.mem_flatten.1 hm
  obtain ⟨c, -, rfl⟩ := List.mem_map.1 ht
  exact padLeft_nonl (fmtExp_word 8 c).nonl hn

theorem natText_word (n : Nat) : Word (natText n) :=
  ⟨natText_ne n, fun c hc => isDig_blank (natText_dig n c hc)⟩

theorem intText_word (i : Int) : Word (intText i) := by
  unfold intText
  split
  · refine ⟨by simp, fun c hc => ?_⟩
    rcases List.mem_cons.1 hc with rfl | hc
    · decide
    · exact (natText_word _).2 c hc
  · exact natText_word _

/-- an integer reads back exactly -/
theorem readNum_intText (i : Int) : readNum (intText i) = some (i : ℚ) := by
  have key : ∀ n : Nat, readAbs (natText n) = some (n : ℚ) := by
    intro n
    have hd := natText_dig n
    have h1 : (natText n).takeWhile (· != 'e') = natText n := by
      have := takeWhile_stop (p := fun c => c != 'e') (l := natText n) (k := [])
        (fun c hc => by simpa using (hd c hc).ne digitVal_e) (by simp)
      simpa using this
    have h2 : (natText n).takeWhile (· != '.') = natText n := by
      have := takeWhile_stop (p := fun c => c != '.') (l := natText n) (k := [])
        (fun c hc => by simpa using (hd c hc).ne digitVal_dot) (by simp)
      simpa using this
    have h3 : (natText n).dropWhile (· != '.') = [] := by
      have := dropWhile_stop (p := fun c => c != '.') (l := natText n) (k := [])
        (fun c hc => by simpa using (hd c hc).ne digitVal_dot) (by simp)
      simpa using this
    have h4 : (natText n).dropWhile (· != 'e') = [] := by
      have := dropWhile_stop (p := fun c => c != 'e') (l := natText n) (k := [])
        (fun c hc => by simpa using (hd c hc).ne digitVal_e) (by simp)
      simpa using this
    have hr := readDigits_nat n 0
    unfold readAbs
    simp only [h1, h2, h3, h4, List.drop_nil, List.append_nil]
    rw [if_neg (natText_ne n), hr]
    simp [readExp]
  unfold intText
  have hhead : ∀ n : Nat, ∃ c r, natText n = c :: r ∧ IsDig c := by
    intro n
    cases h : natText n with
    | nil => exact absurd h (natText_ne n)
    | cons c r => exact ⟨c, r, rfl, natText_dig n c (by simp [h])⟩
  split
  · rename_i h
    show (readAbs (natText i.natAbs)).map (fun q => -q) = _
    rw [key]
    simp only [Option.map_some, Option.some.injEq]
    have : (i.natAbs : ℤ) = -i := by omega
    have h2 : ((i.natAbs : ℤ) : ℚ) = ((-i : ℤ) : ℚ) := by rw [this]
    push_cast at h2
    rw [show ((i.natAbs : ℕ) : ℚ) = -(i : ℚ) by simpa using h2]
    ring
  · rename_i h
    obtain ⟨c, r, h1, h2⟩ := hhead i.natAbs
    have := key i.natAbs
    rw [h1] at this ⊢
    rw [readNum_digits h2, this]
    have h3 : (i.natAbs : ℤ) = i := by omega
    have h4 : ((i.natAbs : ℤ) : ℚ) = (i : ℚ) := by rw [h3]
    rw [Option.some.injEq]
    simpa using h4

theorem intText_length {i : Int} (h1 : -100 < i) (h2 : i < 1000) : (intText i).length ≤ 3 := by
  unfold intText
  split
  · rw [List.length_cons, natText_length]
    have := numDigits_le (n := i.natAbs) (k := 2) (by norm_num) (by norm_num; omega)
    omega
  · rw [natText_length]
    exact numDigits_le (n := i.natAbs) (k := 3) (by norm_num) (by norm_num; omega)

theorem compText_length {kv : Text × ℚ} (h : kv.1.length ≤ 2) (h1 : -100 < truncQ kv.2)
    (h2 : truncQ kv.2 < 1000) : (compText kv).length = 5 := by
  unfold compText
  rw [List.length_append, padRight_length h, padLeft_length (intText_length h1 h2)]

theorem intText_head (i : Int) : ∃ c r, intText i = c :: r ∧ c ≠ ' ' := by
  have h := intText_word i
  cases h1 : intText i with
  | nil => exact absurd h1 h.1
  | cons c r =>
      refine ⟨c, r, rfl, ?_⟩
      rintro rfl
      have := h.2 ' ' (by simp [h1])
      simp [isBlank] at this

theorem truncQ_int (v : Int) : truncQ (v : ℚ) = v := by
  unfold truncQ
  split
  · rw [← Int.cast_neg, Int.floor_intCast]; simp
  · exact Int.floor_intCast v

theorem field_int (w : Nat) (i : Int) : readField (padLeft w (intText i)) = some (i : ℚ) := by
  rw [readField, dropWhile_padLeft w (intText_head i), readNum_intText]

/-! ## Writing entry by entry -/

theorem writeAll_ok {α : Type} {f : α → Except Err Text} : ∀ {xs : List α} {t : Text},
    writeAll f xs = (t, none) → ∃ ts, List.Forall₂ (fun x u => f x = .ok u) xs ts ∧ t = ts.flatten
  | [], t, h => by
      simp only [writeAll, Prod.mk.injEq] at h
      exact ⟨[], .nil, h.1.symm⟩
  | x :: xs, t, h => by
      rw [writeAll] at h
      split at h
      · simp at h
      · rename_i u hu
        simp only [Prod.mk.injEq] at h
        obtain ⟨ts, h1, h2⟩ := writeAll_ok (xs := xs) (t := (writeAll f xs).1) (by
          rw [← h.2])
        exact ⟨u :: ts, .cons hu h1, by rw [← h.1, h2]; rfl⟩

theorem writeAll_error {α : Type} {f : α → Except Err Text} : ∀ {xs : List α} {t : Text} {e : Err},
    writeAll f xs = (t, some e) → ∃ pre x post ts, xs = pre ++ x :: post ∧ f x = .error e ∧
      List.Forall₂ (fun x u => f x = .ok u) pre ts ∧ t = ts.flatten
  | [], t, e, h => by simp [writeAll] at h
  | x :: xs, t, e, h => by
      rw [writeAll] at h
      split at h
      · rename_i e' he'
        simp only [Prod.mk.injEq, Option.some.injEq] at h
        exact ⟨[], x, xs, [], rfl, by rw [he', h.2], .nil, h.1.symm⟩
      · rename_i u hu
        simp only [Prod.mk.injEq] at h
        obtain ⟨pre, y, post, ts, h1, h2, h3, h4⟩ := writeAll_error (xs := xs)
          (t := (writeAll f xs).1) (e := e) (by rw [← h.2])
        exact ⟨x :: pre, y, post, u :: ts, by rw [h1]; rfl, h2, .cons hu h3, by rw [← h.1, h4]; rfl⟩

theorem writeAll_of {α : Type} {f : α → Except Err Text} {xs : List α} {ts : List Text}
    (h : List.Forall₂ (fun x u => f x = .ok u) xs ts) : writeAll f xs = (ts.flatten, none) := by
  induction h with
  | nil => rfl
  | cons h1 _ ih => rw [writeAll, h1]; simp only [ih]; rfl

/-! ## The rate builders, case by case -/

theorem arrhenius_plain (k : ArrRate ℚ) (n : Int) {rtype : Text}
    (h : rtype = "Arrhenius".toList ∨ rtype = "pressure-dependent-Arrhenius".toList) :
    buildArrhenius k n rtype =
      .ok (joinText sep2 [fmtExp 4 (k.A * 1000 ^ (n - 1)), fmtFix 3 k.b, fmtFix 2 (k.E / 4184)]) := by
  unfold buildArrhenius
  rw [if_pos h]
  rfl

theorem arrhenius_three (k : ArrRate ℚ) (n : Int) :
    buildArrhenius k n "three-body-Arrhenius".toList =
      .ok (joinText sep2 [fmtExp 4 (k.A * 1000 ^ n), fmtFix 3 k.b, fmtFix 2 (k.E / 4184)]) := by
  unfold buildArrhenius
  rw [if_neg (by decide), if_pos rfl]
  rfl

theorem falloff_prefix (sub : Text) :
    "falloff-".toList.isPrefixOf ("falloff-".toList ++ sub) = true := by
  rw [List.isPrefixOf_iff_prefix]; exact List.prefix_append _ _

theorem chem_prefix (sub : Text) :
    "chemically-activated".toList.isPrefixOf ("chemically-activated".toList ++ sub) = true := by
  rw [List.isPrefixOf_iff_prefix]; exact List.prefix_append _ _

theorem chem_not_falloff (sub : Text) :
    ¬ "falloff-".toList.isPrefixOf ("chemically-activated".toList ++ sub) = true := by
  simp

theorem falloff_rate (k : ArrRate ℚ) (n : Int) (sub : Text) (low : Bool) :
    buildFalloffArrhenius k n ("falloff-".toList ++ sub) (if low then "low" else "high").toList =
      .ok (joinText sep2 [fmtExp 4 (k.A * 1000 ^ (if low then n else n - 1)), fmtFix 3 k.b,
        fmtExp 3 (k.E / 4184)]) := by
  unfold buildFalloffArrhenius
  cases low
  · rw [if_neg (by decide), if_pos (falloff_prefix sub)]
    rfl
  · rw [if_neg (by decide), if_pos (falloff_prefix sub)]
    rfl

theorem chem_rate (k : ArrRate ℚ) (n : Int) (sub : Text) (low : Bool) :
    buildFalloffArrhenius k n ("chemically-activated".toList ++ sub)
        (if low then "low" else "high").toList =
      .ok (joinText sep2 [fmtExp 4 (k.A * 1000 ^ (if low then n - 1 else n - 2)), fmtFix 3 k.b,
        fmtExp 3 (k.E / 4184)]) := by
  unfold buildFalloffArrhenius
  cases low
  · rw [if_neg (by decide), if_neg (chem_not_falloff sub), if_pos (chem_prefix sub)]
    rfl
  · rw [if_neg (by decide), if_neg (chem_not_falloff sub), if_pos (chem_prefix sub)]
    rfl

/-! ## The four lines of a thermo entry -/

def thermoLine1 (s : Spec1 ℚ) (tmid : ℚ) : Text :=
  padRight 18 s.name ++ (List.replicate 6 ' ' ++ (padRight 20 (s.comp.map compText).flatten ++
    ("G".toList ++ (padLeft 10 (fmtFix 3 s.tmin) ++ (padLeft 10 (fmtFix 3 s.tmax) ++
      (padLeft 8 (fmtFix 2 tmid) ++ (List.replicate 6 ' ' ++ ['1'])))))))

theorem thermoEntry_lines {s : Spec1 ℚ} {tmid : ℚ} {cs : List ℚ} (hcs : s.coeffs = tmid :: cs) :
    thermoEntry s = .ok (unlinesText [thermoLine1 s tmid,
      ((cs.take 5).map coeffText).flatten ++ "    2".toList,
      (((cs.drop 5).take 5).map coeffText).flatten ++ "    3".toList,
      (((cs.drop 10).take 4).map coeffText).flatten ++ (List.replicate 19 ' ' ++ "4".toList)]) := by
  have hd3 : ((cs.drop 5).take 5) = ((cs.drop 5).take 2) ++ ((cs.drop 7).take 3) := by
    rw [show (5 : Nat) = 2 + 3 from rfl, List.take_add, List.drop_drop]
  unfold thermoEntry thermoLine1
  rw [hcs]
  simp only [List.drop_succ_cons, List.drop_zero]
  congr 1
  rw [hd3]
  simp only [unlines_cons, List.append_assoc, List.map_append, List.flatten_append]
  rfl

theorem thermoLine1_nonl {s : Spec1 ℚ} (tmid : ℚ) (hnl : '\n' ∉ s.name)
    (hcomp : ∀ kv ∈ s.comp, '\n' ∉ kv.1) : '\n' ∉ thermoLine1 s tmid := by
  have hcompnl : '\n' ∉ (s.comp.map compText).flatten := by
    intro hm
    obtain ⟨t, ht, hn⟩ := List.mem_flatten.1 hm
    obtain ⟨kv, hkv, rfl⟩ := List.mem_map.1 ht
    rcases List.mem_append.1 hn with hn | hn
    · exact padRight_nonl (hcomp kv hkv) hn
    · exact padLeft_nonl (intText_word _).nonl hn
  exact append_nonl (padRight_nonl hnl) (append_nonl (replicate_nonl 6) (append_nonl
    (padRight_nonl hcompnl) (append_nonl (by decide) (append_nonl (padLeft_nonl (fmtFix_word _ _).nonl)
    (append_nonl (padLeft_nonl (fmtFix_word _ _).nonl) (append_nonl
    (padLeft_nonl (fmtFix_word _ _).nonl) (append_nonl (replicate_nonl 6) (by decide))))))))

theorem coeffLine {l cs : List ℚ} (hfit : ∀ c ∈ cs, ExpRange c) (hl : ∀ c ∈ l, c ∈ cs)
    (rest : Text) : (∀ t ∈ l.map coeffText, t.length = 15) ∧
    ((l.map coeffText).flatten ++ rest).length = 15 * l.length + rest.length ∧
    ∀ i j (_ : i < l.length) (hj : j < cs.length), l[i]? = cs[j]? →
      FieldReads (cols ((l.map coeffText).flatten ++ rest) (15 * i) 15) cs[j]
        (|cs[j]| / 200000000) := by
  have h15 : ∀ t ∈ l.map coeffText, t.length = 15 := by
    intro t ht
    obtain ⟨c, hc, rfl⟩ := List.mem_map.1 ht
    exact coeffText_length (hfit c (hl c hc))
  refine ⟨h15, ?_, fun i j hi hj he => ?_⟩
  · rw [List.length_append, flatten_length _ h15, List.length_map]
  · rw [List.getElem?_eq_getElem hi, List.getElem?_eq_getElem hj, Option.some.injEq] at he
    rw [cols_flatten (l.map coeffText) rest i (by simpa using hi) h15, List.getElem_map, he]
    exact coeffText_reads _

end Verif
