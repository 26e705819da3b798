import Mathlib.Tactic.IntervalCases
import Mathlib.Tactic.FieldSimp
import Verif.Lemmas.Num
import Verif.Lemmas.Path
import Verif.Model.Format
import Verif.Spec.Format
/-!
# Lemmas about formatting numbers
-/
namespace Verif
open Spec

/-! ## Digits -/

theorem digitVal_digitCh {d : Nat} (h : d < 10) : digitVal (digitCh d) = some d := by
  interval_cases d <;> decide

/-- a digit character -/
def IsDig (c : Char) : Prop := (digitVal c).isSome

theorem isDig_digitCh {d : Nat} (h : d < 10) : IsDig (digitCh d) := by
  rw [IsDig, digitVal_digitCh h]; rfl

theorem IsDig.ne {c e : Char} (h : IsDig c) (he : digitVal e = none) : c ≠ e := by
  rintro rfl
  rw [IsDig, he] at h
  cases h

theorem padDigits_dig : ∀ (k n : Nat), ∀ c ∈ padDigits k n, IsDig c
  | 0, _, _, hc => absurd hc (by simp [padDigits])
  | k + 1, n, c, hc => by
      rw [padDigits] at hc
      rcases List.mem_append.1 hc with h | h
      · exact padDigits_dig k _ c h
      · obtain rfl := List.mem_singleton.1 h
        exact isDig_digitCh (Nat.mod_lt _ (by norm_num))

theorem padDigits_length : ∀ (k n : Nat), (padDigits k n).length = k
  | 0, _ => rfl
  | k + 1, n => by simp [padDigits, padDigits_length k]

theorem readDigits_append : ∀ (t u : Text) (acc : Nat),
    readDigits acc (t ++ u) = (readDigits acc t).bind fun n => readDigits n u
  | [], _, _ => rfl
  | c :: t, u, acc => by
      simp only [List.cons_append, readDigits]
      cases digitVal c with
      | none => rfl
      | some d => exact readDigits_append t u _

theorem readDigits_pad : ∀ (k n acc : Nat),
    readDigits acc (padDigits k n) = some (acc * 10 ^ k + n % 10 ^ k)
  | 0, n, acc => by simp [padDigits, readDigits, Nat.mod_one]
  | k + 1, n, acc => by
      rw [padDigits, readDigits_append, readDigits_pad k]
      have h10 : n % 10 < 10 := Nat.mod_lt _ (by norm_num)
      simp only [Option.bind_some, readDigits, digitVal_digitCh h10]
      congr 1
      have h : n % 10 ^ (k + 1) = n % 10 + 10 * (n / 10 % 10 ^ k) := by
        rw [pow_succ', Nat.mod_mul]
      rw [h]
      ring

theorem numDigits_lt (n : Nat) : n < 10 ^ numDigits n := by
  exact Nat.lt_pow_succ_log_self (by norm_num) n

theorem natText_dig (n : Nat) : ∀ c ∈ natText n, IsDig c := padDigits_dig _ _

theorem natText_ne (n : Nat) : natText n ≠ [] := by
  intro h
  have := congrArg List.length h
  rw [natText, padDigits_length] at this
  simp [numDigits] at this

theorem natText_length (n : Nat) : (natText n).length = numDigits n := padDigits_length _ _

theorem numDigits_le {n k : Nat} (hk : 0 < k) (h : n < 10 ^ k) : numDigits n ≤ k := by
  unfold numDigits
  rcases Nat.eq_zero_or_pos n with rfl | hn
  · simpa using Nat.succ_le_of_lt hk
  · exact Nat.log_lt_of_lt_pow hn.ne' h

theorem readDigits_nat (n acc : Nat) :
    readDigits acc (natText n) = some (acc * 10 ^ numDigits n + n) := by
  rw [natText, readDigits_pad, Nat.mod_eq_of_lt (numDigits_lt n)]

theorem digitVal_e : digitVal 'e' = none := by decide
theorem digitVal_dot : digitVal '.' = none := by decide
theorem digitVal_minus : digitVal '-' = none := by decide
theorem digitVal_space : digitVal ' ' = none := by decide
theorem digitVal_nl : digitVal '\n' = none := by decide
theorem digitVal_slash : digitVal '/' = none := by decide

/-! ## Reading what was written -/

theorem readExp_pos (ds : Text) : readExp ('e' :: '+' :: ds) =
    if ds = [] then none else (readDigits 0 ds).map fun n : Nat => (n : Int) := by
  simp [readExp]

theorem readExp_neg (ds : Text) : readExp ('e' :: '-' :: ds) =
    if ds = [] then none else (readDigits 0 ds).map fun n : Nat => -(n : Int) := by
  simp [readExp]

theorem readExp_expText (e : Int) : readExp ('e' :: expText e) = some e := by
  have key : ∀ n : Nat, readDigits 0 (if n < 100 then padDigits 2 n else natText n) = some n := by
    intro n
    split
    · rename_i h
      rw [readDigits_pad, Nat.mod_eq_of_lt (by simpa using h)]
      simp
    · rw [readDigits_nat]; simp
  have hne : ∀ n : Nat, (if n < 100 then padDigits 2 n else natText n) ≠ [] := by
    intro n
    split
    · intro h
      have := congrArg List.length h
      rw [padDigits_length] at this
      simp at this
    · exact natText_ne n
  unfold expText
  by_cases h : e < 0
  · rw [if_pos h]
    rw [readExp_neg, if_neg (hne e.natAbs), key]
    simp only [Option.map_some, Option.some.injEq]
    omega
  · rw [if_neg h]
    rw [readExp_pos, if_neg (hne e.natAbs), key]
    simp only [Option.map_some, Option.some.injEq]
    omega

theorem readAbs_plain {ip fp : Text} (h1 : ip ≠ []) (h2 : ∀ c ∈ ip, IsDig c)
    (h3 : ∀ c ∈ fp, IsDig c) {ex : Text} (hex : ex = [] ∨ ∃ r, ex = 'e' :: r) :
    readAbs (ip ++ '.' :: fp ++ ex) = (readDigits 0 (ip ++ fp)).bind fun n =>
      (readExp ex).map fun e : Int => (n : ℚ) * 10 ^ (e - (fp.length : Int)) := by
  have hmant : ∀ c ∈ ip ++ '.' :: fp, (c != 'e') = true := by
    intro c hc
    rcases List.mem_append.1 hc with h | h
    · simpa using (h2 c h).ne digitVal_e
    · rcases List.mem_cons.1 h with h | h
      · subst h; decide
      · simpa using (h3 c h).ne digitVal_e
  have hstop : ∀ c, ex.head? = some c → (c != 'e') = false := by
    intro c hc
    rcases hex with rfl | ⟨r, rfl⟩
    · cases hc
    · simp only [List.head?_cons, Option.some.injEq] at hc
      simp [← hc]
  have hip : ∀ c ∈ ip, (c != '.') = true := fun c hc => by
    simpa using (h2 c hc).ne digitVal_dot
  have hdot : ∀ c, ('.' :: fp).head? = some c → (c != '.') = false := by
    intro c hc
    simp only [List.head?_cons, Option.some.injEq] at hc
    simp [← hc]
  unfold readAbs
  simp only
  rw [takeWhile_stop hmant hstop, dropWhile_stop hmant hstop, takeWhile_stop hip hdot,
    dropWhile_stop hip hdot]
  rw [if_neg h1]
  rfl

theorem readNum_digits {c : Char} {t : Text} (h : IsDig c) : readNum (c :: t) = readAbs (c :: t) := by
  have : c ≠ '-' := h.ne digitVal_minus
  unfold readNum
  split
  · rename_i heq
    exact absurd (List.cons.inj heq).1 this
  · rfl

theorem readNum_sign {t : Text} (q : ℚ) (h : ∃ c r, t = c :: r ∧ IsDig c) {v : ℚ}
    (hv : readAbs t = some v) :
    readNum (signText q ++ t) = some (if q < 0 then -v else v) := by
  obtain ⟨c, r, rfl, hc⟩ := h
  unfold signText
  split
  · show (readAbs (c :: r)).map (fun q => -q) = _
    rw [hv]; rfl
  · rw [List.nil_append, readNum_digits hc, hv]

theorem roundQ_close {q : ℚ} (h : 0 ≤ q) : |(roundQ q : ℚ) - q| ≤ 1 / 2 := by
  have := roundHalfEven_close q.num.natAbs q.den q.pos
  rwa [natAbs_div h] at this

theorem abs_sign_sub (q v : ℚ) : |(if q < 0 then -v else v) - q| = |v - (|q|)| := by
  by_cases h : q < 0
  · rw [if_pos h, abs_of_neg h, ← abs_neg]
    congr 1
    ring
  · rw [if_neg h, abs_of_nonneg (not_lt.1 h)]

/-- The value a number written with `.df` reads back as. -/
theorem fmtFix_value (d : Nat) (q : ℚ) : readNum (fmtFix d q) =
    some (if q < 0 then -((roundQ (|q| * 10 ^ d) : ℚ) / 10 ^ d) else (roundQ (|q| * 10 ^ d) : ℚ) / 10 ^ d) := by
  set m := roundQ (|q| * 10 ^ d) with hm
  have hval : readAbs (natText (m / 10 ^ d) ++ '.' :: padDigits d (m % 10 ^ d)) =
      some ((m : ℚ) / 10 ^ d) := by
    have h := readAbs_plain (natText_ne (m / 10 ^ d)) (natText_dig (m / 10 ^ d))
      (padDigits_dig d (m % 10 ^ d)) (ex := []) (Or.inl rfl)
    rw [List.append_nil] at h
    rw [h, readDigits_append, readDigits_nat]
    simp only [Option.bind_some, zero_mul, zero_add]
    rw [readDigits_pad]
    simp only [Option.bind_some, readExp, Option.map_some, Option.some.injEq, padDigits_length,
      Nat.mod_mod, zero_sub, zpow_neg, zpow_natCast]
    have : m / 10 ^ d * 10 ^ d + m % 10 ^ d = m := by
      rw [mul_comm]; exact Nat.div_add_mod m (10 ^ d)
    rw [this]
    rfl
  unfold fmtFix
  simp only [← hm]
  rw [List.append_assoc]
  refine readNum_sign q ?_ hval
  have hne := natText_ne (m / 10 ^ d)
  have hd := natText_dig (m / 10 ^ d)
  cases hnt : natText (m / 10 ^ d) with
  | nil => exact absurd hnt hne
  | cons c r =>
      rw [hnt] at hd
      exact ⟨c, _, rfl, hd c (by simp)⟩

/-- A number written with `.df` reads back within half a unit of the last place. -/
theorem fmtFix_reads (d : Nat) (q : ℚ) : Reads (fmtFix d q) q (1 / 2 / 10 ^ d) := by
  refine ⟨_, fmtFix_value d q, ?_⟩
  rw [abs_sign_sub]
  have h10 : (0 : ℚ) < 10 ^ d := by positivity
  have h := roundQ_close (q := |q| * 10 ^ d) (by positivity)
  set m := roundQ (|q| * 10 ^ d)
  have e : (m : ℚ) / 10 ^ d - |q| = ((m : ℚ) - |q| * 10 ^ d) / 10 ^ d := by field_simp
  rw [e, abs_div, abs_of_pos h10]
  exact div_le_div_of_nonneg_right h h10.le

/-- A number with at most `d` decimals reads back exactly. -/
theorem fmtFix_exact (d : Nat) (k : Int) : readNum (fmtFix d ((k : ℚ) / 10 ^ d)) = some ((k : ℚ) / 10 ^ d) := by
  have h10 : (0 : ℚ) < 10 ^ d := by positivity
  have hq : |(k : ℚ) / 10 ^ d| * 10 ^ d = (k.natAbs : ℚ) := by
    rw [abs_div, abs_of_pos h10, div_mul_cancel₀ _ h10.ne', Nat.cast_natAbs, Int.cast_abs]
  have hm : roundQ (|(k : ℚ) / 10 ^ d| * 10 ^ d) = k.natAbs := by
    have h := roundQ_close (q := |(k : ℚ) / 10 ^ d| * 10 ^ d) (by positivity)
    rw [hq] at h ⊢
    have h2 : |((roundQ (k.natAbs : ℚ) : Int) - (k.natAbs : Int) : Int)| < 1 := by
      have h3 : |((((roundQ (k.natAbs : ℚ) : Int) - (k.natAbs : Int) : Int)) : ℚ)| < 1 := by
        push_cast
        refine lt_of_le_of_lt ?_ (by norm_num : (1 / 2 : ℚ) < 1)
        simpa using h
      exact_mod_cast h3
    have := Int.abs_lt_one_iff.1 h2
    omega
  rw [fmtFix_value, hm]
  congr 1
  rcases lt_or_ge k 0 with hk | hk
  · have h0 : (k : ℚ) / 10 ^ d < 0 := div_neg_of_neg_of_pos (by exact_mod_cast hk) h10
    rw [if_pos h0, Nat.cast_natAbs, abs_of_neg hk]
    push_cast
    ring
  · have h0 : ¬ (k : ℚ) / 10 ^ d < 0 := not_lt.2 (div_nonneg (by exact_mod_cast hk) h10.le)
    rw [if_neg h0, Nat.cast_natAbs, abs_of_nonneg hk]

theorem sciParts_spec (d : Nat) {q : ℚ} (hq : q ≠ 0) :
    let p := sciParts d q
    10 ^ d ≤ p.1 ∧ p.1 < 10 ^ (d + 1) ∧
    |(p.1 : ℚ) * 10 ^ (p.2 - d) - (|q|)| ≤ |q| / (2 * 10 ^ d) ∧
    (p.2 = Int.log 10 |q| ∨ p.2 = Int.log 10 |q| + 1) := by
  have hpos : 0 < |q| := abs_pos.2 hq
  set e := Int.log 10 |q| with he
  have l1 : (10 : ℚ) ^ e ≤ |q| := by
    have := Int.zpow_log_le_self (b := 10) (by norm_num) hpos
    exact_mod_cast this
  have l2 : |q| < (10 : ℚ) ^ (e + 1) := by
    have := Int.lt_zpow_succ_log_self (b := 10) (by norm_num) |q|
    exact_mod_cast this
  have pe : (0 : ℚ) < 10 ^ (e - d) := by positivity
  have hsplit : (10 : ℚ) ^ e = 10 ^ (e - d) * 10 ^ d := by
    rw [← zpow_natCast, ← zpow_add₀ (by norm_num)]; congr 1; ring
  have hsplit1 : (10 : ℚ) ^ (e + 1) = 10 ^ (e - d) * 10 ^ (d + 1) := by
    rw [← zpow_natCast, ← zpow_add₀ (by norm_num)]; congr 1; push_cast; ring
  set x := |q| / 10 ^ (e - d) with hx
  have x1 : (10 : ℚ) ^ d ≤ x := by
    rw [hx, le_div_iff₀ pe, mul_comm, ← hsplit]; exact l1
  have x2 : x < (10 : ℚ) ^ (d + 1) := by
    rw [hx, div_lt_iff₀ pe, mul_comm, ← hsplit1]; exact l2
  have hc := roundQ_close (q := x) (by positivity)
  set m := roundQ x with hm
  rw [abs_le] at hc
  have m1 : 10 ^ d ≤ m := by
    by_contra h
    have h' : m + 1 ≤ 10 ^ d := by omega
    have h'' : (m : ℚ) + 1 ≤ 10 ^ d := by exact_mod_cast h'
    linarith [hc.1]
  have m2 : m ≤ 10 ^ (d + 1) := by
    by_contra h
    have h' : 10 ^ (d + 1) + 1 ≤ m := by omega
    have h'' : (10 : ℚ) ^ (d + 1) + 1 ≤ m := by exact_mod_cast h'
    linarith [hc.2]
  have hq' : |q| = x * 10 ^ (e - d) := by rw [hx]; field_simp
  have hclose : |(m : ℚ) * 10 ^ (e - d) - (|q|)| ≤ |q| / (2 * 10 ^ d) := by
    rw [hq', ← sub_mul, abs_mul, abs_of_pos pe]
    have h1 : |(m : ℚ) - x| ≤ 1 / 2 := abs_le.2 hc
    have h2 : (1 : ℚ) / 2 ≤ x / (2 * 10 ^ d) := by
      rw [div_le_div_iff₀ (by norm_num) (by positivity)]
      linarith
    calc |(m : ℚ) - x| * 10 ^ (e - d) ≤ x / (2 * 10 ^ d) * 10 ^ (e - d) :=
          mul_le_mul_of_nonneg_right (h1.trans h2) pe.le
      _ = x * 10 ^ (e - d) / (2 * 10 ^ d) := by ring
  intro p
  have hp : p = if m = 10 ^ (d + 1) then (10 ^ d, e + 1) else (m, e) := by
    show sciParts d q = _
    unfold sciParts
    rw [if_neg hq]
  by_cases h : m = 10 ^ (d + 1)
  · rw [if_pos h] at hp
    rw [hp]
    refine ⟨le_rfl, Nat.pow_lt_pow_right (by norm_num) (by omega), ?_, Or.inr rfl⟩
    have : ((10 ^ d : ℕ) : ℚ) * 10 ^ (e + 1 - d) = (m : ℚ) * 10 ^ (e - d) := by
      rw [h]
      push_cast
      rw [show e + 1 - (d : ℤ) = (e - d) + 1 by ring, zpow_add₀ (by norm_num)]
      ring
    simp only
    rw [this]
    exact hclose
  · rw [if_neg h] at hp
    rw [hp]
    exact ⟨m1, by omega, hclose, Or.inl rfl⟩

/-- A number written with `.de` reads back with a relative error of at most half a unit of the
last place. -/
theorem fmtExp_reads (d : Nat) (q : ℚ) : Reads (fmtExp d q) q (|q| / (2 * 10 ^ d)) := by
  set p := sciParts d q with hp
  have hlt : p.1 < 10 ^ (d + 1) := by
    by_cases hq : q = 0
    · rw [hp]; simp [sciParts, hq]
    · exact (sciParts_spec d hq).2.1
  have hdig : p.1 / 10 ^ d < 10 := by
    rw [Nat.div_lt_iff_lt_mul (by positivity)]
    calc p.1 < 10 ^ (d + 1) := hlt
      _ = 10 * 10 ^ d := by rw [pow_succ']
  have hval : readAbs ([digitCh (p.1 / 10 ^ d)] ++ '.' :: padDigits d (p.1 % 10 ^ d) ++
      'e' :: expText p.2) = some ((p.1 : ℚ) * 10 ^ (p.2 - d)) := by
    rw [readAbs_plain (by simp) (by
      intro c hc
      obtain rfl := List.mem_singleton.1 hc
      exact isDig_digitCh hdig) (padDigits_dig d _) (Or.inr ⟨_, rfl⟩), readDigits_append,
      readExp_expText]
    simp only [readDigits, digitVal_digitCh hdig, Option.bind_some, zero_mul, zero_add]
    rw [readDigits_pad]
    simp only [Option.bind_some, Option.map_some, Option.some.injEq, padDigits_length,
      Nat.mod_mod]
    have : p.1 / 10 ^ d * 10 ^ d + p.1 % 10 ^ d = p.1 := by
      rw [mul_comm]; exact Nat.div_add_mod p.1 (10 ^ d)
    rw [this]
  refine ⟨if q < 0 then -((p.1 : ℚ) * 10 ^ (p.2 - d)) else (p.1 : ℚ) * 10 ^ (p.2 - d), ?_, ?_⟩
  · have : fmtExp d q = signText q ++ ([digitCh (p.1 / 10 ^ d)] ++ '.' ::
        padDigits d (p.1 % 10 ^ d) ++ 'e' :: expText p.2) := by
      unfold fmtExp
      simp only [← hp]
      simp
    rw [this]
    exact readNum_sign q ⟨_, _, rfl, isDig_digitCh hdig⟩ hval
  · rw [abs_sign_sub]
    by_cases hq : q = 0
    · have : p.1 = 0 := by rw [hp]; simp [sciParts, hq]
      rw [this, hq]; simp
    · exact (sciParts_spec d hq).2.2.1

/-! ## Lengths -/

theorem expText_length {e : Int} (h : e.natAbs < 100) : (expText e).length = 3 := by
  unfold expText
  rw [if_pos h]
  simp [padDigits_length]

theorem signText_length (q : ℚ) : (signText q).length ≤ 1 := by
  unfold signText
  split <;> simp

theorem sciParts_exp {d : Nat} {q : ℚ} (h : q = 0 ∨ (1 / 10 ^ 99 ≤ |q| ∧ |q| < 10 ^ 99)) :
    (sciParts d q).2.natAbs < 100 := by
  rcases eq_or_ne q 0 with hq | hq
  · rw [hq]; simp [sciParts]
  have h := h.resolve_left hq
  have hpos : 0 < |q| := abs_pos.2 hq
  have h1 : (-99 : ℤ) ≤ Int.log 10 |q| := by
    rw [← Int.zpow_le_iff_le_log (by norm_num) hpos]
    have e : ((10 : ℕ) : ℚ) ^ (-99 : ℤ) = 1 / 10 ^ 99 := by
      rw [zpow_neg]; norm_num
    rw [e]
    exact h.1
  have h2 : Int.log 10 |q| < 99 := by
    rw [← Int.lt_zpow_iff_log_lt (by norm_num) hpos]
    have e : ((10 : ℕ) : ℚ) ^ (99 : ℤ) = 10 ^ 99 := by norm_cast
    rw [e]
    exact h.2
  have h3 := (sciParts_spec d hq).2.2.2
  omega

theorem fmtExp_length {d : Nat} {q : ℚ} (h : q = 0 ∨ (1 / 10 ^ 99 ≤ |q| ∧ |q| < 10 ^ 99)) :
    (fmtExp d q).length ≤ d + 7 := by
  unfold fmtExp
  have h1 := signText_length q
  have h2 := expText_length (sciParts_exp (d := d) h)
  simp only [List.length_append, List.length_cons, padDigits_length, h2]
  omega

theorem fmtFix_length {d k : Nat} {q : ℚ} (hk : 0 < k) (h : |q| < 10 ^ k) :
    (fmtFix d q).length ≤ k + d + 3 := by
  unfold fmtFix
  have h1 := signText_length q
  have h0 := roundQ_close (q := |q| * 10 ^ d) (by positivity)
  set m := roundQ (|q| * 10 ^ d) with hm
  rw [abs_le] at h0
  have hlt : m < 10 ^ (k + 1 + d) := by
    by_contra hc
    have hc' : (10 : ℚ) ^ (k + 1 + d) ≤ m := by exact_mod_cast not_lt.1 hc
    have e1 : |q| * 10 ^ d < (10 : ℚ) ^ k * 10 ^ d :=
      mul_lt_mul_of_pos_right h (by positivity)
    have e2 : (10 : ℚ) ^ (k + 1 + d) = 10 * (10 ^ k * 10 ^ d) := by ring
    have e3 : (1 : ℚ) ≤ 10 ^ k * 10 ^ d := by
      have a1 : (1 : ℚ) ≤ 10 ^ k := one_le_pow₀ (by norm_num)
      have a2 : (1 : ℚ) ≤ 10 ^ d := one_le_pow₀ (by norm_num)
      nlinarith
    linarith [h0.2]
  have hdiv : m / 10 ^ d < 10 ^ (k + 1) := by
    rw [Nat.div_lt_iff_lt_mul (by positivity), ← pow_add]
    exact hlt
  have h2 := numDigits_le (by omega) hdiv
  simp only [List.length_append, List.length_cons, padDigits_length, natText_length]
  omega

/-- a non-negative number below `10^k` takes at most `k + d + 1` characters, one more if it
rounds up to `10^k` -/
theorem fmtFix_length_nonneg {d k : Nat} {q : ℚ} (hk : 0 < k) (h0 : 0 ≤ q) (h : q < 10 ^ k) :
    (fmtFix d q).length ≤ k + d + 2 := by
  have h1 : signText q = [] := by
    unfold signText; rw [if_neg (not_lt.2 h0)]
  have hc := roundQ_close (q := |q| * 10 ^ d) (by positivity)
  unfold fmtFix
  set m := roundQ (|q| * 10 ^ d) with hm
  rw [abs_of_nonneg h0, abs_le] at hc
  have hlt : m ≤ 10 ^ (k + d) := by
    by_contra hcon
    have hc' : (10 : ℚ) ^ (k + d) + 1 ≤ m := by exact_mod_cast not_le.1 hcon
    have e1 : q * 10 ^ d < (10 : ℚ) ^ k * 10 ^ d :=
      mul_lt_mul_of_pos_right h (by positivity)
    rw [← pow_add] at e1
    linarith [hc.2]
  have hdiv : m / 10 ^ d < 10 ^ (k + 1) := by
    rw [Nat.div_lt_iff_lt_mul (by positivity), ← pow_add]
    refine lt_of_le_of_lt hlt (Nat.pow_lt_pow_right (by norm_num) (by omega))
  have h2 := numDigits_le (by omega) hdiv
  simp only [h1, List.length_append, List.length_cons, padDigits_length, natText_length,
    List.length_nil]
  omega

theorem padLeft_length {w : Nat} {t : Text} (h : t.length ≤ w) : (padLeft w t).length = w := by
  simp [padLeft]; omega

theorem padRight_length {w : Nat} {t : Text} (h : t.length ≤ w) : (padRight w t).length = w := by
  simp [padRight]; omega

theorem fmt_head {q : ℚ} {t : Text} (h : ∃ c r, t = c :: r ∧ IsDig c) :
    ∃ c r, signText q ++ t = c :: r ∧ c ≠ ' ' := by
  obtain ⟨c, r, rfl, hc⟩ := h
  unfold signText
  split
  · exact ⟨'-', c :: r, rfl, by decide⟩
  · exact ⟨c, r, rfl, hc.ne digitVal_space⟩

theorem fmtExp_head (d : Nat) (q : ℚ) : ∃ c r, fmtExp d q = c :: r ∧ c ≠ ' ' := by
  have hdig : (sciParts d q).1 / 10 ^ d < 10 := by
    by_cases hq : q = 0
    · simp [sciParts, hq]
    · rw [Nat.div_lt_iff_lt_mul (by positivity), ← pow_succ']
      exact (sciParts_spec d hq).2.1
  have h := fmt_head (q := q) (t := digitCh ((sciParts d q).1 / 10 ^ d) :: '.' ::
      padDigits d ((sciParts d q).1 % 10 ^ d) ++ 'e' :: expText (sciParts d q).2)
    ⟨_, _, rfl, isDig_digitCh hdig⟩
  unfold fmtExp
  rw [← List.append_assoc] at h
  exact h

theorem fmtFix_head (d : Nat) (q : ℚ) : ∃ c r, fmtFix d q = c :: r ∧ c ≠ ' ' := by
  unfold fmtFix
  simp only
  rw [List.append_assoc]
  refine fmt_head ?_
  set k := roundQ (|q| * 10 ^ d) / 10 ^ d
  have hne := natText_ne k
  have hd := natText_dig k
  cases hnt : natText k with
  | nil => exact absurd hnt hne
  | cons c r =>
      rw [hnt] at hd
      exact ⟨c, _, rfl, hd c (by simp)⟩

theorem dropWhile_padLeft (w : Nat) {t : Text} (h : ∃ c r, t = c :: r ∧ c ≠ ' ') :
    (padLeft w t).dropWhile (· == ' ') = t := by
  obtain ⟨c, r, rfl, hc⟩ := h
  unfold padLeft
  refine dropWhile_stop ?_ ?_
  · intro a ha
    rw [List.eq_of_mem_replicate ha]; rfl
  · intro a ha
    simp only [List.head?_cons, Option.some.injEq] at ha
    subst ha
    simpa using hc

theorem field_exp (w d : Nat) (q : ℚ) :
    FieldReads (padLeft w (fmtExp d q)) q (|q| / (2 * 10 ^ d)) := by
  obtain ⟨v, h1, h2⟩ := fmtExp_reads d q
  exact ⟨v, by rw [readField, dropWhile_padLeft w (fmtExp_head d q), h1], h2⟩

theorem field_fix (w d : Nat) (q : ℚ) :
    FieldReads (padLeft w (fmtFix d q)) q (1 / 2 / 10 ^ d) := by
  obtain ⟨v, h1, h2⟩ := fmtFix_reads d q
  exact ⟨v, by rw [readField, dropWhile_padLeft w (fmtFix_head d q), h1], h2⟩

theorem field_fix_exact (w d : Nat) (k : Int) :
    readField (padLeft w (fmtFix d ((k : ℚ) / 10 ^ d))) = some ((k : ℚ) / 10 ^ d) := by
  rw [readField, dropWhile_padLeft w (fmtFix_head d _), fmtFix_exact]

/-! ## No blanks in numbers -/

theorem isDig_blank {c : Char} (h : IsDig c) : isBlank c = false := by
  have h1 := h.ne digitVal_space
  have h2 := h.ne digitVal_nl
  simp [isBlank, h1, h2]

theorem signText_blank (q : ℚ) : ∀ c ∈ signText q, isBlank c = false := by
  unfold signText
  intro c hc
  split at hc
  · obtain rfl := List.mem_singleton.1 hc; decide
  · cases hc

theorem expText_blank (e : Int) : ∀ c ∈ expText e, isBlank c = false := by
  intro c hc
  unfold expText at hc
  rcases List.mem_cons.1 hc with rfl | hc
  · split <;> decide
  · split at hc
    · exact isDig_blank (padDigits_dig _ _ c hc)
    · exact isDig_blank (natText_dig _ c hc)

theorem fmtExp_word (d : Nat) (q : ℚ) : Word (fmtExp d q) := by
  refine ⟨?_, fun c hc => ?_⟩
  · obtain ⟨c, r, h, -⟩ := fmtExp_head d q
    rw [h]; simp
  · have hdig : (sciParts d q).1 / 10 ^ d < 10 := by
      by_cases hq : q = 0
      · simp [sciParts, hq]
      · rw [Nat.div_lt_iff_lt_mul (by positivity), ← pow_succ']
        exact (sciParts_spec d hq).2.1
    unfold fmtExp at hc
    simp only [List.mem_append, List.mem_cons] at hc
    rcases hc with (h | rfl | rfl | h) | rfl | h
    · exact signText_blank q c h
    · exact isDig_blank (isDig_digitCh hdig)
    · decide
    · exact isDig_blank (padDigits_dig _ _ c h)
    · decide
    · exact expText_blank _ c h

theorem fmtFix_word (d : Nat) (q : ℚ) : Word (fmtFix d q) := by
  refine ⟨?_, fun c hc => ?_⟩
  · obtain ⟨c, r, h, -⟩ := fmtFix_head d q
    rw [h]; simp
  · unfold fmtFix at hc
    simp only [List.mem_append, List.mem_cons] at hc
    rcases hc with (h | h) | rfl | h
    · exact signText_blank q c h
    · exact isDig_blank (natText_dig _ c h)
    · decide
    · exact isDig_blank (padDigits_dig _ _ c h)

end Verif
