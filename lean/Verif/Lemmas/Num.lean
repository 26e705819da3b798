import Verif.Spec.Reduce
import Mathlib.Tactic.Linarith
import Mathlib.Tactic.FieldSimp
import Mathlib.Tactic.Ring
import Mathlib.Tactic.Positivity
import Mathlib.Algebra.Order.Field.Power
/-!
Binary64 rounding is monotone and idempotent.
-/
namespace Verif
open Spec

theorem roundHalfEven_le (a b : Nat) : roundHalfEven a b ≤ a / b + 1 := by
  unfold roundHalfEven
  dsimp only
  split_ifs <;> omega

theorem le_roundHalfEven (a b : Nat) : a / b ≤ roundHalfEven a b := by
  unfold roundHalfEven
  dsimp only
  split_ifs <;> omega

theorem roundHalfEven_exact (k b : Nat) (hb : 0 < b) : roundHalfEven (k * b) b = k := by
  unfold roundHalfEven
  simp [hb]

theorem roundHalfEven_mono {a b a' b' : Nat} (hb : 0 < b) (hb' : 0 < b') (h : a * b' ≤ a' * b) :
    roundHalfEven a b ≤ roundHalfEven a' b' := by
  have e1 := Nat.div_add_mod a b
  have e2 := Nat.div_add_mod a' b'
  have l1 := Nat.mod_lt a hb
  have l2 := Nat.mod_lt a' hb'
  have hq : a / b ≤ a' / b' := by
    rw [Nat.le_div_iff_mul_le hb']
    by_contra hc
    push Not at hc
    have h3 : a / b * b ≤ a := Nat.div_mul_le_self a b
    have h4 : a / b * b * b' ≤ a * b' := Nat.mul_le_mul_right _ h3
    have h5 : a' * b < a / b * b' * b := Nat.mul_lt_mul_of_pos_right hc hb
    nlinarith
  rcases Nat.lt_or_eq_of_le hq with hlt | heq
  · exact (roundHalfEven_le a b).trans (Nat.le_trans hlt (le_roundHalfEven a' b'))
  · have hr : (a % b) * b' ≤ (a' % b') * b := by
      rw [heq] at e1
      have h6 : a * b' = (b * (a' / b') + a % b) * b' := by rw [e1]
      have h7 : a' * b = (b' * (a' / b') + a' % b') * b := by rw [e2]
      rw [h6, h7] at h
      nlinarith
    unfold roundHalfEven
    dsimp only
    rw [heq]
    generalize a' / b' = q at *
    generalize a % b = r at *
    generalize a' % b' = r' at *
    split_ifs with c1 c2 c3 c4 c5 c6 c7 c8 c9 c10 <;> first | omega | (exfalso; nlinarith)

theorem scale2_pos (n d : Nat) (e : Int) (hd : 0 < d) : 0 < (scale2 n d e).2 := by
  unfold scale2
  split_ifs
  · positivity
  · exact hd

theorem zpow_toNat (e : Int) (h : 0 ≤ e) : (2 : ℚ) ^ e = (2 : ℚ) ^ e.toNat := by
  conv_lhs => rw [← Int.toNat_of_nonneg h]
  exact zpow_natCast _ _

theorem zpow_neg_toNat (e : Int) (h : ¬ 0 ≤ e) : (2 : ℚ) ^ e = 1 / (2 : ℚ) ^ (-e).toNat := by
  rw [← zpow_toNat (-e) (by omega), zpow_neg]; simp

theorem scale2_val (n d : Nat) (e : Int) (hd : 0 < d) :
    ((scale2 n d e).1 : ℚ) / (scale2 n d e).2 = (n / d : ℚ) / (2 : ℚ) ^ e := by
  have hd' : (d : ℚ) ≠ 0 := by positivity
  unfold scale2
  split_ifs with h
  · rw [zpow_toNat e h]; push_cast; field_simp
  · rw [zpow_neg_toNat e h]; push_cast; field_simp

theorem exp64_bounds (n d : Nat) (hn : 0 < n) (hd : 0 < d) :
    (2 : ℚ) ^ 52 * 2 ^ exp64 n d ≤ (n / d : ℚ) ∧ (n / d : ℚ) < 2 ^ 53 * 2 ^ exp64 n d := by
  have hd' : (0 : ℚ) < d := by positivity
  have n1 : (2 : ℚ) ^ n.log2 ≤ n := by exact_mod_cast Nat.log2_self_le hn.ne'
  have n2 : (n : ℚ) < 2 ^ (n.log2 + 1) := by exact_mod_cast Nat.lt_log2_self (n := n)
  have d1 : (2 : ℚ) ^ d.log2 ≤ d := by exact_mod_cast Nat.log2_self_le hd.ne'
  have d2 : (d : ℚ) < 2 ^ (d.log2 + 1) := by exact_mod_cast Nat.lt_log2_self (n := d)
  have key : ∀ e : Int, e = (n.log2 : Int) - d.log2 - 52 →
      (2 : ℚ) ^ 51 * 2 ^ e < (n / d : ℚ) ∧ (n / d : ℚ) < 2 ^ 53 * 2 ^ e := by
    rintro e rfl
    have h2 : (2 : ℚ) ^ ((n.log2 : Int) - d.log2 - 52) = 2 ^ n.log2 / 2 ^ d.log2 / 2 ^ 52 := by
      rw [zpow_sub₀ (by norm_num), zpow_sub₀ (by norm_num), zpow_natCast, zpow_natCast]
      rfl
    rw [h2]
    have p1 : (0 : ℚ) < 2 ^ n.log2 := by positivity
    have p2 : (0 : ℚ) < 2 ^ d.log2 := by positivity
    rw [pow_succ] at n2 d2
    constructor
    · rw [lt_div_iff₀ hd']
      have : (2 : ℚ) ^ 51 * (2 ^ n.log2 / 2 ^ d.log2 / 2 ^ 52) * d =
        2 ^ n.log2 * (d / (2 ^ d.log2 * 2)) := by field_simp
      rw [this]
      have : (d : ℚ) / (2 ^ d.log2 * 2) < 1 := by rw [div_lt_one (by positivity)]; exact d2
      nlinarith
    · rw [div_lt_iff₀ hd']
      have : (2 : ℚ) ^ 53 * (2 ^ n.log2 / 2 ^ d.log2 / 2 ^ 52) * d =
        2 ^ n.log2 * 2 * (d / 2 ^ d.log2) := by field_simp
      rw [this]
      have : 1 ≤ (d : ℚ) / 2 ^ d.log2 := by rw [one_le_div (by positivity)]; exact d1
      nlinarith
  obtain ⟨k1, k2⟩ := key _ rfl
  unfold exp64
  dsimp only
  generalize (n.log2 : Int) - d.log2 - 52 = e0 at *
  have hs := scale2_val n d e0 hd
  have hsp : (0 : ℚ) < (scale2 n d e0).2 := by exact_mod_cast scale2_pos n d e0 hd
  have pe : (0 : ℚ) < 2 ^ e0 := by positivity
  split_ifs with h
  · have h' : ((scale2 n d e0).1 : ℚ) < 2 ^ 52 * (scale2 n d e0).2 := by exact_mod_cast h
    rw [← div_lt_iff₀ hsp, hs, div_lt_iff₀ pe] at h'
    rw [zpow_sub_one₀ (by norm_num)]
    constructor
    · linarith
    · linarith
  · have h' : (2 ^ 52 * (scale2 n d e0).2 : ℚ) ≤ (scale2 n d e0).1 := by
      push Not at h; exact_mod_cast h
    rw [← le_div_iff₀ hsp, hs, le_div_iff₀ pe] at h'
    exact ⟨h', k2⟩

/-- `x` rounded with exponent `e` -/
theorem rndPos_spec (n d : Nat) (hn : 0 < n) (hd : 0 < d) :
    ∃ (e : Int) (a b : Nat), 0 < b ∧ (a / b : ℚ) = (n / d : ℚ) / 2 ^ e ∧ 2 ^ 52 * b ≤ a ∧
      a < 2 ^ 53 * b ∧ rndPos n d = (roundHalfEven a b : ℚ) * 2 ^ e := by
  refine ⟨exp64 n d, _, _, scale2_pos n d _ hd, scale2_val n d _ hd, ?_, ?_, ?_⟩
  · have := (exp64_bounds n d hn hd).1
    have hsp : (0 : ℚ) < (scale2 n d (exp64 n d)).2 := by exact_mod_cast scale2_pos n d _ hd
    have pe : (0 : ℚ) < 2 ^ exp64 n d := by positivity
    rw [← le_div_iff₀ pe, ← scale2_val n d _ hd, le_div_iff₀ hsp] at this
    exact_mod_cast this
  · have := (exp64_bounds n d hn hd).2
    have hsp : (0 : ℚ) < (scale2 n d (exp64 n d)).2 := by exact_mod_cast scale2_pos n d _ hd
    have pe : (0 : ℚ) < 2 ^ exp64 n d := by positivity
    rw [← div_lt_iff₀ pe, ← scale2_val n d _ hd, div_lt_iff₀ hsp] at this
    exact_mod_cast this
  · unfold rndPos
    rw [if_neg hn.ne']
    dsimp only
    split_ifs with h
    · rw [zpow_toNat _ h]
    · rw [zpow_neg_toNat _ h]; ring

theorem rhe_range {a b : Nat} (hb : 0 < b) (h1 : 2 ^ 52 * b ≤ a) (h2 : a < 2 ^ 53 * b) :
    2 ^ 52 ≤ roundHalfEven a b ∧ roundHalfEven a b ≤ 2 ^ 53 := by
  constructor
  · have := roundHalfEven_mono (a := 2 ^ 52 * b) hb hb (Nat.mul_le_mul_right b h1)
    rwa [roundHalfEven_exact _ _ hb] at this
  · have := roundHalfEven_mono (a' := 2 ^ 53 * b) hb hb (Nat.mul_le_mul_right b h2.le)
    rwa [roundHalfEven_exact _ _ hb] at this

theorem rndPos_nonneg (n d : Nat) : 0 ≤ rndPos n d := by
  unfold rndPos
  split_ifs
  · exact le_rfl
  · dsimp only; split_ifs <;> positivity

theorem rndPos_mono {n d n' d' : Nat} (hd : 0 < d) (hd' : 0 < d')
    (h : (n / d : ℚ) ≤ n' / d') : rndPos n d ≤ rndPos n' d' := by
  rcases Nat.eq_zero_or_pos n with rfl | hn
  · have : rndPos 0 d = 0 := by simp [rndPos]
    rw [this]; exact rndPos_nonneg _ _
  have hdq : (0 : ℚ) < d := by exact_mod_cast hd
  have hdq' : (0 : ℚ) < d' := by exact_mod_cast hd'
  have hn' : 0 < n' := by
    rcases Nat.eq_zero_or_pos n' with rfl | h0
    · have : (0 : ℚ) < n / d := by positivity
      simp at h; linarith
    · exact h0
  obtain ⟨e, a, b, hb, h1, h2, h3, h4⟩ := rndPos_spec n d hn hd
  obtain ⟨e', a', b', hb', h1', h2', h3', h4'⟩ := rndPos_spec n' d' hn' hd'
  rw [h4, h4']
  obtain ⟨r1, r2⟩ := rhe_range hb h2 h3
  obtain ⟨r1', r2'⟩ := rhe_range hb' h2' h3'
  have bq : (0 : ℚ) < b := by exact_mod_cast hb
  have bq' : (0 : ℚ) < b' := by exact_mod_cast hb'
  have pe : (0 : ℚ) < 2 ^ e := by positivity
  have pe' : (0 : ℚ) < 2 ^ e' := by positivity
  have q2 : (2 : ℚ) ^ 52 ≤ (n / d : ℚ) / 2 ^ e := by
    rw [← h1, le_div_iff₀ bq]; exact_mod_cast h2
  have q3' : (n' / d' : ℚ) / 2 ^ e' < 2 ^ 53 := by
    rw [← h1', div_lt_iff₀ bq']; exact_mod_cast h3'
  rw [le_div_iff₀ pe] at q2
  rw [div_lt_iff₀ pe'] at q3'
  have hee : e ≤ e' := by
    by_contra hc
    push Not at hc
    have : (2 : ℚ) ^ (e' + 1) ≤ 2 ^ e := zpow_le_zpow_right₀ (by norm_num) hc
    rw [zpow_add_one₀ (by norm_num)] at this
    nlinarith
  rcases lt_or_eq_of_le hee with hlt | rfl
  · have : (2 : ℚ) ^ (e + 1) ≤ 2 ^ e' := zpow_le_zpow_right₀ (by norm_num) hlt
    rw [zpow_add_one₀ (by norm_num)] at this
    have c1 : (roundHalfEven a b : ℚ) ≤ 2 ^ 53 := by exact_mod_cast r2
    have c2 : (2 : ℚ) ^ 52 ≤ roundHalfEven a' b' := by exact_mod_cast r1'
    calc (roundHalfEven a b : ℚ) * 2 ^ e ≤ 2 ^ 53 * 2 ^ e := by gcongr
      _ = 2 ^ 52 * (2 ^ e * 2) := by ring
      _ ≤ 2 ^ 52 * 2 ^ e' := by gcongr
      _ ≤ _ := by gcongr
  · have : (a / b : ℚ) ≤ a' / b' := by
      rw [h1, h1']; gcongr
    rw [div_le_div_iff₀ bq bq'] at this
    have := roundHalfEven_mono hb hb' (by exact_mod_cast this)
    have : (roundHalfEven a b : ℚ) ≤ roundHalfEven a' b' := by exact_mod_cast this
    gcongr

theorem rndPos_exact {n d m : Nat} {e : Int} (hd : 0 < d) (h1 : 2 ^ 52 ≤ m)
    (h2 : m < 2 ^ 53) (h : (n / d : ℚ) = m * 2 ^ e) : rndPos n d = n / d := by
  have hn : 0 < n := by
    rcases Nat.eq_zero_or_pos n with rfl | h0
    · have : (0 : ℚ) < (m : ℚ) := by exact_mod_cast (by omega : 0 < m)
      have p : (0 : ℚ) < m * 2 ^ e := by positivity
      rw [← h] at p; simp at p
    · exact h0
  obtain ⟨e', a', b', hb', k1, k2, k3, k4⟩ := rndPos_spec n d hn hd
  have bq' : (0 : ℚ) < b' := by exact_mod_cast hb'
  have pe : (0 : ℚ) < 2 ^ e := by positivity
  have pe' : (0 : ℚ) < 2 ^ e' := by positivity
  have m1 : (2 : ℚ) ^ 52 ≤ m := by exact_mod_cast h1
  have m2 : (m : ℚ) < 2 ^ 53 := by exact_mod_cast h2
  have q2 : (2 : ℚ) ^ 52 ≤ (n / d : ℚ) / 2 ^ e' := by
    rw [← k1, le_div_iff₀ bq']; exact_mod_cast k2
  have q3 : (n / d : ℚ) / 2 ^ e' < 2 ^ 53 := by
    rw [← k1, div_lt_iff₀ bq']; exact_mod_cast k3
  rw [le_div_iff₀ pe'] at q2
  rw [div_lt_iff₀ pe'] at q3
  rw [h] at q2 q3
  have hee : e = e' := by
    rcases lt_trichotomy e e' with hc | hc | hc
    · have : (2 : ℚ) ^ (e + 1) ≤ 2 ^ e' := zpow_le_zpow_right₀ (by norm_num) hc
      rw [zpow_add_one₀ (by norm_num)] at this
      nlinarith
    · exact hc
    · have : (2 : ℚ) ^ (e' + 1) ≤ 2 ^ e := zpow_le_zpow_right₀ (by norm_num) hc
      rw [zpow_add_one₀ (by norm_num)] at this
      nlinarith
  subst hee
  have : (a' : ℚ) = m * b' := by
    rw [h] at k1
    field_simp at k1
    linarith
  have : a' = m * b' := by exact_mod_cast this
  rw [k4, this, roundHalfEven_exact _ _ hb', h]

theorem rnd64_of_nonneg {q : ℚ} (h : 0 ≤ q) : rnd64 q = rndPos q.num.natAbs q.den := by
  unfold rnd64
  rw [if_neg]
  have := Rat.num_nonneg.2 h
  omega

theorem rnd64_neg (q : ℚ) : rnd64 (-q) = - rnd64 q := by
  unfold rnd64
  rcases lt_trichotomy q.num 0 with h | h | h
  · rw [if_neg (by rw [Rat.num_neg_eq_neg_num]; omega), if_pos h]; simp
  · have : q = 0 := Rat.num_eq_zero.1 h
    subst this
    simp [rndPos]
  · rw [if_pos (by simpa using h), if_neg (by omega)]; simp

theorem natAbs_div {q : ℚ} (h : 0 ≤ q) : (q.num.natAbs / q.den : ℚ) = q := by
  have h1 := Rat.num_nonneg.2 h
  have : ((q.num.natAbs : ℕ) : ℚ) = (q.num : ℚ) := by
    have : ((q.num.natAbs : ℕ) : ℤ) = q.num := Int.natAbs_of_nonneg h1
    conv_rhs => rw [← this]
    exact (Int.cast_natCast _).symm
  rw [this]; exact Rat.num_div_den q

theorem rnd64_nonneg {q : ℚ} (h : 0 ≤ q) : 0 ≤ rnd64 q := by
  rw [rnd64_of_nonneg h]; exact rndPos_nonneg _ _

theorem rnd64_mono_nonneg {q q' : ℚ} (h : 0 ≤ q) (hle : q ≤ q') : rnd64 q ≤ rnd64 q' := by
  rw [rnd64_of_nonneg h, rnd64_of_nonneg (h.trans hle)]
  apply rndPos_mono q.pos q'.pos
  rw [natAbs_div h, natAbs_div (h.trans hle)]
  exact hle

theorem rnd64_idem_nonneg {q : ℚ} (h : 0 ≤ q) : rnd64 (rnd64 q) = rnd64 q := by
  have hr := rnd64_nonneg h
  rw [rnd64_of_nonneg hr]
  rcases Nat.eq_zero_or_pos q.num.natAbs with h0 | hn
  · have : q = 0 := Rat.num_eq_zero.1 (by omega)
    subst this
    simp [rnd64, rndPos]
  · obtain ⟨e, a, b, hb, h1, h2, h3, h4⟩ := rndPos_spec q.num.natAbs q.den hn q.pos
    obtain ⟨r1, r2⟩ := rhe_range hb h2 h3
    rw [← rnd64_of_nonneg h] at h4
    have hval := natAbs_div hr
    conv_rhs => rw [← hval]
    rcases Nat.lt_or_eq_of_le r2 with hlt | heq
    · exact rndPos_exact (rnd64 q).pos r1 hlt (by rw [hval]; exact h4)
    · refine rndPos_exact (m := 2 ^ 52) (e := e + 1) (rnd64 q).pos le_rfl (by norm_num) ?_
      rw [hval, h4, heq, zpow_add_one₀ (by norm_num)]
      push_cast
      ring

theorem roundHalfEven_close (a b : Nat) (hb : 0 < b) :
    |(roundHalfEven a b : ℚ) - a / b| ≤ 1 / 2 := by
  have bq : (0 : ℚ) < b := by exact_mod_cast hb
  have e1 := Nat.div_add_mod a b
  have l1 := Nat.mod_lt a hb
  have e2 : (a : ℚ) = b * (a / b : Nat) + (a % b : Nat) := by exact_mod_cast e1.symm
  have e3 : (a / b : ℚ) = (a / b : Nat) + (a % b : Nat) / b := by rw [e2]; field_simp
  rw [e3]
  unfold roundHalfEven
  dsimp only
  generalize a / b = q at *
  generalize a % b = r at *
  have r0 : (0 : ℚ) ≤ (r : ℚ) / b := by positivity
  have r1 : (r : ℚ) / b < 1 := by rw [div_lt_one bq]; exact_mod_cast l1
  have up : 2 * r ≤ b → (r : ℚ) / b ≤ 1 / 2 := by
    intro h
    rw [div_le_iff₀ bq]
    have : (2 * r : ℚ) ≤ b := by exact_mod_cast h
    linarith
  have dn : b ≤ 2 * r → 1 / 2 ≤ (r : ℚ) / b := by
    intro h
    rw [le_div_iff₀ bq]
    have : (b : ℚ) ≤ 2 * r := by exact_mod_cast h
    linarith
  rw [abs_le]
  by_cases c1 : 2 * r < b
  · rw [if_pos c1]; have := up c1.le; constructor <;> linarith
  · rw [if_neg c1]
    have hd := dn (by omega)
    by_cases c2 : b < 2 * r
    · rw [if_pos c2]; push_cast; constructor <;> linarith
    · rw [if_neg c2]
      have hu := up (by omega)
      split_ifs <;> push_cast <;> constructor <;> linarith

theorem rndPos_close (n d : Nat) (hd : 0 < d) :
    |rndPos n d - n / d| ≤ (n / d : ℚ) / 2 ^ 53 := by
  rcases Nat.eq_zero_or_pos n with rfl | hn
  · simp [rndPos]
  obtain ⟨e, a, b, hb, h1, h2, h3, h4⟩ := rndPos_spec n d hn hd
  have bq : (0 : ℚ) < b := by exact_mod_cast hb
  have pe : (0 : ℚ) < 2 ^ e := by positivity
  have hx : (n / d : ℚ) = (a / b) * 2 ^ e := by rw [h1]; field_simp
  have ha : (2 : ℚ) ^ 52 ≤ a / b := by rw [le_div_iff₀ bq]; exact_mod_cast h2
  rw [h4, hx, ← sub_mul, abs_mul, abs_of_pos pe]
  have := roundHalfEven_close a b hb
  have : |(roundHalfEven a b : ℚ) - a / b| ≤ (a / b) / 2 ^ 53 := by
    refine this.trans ?_
    rw [le_div_iff₀ (by positivity)]
    linarith
  calc _ ≤ (a / b : ℚ) / 2 ^ 53 * 2 ^ e := by gcongr
    _ = _ := by ring

/-- relative error of binary64 rounding -/
theorem rnd64_close {q : ℚ} (h : 0 ≤ q) : |rnd64 q - q| ≤ q / 2 ^ 53 := by
  have := rndPos_close q.num.natAbs q.den q.pos
  rwa [natAbs_div h, ← rnd64_of_nonneg h] at this

/-- binary64 rounding commutes with scaling by a power of two (no overflow, no underflow) -/
theorem rnd64_zpow (k : Int) (q : ℚ) : rnd64 (2 ^ k * q) = 2 ^ k * rnd64 q := by
  have pos : ∀ q : ℚ, 0 < q → rnd64 (2 ^ k * q) = 2 ^ k * rnd64 q := by
    intro q hq
    have hk : (0 : ℚ) < 2 ^ k := by positivity
    have hq' : 0 < 2 ^ k * q := mul_pos hk hq
    rw [rnd64_of_nonneg hq.le, rnd64_of_nonneg hq'.le]
    have num_pos : ∀ x : ℚ, 0 < x → 0 < x.num.natAbs := fun x hx =>
      Int.natAbs_pos.2 (Rat.num_pos.2 hx).ne'
    obtain ⟨e, a, b, hb, hab, h1, h2, h3⟩ := rndPos_spec _ _ (num_pos q hq) q.pos
    obtain ⟨e', a', b', hb', hab', h1', h2', h3'⟩ :=
      rndPos_spec _ _ (num_pos _ hq') (2 ^ k * q).pos
    rw [natAbs_div hq.le] at hab
    rw [natAbs_div hq'.le] at hab'
    have hbq : (0 : ℚ) < b := by exact_mod_cast hb
    have hbq' : (0 : ℚ) < b' := by exact_mod_cast hb'
    have l1 : (2 : ℚ) ^ 52 ≤ a / b := by rw [le_div_iff₀ hbq]; exact_mod_cast h1
    have l2 : (a / b : ℚ) < 2 ^ 53 := by rw [div_lt_iff₀ hbq]; exact_mod_cast h2
    have l1' : (2 : ℚ) ^ 52 ≤ a' / b' := by rw [le_div_iff₀ hbq']; exact_mod_cast h1'
    have l2' : (a' / b' : ℚ) < 2 ^ 53 := by rw [div_lt_iff₀ hbq']; exact_mod_cast h2'
    have pe : (0 : ℚ) < 2 ^ e := by positivity
    have pe' : (0 : ℚ) < 2 ^ e' := by positivity
    have hx : (q : ℚ) = a / b * 2 ^ e := by rw [hab]; field_simp
    have hx' : 2 ^ k * q = a' / b' * 2 ^ e' := by rw [hab']; field_simp
    have key : (a / b : ℚ) * 2 ^ (k + e) = a' / b' * 2 ^ e' := by
      rw [← hx', zpow_add₀ (by norm_num), hx]; ring
    have he : e' = k + e := by
      by_contra hne
      rcases lt_or_gt_of_ne hne with h | h
      · have : (2 : ℚ) ^ (k + e) ≥ 2 * 2 ^ e' := by
          have := zpow_le_zpow_right₀ (a := (2 : ℚ)) (by norm_num) (show e' + 1 ≤ k + e by omega)
          rwa [zpow_add₀ (by norm_num), zpow_one, mul_comm] at this
        nlinarith
      · have : (2 : ℚ) ^ e' ≥ 2 * 2 ^ (k + e) := by
          have := zpow_le_zpow_right₀ (a := (2 : ℚ)) (by norm_num) (show k + e + 1 ≤ e' by omega)
          rwa [zpow_add₀ (by norm_num), zpow_one, mul_comm] at this
        have hpk : (0 : ℚ) < 2 ^ (k + e) := by positivity
        nlinarith
    have hfr : (a / b : ℚ) = a' / b' := by
      rw [he] at key
      exact mul_right_cancel₀ (by positivity) key
    have hcross : a * b' = a' * b := by
      rw [div_eq_div_iff hbq.ne' hbq'.ne'] at hfr
      exact_mod_cast hfr
    have hround : roundHalfEven a b = roundHalfEven a' b' :=
      le_antisymm (roundHalfEven_mono hb hb' hcross.le) (roundHalfEven_mono hb' hb hcross.ge)
    rw [h3, h3', hround, he, zpow_add₀ (by norm_num)]
    ring
  rcases lt_trichotomy q 0 with h | h | h
  · have := pos (-q) (by linarith)
    rw [mul_neg, rnd64_neg, rnd64_neg] at this
    linarith
  · subst h
    simp [rnd64, rndPos]
  · exact pos q h

/-- binary64 rounding is monotone, idempotent and fixes zero and one -/
theorem rndOk_rnd64 : RndOk rnd64 where
  one := by decide +kernel
  zero := by simp [rnd64, rndPos]
  mono a b hab := by
    rcases le_total 0 a with ha | ha
    · exact rnd64_mono_nonneg ha hab
    · rcases le_total 0 b with hb | hb
      · have : rnd64 a ≤ 0 := by
          have := rnd64_nonneg (q := -a) (by linarith)
          rw [rnd64_neg] at this; linarith
        exact this.trans (rnd64_nonneg hb)
      · have := rnd64_mono_nonneg (q := -b) (q' := -a) (by linarith) (by linarith)
        rw [rnd64_neg, rnd64_neg] at this
        linarith
  idem a := by
    rcases le_total 0 a with ha | ha
    · exact rnd64_idem_nonneg ha
    · have := rnd64_idem_nonneg (q := -a) (by linarith)
      rw [rnd64_neg, rnd64_neg] at this
      linarith

/-! ### gradual underflow -/

theorem rndGrid_neg (e : Nat) (q : ℚ) : rndGrid e (-q) = - rndGrid e q := by
  unfold rndGrid
  rcases lt_trichotomy q.num 0 with h | h | h
  · rw [if_neg (by rw [Rat.num_neg_eq_neg_num]; omega), if_pos h]; simp
  · have : q = 0 := Rat.num_eq_zero.1 h
    subst this
    simp [roundHalfEven]
  · rw [if_pos (by rw [Rat.num_neg_eq_neg_num]; omega), if_neg (by omega)]; simp

theorem rndGradual_neg (e : Nat) (q : ℚ) : rndGradual e (-q) = - rndGradual e q := by
  unfold rndGradual
  rw [abs_neg, rndGrid_neg, rnd64_neg]
  split_ifs <;> rfl

theorem rndGrid_of_nonneg {e : Nat} {q : ℚ} (h : 0 ≤ q) :
    rndGrid e q = (roundHalfEven (q.num.natAbs * 2 ^ e) q.den : Nat) / 2 ^ e := by
  unfold rndGrid
  rw [if_neg]
  have := Rat.num_nonneg.2 h
  omega

theorem rndGrid_nonneg {e : Nat} {q : ℚ} (h : 0 ≤ q) : 0 ≤ rndGrid e q := by
  rw [rndGrid_of_nonneg h]; positivity

theorem rndGrid_mono {e : Nat} {q q' : ℚ} (h : 0 ≤ q) (hle : q ≤ q') : rndGrid e q ≤ rndGrid e q' := by
  rw [rndGrid_of_nonneg h, rndGrid_of_nonneg (h.trans hle)]
  have e1 := natAbs_div h
  have e2 := natAbs_div (h.trans hle)
  have : q.num.natAbs * 2 ^ e * q'.den ≤ q'.num.natAbs * 2 ^ e * q.den := by
    rw [← e1, ← e2, div_le_div_iff₀ (by exact_mod_cast q.pos) (by exact_mod_cast q'.pos)] at hle
    have : q.num.natAbs * q'.den ≤ q'.num.natAbs * q.den := by exact_mod_cast hle
    nlinarith [Nat.mul_le_mul_right (2 ^ e) this]
  have := roundHalfEven_mono q.pos q'.pos this
  gcongr

/-- multiples of the grid width are fixed -/
theorem rndGrid_exact (e k : Nat) : rndGrid e ((k : ℚ) / 2 ^ e) = k / 2 ^ e := by
  have h : (0 : ℚ) ≤ (k : ℚ) / 2 ^ e := by positivity
  rw [rndGrid_of_nonneg h]
  congr 2
  have e1 := natAbs_div h
  have hp := ((k : ℚ) / 2 ^ e).pos
  generalize ((k : ℚ) / 2 ^ e).num.natAbs = a at e1 ⊢
  generalize ((k : ℚ) / 2 ^ e).den = b at e1 hp ⊢
  rw [div_eq_div_iff (by positivity) (by positivity)] at e1
  have e2 : a * 2 ^ e = k * b := by exact_mod_cast e1
  rw [e2, roundHalfEven_exact _ _ hp]

theorem rndGrid_close {e : Nat} {q : ℚ} (h : 0 ≤ q) : |rndGrid e q - q| ≤ 1 / 2 / 2 ^ e := by
  rw [rndGrid_of_nonneg h]
  have := roundHalfEven_close (q.num.natAbs * 2 ^ e) q.den q.pos
  have e1 := natAbs_div h
  have h2 : (0 : ℚ) < 2 ^ e := by positivity
  have e3 : ((q.num.natAbs * 2 ^ e : Nat) : ℚ) / q.den = q * 2 ^ e := by
    conv_rhs => rw [← e1]
    push_cast; ring
  rw [e3] at this
  generalize ((roundHalfEven (q.num.natAbs * 2 ^ e) q.den : Nat) : ℚ) = r at this ⊢
  have : |r / 2 ^ e - q| = |r - q * 2 ^ e| / 2 ^ e := by
    rw [← abs_of_pos h2, ← abs_div, abs_of_pos h2]
    congr 1
    field_simp
  rw [this]
  gcongr

theorem rnd64_two_inv (e : Nat) : rnd64 (1 / 2 ^ e) = 1 / 2 ^ e := by
  have := rnd64_zpow (-(e : ℤ)) 1
  rw [rndOk_rnd64.one] at this
  simpa using this

theorem rndGradual_small {e : Nat} {q : ℚ} (h : |q| < 1 / 2 ^ e) : rndGradual e q = rndGrid (e + 52) q := by
  unfold rndGradual; rw [if_pos h]

theorem rndGradual_large {e : Nat} {q : ℚ} (h : 1 / 2 ^ e ≤ |q|) : rndGradual e q = rnd64 q := by
  unfold rndGradual; rw [if_neg (not_lt.2 h)]

theorem rndGrid_small_le {e : Nat} {q : ℚ} (h0 : 0 ≤ q) (h : q ≤ 1 / 2 ^ e) : rndGrid (e + 52) q ≤ 1 / 2 ^ e := by
  have := rndGrid_mono (e := e + 52) h0 h
  have e1 : (1 : ℚ) / 2 ^ e = ((2 ^ 52 : Nat) : ℚ) / 2 ^ (e + 52) := by
    rw [pow_add, Nat.cast_pow, Nat.cast_ofNat, div_eq_div_iff (by positivity) (by positivity)]
    ring
  rw [e1, rndGrid_exact] at this
  rwa [e1]

theorem rndGradual_nonneg {e : Nat} {q : ℚ} (h : 0 ≤ q) : 0 ≤ rndGradual e q := by
  unfold rndGradual
  split_ifs
  · exact rndGrid_nonneg h
  · exact rnd64_nonneg h

theorem rnd64_large {e : Nat} {q : ℚ} (h : 1 / 2 ^ e ≤ q) : 1 / 2 ^ e ≤ rnd64 q := by
  rw [← rnd64_two_inv e]; exact rnd64_mono_nonneg (by positivity) h

theorem rndGradual_mono_nonneg {e : Nat} {q q' : ℚ} (h : 0 ≤ q) (hle : q ≤ q') :
    rndGradual e q ≤ rndGradual e q' := by
  have h' := h.trans hle
  rcases lt_or_ge q' (1 / 2 ^ e) with g' | g'
  · have g := lt_of_le_of_lt hle g'
    rw [rndGradual_small (by rwa [abs_of_nonneg h]), rndGradual_small (by rwa [abs_of_nonneg h'])]
    exact rndGrid_mono h hle
  rw [rndGradual_large (q := q') (by rwa [abs_of_nonneg h'])]
  rcases lt_or_ge q (1 / 2 ^ e) with g | g
  · rw [rndGradual_small (by rwa [abs_of_nonneg h])]
    exact (rndGrid_small_le h g.le).trans (rnd64_large g')
  · rw [rndGradual_large (by rwa [abs_of_nonneg h])]
    exact rnd64_mono_nonneg h hle

theorem rndGradual_idem_nonneg {e : Nat} {q : ℚ} (h : 0 ≤ q) :
    rndGradual e (rndGradual e q) = rndGradual e q := by
  rcases lt_or_ge q (1 / 2 ^ e) with g | g
  · rw [rndGradual_small (q := q) (by rwa [abs_of_nonneg h])]
    have h0 := rndGrid_nonneg (e := e + 52) h
    rcases lt_or_eq_of_le (rndGrid_small_le h g.le) with g' | g'
    · rw [rndGradual_small (by rwa [abs_of_nonneg h0]), rndGrid_of_nonneg h, rndGrid_exact]
    · rw [g', rndGradual_large (le_abs_self _), rnd64_two_inv]
  · have g' := rnd64_large g
    have h0 := rnd64_nonneg h
    rw [rndGradual_large (q := q) (by rwa [abs_of_nonneg h]), rndGradual_large (by rwa [abs_of_nonneg h0]),
      rnd64_idem_nonneg h]

theorem rndOk_gradual (e : Nat) : RndOk (rndGradual e) where
  one := by
    rw [rndGradual_large, rndOk_rnd64.one]
    rw [abs_one]
    exact div_le_one_of_le₀ (one_le_pow₀ (by norm_num)) (by positivity)
  zero := by
    have h : |(0 : ℚ)| < 1 / 2 ^ e := by rw [abs_zero]; positivity
    rw [rndGradual_small h]
    have := rndGrid_exact (e + 52) 0
    simpa using this
  mono a b hab := by
    rcases le_total 0 a with ha | ha
    · exact rndGradual_mono_nonneg ha hab
    · rcases le_total 0 b with hb | hb
      · have : rndGradual e a ≤ 0 := by
          have := rndGradual_nonneg (e := e) (q := -a) (by linarith)
          rw [rndGradual_neg] at this; linarith
        exact this.trans (rndGradual_nonneg hb)
      · have := rndGradual_mono_nonneg (e := e) (q := -b) (q' := -a) (by linarith) (by linarith)
        rw [rndGradual_neg, rndGradual_neg] at this
        linarith
  idem a := by
    rcases le_total 0 a with ha | ha
    · exact rndGradual_idem_nonneg ha
    · have := rndGradual_idem_nonneg (e := e) (q := -a) (by linarith)
      rw [rndGradual_neg, rndGradual_neg] at this
      linarith

theorem rndGradual_close {e : Nat} {q : ℚ} (h : 0 ≤ q) :
    |rndGradual e q - q| ≤ q / 2 ^ 53 + 1 / 2 ^ (e + 53) := by
  rcases lt_or_ge q (1 / 2 ^ e) with g | g
  · rw [rndGradual_small (by rwa [abs_of_nonneg h])]
    have := rndGrid_close (e := e + 52) h
    have e1 : (1 : ℚ) / 2 / 2 ^ (e + 52) = 1 / 2 ^ (e + 53) := by
      rw [div_div, ← pow_succ']
    rw [e1] at this
    have : 0 ≤ q / 2 ^ 53 := by positivity
    linarith
  · rw [rndGradual_large (by rwa [abs_of_nonneg h])]
    have := rnd64_close h
    have : (0 : ℚ) ≤ 1 / 2 ^ (e + 53) := by positivity
    linarith

theorem rnd64_nat {k : Nat} (h : k < 2 ^ 53) : rnd64 k = k := by
  rcases Nat.eq_zero_or_pos k with rfl | hk
  · simpa using rndOk_rnd64.zero
  have h0 : (0 : ℚ) ≤ k := by positivity
  have e1 := natAbs_div h0
  have hl : k.log2 ≤ 52 := by
    have := (Nat.log2_lt hk.ne').2 h
    omega
  have p1 := Nat.log2_self_le hk.ne'
  have p2 := Nat.lt_log2_self (n := k)
  rw [rnd64_of_nonneg h0]
  have := rndPos_exact (n := (k : ℚ).num.natAbs) (d := (k : ℚ).den) (m := k * 2 ^ (52 - k.log2))
    (e := -((52 - k.log2 : Nat) : ℤ)) (k : ℚ).pos ?_ ?_ ?_
  · rw [this, e1]
  · calc 2 ^ 52 = 2 ^ k.log2 * 2 ^ (52 - k.log2) := by rw [← pow_add]; congr 1; omega
      _ ≤ _ := Nat.mul_le_mul_right _ p1
  · calc k * 2 ^ (52 - k.log2) < 2 ^ (k.log2 + 1) * 2 ^ (52 - k.log2) :=
          Nat.mul_lt_mul_of_pos_right p2 (by positivity)
      _ = 2 ^ 53 := by rw [← pow_add]; congr 1; omega
  · rw [e1, zpow_neg, zpow_natCast]
    push_cast
    field_simp

theorem rnd64_int {k : Int} (h : k.natAbs < 2 ^ 53) : rnd64 k = k := by
  obtain ⟨n, rfl | rfl⟩ := Int.eq_nat_or_neg k
  · rw [Int.cast_natCast]; exact rnd64_nat (by simpa using h)
  · rw [Int.cast_neg, Int.cast_natCast, rnd64_neg, rnd64_nat (by simpa using h)]

theorem rndGrid_exact_int (e : Nat) (k : Int) : rndGrid e ((k : ℚ) / 2 ^ e) = k / 2 ^ e := by
  obtain ⟨n, rfl | rfl⟩ := Int.eq_nat_or_neg k
  · rw [Int.cast_natCast]; exact rndGrid_exact e n
  · rw [Int.cast_neg, Int.cast_natCast, neg_div, rndGrid_neg, rndGrid_exact]

/-- on multiples of the grid width there is no underflow -/
theorem rndGradual_multiple (e : Nat) (k : Int) :
    rndGradual e ((k : ℚ) / 2 ^ (e + 52)) = rnd64 ((k : ℚ) / 2 ^ (e + 52)) := by
  have h2 : (0 : ℚ) < 2 ^ e := by positivity
  have h3 : (0 : ℚ) < 2 ^ (e + 52) := by positivity
  rcases lt_or_ge |(k : ℚ) / 2 ^ (e + 52)| (1 / 2 ^ e) with g | g
  · rw [rndGradual_small g, rndGrid_exact_int]
    have hk : k.natAbs < 2 ^ 52 := by
      rw [abs_div, abs_of_pos h3, div_lt_div_iff₀ h3 h2, one_mul, pow_add] at g
      have : |(k : ℚ)| < 2 ^ 52 := by
        by_contra hc
        have := mul_le_mul_of_nonneg_right (not_lt.1 hc) h2.le
        linarith
      rw [← Int.cast_abs, Int.abs_eq_natAbs] at this
      exact_mod_cast this
    have := rnd64_zpow (-((e + 52 : Nat) : ℤ)) (k : ℚ)
    rw [rnd64_int (lt_trans hk (by norm_num)), zpow_neg, zpow_natCast] at this
    rw [div_eq_inv_mul]
    exact this.symm
  · rw [rndGradual_large g]

/-- nothing changes from the smallest normal number on -/
theorem rnd754_normal {q : ℚ} (h : 1 / 2 ^ 1022 ≤ |q|) : rnd754 q = rnd64 q := rndGradual_large h

theorem rndOk_rnd754 : RndOk rnd754 := rndOk_gradual 1022

theorem rnd754_neg (q : ℚ) : rnd754 (-q) = - rnd754 q := rndGradual_neg 1022 q

end Verif
