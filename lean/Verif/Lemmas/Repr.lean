import Verif.Model.Repr
import Verif.Spec.Repr
import Verif.Lemmas.Format
import Verif.Lemmas.Underflow
/-!
# Lemmas: the shortest decimal of a float
-/
namespace Verif
open Spec

/-! ## a number close to a float rounds to it -/

theorem rhe_near {a b k : Nat} (hb : 0 < b) (h : |(a / b : ℚ) - k| < 1 / 2) : roundHalfEven a b = k := by
  have h1 := roundHalfEven_close a b hb
  have h2 : |((roundHalfEven a b : Nat) : ℚ) - k| < 1 := by
    calc |((roundHalfEven a b : Nat) : ℚ) - k| ≤ |((roundHalfEven a b : Nat) : ℚ) - a / b| + |(a / b : ℚ) - k| :=
          abs_sub_le _ _ _
      _ < 1 := by linarith
  have h3 : |((roundHalfEven a b : Nat) : ℤ) - (k : ℤ)| < 1 := by exact_mod_cast h2
  have := Int.abs_lt_one_iff.1 h3
  omega

theorem rndGrid_near {e : Nat} {x y : ℚ} {k : Nat} (hx : x = k / 2 ^ e) (hy : 0 ≤ y)
    (h : |y - x| < 1 / 2 / 2 ^ e) : rndGrid e y = x := by
  rw [rndGrid_of_nonneg hy, hx]
  congr 2
  apply rhe_near y.pos
  have e1 := natAbs_div hy
  have h2 : (0 : ℚ) < 2 ^ e := by positivity
  have e3 : ((y.num.natAbs * 2 ^ e : Nat) : ℚ) / y.den = y * 2 ^ e := by
    conv_rhs => rw [← e1]
    push_cast; ring
  rw [e3]
  have : y * 2 ^ e - k = (y - x) * 2 ^ e := by rw [hx]; field_simp
  rw [this, abs_mul, abs_of_pos h2]
  rwa [lt_div_iff₀ h2] at h

/-- a binary64 number is `m * 2^e` with 53 bits -/
theorem rnd64_form {x : ℚ} (h0 : 0 < x) (hx : rnd64 x = x) :
    ∃ (m : Nat) (e : Int), 2 ^ 52 ≤ m ∧ m < 2 ^ 53 ∧ x = m * 2 ^ e := by
  have hn : 0 < x.num.natAbs := by
    have := Rat.num_pos.2 h0
    omega
  obtain ⟨e, a, b, hb, h1, h2, h3, h4⟩ := rndPos_spec x.num.natAbs x.den hn x.pos
  rw [natAbs_div h0.le] at h1
  rw [rnd64_of_nonneg h0.le, h4] at hx
  have hr := rhe_range hb h2 h3
  by_cases hm : roundHalfEven a b < 2 ^ 53
  · exact ⟨_, e, hr.1, hm, hx.symm⟩
  · refine ⟨2 ^ 52, e + 1, le_rfl, by norm_num, ?_⟩
    have : roundHalfEven a b = 2 ^ 53 := by omega
    rw [← hx, this, zpow_add_one₀ (by norm_num)]
    push_cast; ring

theorem rnd64_near {x y : ℚ} (h0 : 0 < x) (hx : rnd64 x = x) (h : |y - x| < x / 2 ^ 54) :
    rnd64 y = x := by
  obtain ⟨m, e, hm1, hm2, hxe⟩ := rnd64_form h0 hx
  have hy0 : 0 < y := by
    have := (abs_lt.1 h).1
    have : x / 2 ^ 54 ≤ x := div_le_self h0.le (by norm_num)
    linarith
  have hn : 0 < y.num.natAbs := by
    have := Rat.num_pos.2 hy0
    omega
  have pe : (0 : ℚ) < 2 ^ e := by positivity
  obtain ⟨e', a, b, hb, h1, h2, h3, h4⟩ := rndPos_spec y.num.natAbs y.den hn y.pos
  rw [natAbs_div hy0.le] at h1
  rw [rnd64_of_nonneg hy0.le, h4]
  have bq : (0 : ℚ) < b := by exact_mod_cast hb
  have ha : (2 : ℚ) ^ 52 ≤ a / b := by rw [le_div_iff₀ bq]; exact_mod_cast h2
  have ha' : (a / b : ℚ) < 2 ^ 53 := by rw [div_lt_iff₀ bq]; exact_mod_cast h3
  have m1 : (2 : ℚ) ^ 52 ≤ m := by exact_mod_cast hm1
  have m2 : (m : ℚ) ≤ 2 ^ 53 - 1 := by
    have : m + 1 ≤ 2 ^ 53 := hm2
    have : (m : ℚ) + 1 ≤ 2 ^ 53 := by exact_mod_cast this
    linarith
  -- `y` in units of `2 ^ e`
  have hz : |y / 2 ^ e - m| < m / 2 ^ 54 := by
    have e1 : y / 2 ^ e - m = (y - x) / 2 ^ e := by rw [hxe]; field_simp
    rw [e1, abs_div, abs_of_pos pe, div_lt_iff₀ pe]
    calc |y - x| < x / 2 ^ 54 := h
      _ = _ := by rw [hxe]; ring
  have hz' := abs_lt.1 hz
  have hq : (m : ℚ) / 2 ^ 54 < 1 / 2 := by rw [div_lt_iff₀ (by norm_num)]; linarith
  set z := y / 2 ^ e with hzdef
  have hrel : (a / b : ℚ) = z * 2 ^ (e - e') := by
    rw [h1, hzdef, zpow_sub₀ (by norm_num)]; field_simp
  -- the exponents agree or differ by one
  have hle : e' ≤ e := by
    by_contra hc
    have : (2 : ℚ) ^ (e - e') ≤ 2 ^ (-1 : ℤ) := zpow_le_zpow_right₀ (by norm_num) (by omega)
    have hzp : 0 < z := by positivity
    have : (a / b : ℚ) ≤ z * 2 ^ (-1 : ℤ) := by rw [hrel]; gcongr
    have h5 : (2 : ℚ) ^ (-1 : ℤ) = 1 / 2 := by norm_num
    rw [h5] at this
    linarith
  have hge : e - 1 ≤ e' := by
    by_contra hc
    have : (2 : ℚ) ^ (2 : ℤ) ≤ 2 ^ (e - e') := zpow_le_zpow_right₀ (by norm_num) (by omega)
    have hzp : 0 < z := by positivity
    have : z * 2 ^ (2 : ℤ) ≤ (a / b : ℚ) := by rw [hrel]; gcongr
    have h5 : (2 : ℚ) ^ (2 : ℤ) = 4 := by norm_num
    rw [h5] at this
    linarith
  rcases (by omega : e' = e ∨ e' = e - 1) with he | he
  · subst he
    rw [sub_self, zpow_zero, mul_one] at hrel
    rw [rhe_near (k := m) hb (by rw [hrel]; exact hz.trans hq), hxe]
  · subst he
    rw [sub_sub_cancel, zpow_one] at hrel
    have hm : m = 2 ^ 52 := by
      have h5 : z < 2 ^ 52 := by linarith
      have h6 : (m : ℚ) < 2 ^ 52 + 1 := by linarith
      have : m < 2 ^ 52 + 1 := by exact_mod_cast h6
      omega
    subst hm
    have : |(a / b : ℚ) - (2 ^ 53 : Nat)| < 1 / 2 := by
      rw [hrel]
      push_cast at hz ⊢
      rw [abs_lt] at hz ⊢
      norm_num at hz ⊢
      constructor <;> linarith [hz.1, hz.2]
    rw [rhe_near hb this, hxe, zpow_sub_one₀ (by norm_num)]
    push_cast; ring

theorem isFloat_onGrid {x : ℚ} (h : IsFloat x) : OnGrid x := by
  unfold IsFloat at h
  by_cases hs : |x| < 1 / 2 ^ 1022
  · rw [← h]
    unfold rnd754
    rw [rndGradual_small hs]
    unfold rndGrid
    split
    · exact Spec.OnGrid.neg ⟨(roundHalfEven _ _ : Nat), by rw [Int.cast_natCast]⟩
    · exact ⟨(roundHalfEven _ _ : Nat), by rw [Int.cast_natCast]⟩
  · rw [← h]
    unfold rnd754
    rw [rndGradual_large (not_lt.1 hs)]
    exact onGrid_of_large (not_lt.1 hs)

/-- what differs from a float by less than a quarter of its last bit rounds to it -/
theorem rnd754_near {x y : ℚ} (h0 : 0 < x) (hx : IsFloat x) (h : |y - x| < x / 2 ^ 54) :
    rnd754 y = x := by
  have hg := isFloat_onGrid hx
  have h64 : rnd64 x = x := hg.same.symm.trans hx
  have hy : x / 2 < y := by
    have := (abs_lt.1 h).1
    have : x / 2 ^ 54 ≤ x / 2 := by gcongr; norm_num
    linarith
  have hy0 : 0 < y := by linarith
  unfold rnd754
  by_cases hs : |y| < 1 / 2 ^ 1022
  · rw [rndGradual_small hs]
    rw [abs_of_pos hy0] at hs
    obtain ⟨k, hk⟩ := hg
    have hk0 : 0 ≤ k := by
      by_contra hc
      have : (k : ℚ) < 0 := by exact_mod_cast not_le.1 hc
      have : (k : ℚ) / 2 ^ 1074 < 0 := div_neg_of_neg_of_pos this (by positivity)
      linarith
    refine rndGrid_near (k := k.toNat) ?_ hy0.le ?_
    · rw [hk]; congr 1
      have : ((k.toNat : ℤ) : ℚ) = k := by rw [Int.toNat_of_nonneg hk0]
      exact_mod_cast this.symm
    · refine h.trans ?_
      have e1 : (1 : ℚ) / 2 / 2 ^ (1022 + 52) = (1 / 2 ^ 1022) / 2 ^ 53 := by
        rw [pow_add]; field_simp
      rw [e1]
      generalize (1 : ℚ) / 2 ^ 1022 = g at hs
      have : x < 2 * g := by linarith
      rw [show x / 2 ^ 54 = x / 2 / 2 ^ 53 by ring]
      gcongr
      linarith
  · rw [rndGradual_large (not_lt.1 hs)]
    exact rnd64_near h0 h64 h

/-! ## the digits -/

theorem isFloat_round (q : ℚ) : IsFloat (rnd754 q) := rndOk_rnd754.idem q

theorem isFloat_abs {x : ℚ} (h : IsFloat x) : IsFloat |x| := by
  rcases abs_choice x with e | e <;> rw [e]
  · exact h
  · unfold IsFloat at *; rw [rnd754_neg, h]

/-- between a number that rounds to `q` and `q` everything does -/
theorem rnd754_between {q a b : ℚ} (hq : IsFloat q) (ha : rnd754 a = q) (h : (a ≤ b ∧ b ≤ q) ∨ (q ≤ b ∧ b ≤ a)) :
    rnd754 b = q := by
  have m := rndOk_rnd754.mono
  rcases h with ⟨h1, h2⟩ | ⟨h1, h2⟩
  · exact le_antisymm ((m _ _ h2).trans hq.le) (ha ▸ m _ _ h1)
  · exact le_antisymm (ha ▸ m _ _ h2) (hq.symm.le.trans (m _ _ h1))

/-- `q` in units of the last of `d + 1` digits -/
theorem unit_bounds {q : ℚ} (h0 : 0 < q) (d : Nat) :
    (10 : ℚ) ^ d ≤ q / 10 ^ (Int.log 10 q - (d : Int)) ∧ q / 10 ^ (Int.log 10 q - (d : Int)) < 10 ^ (d + 1) := by
  have l1 := Int.zpow_log_le_self (b := 10) (by norm_num) h0
  have l2 := Int.lt_zpow_succ_log_self (b := 10) (by norm_num) q
  push_cast at l1 l2
  have hu : (0 : ℚ) < 10 ^ (Int.log 10 q - (d : Int)) := by positivity
  constructor
  · rw [le_div_iff₀ hu, ← zpow_natCast, ← zpow_add₀ (by norm_num)]
    simpa using l1
  · rw [div_lt_iff₀ hu, ← zpow_natCast, ← zpow_add₀ (by norm_num)]
    refine l2.trans_le (le_of_eq ?_)
    congr 1
    push_cast; ring

/-- The two candidates and the nearest of them. -/
theorem candidates {x : ℚ} (h0 : 0 ≤ x) :
    (⌊x⌋.toNat : ℚ) ≤ x ∧ x < ⌊x⌋.toNat + 1 ∧ (roundQ x = ⌊x⌋.toNat ∨ roundQ x = ⌊x⌋.toNat + 1) := by
  have f0 : 0 ≤ ⌊x⌋ := Int.floor_nonneg.2 h0
  have e1 : ((⌊x⌋.toNat : Nat) : ℚ) = (⌊x⌋ : ℚ) := by
    have : ((⌊x⌋.toNat : ℤ) : ℚ) = ⌊x⌋ := by rw [Int.toNat_of_nonneg f0]
    exact_mod_cast this
  have f1 := Int.floor_le x
  have f2 := Int.lt_floor_add_one x
  rw [e1]
  refine ⟨f1, f2, ?_⟩
  have h := abs_le.1 (roundQ_close h0)
  rw [← e1] at f1 f2
  have g1 : ((⌊x⌋.toNat : Nat) : ℚ) < roundQ x + 1 := by linarith
  have g2 : (roundQ x : ℚ) < (⌊x⌋.toNat : ℚ) + 2 := by linarith
  have g3 : ⌊x⌋.toNat < roundQ x + 1 := by exact_mod_cast g1
  have g4 : roundQ x < ⌊x⌋.toNat + 2 := by exact_mod_cast g2
  omega

/-- what a successful attempt returns -/
structure Found (q : ℚ) (d : Nat) (p : Nat × Nat × Int) : Prop where
  le : p.1 ≤ d
  lower : 10 ^ p.1 ≤ p.2.1
  upper : p.2.1 < 10 ^ (p.1 + 1)
  back : rnd754 (p.2.1 * 10 ^ (p.2.2 - (p.1 : Int))) = q
  closest : ∀ k : Nat, rnd754 (k * 10 ^ (Int.log 10 q - (d : Int))) = q →
    |(p.2.1 * 10 ^ (p.2.2 - (p.1 : Int)) : ℚ) - q| ≤ |(k * 10 ^ (Int.log 10 q - (d : Int)) : ℚ) - q|

theorem reprNorm_value (d k : Nat) (e : Int) :
    ((reprNorm d k e).2.1 : ℚ) * 10 ^ ((reprNorm d k e).2.2 - ((reprNorm d k e).1 : Int)) =
      k * 10 ^ (e - (d : Int)) := by
  unfold reprNorm
  split
  · rename_i h
    subst h
    push_cast
    rw [← zpow_natCast, ← zpow_add₀ (by norm_num), one_mul]
    congr 1
    push_cast; ring
  · rfl

theorem reprNorm_found {q : ℚ} {d k : Nat} {e : Int} (h1 : 10 ^ d ≤ k) (h2 : k ≤ 10 ^ (d + 1))
    (hb : rnd754 (k * 10 ^ (e - (d : Int))) = q)
    (hc : ∀ j : Nat, rnd754 (j * 10 ^ (Int.log 10 q - (d : Int))) = q →
      |(k * 10 ^ (e - (d : Int)) : ℚ) - q| ≤ |(j * 10 ^ (Int.log 10 q - (d : Int)) : ℚ) - q|) :
    Found q d (reprNorm d k e) := by
  have hv := reprNorm_value d k e
  refine ⟨?_, ?_, ?_, hv ▸ hb, hv ▸ hc⟩ <;> unfold reprNorm <;> split
  · exact Nat.zero_le _
  · exact le_rfl
  · exact le_rfl
  · exact h1
  · norm_num
  · exact lt_of_le_of_ne h2 ‹_›

theorem reprTry_found {q : ℚ} (h0 : 0 < q) (hq : IsFloat q) {d : Nat} {p : Nat × Nat × Int}
    (h : reprTry q d = some p) : Found q d p := by
  obtain ⟨b1, b2⟩ := unit_bounds h0 d
  have hu : (0 : ℚ) < 10 ^ (Int.log 10 q - (d : Int)) := by positivity
  unfold reprTry at h
  dsimp only at h
  have hx : q = q / 10 ^ (Int.log 10 q - (d : Int)) * 10 ^ (Int.log 10 q - (d : Int)) := by field_simp
  obtain ⟨c1, c2, c3⟩ := candidates (x := q / 10 ^ (Int.log 10 q - (d : Int))) (by positivity)
  have hcl := roundQ_close (q := q / 10 ^ (Int.log 10 q - (d : Int))) (by positivity)
  have dist : ∀ k : Nat, |(k * 10 ^ (Int.log 10 q - (d : Int)) : ℚ) - q| =
      |(k : ℚ) - q / 10 ^ (Int.log 10 q - (d : Int))| * 10 ^ (Int.log 10 q - (d : Int)) := by
    intro k
    rw [← abs_of_pos hu, ← abs_mul, abs_of_pos hu, sub_mul, ← hx]
  have hbtw : ∀ a b : Nat, rnd754 (a * 10 ^ (Int.log 10 q - (d : Int))) = q →
      ((a ≤ b ∧ (b : ℚ) ≤ q / 10 ^ (Int.log 10 q - (d : Int))) ∨
        (q / 10 ^ (Int.log 10 q - (d : Int)) ≤ b ∧ b ≤ a)) →
      rnd754 (b * 10 ^ (Int.log 10 q - (d : Int))) = q := by
    intro a b ha hab
    refine rnd754_between hq ha ?_
    rcases hab with ⟨h1, h2⟩ | ⟨h1, h2⟩
    · have : (a : ℚ) ≤ b := by exact_mod_cast h1
      exact .inl ⟨by gcongr, by rwa [le_div_iff₀ hu] at h2⟩
    · have : (b : ℚ) ≤ a := by exact_mod_cast h2
      exact .inr ⟨by rwa [div_le_iff₀ hu] at h1, by gcongr⟩
  generalize q / 10 ^ (Int.log 10 q - (d : Int)) = x at *
  generalize hlo : ⌊x⌋.toNat = lo at *
  generalize hn : roundQ x = n at *
  have lo1 : 10 ^ d ≤ lo := by
    have : (10 : ℚ) ^ d < lo + 1 := lt_of_le_of_lt b1 c2
    have : 10 ^ d < lo + 1 := by exact_mod_cast this
    omega
  have lo2 : lo + 1 ≤ 10 ^ (d + 1) := by
    have : (lo : ℚ) < 10 ^ (d + 1) := lt_of_le_of_lt c1 b2
    have : lo < 10 ^ (d + 1) := by exact_mod_cast this
    omega
  generalize ho' : (if n = lo then lo + 1 else lo) = o at h
  split at h
  · rename_i hb
    obtain rfl := Option.some.inj h
    refine reprNorm_found (by omega) (by omega) hb fun j hj => ?_
    rw [dist, dist]
    refine mul_le_mul_of_nonneg_right ?_ hu.le
    rcases le_or_gt j lo with hj' | hj'
    · have hj'' : (j : ℚ) ≤ lo := by exact_mod_cast hj'
      rcases c3 with rfl | rfl
      · rw [abs_of_nonpos (by linarith), abs_of_nonpos (by linarith)]; linarith
      · refine hcl.trans ?_
        have := abs_le.1 hcl
        push_cast at this
        rw [abs_of_nonpos (by linarith)]; linarith
    · have hj'' : (lo : ℚ) + 1 ≤ j := by exact_mod_cast hj'
      rcases c3 with rfl | rfl
      · refine hcl.trans ?_
        have := abs_le.1 hcl
        rw [abs_of_nonneg (by linarith)]; linarith
      · push_cast
        rw [abs_of_nonneg (by linarith), abs_of_nonneg (by linarith)]; linarith
  · rename_i hnb
    split at h
    · rename_i hb
      obtain rfl := Option.some.inj h
      have ho : o = lo ∨ o = lo + 1 := by
        rw [← ho']
        split
        · exact .inr rfl
        · exact .inl rfl
      refine reprNorm_found (by omega) (by omega) hb fun j hj => ?_
      rw [dist, dist]
      refine mul_le_mul_of_nonneg_right ?_ hu.le
      rcases c3 with rfl | rfl
      · rw [if_pos rfl] at ho'
        subst ho'
        have hj' : n < j := by
          by_contra hc
          exact hnb (hbtw j n hj (.inl ⟨by omega, c1⟩))
        have hj'' : (n : ℚ) + 1 ≤ j := by exact_mod_cast hj'
        push_cast
        rw [abs_of_nonneg (by linarith), abs_of_nonneg (by linarith)]; linarith
      · rw [if_neg (by omega)] at ho'
        subst ho'
        have hj' : j ≤ lo := by
          by_contra hc
          exact hnb (hbtw j (lo + 1) hj (.inr ⟨by push_cast; linarith, by omega⟩))
        have hj'' : (j : ℚ) ≤ lo := by exact_mod_cast hj'
        rw [abs_of_nonpos (by linarith), abs_of_nonpos (by linarith)]; linarith
    · cases h

/-- If any multiple of the unit reads as `q` the attempt succeeds. -/
theorem reprTry_some {q : ℚ} (h0 : 0 < q) (hq : IsFloat q) {d k : Nat}
    (hk : rnd754 (k * 10 ^ (Int.log 10 q - (d : Int))) = q) : ∃ p, reprTry q d = some p := by
  have hu : (0 : ℚ) < 10 ^ (Int.log 10 q - (d : Int)) := by positivity
  unfold reprTry
  dsimp only
  obtain ⟨c1, c2, c3⟩ := candidates (x := q / 10 ^ (Int.log 10 q - (d : Int))) (by positivity)
  rw [le_div_iff₀ hu] at c1
  rw [div_lt_iff₀ hu] at c2
  generalize ⌊q / 10 ^ (Int.log 10 q - (d : Int))⌋.toNat = lo at *
  generalize roundQ (q / 10 ^ (Int.log 10 q - (d : Int))) = n at *
  generalize (10 : ℚ) ^ (Int.log 10 q - (d : Int)) = u at *
  have hor : rnd754 (lo * u) = q ∨ rnd754 ((lo + 1 : Nat) * u) = q := by
    rcases le_or_gt k lo with h | h
    · have : (k : ℚ) ≤ lo := by exact_mod_cast h
      exact .inl (rnd754_between hq hk (.inl ⟨by gcongr, c1⟩))
    · have : ((lo + 1 : Nat) : ℚ) ≤ k := by exact_mod_cast h
      exact .inr (rnd754_between hq hk (.inr ⟨by push_cast; exact c2.le, by gcongr⟩))
  by_cases h1 : rnd754 (n * u) = q
  · rw [if_pos h1]; exact ⟨_, rfl⟩
  · rw [if_neg h1]
    have h2 : rnd754 ((if n = lo then lo + 1 else lo : Nat) * u) = q := by
      rcases c3 with rfl | rfl
      · rw [if_pos rfl]
        exact hor.resolve_left h1
      · rw [if_neg (by omega)]
        exact hor.resolve_right h1
    rw [if_pos h2]; exact ⟨_, rfl⟩

/-- Seventeen digits are enough. -/
theorem reprTry_sixteen {q : ℚ} (h0 : 0 < q) (hq : IsFloat q) : ∃ p, reprTry q 16 = some p := by
  refine reprTry_some h0 hq (k := roundQ (q / 10 ^ (Int.log 10 q - ((16 : Nat) : Int)))) ?_
  obtain ⟨b1, -⟩ := unit_bounds h0 16
  have hu : (0 : ℚ) < 10 ^ (Int.log 10 q - ((16 : Nat) : Int)) := by positivity
  have hcl := roundQ_close (q := q / 10 ^ (Int.log 10 q - ((16 : Nat) : Int))) (by positivity)
  apply rnd754_near h0 hq
  rw [le_div_iff₀ hu] at b1
  generalize (10 : ℚ) ^ (Int.log 10 q - ((16 : Nat) : Int)) = u at *
  have e1 : (roundQ (q / u) : ℚ) * u - q = ((roundQ (q / u) : ℚ) - q / u) * u := by field_simp
  rw [e1, abs_mul, abs_of_pos hu]
  have : |(roundQ (q / u) : ℚ) - q / u| * u ≤ 1 / 2 * u := by gcongr
  have : (1 : ℚ) / 2 * u < q / 2 ^ 54 := by
    rw [lt_div_iff₀ (by norm_num)]
    norm_num at b1 ⊢
    linarith
  linarith

/-- What `repr` finds: it reads back, with the fewest digits. -/
theorem reprParts_found {q : ℚ} (h0 : 0 < q) (hq : IsFloat q) :
    ∃ d < 17, Found q d (reprParts q) ∧ ∀ j < d, reprTry q j = none := by
  unfold reprParts
  cases hf : (List.range 17).findSome? (reprTry q) with
  | none =>
      rw [List.findSome?_eq_none_iff] at hf
      obtain ⟨p, hp⟩ := reprTry_sixteen h0 hq
      rw [hf 16 (by simp)] at hp
      cases hp
  | some p =>
      rw [Option.getD_some]
      obtain ⟨l1, d, l2, h1, h2, h3⟩ := List.findSome?_eq_some_iff.1 hf
      have hd : l1.length < 17 ∧ d = l1.length := by
        have e1 := congrArg List.length h1
        simp only [List.length_range, List.length_append, List.length_cons] at e1
        have e2 : (List.range 17)[l1.length]? = some d := by
          rw [h1]; simp
        rw [List.getElem?_range (by omega)] at e2
        exact ⟨by omega, (Option.some.inj e2).symm⟩
      refine ⟨d, by omega, reprTry_found h0 hq h2, fun j hj => h3 j ?_⟩
      have e2 : (List.range 17)[j]? = some j := List.getElem?_range (by omega)
      rw [h1, List.getElem?_append_left (by omega)] at e2
      exact List.mem_of_getElem? e2

/-! ## the text -/

theorem readAbs_noPoint {ip r : Text} (h1 : ip ≠ []) (h2 : ∀ c ∈ ip, IsDig c) :
    readAbs (ip ++ 'e' :: r) = (readDigits 0 ip).bind fun n =>
      (readExp ('e' :: r)).map fun e : Int => (n : ℚ) * 10 ^ e := by
  have hmant : ∀ c ∈ ip, (c != 'e') = true := fun c hc => by
    simpa using (h2 c hc).ne digitVal_e
  have hstop : ∀ c, ('e' :: r).head? = some c → (c != 'e') = false := by
    intro c hc
    simp only [List.head?_cons, Option.some.injEq] at hc
    simp [← hc]
  have hip : ∀ c ∈ ip, (c != '.') = true := fun c hc => by
    simpa using (h2 c hc).ne digitVal_dot
  unfold readAbs
  simp only
  have e1 := takeWhile_stop (l := ip) (k := []) hip (by simp)
  have e2 := dropWhile_stop (l := ip) (k := []) hip (by simp)
  rw [List.append_nil] at e1 e2
  rw [takeWhile_stop hmant hstop, dropWhile_stop hmant hstop, e1, e2, if_neg h1]
  simp

theorem zeros_dig (k : Nat) : ∀ c ∈ List.replicate k '0', IsDig c := by
  intro c hc
  rw [List.eq_of_mem_replicate hc]
  exact isDig_digitCh (d := 0) (by norm_num)

theorem readDigits_zeros : ∀ (k acc : Nat), readDigits acc (List.replicate k '0') = some (acc * 10 ^ k)
  | 0, acc => by simp [readDigits]
  | k + 1, acc => by
      rw [List.replicate_succ]
      show (digitVal '0').bind _ = _
      rw [show digitVal '0' = some 0 by decide, Option.bind_some, readDigits_zeros k]
      congr 1
      ring

/-- The layout shows the mantissa and the exponent. -/
theorem readAbs_layout {d m : Nat} (e : Int) (hm : m < 10 ^ (d + 1)) :
    readAbs (reprLayout d m e) = some ((m : ℚ) * 10 ^ (e - (d : Int))) := by
  have hds := padDigits_dig (d + 1) m
  have hl := padDigits_length (d + 1) m
  have hr : ∀ acc, readDigits acc (padDigits (d + 1) m) = some (acc * 10 ^ (d + 1) + m) := by
    intro acc
    rw [readDigits_pad, Nat.mod_eq_of_lt hm]
  have hne : ∀ k, (padDigits (d + 1) m).take (k + 1) ≠ [] := by
    intro k h
    have := congrArg List.length h
    simp [hl] at this
  unfold reprLayout
  dsimp only
  generalize padDigits (d + 1) m = ds at *
  by_cases h1 : -4 ≤ e ∧ e < 16
  · rw [if_pos h1]
    by_cases h2 : e < 0
    · rw [if_pos h2]
      have := readAbs_plain (ip := ['0']) (fp := List.replicate (-e - 1).toNat '0' ++ ds) (ex := [])
        (by simp) (zeros_dig 1)
        (fun c hc => (List.mem_append.1 hc).elim (zeros_dig _ c) (hds c)) (.inl rfl)
      rw [List.append_nil] at this
      have e0 : ('0' :: '.' :: (List.replicate (-e - 1).toNat '0' ++ ds)) =
        ['0'] ++ '.' :: (List.replicate (-e - 1).toNat '0' ++ ds) := rfl
      rw [e0, this, readDigits_append, show (['0'] : Text) = List.replicate 1 '0' from rfl, readDigits_zeros,
        Option.bind_some, readDigits_append, readDigits_zeros, Option.bind_some, hr, Option.bind_some]
      simp only [readExp, Option.map_some, Option.some.injEq, List.length_append, List.length_replicate, hl]
      rw [show (0 : Int) - (((-e - 1).toNat + (d + 1) : Nat) : Int) = e - d by omega]
      simp
    · rw [if_neg h2]
      by_cases h3 : (d : Int) ≤ e
      · rw [if_pos h3]
        have := readAbs_plain (ip := ds ++ List.replicate (e - d).toNat '0') (fp := ['0']) (ex := [])
          (by intro h; have := congrArg List.length h; simp [hl] at this)
          (fun c hc => (List.mem_append.1 hc).elim (hds c) (zeros_dig _ c)) (zeros_dig 1) (.inl rfl)
        rw [List.append_nil] at this
        have e0 : ds ++ List.replicate (e - d).toNat '0' ++ ['.', '0'] =
          ds ++ List.replicate (e - d).toNat '0' ++ '.' :: ['0'] := rfl
        rw [e0, this, readDigits_append, readDigits_append, hr, Option.bind_some, readDigits_zeros,
          Option.bind_some, show (['0'] : Text) = List.replicate 1 '0' from rfl, readDigits_zeros,
          Option.bind_some]
        simp only [readExp, Option.map_some, Option.some.injEq, List.length_replicate]
        have e5 : (10 : ℚ) ^ (e - (d : Int)) = 10 ^ (e - d).toNat := by
          rw [← zpow_natCast, Int.toNat_of_nonneg (by omega)]
        rw [e5]
        push_cast
        simp
      · rw [if_neg h3]
        have := readAbs_plain (ip := ds.take (e.toNat + 1)) (fp := ds.drop (e.toNat + 1)) (ex := [])
          (hne _) (fun c hc => hds c (List.mem_of_mem_take hc)) (fun c hc => hds c (List.mem_of_mem_drop hc))
          (.inl rfl)
        rw [List.append_nil] at this
        rw [this, List.take_append_drop, hr, Option.bind_some]
        simp only [readExp, Option.map_some, Option.some.injEq, List.length_drop, hl]
        rw [show (0 : Int) - ((d + 1 - (e.toNat + 1) : Nat) : Int) = e - d by omega]
        simp
  · rw [if_neg h1]
    by_cases hd : d = 0
    · rw [if_pos hd, List.append_nil]
      subst hd
      have e0 : ds.take 1 = ds := List.take_of_length_le (by omega)
      rw [e0, readAbs_noPoint (by intro h; rw [h] at hl; simp at hl) hds, hr, Option.bind_some, readExp_expText]
      simp
    · rw [if_neg hd, readAbs_plain (hne 0) (fun c hc => hds c (List.mem_of_mem_take hc))
        (fun c hc => hds c (List.mem_of_mem_drop hc)) (.inr ⟨_, rfl⟩), List.take_append_drop, hr,
        Option.bind_some, readExp_expText]
      simp only [Option.map_some, Option.some.injEq, List.length_drop, hl]
      rw [show ((d + 1 - 1 : Nat) : Int) = d by omega]
      simp

theorem layout_head (d m : Nat) (e : Int) : ∃ c r, reprLayout d m e = c :: r ∧ IsDig c := by
  have hds := padDigits_dig (d + 1) m
  have hl := padDigits_length (d + 1) m
  unfold reprLayout
  dsimp only
  generalize padDigits (d + 1) m = ds at *
  cases ds with
  | nil => simp at hl
  | cons c ds =>
      have hc := hds c (by simp)
      split
      · split
        · exact ⟨_, _, rfl, zeros_dig 1 _ (by simp)⟩
        · split
          · exact ⟨_, _, rfl, hc⟩
          · exact ⟨_, _, rfl, hc⟩
      · exact ⟨_, _, rfl, hc⟩

/-- the characters of a number -/
def NumChar (c : Char) : Prop := IsDig c ∨ c ∈ ['.', 'e', '+', '-']

theorem NumChar.blank {c : Char} (h : NumChar c) : isBlank c = false := by
  rcases h with h | h
  · exact isDig_blank h
  · revert h; revert c; decide

theorem NumChar.slash {c : Char} (h : NumChar c) : c ≠ '/' := by
  rcases h with h | h
  · exact h.ne digitVal_slash
  · revert h; revert c; decide

theorem expText_chars (e : Int) : ∀ c ∈ expText e, NumChar c := by
  intro c hc
  unfold expText at hc
  rcases List.mem_cons.1 hc with h | h
  · right
    rw [h]
    split <;> decide
  · left
    split at h
    · exact padDigits_dig _ _ c h
    · exact natText_dig _ c h

theorem layout_chars (d m : Nat) (e : Int) : ∀ c ∈ reprLayout d m e, NumChar c := by
  have hds := padDigits_dig (d + 1) m
  have hdot : NumChar '.' := .inr (by decide)
  have he : NumChar 'e' := .inr (by decide)
  have h0 : NumChar '0' := .inl (zeros_dig 1 _ (by simp))
  intro c hc
  unfold reprLayout at hc
  dsimp only at hc
  generalize padDigits (d + 1) m = ds at *
  split at hc
  · split at hc
    · simp only [List.mem_cons, List.mem_append] at hc
      rcases hc with rfl | rfl | h | h
      · exact h0
      · exact hdot
      · exact .inl (zeros_dig _ c h)
      · exact .inl (hds c h)
    · split at hc
      · simp only [List.mem_cons, List.mem_append, List.not_mem_nil, or_false] at hc
        rcases hc with (h | h) | rfl | rfl
        · exact .inl (hds c h)
        · exact .inl (zeros_dig _ c h)
        · exact hdot
        · exact h0
      · simp only [List.mem_cons, List.mem_append] at hc
        rcases hc with h | rfl | h
        · exact .inl (hds c (List.mem_of_mem_take h))
        · exact hdot
        · exact .inl (hds c (List.mem_of_mem_drop h))
  · simp only [List.mem_cons, List.mem_append] at hc
    rcases hc with (h | h) | rfl | h
    · exact .inl (hds c (List.mem_of_mem_take h))
    · split at h
      · cases h
      · rcases List.mem_cons.1 h with rfl | h
        · exact hdot
        · exact .inl (hds c (List.mem_of_mem_drop h))
    · exact he
    · exact expText_chars e c h

theorem pyRepr_chars (q : ℚ) : ∀ c ∈ pyRepr q, NumChar c := by
  intro c hc
  unfold pyRepr at hc
  dsimp only at hc
  split at hc
  · have : c ∈ ['0', '.'] := by
      have : c ∈ ['0', '.', '0'] := hc
      simp only [List.mem_cons, List.not_mem_nil, or_false] at this ⊢
      tauto
    rcases List.mem_cons.1 this with rfl | h
    · exact .inl (zeros_dig 1 _ (by simp))
    · rw [List.mem_singleton.1 h]; exact .inr (by decide)
  · rcases List.mem_append.1 hc with h | h
    · unfold signText at h
      split at h
      · rw [List.mem_singleton.1 h]; exact .inr (by decide)
      · cases h
    · exact layout_chars _ _ _ c h

theorem pyRepr_ne (q : ℚ) : pyRepr q ≠ [] := by
  unfold pyRepr
  dsimp only
  split
  · decide
  · obtain ⟨c, r, h, -⟩ := layout_head (reprParts |rnd754 q|).1 (reprParts |rnd754 q|).2.1 (reprParts |rnd754 q|).2.2
    rw [h]
    simp

theorem pyRepr_word (q : ℚ) : Word (pyRepr q) :=
  ⟨pyRepr_ne q, fun c hc => (pyRepr_chars q c hc).blank⟩

theorem pyRepr_slash (q : ℚ) : '/' ∉ pyRepr q := fun h => (pyRepr_chars q _ h).slash rfl

/-- what `repr` shows of a float other than zero -/
theorem pyRepr_value {x : ℚ} (hx : IsFloat x) (h0 : x ≠ 0) :
    readNum (pyRepr x) = some (if x < 0 then
      -(((reprParts |x|).2.1 : ℚ) * 10 ^ ((reprParts |x|).2.2 - ((reprParts |x|).1 : Int)))
      else ((reprParts |x|).2.1 : ℚ) * 10 ^ ((reprParts |x|).2.2 - ((reprParts |x|).1 : Int))) := by
  have hp : 0 < |x| := abs_pos.2 h0
  obtain ⟨d, -, hf, -⟩ := reprParts_found hp (isFloat_abs hx)
  unfold pyRepr
  dsimp only
  rw [show rnd754 x = x from hx, if_neg h0]
  exact readNum_sign x (layout_head _ _ _) (readAbs_layout _ hf.upper)

theorem rnd754_neg_eq {x : ℚ} (h : x < 0) (v : ℚ) : rnd754 (-v) = x ↔ rnd754 v = |x| := by
  rw [rnd754_neg, abs_of_neg h]
  constructor
  · intro h'; linarith
  · intro h'; linarith

/-- `repr` reads back as the float. -/
theorem pyRepr_back (q : ℚ) : ReadsBack (pyRepr q) (rnd754 q) := by
  have hx := isFloat_round q
  have hq : pyRepr q = pyRepr (rnd754 q) := by
    unfold pyRepr
    rw [rndOk_rnd754.idem]
  rw [hq]
  generalize rnd754 q = x at hx
  by_cases h0 : x = 0
  · subst h0
    refine ⟨0, ?_, rndOk_rnd754.zero⟩
    have e1 : pyRepr 0 = "0.0".toList := by
      unfold pyRepr
      dsimp only
      rw [rndOk_rnd754.zero, if_pos rfl]
    rw [e1]
    decide +kernel
  · obtain ⟨d, -, hf, -⟩ := reprParts_found (abs_pos.2 h0) (isFloat_abs hx)
    refine ⟨_, pyRepr_value hx h0, ?_⟩
    split
    · rename_i hneg
      rw [rnd754_neg_eq hneg]
      exact hf.back
    · rename_i hpos
      have := hf.back
      rwa [abs_of_nonneg (not_lt.1 hpos)] at this ⊢

theorem Spec.ReadsBack.unique {t : Text} {x y : ℚ} (h : ReadsBack t x) (h' : ReadsBack t y) : x = y := by
  obtain ⟨v, h1, h2⟩ := h
  obtain ⟨w, h3, h4⟩ := h'
  rw [h1] at h3
  obtain rfl := Option.some.inj h3
  exact h2.symm.trans h4

theorem pyRepr_inj {x y : ℚ} (h : pyRepr x = pyRepr y) : rnd754 x = rnd754 y :=
  (h ▸ pyRepr_back x).unique (pyRepr_back y)

end Verif
