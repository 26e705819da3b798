import Verif.Spec.Underflow
import Verif.Lemmas.AccuracyPaths
/-!
Where gradual underflow does not matter.
-/
namespace Verif
open Spec
variable {n m : Nat}

/-! ### multiples of the smallest number -/

theorem onGrid_zero : OnGrid 0 := ⟨0, by simp⟩

theorem Spec.OnGrid.neg {x : ℚ} (h : OnGrid x) : OnGrid (-x) := by
  obtain ⟨k, rfl⟩ := h
  exact ⟨-k, by rw [Int.cast_neg, neg_div]⟩

theorem Spec.OnGrid.add {x y : ℚ} (hx : OnGrid x) (hy : OnGrid y) : OnGrid (x + y) := by
  obtain ⟨k, rfl⟩ := hx
  obtain ⟨l, rfl⟩ := hy
  exact ⟨k + l, by rw [Int.cast_add, add_div]⟩

theorem Spec.OnGrid.max {x y : ℚ} (hx : OnGrid x) (hy : OnGrid y) : OnGrid (max x y) := by
  rcases max_choice x y with h | h <;> rw [h] <;> assumption

theorem Spec.OnGrid.abs {x : ℚ} (hx : OnGrid x) : OnGrid |x| := by
  rcases abs_choice x with h | h <;> rw [h]
  · exact hx
  · exact hx.neg

theorem Spec.OnGrid.intMul {x : ℚ} (hx : OnGrid x) (z : ℤ) : OnGrid (z * x) := by
  obtain ⟨k, rfl⟩ := hx
  exact ⟨z * k, by rw [Int.cast_mul, mul_div_assoc]⟩

theorem onGrid_int (z : ℤ) : OnGrid z :=
  ⟨z * 2 ^ 1074, by
    rw [Int.cast_mul, Int.cast_pow, Int.cast_ofNat, mul_div_assoc, div_self (by positivity), mul_one]⟩

/-- sums of binary64 numbers do not underflow -/
theorem Spec.OnGrid.same {x : ℚ} (h : OnGrid x) : rnd754 x = rnd64 x := by
  obtain ⟨k, rfl⟩ := h
  exact rndGradual_multiple 1022 k

/-- 53 bits starting at `2^(-e)` or above end at `2^(-e-52)` or above -/
theorem rnd64_grid {e : Nat} {x : ℚ} (h0 : 0 < x) (h : 1 / 2 ^ e ≤ x) :
    ∃ k : ℤ, rnd64 x = k / 2 ^ (e + 52) := by
  rw [rnd64_of_nonneg h0.le]
  have hn : 0 < x.num.natAbs := by
    have := Rat.num_pos.2 h0
    omega
  obtain ⟨e', a, b, hb, h1, h2, h3, h4⟩ := rndPos_spec x.num.natAbs x.den hn x.pos
  rw [natAbs_div h0.le] at h1
  rw [h4]
  have hbq : (0 : ℚ) < b := by exact_mod_cast hb
  have h2e : (0 : ℚ) < 2 ^ e' := by positivity
  have hlt : x < 2 ^ 53 * 2 ^ e' := by
    have : (a / b : ℚ) < 2 ^ 53 := by
      rw [div_lt_iff₀ hbq]
      exact_mod_cast h3
    rw [h1, div_lt_iff₀ h2e] at this
    exact this
  have hz : (2 : ℚ) ^ (-(e : ℤ)) < 2 ^ ((53 : ℤ) + e') := by
    rw [zpow_add₀ (by norm_num), zpow_neg, zpow_natCast, inv_eq_one_div]
    exact lt_of_le_of_lt h (by exact_mod_cast hlt)
  have hle : -(e : ℤ) < 53 + e' := (zpow_lt_zpow_iff_right₀ (by norm_num)).1 hz
  obtain ⟨j, hj⟩ := Int.eq_ofNat_of_zero_le (a := e' + (e + 52)) (by omega)
  refine ⟨(roundHalfEven a b * 2 ^ j : ℕ), ?_⟩
  have : (2 : ℚ) ^ e' = 2 ^ j / 2 ^ (e + 52) := by
    rw [eq_div_iff (by positivity), ← zpow_natCast, ← zpow_natCast, ← zpow_add₀ (by norm_num)]
    congr 1
  rw [this]
  generalize roundHalfEven a b = z
  push_cast
  rw [mul_div_assoc]

theorem onGrid_of_large {x : ℚ} (h : 1 / 2 ^ 1022 ≤ |x|) : OnGrid (rnd64 x) := by
  have hp : (0 : ℚ) < 1 / 2 ^ 1022 := by positivity
  rcases le_total 0 x with hx | hx
  · rw [abs_of_nonneg hx] at h
    exact rnd64_grid (lt_of_lt_of_le hp h) h
  · rw [abs_of_nonpos hx] at h
    have : OnGrid (rnd64 (-x)) := rnd64_grid (lt_of_lt_of_le hp h) h
    rw [rnd64_neg] at this
    simpa using this.neg

theorem Spec.OnGrid.round {x : ℚ} (h : OnGrid x) : OnGrid (rnd64 x) := by
  rcases lt_or_ge |x| (1 / 2 ^ 1022) with g | g
  · rw [← h.same]
    obtain ⟨k, rfl⟩ := h
    refine ⟨k, ?_⟩
    show rndGradual 1022 _ = _
    rw [rndGradual_small g, rndGrid_exact_int]
  · exact onGrid_of_large g

/-! ### the three matrices -/

/-- rounded sums of multiples of the smallest number -/
theorem sumOverR_ieee (l : List (Fin m)) (f : Fin m → ℚ) (hf : ∀ r, OnGrid (f r)) :
    sumOverR rnd754 l f = sumOverR rnd64 l f ∧ OnGrid (sumOverR rnd64 l f) := by
  have : ∀ s, OnGrid s → l.foldl (fun s r => rnd754 (s + f r)) s = l.foldl (fun s r => rnd64 (s + f r)) s ∧
      OnGrid (l.foldl (fun s r => rnd64 (s + f r)) s) := by
    induction l with
    | nil => exact fun s hs => ⟨rfl, hs⟩
    | cons r l ih =>
      intro s hs
      have h := hs.add (hf r)
      rw [List.foldl_cons, List.foldl_cons, h.same]
      exact ih _ h.round
  exact this 0 onGrid_zero

theorem half_le_rnd64 {x : ℚ} {e : Nat} (h : 1 / 2 ^ e ≤ |x|) : 1 / 2 ^ e ≤ |rnd64 x| := by
  rcases le_total 0 x with hx | hx
  · rw [abs_of_nonneg hx] at h
    rw [abs_of_nonneg (rnd64_nonneg hx)]
    exact rnd64_large h
  · rw [abs_of_nonpos hx] at h
    have := rnd64_large h
    rw [rnd64_neg] at this
    exact this.trans (neg_le_abs _)

/-- rates of change do not underflow -/
theorem baseR_ieee {c : Chem n m} (h : NoUnderflow c) (a : Fin n) (r : Fin m) :
    baseR rnd754 c a r = baseR rnd64 c a r ∧ OnGrid (baseR rnd64 c a r) := by
  unfold baseR
  rcases h a r with ⟨z, hz, hd, hg⟩ | ⟨hd, hw⟩
  · rw [hd, (onGrid_int z).same, rnd64_int hz]
    exact ⟨(hg.intMul z).same, (hg.intMul z).round⟩
  · unfold Spec.rate at hw
    generalize c.prod a r - c.reac a r = d at hd hw
    generalize c.rop r = w at hw
    have h1 : (1 : ℚ) / 2 ^ 1022 ≤ 1 / 2 ^ 1021 :=
      one_div_le_one_div_of_le (by positivity) (pow_le_pow_right₀ (by norm_num) (by norm_num))
    have hd' : rnd754 d = rnd64 d := by
      rcases hd with rfl | hd
      · exact onGrid_zero.same
      · exact rnd754_normal (h1.trans hd)
    rw [hd']
    rcases hw with hw | hw
    · have : rnd64 d * w = 0 := by
        rcases mul_eq_zero.1 hw with rfl | rfl
        · rw [rndOk_rnd64.zero, zero_mul]
        · rw [mul_zero]
      rw [this]
      exact ⟨onGrid_zero.same, onGrid_zero.round⟩
    · have hb : 1 / 2 ^ 1022 ≤ |rnd64 d * w| := by
        have e1 := rounds_rnd64.err d
        have e2 : |d| / 2 ≤ |rnd64 d| := by
          have e3 : |d| ≤ |rnd64 d - d| + |rnd64 d| := by
            have := abs_sub (rnd64 d) (rnd64 d - d)
            rw [sub_sub_cancel] at this
            linarith
          have e4 := abs_nonneg d
          norm_num at e1
          linarith
        rw [abs_mul] at hw ⊢
        have e3 : (1 : ℚ) / 2 ^ 1022 = 1 / 2 ^ 1021 / 2 := by
          rw [div_div, ← pow_succ]
        rw [e3]
        calc 1 / 2 ^ 1021 / 2 ≤ |d| * |w| / 2 := by
              exact div_le_div_of_nonneg_right hw (by norm_num)
          _ = |d| / 2 * |w| := by ring
          _ ≤ _ := mul_le_mul_of_nonneg_right e2 (abs_nonneg _)
      exact ⟨rnd754_normal hb, onGrid_of_large hb⟩

/-- equal, or both too small to matter -/
def Same (x y : ℚ) : Prop := x = y ∨ (x ≤ 1 / 2 ^ 1022 ∧ y ≤ 1 / 2 ^ 1022)

theorem rnd_same {x : ℚ} (h0 : 0 ≤ x) : Same (rnd754 x) (rnd64 x) := by
  rcases lt_or_ge x (1 / 2 ^ 1022) with g | g
  · refine .inr ⟨?_, ?_⟩
    · show rndGradual 1022 x ≤ _
      rw [rndGradual_small (by rwa [abs_of_nonneg h0])]
      exact rndGrid_small_le h0 g.le
    · rw [← rnd64_two_inv 1022]
      exact rnd64_mono_nonneg h0 g.le
  · exact .inl (rnd754_normal (by rwa [abs_of_nonneg h0]))

theorem whereDivR_same {num : Mat n} {den : Fin n → ℚ} (h0 : ∀ a b, 0 ≤ num a b) (h1 : ∀ a, 0 ≤ den a)
    (a b : Fin n) : Same (whereDivR rnd754 num den a b) (whereDivR rnd64 num den a b) := by
  unfold whereDivR
  split_ifs
  · exact rnd_same (div_nonneg (h0 a b) (h1 a))
  · exact .inl rfl

theorem fillDiagonal_same {M M' : Mat n} (h : ∀ a b, Same (M a b) (M' a b)) (a b : Fin n) :
    Same (fillDiagonal M a b) (fillDiagonal M' a b) := by
  unfold fillDiagonal
  split_ifs
  · exact .inl rfl
  · exact h a b

theorem drg_same {c : Chem n m} (h : NoUnderflow c) (a b : Fin n) :
    Same (drgMatrixR rnd754 c a b) (drgMatrixR rnd64 c a b) := by
  unfold drgMatrixR
  split_ifs
  · exact .inl rfl
  dsimp only
  have hb : baseR rnd754 c = baseR rnd64 c := by funext a r; exact (baseR_ieee h a r).1
  rw [hb]
  have hs : ∀ a (l : List (Fin m)), sumOverR rnd754 l (fun r => |baseR rnd64 c a r|) =
      sumOverR rnd64 l (fun r => |baseR rnd64 c a r|) ∧ OnGrid (sumOverR rnd64 l (fun r => |baseR rnd64 c a r|)) :=
    fun a l => sumOverR_ieee l _ (fun r => (baseR_ieee h a r).2.abs)
  have h0 : ∀ a (l : List (Fin m)), 0 ≤ sumOverR rnd64 l (fun r => |baseR rnd64 c a r|) :=
    fun a l => sumOverR_nonneg rndOk_rnd64 l _ (fun r => abs_nonneg _)
  simp only [(hs _ _).1, zero_add, (hs _ _).2.same]
  refine fillDiagonal_same (fun a b => whereDivR_same (fun a b => ?_) (fun a => h0 a _) a b) a b
  exact rnd64_nonneg (h0 a _)

theorem drgep_same {c : Chem n m} (h : NoUnderflow c) (a b : Fin n) :
    Same (drgepMatrixR rnd754 c a b) (drgepMatrixR rnd64 c a b) := by
  unfold drgepMatrixR
  split_ifs
  · exact .inl rfl
  dsimp only
  have hb : baseR rnd754 c = baseR rnd64 c := by funext a r; exact (baseR_ieee h a r).1
  rw [hb]
  have s1 : ∀ a (l : List (Fin m)), sumOverR rnd754 l (fun r => max 0 (-baseR rnd64 c a r)) =
      sumOverR rnd64 l (fun r => max 0 (-baseR rnd64 c a r)) :=
    fun a l => (sumOverR_ieee l _ (fun r => onGrid_zero.max (baseR_ieee h a r).2.neg)).1
  have s2 : ∀ a (l : List (Fin m)), sumOverR rnd754 l (fun r => max 0 (baseR rnd64 c a r)) =
      sumOverR rnd64 l (fun r => max 0 (baseR rnd64 c a r)) :=
    fun a l => (sumOverR_ieee l _ (fun r => onGrid_zero.max (baseR_ieee h a r).2)).1
  have s3 : ∀ a (l : List (Fin m)), sumOverR rnd754 l (baseR rnd64 c a) = sumOverR rnd64 l (baseR rnd64 c a) ∧
      OnGrid (sumOverR rnd64 l (baseR rnd64 c a)) :=
    fun a l => sumOverR_ieee l _ (fun r => (baseR_ieee h a r).2)
  simp only [s1, s2, (s3 _ _).1, zero_add, (s3 _ _).2.same]
  refine fillDiagonal_same (fun a b => whereDivR_same (fun a b => abs_nonneg _) (fun a => ?_) a b) a b
  exact le_max_of_le_left (sumOverR_nonneg rndOk_rnd64 _ _ (fun r => le_max_left _ _))

/-- numbers whose products do not underflow -/
def Ample (x : ℚ) : Prop := x = 0 ∨ 1 / 2 ^ 511 ≤ x

theorem ample_mul {x y : ℚ} (hx : Ample x) (hy : Ample y) :
    rnd754 (x * y) = rnd64 (x * y) ∧ OnGrid (rnd64 (x * y)) := by
  have z : rnd754 0 = rnd64 0 ∧ OnGrid (rnd64 0) := ⟨onGrid_zero.same, onGrid_zero.round⟩
  rcases hx with rfl | hx
  · rwa [zero_mul]
  rcases hy with rfl | hy
  · rwa [mul_zero]
  have hp : (0 : ℚ) < 1 / 2 ^ 511 := by positivity
  have : 1 / 2 ^ 1022 ≤ |x * y| := by
    rw [abs_of_nonneg (mul_nonneg (hp.le.trans hx) (hp.le.trans hy))]
    calc (1 : ℚ) / 2 ^ 1022 = 1 / 2 ^ 511 * (1 / 2 ^ 511) := by
          rw [div_mul_div_comm, one_mul, ← pow_add]
      _ ≤ _ := mul_le_mul hx hy hp.le (hp.le.trans hx)
  exact ⟨rnd754_normal this, onGrid_of_large this⟩

theorem secondR_ieee {P : Mat n} (hP : ∀ a b, Ample (P a b)) (a b : Fin n) (l : List (Fin n)) (s : ℚ)
    (hs : OnGrid s) : secondR rnd754 P a b l s = secondR rnd64 P a b l s ∧ OnGrid (secondR rnd64 P a b l s) := by
  unfold secondR
  induction l generalizing s with
  | nil => exact ⟨rfl, hs⟩
  | cons k l ih =>
    rw [List.foldl_cons, List.foldl_cons]
    have h : rnd754 (if k = a ∨ k = b then 0 else P a k * P k b) =
        rnd64 (if k = a ∨ k = b then 0 else P a k * P k b) ∧
        OnGrid (rnd64 (if k = a ∨ k = b then 0 else P a k * P k b)) := by
      split_ifs
      · exact ⟨onGrid_zero.same, onGrid_zero.round⟩
      · exact ample_mul (hP a k) (hP k b)
    have h2 := hs.add h.2
    rw [h.1, h2.same]
    exact ih _ h2.round

theorem ample_onGrid {x : ℚ} (h : Ample x) (hx : rnd64 x = x) : OnGrid x := by
  rcases h with rfl | h
  · exact onGrid_zero
  · rw [← hx]
    have h1 : (1 : ℚ) / 2 ^ 1022 ≤ 1 / 2 ^ 511 :=
      one_div_le_one_div_of_le (by positivity) (pow_le_pow_right₀ (by norm_num) (by norm_num))
    exact onGrid_of_large ((h1.trans h).trans (le_abs_self _))

/-- a first-generation coefficient -/
theorem whereDivR_ample {num : Mat n} {den : Fin n → ℚ} (h0 : ∀ a b, 0 ≤ num a b) (h1 : ∀ a, 0 ≤ den a)
    {a b : Fin n} (h : Ample (whereDivR rnd64 num den a b)) :
    whereDivR rnd754 num den a b = whereDivR rnd64 num den a b ∧ OnGrid (whereDivR rnd64 num den a b) := by
  have hg : OnGrid (whereDivR rnd64 num den a b) := by
    refine ample_onGrid h ?_
    unfold whereDivR
    split_ifs
    · exact rndOk_rnd64.idem _
    · exact rndOk_rnd64.zero
  refine ⟨?_, hg⟩
  unfold whereDivR at h ⊢
  split_ifs at h ⊢
  · have hq := div_nonneg (h0 a b) (h1 a)
    generalize num a b / den a = q at h hq ⊢
    rcases h with h | h
    · have := (rounds_rnd64.rel q hq).1
      rw [h] at this
      have hq0 : q = 0 := by
        norm_num at this
        linarith
      rw [hq0]; exact onGrid_zero.same
    · rcases rnd_same hq with e | ⟨-, e⟩
      · exact e
      · exfalso
        have : (1 : ℚ) / 2 ^ 1022 < 1 / 2 ^ 511 :=
          one_div_lt_one_div_of_lt (by positivity) (pow_lt_pow_right₀ (by norm_num) (by norm_num))
        exact absurd (lt_of_lt_of_le this (h.trans e)) (lt_irrefl _)
  · rfl

theorem ample_within {m : Nat} (hm : 2 * m + 5 ≤ 2 ^ 51) {x y : ℚ} (hx : x = 0 ∨ 1 / 2 ^ 500 ≤ x)
    (h : Within ((1 - 1 / 2 ^ 53) ^ (m + 2) / (1 + 1 / 2 ^ 53) ^ (m + 2) * (1 - 1 / 2 ^ 53))
      ((1 + 1 / 2 ^ 53) ^ (m + 2) / (1 - 1 / 2 ^ 53) ^ (m + 2) * (1 + 1 / 2 ^ 53)) x y) : Ample y := by
  rcases hx with rfl | hx
  · left
    have h1 := h.1
    have h2 := h.2
    rw [mul_zero] at h1 h2
    exact le_antisymm h2 h1
  · right
    have h1 := h.1
    have e : ((1 : ℚ) - 1 / 2 ^ 53) ^ (m + 2) / (1 + 1 / 2 ^ 53) ^ (m + 2) * (1 - 1 / 2 ^ 53) =
        (1 - 1 / 2 ^ 53) ^ (m + 3) / (1 + 1 / 2 ^ 53) ^ (m + 2) := by
      rw [pow_succ _ (m + 2)]; ring
    rw [e] at h1
    have h2 := pow_ratio_low (u := (1 : ℚ) / 2 ^ 53) (by norm_num) (by norm_num) (m + 3) (m + 2)
    generalize ((1 : ℚ) - 1 / 2 ^ 53) ^ (m + 3) / (1 + 1 / 2 ^ 53) ^ (m + 2) = l at h1 h2
    have hm' : (2 * m + 5 : ℚ) ≤ 2 ^ 51 := by exact_mod_cast hm
    have hl : 1 / 2 ≤ l := by
      push_cast at h2
      norm_num at h2 hm' ⊢
      linarith
    have hp : (0 : ℚ) < 1 / 2 ^ 500 := by positivity
    calc (1 : ℚ) / 2 ^ 511 ≤ 1 / 2 ^ 501 :=
          one_div_le_one_div_of_le (by positivity) (pow_le_pow_right₀ (by norm_num) (by norm_num))
      _ = 1 / 2 * (1 / 2 ^ 500) := by rw [div_mul_div_comm, one_mul, ← pow_succ']
      _ ≤ l * x := mul_le_mul hl hx hp.le ((by norm_num : (0 : ℚ) ≤ 1 / 2).trans hl)
      _ ≤ y := h1

theorem pfa_same {c : Chem n m} (h : NoUnderflow c) (hs : Shares c) (hm : 2 * m + 5 ≤ 2 ^ 51) :
    pfaMatrixR rnd754 c = pfaMatrixR rnd64 c := by
  by_cases hv : c.valid.isEmpty = true
  · unfold pfaMatrixR; rw [if_pos hv, if_pos hv]
  have hb : baseR rnd754 c = baseR rnd64 c := by funext a r; exact (baseR_ieee h a r).1
  have s1 : ∀ a (l : List (Fin m)), sumOverR rnd754 l (fun r => max (baseR rnd64 c a r) 0) =
      sumOverR rnd64 l (fun r => max (baseR rnd64 c a r) 0) ∧
      OnGrid (sumOverR rnd64 l (fun r => max (baseR rnd64 c a r) 0)) :=
    fun a l => sumOverR_ieee l _ (fun r => (baseR_ieee h a r).2.max onGrid_zero)
  have s2 : ∀ a (l : List (Fin m)), sumOverR rnd754 l (fun r => max (-baseR rnd64 c a r) 0) =
      sumOverR rnd64 l (fun r => max (-baseR rnd64 c a r) 0) ∧
      OnGrid (sumOverR rnd64 l (fun r => max (-baseR rnd64 c a r) 0)) :=
    fun a l => sumOverR_ieee l _ (fun r => (baseR_ieee h a r).2.neg.max onGrid_zero)
  have hden : ∀ a, Within ((1 - 1 / 2 ^ 53) ^ (m + 2)) ((1 + 1 / 2 ^ 53) ^ (m + 2))
      (max (Spec.P c a) (Spec.C c a))
      (max (sumOverR rnd64 c.valid (fun r => max (baseR rnd64 c a r) 0))
        (sumOverR rnd64 c.valid (fun r => max (-baseR rnd64 c a r) 0))) := fun a =>
    (totals rounds_rnd64 c a a).1.max (totals rounds_rnd64 c a a).2.1 (by norm_num) (by positivity)
  have h1 : ∀ a b, Ample (whereDivR rnd64 (fun a b =>
      rnd64 (0 + sumOverR rnd64 (c.validWith b) (fun r => max (baseR rnd64 c a r) 0)))
      (fun a => max (sumOverR rnd64 c.valid (fun r => max (baseR rnd64 c a r) 0))
        (sumOverR rnd64 c.valid (fun r => max (-baseR rnd64 c a r) 0))) a b) := by
    intro a b
    refine ample_within hm (hs a b).1 ?_
    unfold Spec.pro1 whereDivR
    dsimp only
    rw [rnd_zero_add_sum rndOk_rnd64]
    exact first_within rounds_rnd64 (PAB_nonneg c a b) (den_nonneg c a) (totals rounds_rnd64 c a b).2.2.1 (hden a)
  have h2 : ∀ a b, Ample (whereDivR rnd64 (fun a b =>
      rnd64 (0 + sumOverR rnd64 (c.validWith b) (fun r => max (-baseR rnd64 c a r) 0)))
      (fun a => max (sumOverR rnd64 c.valid (fun r => max (baseR rnd64 c a r) 0))
        (sumOverR rnd64 c.valid (fun r => max (-baseR rnd64 c a r) 0))) a b) := by
    intro a b
    refine ample_within hm (hs a b).2 ?_
    unfold Spec.con1 whereDivR
    dsimp only
    rw [rnd_zero_add_sum rndOk_rnd64]
    exact first_within rounds_rnd64 (CAB_nonneg c a b) (den_nonneg c a) (totals rounds_rnd64 c a b).2.2.2 (hden a)
  have z1 : ∀ a (l : List (Fin m)), 0 ≤ sumOverR rnd64 l (fun r => max (baseR rnd64 c a r) 0) :=
    fun a l => sumOverR_nonneg rndOk_rnd64 l _ (fun r => le_max_right _ _)
  have z2 : ∀ a (l : List (Fin m)), 0 ≤ sumOverR rnd64 l (fun r => max (-baseR rnd64 c a r) 0) :=
    fun a l => sumOverR_nonneg rndOk_rnd64 l _ (fun r => le_max_right _ _)
  have w1 := fun a b => whereDivR_ample (fun a b => by rw [zero_add]; exact rnd64_nonneg (z1 a _))
    (fun a => le_max_of_le_left (z1 a _)) (h1 a b)
  have w2 := fun a b => whereDivR_ample (fun a b => by rw [zero_add]; exact rnd64_nonneg (z2 a _))
    (fun a => le_max_of_le_left (z1 a _)) (h2 a b)
  unfold pfaMatrixR
  rw [if_neg hv, if_neg hv]
  dsimp only
  rw [hb]
  simp only [(s1 _ _).1, (s2 _ _).1]
  have q1 : ∀ a b, rnd754 (0 + sumOverR rnd64 (c.validWith b) (fun r => max (baseR rnd64 c a r) 0)) =
      rnd64 (0 + sumOverR rnd64 (c.validWith b) (fun r => max (baseR rnd64 c a r) 0)) := fun a b => by
    rw [zero_add]; exact (s1 a _).2.same
  have q2 : ∀ a b, rnd754 (0 + sumOverR rnd64 (c.validWith b) (fun r => max (-baseR rnd64 c a r) 0)) =
      rnd64 (0 + sumOverR rnd64 (c.validWith b) (fun r => max (-baseR rnd64 c a r) 0)) := fun a b => by
    rw [zero_add]; exact (s2 a _).2.same
  simp only [q1, q2]
  have v1 := funext fun a => funext fun b => (w1 a b).1
  have v2 := funext fun a => funext fun b => (w2 a b).1
  rw [v1, v2]
  have u1 := fun a b => (w1 a b).2
  have u2 := fun a b => (w2 a b).2
  clear v1 v2 w1 w2
  generalize whereDivR rnd64 (fun a b => rnd64 (0 + sumOverR rnd64 (c.validWith b)
    (fun r => max (baseR rnd64 c a r) 0))) _ = P at h1 u1 ⊢
  generalize whereDivR rnd64 (fun a b => rnd64 (0 + sumOverR rnd64 (c.validWith b)
    (fun r => max (-baseR rnd64 c a r) 0))) _ = Q at h2 u2 ⊢
  funext a b
  by_cases hab : a = b
  · simp [fillDiagonal, hab]
  simp only [fillDiagonal, hab, if_false]
  obtain ⟨f1, f2, f3, f4⟩ := pfa_foldR (rnd := rnd754) (List.finRange n) ⟨P, Q, fun _ _ => 0, fun _ _ => 0⟩
  obtain ⟨g1, g2, g3, g4⟩ := pfa_foldR (rnd := rnd64) (List.finRange n) ⟨P, Q, fun _ _ => 0, fun _ _ => 0⟩
  dsimp only at f1 f2 f3 f4 g1 g2 g3 g4 ⊢
  rw [f1 a b hab, f2 a b hab, f3 a b, f4 a b, g1 a b hab, g2 a b hab, g3 a b, g4 a b]
  obtain ⟨k1, l1⟩ := secondR_ieee h1 a b (List.finRange n) 0 onGrid_zero
  obtain ⟨k2, l2⟩ := secondR_ieee h2 a b (List.finRange n) 0 onGrid_zero
  have o1 := (u1 a b).add (u2 a b)
  have o2 := o1.round.add l1
  have o3 := o2.round.add l2
  rw [k1, k2, o1.same, o2.same, o3.same]

/-! ### what is kept -/

theorem Same.le_iff {x y t : ℚ} (h : Same x y) (ht : 1 / 2 ^ 1022 < t) : t ≤ x ↔ t ≤ y := by
  rcases h with rfl | ⟨h1, h2⟩
  · rfl
  · exact ⟨fun h => absurd (lt_of_lt_of_le ht (h.trans h1)) (lt_irrefl _),
      fun h => absurd (lt_of_lt_of_le ht (h.trans h2)) (lt_irrefl _)⟩

theorem toN_same {M M' : Mat n} (h : ∀ a b, Same (M a b) (M' a b)) (i j : Nat) : Same (M.toN i j) (M'.toN i j) := by
  unfold Mat.toN
  split_ifs
  · exact h _ _
  · exact .inl rfl
  · exact .inl rfl

theorem matrixOf_same {meth : Method} {c : Chem n m} (h : Resolved meth c) (i j : Nat) :
    Same (matrixOf meth rnd754 c i j) (matrixOf meth rnd64 c i j) := by
  cases meth
  · exact toN_same (drg_same h.1) i j
  · exact toN_same (drgep_same h.1) i j
  · show Same ((pfaMatrixR rnd754 c).toN i j) _
    rw [pfa_same h.1 (h.2 rfl).1 (h.2 rfl).2]
    exact .inl rfl

/-- paths with products that do not underflow -/
theorem path_same {r r' : ℚ → ℚ} (hr : RndOk r) (ht : r (1 / 2 ^ 1022) = 1 / 2 ^ 1022)
    (hrr : ∀ x, 1 / 2 ^ 1022 ≤ x → r x = r' x) {M M' : NMat} {names : List String}
    (hM : UnitMatrix M names.length) (hs : ∀ i j, Same (M i j) (M' i j)) {a b : String} {y : ℚ}
    (h : PathProduct r M names a y b) (hy : 1 / 2 ^ 1022 < y) : PathProduct r' M' names a y b := by
  induction h with
  | nil ha => exact .nil ha
  | @step b c x i j hp hi hj h0 ih =>
    obtain ⟨x0, x1⟩ := hp.range hr hM
    obtain ⟨m0, m1⟩ := hM i (List.getElem?_eq_some_iff.1 hi).1 j (List.getElem?_eq_some_iff.1 hj).1
    have hbig : 1 / 2 ^ 1022 < x * M i j := by
      by_contra hc
      have := hr.mono _ _ (not_lt.1 hc)
      rw [ht] at this
      exact absurd (lt_of_lt_of_le hy this) (lt_irrefl _)
    have hx : 1 / 2 ^ 1022 < x := lt_of_lt_of_le hbig (mul_le_of_le_one_right x0 m1)
    have hm : 1 / 2 ^ 1022 < M i j := lt_of_lt_of_le hbig (mul_le_of_le_one_left m0 x1)
    have he : M i j = M' i j := by
      rcases hs i j with h | ⟨h, -⟩
      · exact h
      · exact absurd (lt_of_lt_of_le hm h) (lt_irrefl _)
    rw [hrr _ hbig.le, he]
    rw [he] at h0
    exact .step (ih hx) hi hj h0

theorem rnd754_tiny : rnd754 (1 / 2 ^ 1022) = 1 / 2 ^ 1022 := by
  rw [rnd754_normal (le_abs_self _), rnd64_two_inv]

theorem Same.symm {x y : ℚ} (h : Same x y) : Same y x := by
  rcases h with h | ⟨h1, h2⟩
  · exact .inl h.symm
  · exact .inr ⟨h2, h1⟩

theorem linked_same {M M' : NMat} (hs : ∀ i j, Same (M i j) (M' i j)) {names targets : List String} {t : ℚ}
    (ht : 1 / 2 ^ 1022 < t) {s : String} (h : Linked M names targets t s) : Linked M' names targets t s := by
  obtain ⟨a, ha, hp⟩ := h
  refine ⟨a, ha, Relation.ReflTransGen.mono ?_ _ _ hp⟩
  rintro x y ⟨i, j, hi, hj, h1, h2⟩
  refine ⟨i, j, hi, hj, ((hs i j).le_iff ht).1 h1, ?_⟩
  have hp : (0 : ℚ) < 1 / 2 ^ 1022 := by positivity
  exact (hp.trans (lt_of_lt_of_le ht (((hs i j).le_iff ht).1 h1))).ne'

end Verif
