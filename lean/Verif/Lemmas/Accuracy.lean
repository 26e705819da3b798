import Verif.Props.MatrixRound
import Verif.Spec.Accuracy
import Mathlib.Algebra.Order.Ring.Pow
/-!
# Rounding errors of DRGEP and PFA coefficients
-/
namespace Verif
open Spec Finset
variable {n m : Nat} {rnd : ℚ → ℚ} {u : ℚ}

theorem rounds_rnd64 : Rounds rnd64 (1 / 2 ^ 53) where
  toRndOk := rnd64_usable.1
  u0 := by norm_num
  u1 := by norm_num
  odd := rnd64_usable.2.1
  rel := rnd64_usable.2.2

theorem rounds_id : Rounds id 0 where
  toRndOk := ⟨fun _ _ h => h, fun _ => rfl, rfl, rfl⟩
  u0 := le_rfl
  u1 := by norm_num
  odd _ := rfl
  rel x _ := by simp

theorem Spec.Rounds.err (h : Rounds rnd u) (x : ℚ) : |rnd x - x| ≤ u * |x| := by
  rcases le_total 0 x with hx | hx
  · have := h.rel x hx
    rw [abs_of_nonneg hx, abs_le]
    constructor <;> linarith [this.1, this.2]
  · have := h.rel (-x) (by linarith)
    rw [h.odd] at this
    rw [abs_of_nonpos hx, abs_le]
    constructor <;> linarith [this.1, this.2]

/-! ### relative errors -/

/-- `y` approximates `x` from `lo` to `hi` times `x` -/
def Within (lo hi x y : ℚ) : Prop := lo * x ≤ y ∧ y ≤ hi * x

section
variable {lo hi lo' hi' x y x' y' : ℚ}

theorem Within.round (h : Within lo hi x y) (hR : Rounds rnd u) (h0 : 0 ≤ lo) (hx : 0 ≤ x) :
    Within (lo * (1 - u)) (hi * (1 + u)) x (rnd y) := by
  have hy : 0 ≤ y := (mul_nonneg h0 hx).trans h.1
  obtain ⟨r1, r2⟩ := hR.rel y hy
  have hu := hR.u0
  have hu1 := hR.u1
  constructor
  · calc lo * (1 - u) * x = (1 - u) * (lo * x) := by ring
      _ ≤ (1 - u) * y := mul_le_mul_of_nonneg_left h.1 (by linarith)
      _ ≤ _ := r1
  · calc _ ≤ (1 + u) * y := r2
      _ ≤ (1 + u) * (hi * x) := mul_le_mul_of_nonneg_left h.2 (by linarith)
      _ = _ := by ring

theorem Within.add (h : Within lo hi x y) (h' : Within lo hi x' y') :
    Within lo hi (x + x') (y + y') :=
  ⟨by rw [mul_add]; exact add_le_add h.1 h'.1, by rw [mul_add]; exact add_le_add h.2 h'.2⟩

theorem Within.mul (h : Within lo hi x y) (h' : Within lo' hi' x' y') (hlo : 0 ≤ lo) (hlo' : 0 ≤ lo')
    (hx : 0 ≤ x) (hx' : 0 ≤ x') : Within (lo * lo') (hi * hi') (x * x') (y * y') := by
  have hy : 0 ≤ y := (mul_nonneg hlo hx).trans h.1
  have hy' : 0 ≤ y' := (mul_nonneg hlo' hx').trans h'.1
  constructor
  · calc lo * lo' * (x * x') = (lo * x) * (lo' * x') := by ring
      _ ≤ y * y' := mul_le_mul h.1 h'.1 (mul_nonneg hlo' hx') hy
  · calc y * y' ≤ (hi * x) * (hi' * x') := mul_le_mul h.2 h'.2 hy' (hy.trans h.2)
      _ = _ := by ring

theorem Within.div (h : Within lo hi x y) (h' : Within lo' hi' x' y') (hlo : 0 ≤ lo) (hlo' : 0 < lo')
    (hhi' : 0 < hi') (hx : 0 ≤ x) (hx' : 0 < x') :
    Within (lo / hi') (hi / lo') (x / x') (y / y') := by
  have hy : 0 ≤ y := (mul_nonneg hlo hx).trans h.1
  have hy' : 0 < y' := (mul_pos hlo' hx').trans_le h'.1
  constructor
  · rw [div_mul_div_comm, div_le_div_iff₀ (by positivity) hy']
    calc lo * x * y' ≤ lo * x * (hi' * x') := mul_le_mul_of_nonneg_left h'.2 (mul_nonneg hlo hx)
      _ ≤ y * (hi' * x') := mul_le_mul_of_nonneg_right h.1 (by positivity)
  · rw [div_mul_div_comm, div_le_div_iff₀ hy' (by positivity)]
    calc y * (lo' * x') ≤ y * y' := mul_le_mul_of_nonneg_left h'.1 hy
      _ ≤ hi * x * y' := mul_le_mul_of_nonneg_right h.2 hy'.le

theorem Within.max (h : Within lo hi x y) (h' : Within lo hi x' y') (hlo : 0 ≤ lo) (hhi : 0 ≤ hi) :
    Within lo hi (max x x') (max y y') := by
  unfold Within
  rw [mul_max_of_nonneg _ _ hlo, mul_max_of_nonneg _ _ hhi]
  exact ⟨max_le_max h.1 h'.1, max_le_max h.2 h'.2⟩

theorem Within.weaken (h : Within lo hi x y) (hlo : lo' ≤ lo) (hhi : hi ≤ hi') (hx : 0 ≤ x) :
    Within lo' hi' x y :=
  ⟨(mul_le_mul_of_nonneg_right hlo hx).trans h.1, h.2.trans (mul_le_mul_of_nonneg_right hhi hx)⟩

end

/-- the computed rate of change, with its sign -/
theorem baseR_err (hR : Rounds rnd u) (c : Chem n m) (a : Fin n) (r : Fin m) :
    |baseR rnd c a r - Spec.rate c a r| ≤ ((1 + u) ^ 2 - 1) * |Spec.rate c a r| := by
  unfold baseR Spec.rate
  set d := c.prod a r - c.reac a r
  set w := c.rop r
  have hu := hR.u0
  have h1 := hR.err d
  have h2 := hR.err (rnd d * w)
  have h3 : |rnd d| ≤ (1 + u) * |d| := by
    calc |rnd d| = |(rnd d - d) + d| := by ring_nf
      _ ≤ |rnd d - d| + |d| := abs_add_le _ _
      _ ≤ _ := by linarith
  have hw := abs_nonneg w
  calc |rnd (rnd d * w) - d * w| = |(rnd (rnd d * w) - rnd d * w) + (rnd d - d) * w| := by ring_nf
    _ ≤ |rnd (rnd d * w) - rnd d * w| + |(rnd d - d) * w| := abs_add_le _ _
    _ ≤ u * (|rnd d| * |w|) + u * |d| * |w| := by
        rw [abs_mul] at h2
        rw [abs_mul (rnd d - d)]
        exact add_le_add h2 (mul_le_mul_of_nonneg_right h1 hw)
    _ ≤ u * ((1 + u) * |d| * |w|) + u * |d| * |w| := by
        have := mul_le_mul_of_nonneg_left (mul_le_mul_of_nonneg_right h3 hw) hu
        linarith
    _ = ((1 + u) ^ 2 - 1) * |d * w| := by rw [abs_mul]; ring

/-- positive part of the computed rate of change -/
theorem baseR_pos (hR : Rounds rnd u) (c : Chem n m) (a : Fin n) (r : Fin m) :
    Within ((1 - u) ^ 2) ((1 + u) ^ 2) (max (Spec.rate c a r) 0) (max (baseR rnd c a r) 0) ∧
    Within ((1 - u) ^ 2) ((1 + u) ^ 2) (max (-Spec.rate c a r) 0) (max (-baseR rnd c a r) 0) := by
  have h := baseR_rel hR.u0 hR.u1 hR.odd hR.rel c a r
  have hsign : (0 ≤ Spec.rate c a r → 0 ≤ baseR rnd c a r) ∧
      (Spec.rate c a r ≤ 0 → baseR rnd c a r ≤ 0) := by
    have hpos : ∀ x, 0 ≤ x → 0 ≤ rnd x := fun x hx => RndOk_nonneg hR.toRndOk hx
    have hneg : ∀ x, x ≤ 0 → rnd x ≤ 0 := fun x hx => by
      have := hR.mono _ _ hx; rwa [hR.zero] at this
    unfold baseR Spec.rate
    have hz : ∀ x, x ≠ 0 → rnd x ≠ 0 := by
      intro x hx h0
      have := hR.err x
      rw [h0, zero_sub, abs_neg] at this
      have hp := abs_pos.2 hx
      nlinarith [hR.u1]
    constructor
    · intro h
      apply hpos
      rcases mul_nonneg_iff.1 h with ⟨h1, h2⟩ | ⟨h1, h2⟩
      · exact mul_nonneg (hpos _ h1) h2
      · exact mul_nonneg_of_nonpos_of_nonpos (hneg _ h1) h2
    · intro h
      apply hneg
      rcases mul_nonpos_iff.1 h with ⟨h1, h2⟩ | ⟨h1, h2⟩
      · exact mul_nonpos_of_nonneg_of_nonpos (hpos _ h1) h2
      · exact mul_nonpos_of_nonpos_of_nonneg (hneg _ h1) h2
  rcases le_total 0 (Spec.rate c a r) with hx | hx
  · have hb := hsign.1 hx
    rw [abs_of_nonneg hx, abs_of_nonneg hb] at h
    rw [max_eq_left hx, max_eq_left hb, max_eq_right (by linarith), max_eq_right (by linarith)]
    exact ⟨h, by simp [Within]⟩
  · have hb := hsign.2 hx
    rw [abs_of_nonpos hx, abs_of_nonpos hb] at h
    rw [max_eq_left (a := -_) (by linarith), max_eq_left (a := -_) (by linarith),
      max_eq_right hx, max_eq_right hb]
    exact ⟨by simp [Within], h⟩

/-- total production and consumption, and their parts that involve a species -/
theorem totals (hR : Rounds rnd u) (c : Chem n m) (a b : Fin n) :
    Within ((1 - u) ^ (m + 2)) ((1 + u) ^ (m + 2)) (Spec.P c a)
      (sumOverR rnd c.valid (fun r => max (baseR rnd c a r) 0)) ∧
    Within ((1 - u) ^ (m + 2)) ((1 + u) ^ (m + 2)) (Spec.C c a)
      (sumOverR rnd c.valid (fun r => max (-baseR rnd c a r) 0)) ∧
    Within ((1 - u) ^ (m + 2)) ((1 + u) ^ (m + 2)) (Spec.PAB c a b)
      (sumOverR rnd (c.validWith b) (fun r => max (baseR rnd c a r) 0)) ∧
    Within ((1 - u) ^ (m + 2)) ((1 + u) ^ (m + 2)) (Spec.CAB c a b)
      (sumOverR rnd (c.validWith b) (fun r => max (-baseR rnd c a r) 0)) := by
  have hu := hR.u0
  have hu1 := hR.u1
  have e1 : (1 - u) ^ (m + 2) = (1 - u) ^ 2 * (1 - u) ^ m := by ring
  have e2 : (1 + u) ^ (m + 2) = (1 + u) ^ 2 * (1 + u) ^ m := by ring
  have z1 : ∀ r, c.rop r = 0 → max (Spec.rate c a r) 0 = 0 := fun r h => by simp [Spec.rate, h]
  have z2 : ∀ r, c.rop r = 0 → max (-Spec.rate c a r) 0 = 0 := fun r h => by simp [Spec.rate, h]
  have key := sumOverR_rel (m := m) hu hu1 hR.rel
  have hlo : (0 : ℚ) ≤ (1 - u) ^ 2 := by positivity
  have hhi : (0 : ℚ) ≤ (1 + u) ^ 2 := by positivity
  rw [e1, e2]
  refine ⟨?_, ?_, ?_, ?_⟩
  · have := key c.valid (length_valid_le c) _ _ (fun r => le_max_right (Spec.rate c a r) 0) _ _ hlo hhi
      (fun r => (baseR_pos hR c a r).1)
    rwa [sumOver_valid c _ z1] at this
  · have := key c.valid (length_valid_le c) _ _ (fun r => le_max_right (-Spec.rate c a r) 0) _ _ hlo hhi
      (fun r => (baseR_pos hR c a r).2)
    rwa [sumOver_valid c _ z2] at this
  · have := key (c.validWith b) (length_validWith_le c b) _ _ (fun r => le_max_right (Spec.rate c a r) 0)
      _ _ hlo hhi (fun r => (baseR_pos hR c a r).1)
    rwa [sumOver_validWith c b _ z1] at this
  · have := key (c.validWith b) (length_validWith_le c b) _ _ (fun r => le_max_right (-Spec.rate c a r) 0)
      _ _ hlo hhi (fun r => (baseR_pos hR c a r).2)
    rwa [sumOver_validWith c b _ z2] at this

/-! ### PFA -/

/-- a sum of rounded products over intermediates -/
def secondR (rnd : ℚ → ℚ) (P : Mat n) (a b : Fin n) (l : List (Fin n)) (s : ℚ) : ℚ :=
  l.foldl (fun s k => rnd (s + rnd (if k = a ∨ k = b then 0 else P a k * P k b))) s

theorem secondR_congr {P P' : Mat n} {a b : Fin n} (h : ∀ a b, a ≠ b → P a b = P' a b) (l : List (Fin n))
    (s : ℚ) : secondR rnd P a b l s = secondR rnd P' a b l s := by
  unfold secondR
  congr 1
  funext s k
  by_cases hk : k = a ∨ k = b
  · rw [if_pos hk, if_pos hk]
  · rw [if_neg hk, if_neg hk]
    have hk' := not_or.1 hk
    rw [h a k (fun h => hk'.1 h.symm), h k b hk'.2]

theorem pfa_foldR (l : List (Fin n)) (s : PfaState n) :
    let t := l.foldl (pfaStepR rnd) s
    (∀ a b, a ≠ b → t.pro1 a b = s.pro1 a b) ∧ (∀ a b, a ≠ b → t.con1 a b = s.con1 a b) ∧
    (∀ a b, t.pro2 a b = secondR rnd s.pro1 a b l (s.pro2 a b)) ∧
    (∀ a b, t.con2 a b = secondR rnd s.con1 a b l (s.con2 a b)) := by
  induction l generalizing s with
  | nil => simp [secondR]
  | cons k l ih =>
    obtain ⟨h1, h2, h3, h4⟩ := ih (pfaStepR rnd s k)
    have e1 : ∀ a b, a ≠ b → (pfaStepR rnd s k).pro1 a b = s.pro1 a b := by
      intro a b hab
      simp only [pfaStepR, setEntry]
      have : ¬ (a = k ∧ b = k) := by rintro ⟨rfl, rfl⟩; exact hab rfl
      simp [this]
    have e2 : ∀ a b, a ≠ b → (pfaStepR rnd s k).con1 a b = s.con1 a b := by
      intro a b hab
      simp only [pfaStepR, setEntry]
      have : ¬ (a = k ∧ b = k) := by rintro ⟨rfl, rfl⟩; exact hab rfl
      simp [this]
    have q1 : ∀ a b, (pfaStepR rnd s k).pro2 a b = rnd (s.pro2 a b +
        rnd (if k = a ∨ k = b then 0 else s.pro1 a k * s.pro1 k b)) := by
      intro a b
      simp only [pfaStepR, outer, setEntry]
      by_cases ha : k = a
      · simp [ha]
      · by_cases hb : k = b
        · simp [hb]
        · have ha' : ¬ a = k := fun h => ha h.symm
          have hb' : ¬ b = k := fun h => hb h.symm
          simp [ha, hb, ha', hb']
    have q2 : ∀ a b, (pfaStepR rnd s k).con2 a b = rnd (s.con2 a b +
        rnd (if k = a ∨ k = b then 0 else s.con1 a k * s.con1 k b)) := by
      intro a b
      simp only [pfaStepR, outer, setEntry]
      by_cases ha : k = a
      · simp [ha]
      · by_cases hb : k = b
        · simp [hb]
        · have ha' : ¬ a = k := fun h => ha h.symm
          have hb' : ¬ b = k := fun h => hb h.symm
          simp [ha, hb, ha', hb']
    refine ⟨?_, ?_, ?_, ?_⟩
    · intro a b hab; rw [List.foldl_cons, h1 a b hab, e1 a b hab]
    · intro a b hab; rw [List.foldl_cons, h2 a b hab, e2 a b hab]
    · intro a b
      rw [List.foldl_cons, h3 a b, secondR_congr e1, q1 a b]; rfl
    · intro a b
      rw [List.foldl_cons, h4 a b, secondR_congr e2, q2 a b]; rfl

/-- first generation -/
theorem first_within (hR : Rounds rnd u) {N D N' D' : ℚ} {k : Nat} (hN0 : 0 ≤ N) (hD0 : 0 ≤ D)
    (hN : Within ((1 - u) ^ k) ((1 + u) ^ k) N N') (hD : Within ((1 - u) ^ k) ((1 + u) ^ k) D D') :
    Within ((1 - u) ^ k / (1 + u) ^ k * (1 - u)) ((1 + u) ^ k / (1 - u) ^ k * (1 + u))
      (if D = 0 then 0 else N / D) (if D' != 0 then rnd (N' / D') else 0) := by
  have hu := hR.u0
  have hu1 : 0 < 1 - u := by linarith [hR.u1]
  by_cases h0 : D = 0
  · have : D' = 0 := by
      subst h0
      have h1 := hD.1
      have h2 := hD.2
      rw [mul_zero] at h1 h2
      linarith
    simp [h0, this, Within]
  · have hDp : 0 < D := lt_of_le_of_ne hD0 (Ne.symm h0)
    have hDp' : 0 < D' := lt_of_lt_of_le (mul_pos (by positivity) hDp) hD.1
    have : (D' != 0) = true := by simpa using hDp'.ne'
    rw [if_neg h0, if_pos this]
    exact (hN.div hD (by positivity) (by positivity) (by positivity) hN0 hDp).round hR (by positivity)
      (by positivity)

theorem second_within (hR : Rounds rnd u) {lo hi : ℚ} (hlo : 0 ≤ lo) (hhi : 0 ≤ hi) {P P' : Mat n}
    (hP0 : ∀ a b, 0 ≤ P a b) (hP : ∀ a b, Within lo hi (P a b) (P' a b)) (a b : Fin n) :
    Within (lo * lo * (1 - u) ^ (n + 1)) (hi * hi * (1 + u) ^ (n + 1))
      (∑ k, if k = a ∨ k = b then 0 else P a k * P k b) (secondR rnd P' a b (List.finRange n) 0) := by
  have hu := hR.u0
  have hu1 := hR.u1
  have h := foldl_rel (m := n) hu hu1 hR.rel (List.finRange n)
    (fun k => rnd (if k = a ∨ k = b then 0 else P' a k * P' k b))
    (fun k => if k = a ∨ k = b then 0 else P a k * P k b)
    (fun k => by split_ifs <;> [exact le_rfl; exact mul_nonneg (hP0 _ _) (hP0 _ _)])
    (lo * lo * (1 - u)) (hi * hi * (1 + u)) 0 0
    (mul_nonneg (mul_nonneg hlo hlo) (by linarith)) (fun k => by
      by_cases hk : k = a ∨ k = b
      · simp [hk, hR.zero]
      · simp only [hk, if_false]
        exact ((hP a k).mul (hP k b) hlo hlo (hP0 _ _) (hP0 _ _)).round hR (mul_nonneg hlo hlo)
          (mul_nonneg (hP0 _ _) (hP0 _ _))) le_rfl
    (mul_nonneg (mul_nonneg hhi hhi) (by linarith)) (by simp)
  rw [zero_add, ← Fin.sum_univ_def, List.length_finRange] at h
  unfold Within secondR
  refine ⟨le_trans (le_of_eq ?_) h.1, h.2.trans (le_of_eq ?_)⟩ <;> ring

/-- the whole PFA coefficient -/
theorem pfa_within (hR : Rounds rnd u) (c : Chem n m) (a b : Fin n) (hab : a ≠ b) :
    Within ((1 - u) ^ (2 * m + n + 10) / (1 + u) ^ (2 * m + 4))
      ((1 + u) ^ (2 * m + n + 10) / (1 - u) ^ (2 * m + 4)) (Spec.pfa c a b) (pfaMatrixR rnd c a b) := by
  have hu := hR.u0
  have hu1 : 0 < 1 - u := by linarith [hR.u1]
  have hu2 : 0 < 1 + u := by linarith
  by_cases hv : c.valid.isEmpty = true
  · have e : pfaMatrixR rnd c a b = 0 := by unfold pfaMatrixR; rw [if_pos hv]; simp [fillDiagonal]
    have e' : Spec.pfa c a b = 0 := by
      have := pfaMatrix_eq c a b
      unfold pfaMatrix at this
      rw [if_pos hv] at this
      simpa [fillDiagonal, hab] using this.symm
    rw [e, e']; simp [Within]
  · set lo := (1 - u) ^ (m + 2) / (1 + u) ^ (m + 2) * (1 - u) with hlo
    set hi := (1 + u) ^ (m + 2) / (1 - u) ^ (m + 2) * (1 + u) with hhi
    have hlo0 : 0 ≤ lo := by positivity
    have hhi0 : 0 ≤ hi := by positivity
    have hlo1 : lo ≤ 1 := by
      rw [hlo]
      refine mul_le_one₀ ?_ hu1.le (by linarith)
      rw [div_le_one (by positivity)]
      exact pow_le_pow_left₀ hu1.le (by linarith) _
    have hhi1 : 1 ≤ hi := by
      rw [hhi]
      refine one_le_mul_of_one_le_of_one_le ?_ (by linarith)
      rw [one_le_div (by positivity)]
      exact pow_le_pow_left₀ hu1.le (by linarith) _
    have hden : ∀ a, Within ((1 - u) ^ (m + 2)) ((1 + u) ^ (m + 2)) (max (Spec.P c a) (Spec.C c a))
        (max (sumOverR rnd c.valid (fun r => max (baseR rnd c a r) 0))
          (sumOverR rnd c.valid (fun r => max (-baseR rnd c a r) 0))) := fun a =>
      (totals hR c a a).1.max (totals hR c a a).2.1 (by positivity) (by positivity)
    have h1 : ∀ a b, Within lo hi (Spec.pro1 c a b) (whereDivR rnd (fun a b =>
        rnd (0 + sumOverR rnd (c.validWith b) (fun r => max (baseR rnd c a r) 0)))
        (fun a => max (sumOverR rnd c.valid (fun r => max (baseR rnd c a r) 0))
          (sumOverR rnd c.valid (fun r => max (-baseR rnd c a r) 0))) a b) := by
      intro a b
      unfold Spec.pro1 whereDivR
      dsimp only
      rw [rnd_zero_add_sum hR.toRndOk]
      exact first_within hR (PAB_nonneg c a b) (den_nonneg c a) (totals hR c a b).2.2.1 (hden a)
    have h2 : ∀ a b, Within lo hi (Spec.con1 c a b) (whereDivR rnd (fun a b =>
        rnd (0 + sumOverR rnd (c.validWith b) (fun r => max (-baseR rnd c a r) 0)))
        (fun a => max (sumOverR rnd c.valid (fun r => max (baseR rnd c a r) 0))
          (sumOverR rnd c.valid (fun r => max (-baseR rnd c a r) 0))) a b) := by
      intro a b
      unfold Spec.con1 whereDivR
      dsimp only
      rw [rnd_zero_add_sum hR.toRndOk]
      exact first_within hR (CAB_nonneg c a b) (den_nonneg c a) (totals hR c a b).2.2.2 (hden a)
    unfold pfaMatrixR
    rw [if_neg hv]
    simp only [fillDiagonal, hab, if_false]
    generalize whereDivR rnd (fun a b => rnd (0 + sumOverR rnd (c.validWith b)
      (fun r => max (baseR rnd c a r) 0))) _ = P at h1 ⊢
    generalize whereDivR rnd (fun a b => rnd (0 + sumOverR rnd (c.validWith b)
      (fun r => max (-baseR rnd c a r) 0))) _ = Q at h2 ⊢
    obtain ⟨f1, f2, f3, f4⟩ := pfa_foldR (rnd := rnd) (List.finRange n) ⟨P, Q, fun _ _ => 0, fun _ _ => 0⟩
    dsimp only at f1 f2 f3 f4 ⊢
    rw [f1 a b hab, f2 a b hab, f3 a b, f4 a b]
    have g1 := second_within hR hlo0 hhi0 (fun a b => (pro1_range c a b).1) h1 a b
    have g2 := second_within hR hlo0 hhi0 (fun a b => (con1_range c a b).1) h2 a b
    have hlo2 : lo * lo * (1 - u) ^ (n + 1) ≤ lo := by
      have : lo * (1 - u) ^ (n + 1) ≤ 1 := mul_le_one₀ hlo1 (by positivity) (pow_le_one₀ hu1.le (by linarith))
      nlinarith
    have hhi2 : hi ≤ hi * hi * (1 + u) ^ (n + 1) := by
      have : 1 ≤ hi * (1 + u) ^ (n + 1) :=
        one_le_mul_of_one_le_of_one_le hhi1 (one_le_pow₀ (by linarith))
      nlinarith
    have p1 := (h1 a b).weaken hlo2 hhi2 (pro1_range c a b).1
    have p2 := (h2 a b).weaken hlo2 hhi2 (con1_range c a b).1
    have hs1 : 0 ≤ ∑ k, (if k = a ∨ k = b then 0 else Spec.pro1 c a k * Spec.pro1 c k b) :=
      Finset.sum_nonneg (fun k _ => by
        split_ifs <;> [exact le_rfl; exact mul_nonneg (pro1_range c _ _).1 (pro1_range c _ _).1])
    have hs2 : 0 ≤ ∑ k, (if k = a ∨ k = b then 0 else Spec.con1 c a k * Spec.con1 c k b) :=
      Finset.sum_nonneg (fun k _ => by
        split_ifs <;> [exact le_rfl; exact mul_nonneg (con1_range c _ _).1 (con1_range c _ _).1])
    have hp1 := (pro1_range c a b).1
    have hp2 := (con1_range c a b).1
    unfold Spec.pfa
    set l2 := lo * lo * (1 - u) ^ (n + 1)
    set h2' := hi * hi * (1 + u) ^ (n + 1)
    have hl2 : 0 ≤ l2 := by positivity
    have hd : ∀ x : ℚ, 0 ≤ x → x * (1 - u) ≤ x := fun x hx => by nlinarith
    have hi' : ∀ x : ℚ, 0 ≤ x → x ≤ x * (1 + u) := fun x hx => by nlinarith
    have hh2 : 0 ≤ h2' := by positivity
    have s1 := (p1.add p2).round hR hl2 (by positivity)
    have s2 := (s1.add (g1.weaken (hd _ hl2) (hi' _ hh2) hs1)).round hR (by positivity) (by positivity)
    have s3 := (s2.add ((g2.weaken (hd _ hl2) (hi' _ hh2) hs2).weaken (hd _ (by positivity))
      (hi' _ (by positivity)) hs2)).round hR (by positivity) (by positivity)
    have e1 : l2 * (1 - u) * (1 - u) * (1 - u) =
        (1 - u) ^ (2 * m + n + 10) / (1 + u) ^ (2 * m + 4) := by
      simp only [l2, hlo]
      rw [eq_div_iff (by positivity)]
      field_simp
      ring
    have e2 : h2' * (1 + u) * (1 + u) * (1 + u) =
        (1 + u) ^ (2 * m + n + 10) / (1 - u) ^ (2 * m + 4) := by
      simp only [h2', hhi]
      rw [eq_div_iff (by positivity)]
      field_simp
      ring
    rwa [e1, e2] at s3

/-! ### DRGEP -/

/-- error of a rounded sum of terms of either sign, relative to the sum of their sizes -/
theorem foldl_abs (hR : Rounds rnd u) (l : List (Fin m)) (f g : Fin m → ℚ) {h : ℚ} (h1 : 1 ≤ h)
    (hf : ∀ r, |f r - g r| ≤ (h - 1) * |g r|) (s t T : ℚ) (ht : |t| ≤ T) (hst : |s - t| ≤ (h - 1) * T) :
    |l.foldl (fun s r => rnd (s + f r)) s - (t + (l.map g).sum)| ≤
      (h * (1 + u) ^ l.length - 1) * (T + (l.map (fun r => |g r|)).sum) := by
  have hu := hR.u0
  induction l generalizing h s t T with
  | nil => simpa using hst
  | cons r l ih =>
    have hT : 0 ≤ T := (abs_nonneg t).trans ht
    have hg := abs_nonneg (g r)
    have hE : |s + f r - (t + g r)| ≤ (h - 1) * (T + |g r|) := by
      calc |s + f r - (t + g r)| = |(s - t) + (f r - g r)| := by ring_nf
        _ ≤ |s - t| + |f r - g r| := abs_add_le _ _
        _ ≤ _ := by linarith [hf r]
    have hS : |s + f r| ≤ h * (T + |g r|) := by
      calc |s + f r| = |(s + f r - (t + g r)) + (t + g r)| := by ring_nf
        _ ≤ |s + f r - (t + g r)| + |t + g r| := abs_add_le _ _
        _ ≤ (h - 1) * (T + |g r|) + (T + |g r|) := add_le_add hE ((abs_add_le _ _).trans (by linarith))
        _ = _ := by ring
    have key := ih (h := h * (1 + u)) (one_le_mul_of_one_le_of_one_le h1 (by linarith))
      (fun q => (hf q).trans (mul_le_mul_of_nonneg_right (by nlinarith) (abs_nonneg _)))
      (rnd (s + f r)) (t + g r) (T + |g r|) ((abs_add_le _ _).trans (by linarith)) (by
        calc |rnd (s + f r) - (t + g r)| = |(rnd (s + f r) - (s + f r)) + (s + f r - (t + g r))| := by ring_nf
          _ ≤ |rnd (s + f r) - (s + f r)| + |s + f r - (t + g r)| := abs_add_le _ _
          _ ≤ u * |s + f r| + (h - 1) * (T + |g r|) := add_le_add (hR.err _) hE
          _ ≤ u * (h * (T + |g r|)) + (h - 1) * (T + |g r|) := by
              have := mul_le_mul_of_nonneg_left hS hu
              linarith
          _ = _ := by ring)
    rw [List.foldl_cons, List.map_cons, List.sum_cons, List.map_cons, List.sum_cons, List.length_cons,
      ← add_assoc, ← add_assoc]
    refine key.trans (le_of_eq ?_)
    ring

/-- the net change of `a` in reactions that involve `b` -/
theorem net_err (hR : Rounds rnd u) (c : Chem n m) (a b : Fin n) :
    |sumOverR rnd (c.validWith b) (baseR rnd c a) - ∑ r, if Spec.Involves c b r then Spec.rate c a r else 0| ≤
      ((1 + u) ^ (m + 2) - 1) * (2 * max (Spec.P c a) (Spec.C c a)) := by
  have hu := hR.u0
  have h := foldl_abs hR (c.validWith b) (baseR rnd c a) (Spec.rate c a) (h := (1 + u) ^ 2)
    (one_le_pow₀ (by linarith)) (baseR_err hR c a) 0 0 0 (by simp) (by simp)
  rw [zero_add, zero_add] at h
  have e := sumOver_validWith c b (Spec.rate c a) (fun r hr => by simp [Spec.rate, hr])
  have e' := sumOver_validWith c b (fun r => |Spec.rate c a r|) (fun r hr => by simp [Spec.rate, hr])
  unfold sumOver at e e'
  rw [e, e', ← pow_add] at h
  unfold sumOverR
  refine h.trans (mul_le_mul ?_ ?_ ?_ ?_)
  · have := pow_le_pow_right₀ (show 1 ≤ 1 + u by linarith)
      (show 2 + (c.validWith b).length ≤ m + 2 by have := length_validWith_le c b; omega)
    linarith
  · have : (∑ r, if Spec.Involves c b r then |Spec.rate c a r| else 0) ≤ Spec.P c a + Spec.C c a := by
      unfold Spec.P Spec.C
      rw [← Finset.sum_add_distrib]
      refine Finset.sum_le_sum (fun r _ => ?_)
      have h1 := le_max_left (Spec.rate c a r) 0
      have h2 := le_max_left (-Spec.rate c a r) 0
      have h3 := le_max_right (Spec.rate c a r) 0
      have h4 := le_max_right (-Spec.rate c a r) 0
      split_ifs
      · exact abs_le'.2 ⟨by linarith, by linarith⟩
      · linarith
    have h1 := le_max_left (Spec.P c a) (Spec.C c a)
    have h2 := le_max_right (Spec.P c a) (Spec.C c a)
    linarith
  · exact Finset.sum_nonneg (fun r _ => by split_ifs <;> simp)
  · have := one_le_pow₀ (show 1 ≤ 1 + u by linarith) (n := m + 2)
    linarith

theorem drgep_err (hR : Rounds rnd u) (c : Chem n m) (a b : Fin n) (hab : a ≠ b) :
    |drgepMatrixR rnd c a b - Spec.drgep c a b| ≤
      3 * ((1 + u) ^ (m + 2) - 1) / (1 - u) ^ (m + 2) + u := by
  have hu := hR.u0
  have hu1 : 0 < 1 - u := by linarith [hR.u1]
  set g := (1 + u) ^ (m + 2) - 1 with hg
  set L := (1 - u) ^ (m + 2) with hL
  have hg0 : 0 ≤ g := by
    have := one_le_pow₀ (show 1 ≤ 1 + u by linarith) (n := m + 2)
    linarith
  have hLp : 0 < L := by positivity
  have hLg : 1 - L ≤ g := by
    have h1 := one_add_mul_le_pow (show (-2 : ℚ) ≤ u by linarith) (m + 2)
    have h2 := one_add_mul_le_pow (show (-2 : ℚ) ≤ -u by linarith [hR.u1]) (m + 2)
    rw [← sub_eq_add_neg] at h2
    rw [hg, hL]
    linarith
  have h0 : (0 : ℚ) ≤ 3 * g / L + u := by positivity
  by_cases hv : c.valid.isEmpty = true
  · have e : drgepMatrixR rnd c a b = 0 := by unfold drgepMatrixR; rw [if_pos hv]; simp [fillDiagonal]
    have e' : Spec.drgep c a b = 0 := by
      have := drgepMatrix_eq c a b
      unfold drgepMatrix at this
      rw [if_pos hv] at this
      simpa [fillDiagonal, hab] using this.symm
    rw [e, e']; simpa using h0
  · have hD := (totals hR c a b).1.max (totals hR c a b).2.1 (by positivity) (by positivity)
    have hS := net_err hR c a b
    have hr01 := C84_drgep_range hR.toRndOk hR.odd c a b
    have hs01 := drgep_range c a b
    unfold drgepMatrixR at hr01 ⊢
    rw [if_neg hv] at hr01 ⊢
    simp only [fillDiagonal, hab, if_false, whereDivR, rnd_zero_add_sum hR.toRndOk, max_comm (0 : ℚ)]
      at hr01 ⊢
    have hNle : |sumOverR rnd (c.validWith b) (baseR rnd c a)| ≤
        max (sumOverR rnd c.valid (fun r => max (baseR rnd c a r) 0))
          (sumOverR rnd c.valid (fun r => max (-baseR rnd c a r) 0)) := by
      refine abs_le'.2 ⟨le_trans ?_ (le_max_left _ _), le_trans ?_ (le_max_right _ _)⟩
      · exact sumOverR_filter_le hR.toRndOk _ _ _ _ (fun _ => le_max_left _ _) (fun _ => le_max_right _ _)
      · rw [← sumOverR_neg hR.odd]
        exact sumOverR_filter_le hR.toRndOk _ _ _ _ (fun _ => le_max_left _ _) (fun _ => le_max_right _ _)
    have hDnn := den_nonneg c a
    unfold Spec.drgep at hs01 ⊢
    generalize (∑ r, if Spec.Involves c b r then Spec.rate c a r else 0) = S at *
    generalize sumOverR rnd (c.validWith b) (baseR rnd c a) = S' at *
    generalize max (Spec.P c a) (Spec.C c a) = D at *
    generalize max (sumOverR rnd c.valid (fun r => max (baseR rnd c a r) 0))
          (sumOverR rnd c.valid (fun r => max (-baseR rnd c a r) 0)) = D' at *
    by_cases hD0 : D = 0
    · have : D' = 0 := by
        have h1 := hD.1
        have h2 := hD.2
        rw [hD0, mul_zero] at h1 h2
        linarith
      simpa [hD0, this] using h0
    · have hDp : 0 < D := lt_of_le_of_ne hDnn (Ne.symm hD0)
      have hDp' : 0 < D' := lt_of_lt_of_le (mul_pos hLp hDp) hD.1
      have hne : (D' != 0) = true := by simpa using hDp'.ne'
      rw [if_neg hD0] at hs01 ⊢
      rw [if_pos hne]
      have hq1 : |S'| / D' ≤ 1 := (div_le_one hDp').2 hNle
      have hq0 : 0 ≤ |S'| / D' := by positivity
      have hN1 : |S| ≤ D := by
        have := hs01.2
        rwa [div_le_one hDp] at this
      have r1 : |rnd (|S'| / D') - |S'| / D'| ≤ u := by
        have := hR.err (|S'| / D')
        rw [abs_of_nonneg hq0] at this
        exact this.trans (by nlinarith)
      have r2 : |(|S'| / D' - |S| / D)| ≤ 3 * g / L := by
        rw [div_sub_div _ _ hDp'.ne' hDp.ne', abs_div, abs_of_pos (mul_pos hDp' hDp)]
        have hx : |(|S'| - |S|)| ≤ g * (2 * D) := (abs_abs_sub_abs_le _ _).trans hS
        have hy : |D - D'| ≤ g * D := by
          have h1 := hD.1
          have h2 := hD.2
          rw [abs_le]
          constructor
          · have : (1 + u) ^ (m + 2) = g + 1 := by rw [hg]; ring
            rw [this] at h2
            linarith
          · nlinarith
        have hnum : |(|S'| * D - D' * |S|)| ≤ 3 * g * D * D := by
          calc |(|S'| * D - D' * |S|)| = |(|S'| - |S|) * D + |S| * (D - D')| := by ring_nf
            _ ≤ |(|S'| - |S|) * D| + |(|S| * (D - D'))| := abs_add_le _ _
            _ = |(|S'| - |S|)| * D + |S| * |D - D'| := by
                rw [abs_mul, abs_mul, abs_of_pos hDp, abs_abs]
            _ ≤ g * (2 * D) * D + D * (g * D) := by
                refine add_le_add (mul_le_mul_of_nonneg_right hx hDp.le) ?_
                exact mul_le_mul hN1 hy (abs_nonneg _) hDp.le
            _ = _ := by ring
        rw [div_le_div_iff₀ (mul_pos hDp' hDp) hLp]
        calc |(|S'| * D - D' * |S|)| * L ≤ 3 * g * D * D * L := mul_le_mul_of_nonneg_right hnum hLp.le
          _ = 3 * g * D * (L * D) := by ring
          _ ≤ 3 * g * D * D' := mul_le_mul_of_nonneg_left hD.1 (by positivity)
          _ = _ := by ring
      calc |rnd (|S'| / D') - |S| / D| = |(rnd (|S'| / D') - |S'| / D') + (|S'| / D' - |S| / D)| := by ring_nf
        _ ≤ |rnd (|S'| / D') - |S'| / D'| + |(|S'| / D' - |S| / D)| := abs_add_le _ _
        _ ≤ _ := by linarith

end Verif
