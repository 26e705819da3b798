import Verif.Lemmas.Summation
/-!
Rounding errors of the coefficients for any order of additions.
-/
namespace Verif
open Spec Finset
variable {n m : Nat} {rnd : ℚ → ℚ} {u : ℚ} {tot part sum : List ℚ → ℚ}

theorem base_fixed (hR : Rounds rnd u) (c : Chem n m) (a : Fin n) (r : Fin m) :
    rnd (baseR rnd c a r) = baseR rnd c a r := hR.idem _

theorem abs_fixed (hR : Rounds rnd u) (c : Chem n m) (a : Fin n) (r : Fin m) :
    rnd |baseR rnd c a r| = |baseR rnd c a r| := by
  have h := base_fixed hR c a r
  rcases le_total 0 (baseR rnd c a r) with h0 | h0
  · rw [abs_of_nonneg h0, h]
  · rw [abs_of_nonpos h0, hR.odd, h]

theorem pos_fixed (hR : Rounds rnd u) (c : Chem n m) (a : Fin n) (r : Fin m) :
    rnd (max (baseR rnd c a r) 0) = max (baseR rnd c a r) 0 := by
  rcases le_total 0 (baseR rnd c a r) with h0 | h0
  · rw [max_eq_left h0, base_fixed hR]
  · rw [max_eq_right h0, hR.zero]

theorem neg_fixed (hR : Rounds rnd u) (c : Chem n m) (a : Fin n) (r : Fin m) :
    rnd (max (-baseR rnd c a r) 0) = max (-baseR rnd c a r) 0 := by
  rcases le_total 0 (-baseR rnd c a r) with h0 | h0
  · rw [max_eq_left h0, hR.odd, base_fixed hR]
  · rw [max_eq_right h0, hR.zero]

theorem map_sums (hS : Summation rnd sum) (l : List (Fin m)) (f : Fin m → ℚ)
    (hf : ∀ r, rnd (f r) = f r) : Sums rnd (l.map f) (sum (l.map f)) :=
  hS _ (fun x hx => by obtain ⟨r, -, rfl⟩ := List.mem_map.1 hx; exact hf r)

theorem part_fixed (hR : Rounds rnd u) (hS : Summation rnd sum) (l : List (Fin m)) (f : Fin m → ℚ)
    (hf : ∀ r, rnd (f r) = f r) : rnd (sum (l.map f)) = sum (l.map f) :=
  (map_sums hS l f hf).fixed hR.toRndOk
    (fun x hx => by obtain ⟨r, -, rfl⟩ := List.mem_map.1 hx; exact hf r)

theorem sum_within {lo hi : ℚ} (l : List (Fin m)) (f g : Fin m → ℚ)
    (h : ∀ r, Within lo hi (g r) (f r)) : Within lo hi (l.map g).sum (l.map f).sum := by
  induction l with
  | nil => simp [Within]
  | cons r l ih => simp only [List.map_cons, List.sum_cons]; exact (h r).add ih

theorem part_rel (hR : Rounds rnd u) (hS : Summation rnd sum) (l : List (Fin m)) (hl : l.length ≤ m)
    (f g : Fin m → ℚ) (hf : ∀ r, rnd (f r) = f r) (hf0 : ∀ r, 0 ≤ f r) (hg0 : ∀ r, 0 ≤ g r)
    (h : ∀ r, Within ((1 - u) ^ 2) ((1 + u) ^ 2) (g r) (f r)) :
    Within ((1 - u) ^ (m + 2)) ((1 + u) ^ (m + 2)) (sumOver l g) (sum (l.map f)) := by
  have hu := hR.u0
  have hu1 : 0 < 1 - u := by linarith [hR.u1]
  have h1 := (map_sums hS l f hf).sum_rel hR
    (fun x hx => by obtain ⟨r, -, rfl⟩ := List.mem_map.1 hx; exact hf0 r)
  have h2 := sum_within l f g h
  rw [List.length_map] at h1
  have g0 : 0 ≤ (l.map g).sum :=
    List.sum_nonneg (fun x hx => by obtain ⟨r, -, rfl⟩ := List.mem_map.1 hx; exact hg0 r)
  have w1 : (1 - u) ^ m ≤ (1 - u) ^ l.length := pow_le_pow_of_le_one hu1.le (by linarith) hl
  have w2 : (1 + u) ^ l.length ≤ (1 + u) ^ m := pow_le_pow_right₀ (by linarith) hl
  have f0 : 0 ≤ (l.map f).sum :=
    List.sum_nonneg (fun x hx => by obtain ⟨r, -, rfl⟩ := List.mem_map.1 hx; exact hf0 r)
  have h1' := h1.weaken w1 w2 f0
  unfold sumOver
  constructor
  · calc (1 - u) ^ (m + 2) * (l.map g).sum = (1 - u) ^ m * ((1 - u) ^ 2 * (l.map g).sum) := by ring
      _ ≤ (1 - u) ^ m * (l.map f).sum := mul_le_mul_of_nonneg_left h2.1 (by positivity)
      _ ≤ _ := h1'.1
  · calc _ ≤ (1 + u) ^ m * (l.map f).sum := h1'.2
      _ ≤ (1 + u) ^ m * ((1 + u) ^ 2 * (l.map g).sum) := mul_le_mul_of_nonneg_left h2.2 (by positivity)
      _ = _ := by ring

/-- total production and consumption, and their parts that involve a species -/
theorem totalsS (hR : Rounds rnd u) (hT : Summation rnd tot) (hP : Summation rnd part)
    (c : Chem n m) (a b : Fin n) :
    Within ((1 - u) ^ (m + 2)) ((1 + u) ^ (m + 2)) (Spec.P c a)
      (tot (c.valid.map (fun r => max (baseR rnd c a r) 0))) ∧
    Within ((1 - u) ^ (m + 2)) ((1 + u) ^ (m + 2)) (Spec.C c a)
      (tot (c.valid.map (fun r => max (-baseR rnd c a r) 0))) ∧
    Within ((1 - u) ^ (m + 2)) ((1 + u) ^ (m + 2)) (Spec.PAB c a b)
      (part ((c.validWith b).map (fun r => max (baseR rnd c a r) 0))) ∧
    Within ((1 - u) ^ (m + 2)) ((1 + u) ^ (m + 2)) (Spec.CAB c a b)
      (part ((c.validWith b).map (fun r => max (-baseR rnd c a r) 0))) := by
  have z1 : ∀ r, c.rop r = 0 → max (Spec.rate c a r) 0 = 0 := fun r h => by simp [Spec.rate, h]
  have z2 : ∀ r, c.rop r = 0 → max (-Spec.rate c a r) 0 = 0 := fun r h => by simp [Spec.rate, h]
  have b1 : ∀ r, 0 ≤ max (baseR rnd c a r) 0 := fun r => le_max_right _ _
  have b2 : ∀ r, 0 ≤ max (-baseR rnd c a r) 0 := fun r => le_max_right _ _
  have s1 : ∀ r, 0 ≤ max (Spec.rate c a r) 0 := fun r => le_max_right _ _
  have s2 : ∀ r, 0 ≤ max (-Spec.rate c a r) 0 := fun r => le_max_right _ _
  refine ⟨?_, ?_, ?_, ?_⟩
  · have := part_rel hR hT c.valid (length_valid_le c) _ _ (pos_fixed hR c a) b1 s1
      (fun r => (baseR_pos hR c a r).1)
    rwa [sumOver_valid c _ z1] at this
  · have := part_rel hR hT c.valid (length_valid_le c) _ _ (neg_fixed hR c a) b2 s2
      (fun r => (baseR_pos hR c a r).2)
    rwa [sumOver_valid c _ z2] at this
  · have := part_rel hR hP (c.validWith b) (length_validWith_le c b) _ _ (pos_fixed hR c a) b1 s1
      (fun r => (baseR_pos hR c a r).1)
    rwa [sumOver_validWith c b _ z1] at this
  · have := part_rel hR hP (c.validWith b) (length_validWith_le c b) _ _ (neg_fixed hR c a) b2 s2
      (fun r => (baseR_pos hR c a r).2)
    rwa [sumOver_validWith c b _ z2] at this

/-- the DRG coefficient, with any order of additions -/
theorem drgS_within (hR : Rounds rnd u) (hT : Summation rnd tot) (hP : Summation rnd part)
    (c : Chem n m) (a b : Fin n) (hab : a ≠ b) :
    Within ((1 - u) ^ (m + 2) / (1 + u) ^ (m + 2) * (1 - u))
      ((1 + u) ^ (m + 2) / (1 - u) ^ (m + 2) * (1 + u)) (Spec.drg c a b)
      (drgMatrixS rnd tot part c a b) := by
  by_cases hv : c.valid.isEmpty = true
  · have e : drgMatrixS rnd tot part c a b = 0 := by
      unfold drgMatrixS; rw [if_pos hv]; simp [fillDiagonal]
    have e' : Spec.drg c a b = 0 := by
      unfold Spec.drg
      rw [if_pos (by simp [valid_empty c hv])]
    rw [e, e']; simp [Within]
  · have hz : ∀ r, c.rop r = 0 → |Spec.rate c a r| = 0 := fun r h => by simp [Spec.rate, h]
    have hden := part_rel hR hT c.valid (length_valid_le c) _ _ (abs_fixed hR c a)
      (fun _ => abs_nonneg _) (fun _ => abs_nonneg _) (baseR_rel hR.u0 hR.u1 hR.odd hR.rel c a)
    have hnum := part_rel hR hP (c.validWith b) (length_validWith_le c b) _ _ (abs_fixed hR c a)
      (fun _ => abs_nonneg _) (fun _ => abs_nonneg _) (baseR_rel hR.u0 hR.u1 hR.odd hR.rel c a)
    rw [sumOver_valid c _ hz] at hden
    rw [sumOver_validWith c b _ hz] at hnum
    have := first_within hR (Finset.sum_nonneg (fun r _ => by split_ifs <;> simp))
      (Finset.sum_nonneg (fun r _ => abs_nonneg _)) hnum hden
    unfold drgMatrixS Spec.drg
    rw [if_neg hv]
    simp only [fillDiagonal, hab, if_false, whereDivR]
    rw [zero_add, part_fixed hR hP _ _ (abs_fixed hR c a)]
    exact this

/-- the whole PFA coefficient, with any order of additions -/
theorem pfaS_within (hR : Rounds rnd u) (hT : Summation rnd tot) (hP : Summation rnd part) (c : Chem n m) (a b : Fin n) (hab : a ≠ b) :
    Within ((1 - u) ^ (2 * m + n + 10) / (1 + u) ^ (2 * m + 4))
      ((1 + u) ^ (2 * m + n + 10) / (1 - u) ^ (2 * m + 4)) (Spec.pfa c a b) (pfaMatrixS rnd tot part c a b) := by
  have hu := hR.u0
  have hu1 : 0 < 1 - u := by linarith [hR.u1]
  have hu2 : 0 < 1 + u := by linarith
  by_cases hv : c.valid.isEmpty = true
  · have e : pfaMatrixS rnd tot part c a b = 0 := by unfold pfaMatrixS; rw [if_pos hv]; simp [fillDiagonal]
    have e' : Spec.pfa c a b = 0 := by
      have := pfaMatrix_eq c a b
      unfold pfaMatrix at this
      rw [if_pos hv] at this
      simpa [fillDiagonal, hab] using this.symm
    rw [e, e']; simp [Within]
  · set lo := (1 - u) ^ (m + 2) / (1 + u) ^ (m + 2) * (1 - u) with hlo
    set hi := (1 + u) ^ (m + 2) / (1 - u) ^ (m + 2) * (1 + u) with hhi
    have hlo0 : 0 ≤ lo := by positivity
    have hhi0 : 0 ≤ hi := by positivity
    have hlo1 : lo ≤ 1 := by
      rw [hlo]
      refine mul_le_one₀ ?_ hu1.le (by linarith)
      rw [div_le_one (by positivity)]
      exact pow_le_pow_left₀ hu1.le (by linarith) _
    have hhi1 : 1 ≤ hi := by
      rw [hhi]
      refine one_le_mul_of_one_le_of_one_le ?_ (by linarith)
      rw [one_le_div (by positivity)]
      exact pow_le_pow_left₀ hu1.le (by linarith) _
    have hden : ∀ a, Within ((1 - u) ^ (m + 2)) ((1 + u) ^ (m + 2)) (max (Spec.P c a) (Spec.C c a))
        (max (tot (c.valid.map (fun r => max (baseR rnd c a r) 0)))
          (tot (c.valid.map (fun r => max (-baseR rnd c a r) 0)))) := fun a =>
      (totalsS hR hT hP c a a).1.max (totalsS hR hT hP c a a).2.1 (by positivity) (by positivity)
    have h1 : ∀ a b, Within lo hi (Spec.pro1 c a b) (whereDivR rnd (fun a b =>
        rnd (0 + part ((c.validWith b).map (fun r => max (baseR rnd c a r) 0))))
        (fun a => max (tot (c.valid.map (fun r => max (baseR rnd c a r) 0)))
          (tot (c.valid.map (fun r => max (-baseR rnd c a r) 0)))) a b) := by
      intro a b
      unfold Spec.pro1 whereDivR
      dsimp only
      rw [zero_add, part_fixed hR hP _ _ (pos_fixed hR c a)]
      exact first_within hR (PAB_nonneg c a b) (den_nonneg c a) (totalsS hR hT hP c a b).2.2.1 (hden a)
    have h2 : ∀ a b, Within lo hi (Spec.con1 c a b) (whereDivR rnd (fun a b =>
        rnd (0 + part ((c.validWith b).map (fun r => max (-baseR rnd c a r) 0))))
        (fun a => max (tot (c.valid.map (fun r => max (baseR rnd c a r) 0)))
          (tot (c.valid.map (fun r => max (-baseR rnd c a r) 0)))) a b) := by
      intro a b
      unfold Spec.con1 whereDivR
      dsimp only
      rw [zero_add, part_fixed hR hP _ _ (neg_fixed hR c a)]
      exact first_within hR (CAB_nonneg c a b) (den_nonneg c a) (totalsS hR hT hP c a b).2.2.2 (hden a)
    unfold pfaMatrixS
    rw [if_neg hv]
    simp only [fillDiagonal, hab, if_false]
    generalize whereDivR rnd (fun a b => rnd (0 + part ((c.validWith b).map (fun r => max (baseR rnd c a r) 0)))) _ = P at h1 ⊢
    generalize whereDivR rnd (fun a b => rnd (0 + part ((c.validWith b).map (fun r => max (-baseR rnd c a r) 0)))) _ = Q at h2 ⊢
    obtain ⟨f1, f2, f3, f4⟩ := pfa_foldR (rnd := rnd) (List.finRange n) ⟨P, Q, fun _ _ => 0, fun _ _ => 0⟩
    dsimp only at f1 f2 f3 f4 ⊢
    rw [f1 a b hab, f2 a b hab, f3 a b, f4 a b]
    have g1 := second_within hR hlo0 hhi0 (fun a b => (pro1_range c a b).1) h1 a b
    have g2 := second_within hR hlo0 hhi0 (fun a b => (con1_range c a b).1) h2 a b
    have hlo2 : lo * lo * (1 - u) ^ (n + 1) ≤ lo := by
      have : lo * (1 - u) ^ (n + 1) ≤ 1 := mul_le_one₀ hlo1 (by positivity) (pow_le_one₀ hu1.le (by linarith))
      nlinarith
    have hhi2 : hi ≤ hi * hi * (1 + u) ^ (n + 1) := by
      have : 1 ≤ hi * (1 + u) ^ (n + 1) :=
        one_le_mul_of_one_le_of_one_le hhi1 (one_le_pow₀ (by linarith))
      nlinarith
    have p1 := (h1 a b).weaken hlo2 hhi2 (pro1_range c a b).1
    have p2 := (h2 a b).weaken hlo2 hhi2 (con1_range c a b).1
    have hs1 : 0 ≤ ∑ k, (if k = a ∨ k = b then 0 else Spec.pro1 c a k * Spec.pro1 c k b) :=
      Finset.sum_nonneg (fun k _ => by
        split_ifs <;> [exact le_rfl; exact mul_nonneg (pro1_range c _ _).1 (pro1_range c _ _).1])
    have hs2 : 0 ≤ ∑ k, (if k = a ∨ k = b then 0 else Spec.con1 c a k * Spec.con1 c k b) :=
      Finset.sum_nonneg (fun k _ => by
        split_ifs <;> [exact le_rfl; exact mul_nonneg (con1_range c _ _).1 (con1_range c _ _).1])
    have hp1 := (pro1_range c a b).1
    have hp2 := (con1_range c a b).1
    unfold Spec.pfa
    set l2 := lo * lo * (1 - u) ^ (n + 1)
    set h2' := hi * hi * (1 + u) ^ (n + 1)
    have hl2 : 0 ≤ l2 := by positivity
    have hd : ∀ x : ℚ, 0 ≤ x → x * (1 - u) ≤ x := fun x hx => by nlinarith
    have hi' : ∀ x : ℚ, 0 ≤ x → x ≤ x * (1 + u) := fun x hx => by nlinarith
    have hh2 : 0 ≤ h2' := by positivity
    have s1 := (p1.add p2).round hR hl2 (by positivity)
    have s2 := (s1.add (g1.weaken (hd _ hl2) (hi' _ hh2) hs1)).round hR (by positivity) (by positivity)
    have s3 := (s2.add ((g2.weaken (hd _ hl2) (hi' _ hh2) hs2).weaken (hd _ (by positivity))
      (hi' _ (by positivity)) hs2)).round hR (by positivity) (by positivity)
    have e1 : l2 * (1 - u) * (1 - u) * (1 - u) =
        (1 - u) ^ (2 * m + n + 10) / (1 + u) ^ (2 * m + 4) := by
      simp only [l2, hlo]
      rw [eq_div_iff (by positivity)]
      field_simp
      ring
    have e2 : h2' * (1 + u) * (1 + u) * (1 + u) =
        (1 + u) ^ (2 * m + n + 10) / (1 - u) ^ (2 * m + 4) := by
      simp only [h2', hhi]
      rw [eq_div_iff (by positivity)]
      field_simp
      ring
    rwa [e1, e2] at s3

/-! ### DRGEP -/

/-- the net change of `a` in reactions that involve `b`, with any order of additions -/
theorem netS_err (hR : Rounds rnd u) (hP : Summation rnd part) (c : Chem n m) (a b : Fin n) :
    |part ((c.validWith b).map (baseR rnd c a)) -
        ∑ r, if Spec.Involves c b r then Spec.rate c a r else 0| ≤
      ((1 + u) ^ (m + 2) - 1) * (2 * max (Spec.P c a) (Spec.C c a)) := by
  have hu := hR.u0
  have h1 := (map_sums hP (c.validWith b) _ (base_fixed hR c a)).sum_err hR
  rw [List.length_map, List.map_map] at h1
  have e := sumOver_validWith c b (Spec.rate c a) (fun r hr => by simp [Spec.rate, hr])
  have e' := sumOver_validWith c b (fun r => |Spec.rate c a r|) (fun r hr => by simp [Spec.rate, hr])
  unfold sumOver at e e'
  have hlen := length_validWith_le c b
  have hB : |((c.validWith b).map (baseR rnd c a)).sum - ((c.validWith b).map (Spec.rate c a)).sum| ≤
        ((1 + u) ^ 2 - 1) * ((c.validWith b).map (fun r => |Spec.rate c a r|)).sum ∧
      ((c.validWith b).map ((fun x => |x|) ∘ baseR rnd c a)).sum ≤
        (1 + u) ^ 2 * ((c.validWith b).map (fun r => |Spec.rate c a r|)).sum := by
    generalize c.validWith b = l
    induction l with
    | nil => simp
    | cons r l ih =>
      simp only [List.map_cons, List.sum_cons, Function.comp_apply]
      have hb := baseR_err hR c a r
      have hb' : |baseR rnd c a r| ≤ (1 + u) ^ 2 * |Spec.rate c a r| := by
        calc |baseR rnd c a r| = |(baseR rnd c a r - Spec.rate c a r) + Spec.rate c a r| := by ring_nf
          _ ≤ _ := abs_add_le _ _
          _ ≤ ((1 + u) ^ 2 - 1) * |Spec.rate c a r| + |Spec.rate c a r| := by linarith
          _ = _ := by ring
      constructor
      · calc _ = |(baseR rnd c a r - Spec.rate c a r) +
              ((l.map (baseR rnd c a)).sum - (l.map (Spec.rate c a)).sum)| := by ring_nf
          _ ≤ _ := abs_add_le _ _
          _ ≤ _ := by rw [mul_add]; exact add_le_add hb ih.1
      · rw [mul_add]; exact add_le_add hb' ih.2
  rw [e, e'] at hB
  have hA0 : 0 ≤ ∑ r, (if Spec.Involves c b r then |Spec.rate c a r| else 0) :=
    Finset.sum_nonneg (fun r _ => by split_ifs <;> simp)
  have hA : (∑ r, if Spec.Involves c b r then |Spec.rate c a r| else 0) ≤
      2 * max (Spec.P c a) (Spec.C c a) := by
    have : (∑ r, if Spec.Involves c b r then |Spec.rate c a r| else 0) ≤ Spec.P c a + Spec.C c a := by
      unfold Spec.P Spec.C
      rw [← Finset.sum_add_distrib]
      refine Finset.sum_le_sum (fun r _ => ?_)
      have h1 := le_max_left (Spec.rate c a r) 0
      have h2 := le_max_left (-Spec.rate c a r) 0
      have h3 := le_max_right (Spec.rate c a r) 0
      have h4 := le_max_right (-Spec.rate c a r) 0
      split_ifs
      · exact abs_le'.2 ⟨by linarith, by linarith⟩
      · linarith
    have h1 := le_max_left (Spec.P c a) (Spec.C c a)
    have h2 := le_max_right (Spec.P c a) (Spec.C c a)
    linarith
  have w : (1 + u) ^ (c.validWith b).length ≤ (1 + u) ^ m := pow_le_pow_right₀ (by linarith) hlen
  have w0 : 1 ≤ (1 + u) ^ m := one_le_pow₀ (by linarith)
  have wl : 1 ≤ (1 + u) ^ (c.validWith b).length := one_le_pow₀ (by linarith)
  have w2 : 1 ≤ (1 + u) ^ (m + 2) := one_le_pow₀ (by linarith)
  generalize (∑ r, if Spec.Involves c b r then Spec.rate c a r else 0) = S at *
  generalize (∑ r, if Spec.Involves c b r then |Spec.rate c a r| else 0) = A at *
  generalize ((c.validWith b).map (baseR rnd c a)).sum = S₁ at *
  generalize ((c.validWith b).map ((fun x => |x|) ∘ baseR rnd c a)).sum = A₁ at *
  generalize part ((c.validWith b).map (baseR rnd c a)) = S' at *
  have h2 : |S' - S₁| ≤ ((1 + u) ^ m - 1) * ((1 + u) ^ 2 * A) :=
    calc _ ≤ ((1 + u) ^ (c.validWith b).length - 1) * A₁ := h1
      _ ≤ ((1 + u) ^ (c.validWith b).length - 1) * ((1 + u) ^ 2 * A) :=
        mul_le_mul_of_nonneg_left hB.2 (by linarith)
      _ ≤ _ := mul_le_mul_of_nonneg_right (by linarith) (by positivity)
  calc |S' - S| = |(S' - S₁) + (S₁ - S)| := by ring_nf
    _ ≤ |S' - S₁| + |S₁ - S| := abs_add_le _ _
    _ ≤ ((1 + u) ^ m - 1) * ((1 + u) ^ 2 * A) + ((1 + u) ^ 2 - 1) * A := add_le_add h2 hB.1
    _ = ((1 + u) ^ (m + 2) - 1) * A := by ring
    _ ≤ _ := mul_le_mul_of_nonneg_left hA (by linarith)

/-- the DRGEP coefficient, with any order of additions -/
theorem drgepS_err (hR : Rounds rnd u) (hT : Summation rnd tot) (hP : Summation rnd part) (c : Chem n m) (a b : Fin n) (hab : a ≠ b) :
    |drgepMatrixS rnd tot part c a b - Spec.drgep c a b| ≤
      (1 + u) * (3 * ((1 + u) ^ (m + 2) - 1) / (1 - u) ^ (m + 2)) + u := by
  have hu := hR.u0
  have hu1 : 0 < 1 - u := by linarith [hR.u1]
  set g := (1 + u) ^ (m + 2) - 1 with hg
  set L := (1 - u) ^ (m + 2) with hL
  have hg0 : 0 ≤ g := by
    have := one_le_pow₀ (show 1 ≤ 1 + u by linarith) (n := m + 2)
    linarith
  have hLp : 0 < L := by positivity
  have hLg : 1 - L ≤ g := by
    have h1 := one_add_mul_le_pow (show (-2 : ℚ) ≤ u by linarith) (m + 2)
    have h2 := one_add_mul_le_pow (show (-2 : ℚ) ≤ -u by linarith [hR.u1]) (m + 2)
    rw [← sub_eq_add_neg] at h2
    rw [hg, hL]
    linarith
  have h0 : (0 : ℚ) ≤ (1 + u) * (3 * g / L) + u := by positivity
  by_cases hv : c.valid.isEmpty = true
  · have e : drgepMatrixS rnd tot part c a b = 0 := by unfold drgepMatrixS; rw [if_pos hv]; simp [fillDiagonal]
    have e' : Spec.drgep c a b = 0 := by
      have := drgepMatrix_eq c a b
      unfold drgepMatrix at this
      rw [if_pos hv] at this
      simpa [fillDiagonal, hab] using this.symm
    rw [e, e']; simpa using h0
  · have hD := (totalsS hR hT hP c a b).1.max (totalsS hR hT hP c a b).2.1 (by positivity) (by positivity)
    have hS := netS_err hR hP c a b
    have hs01 := drgep_range c a b
    unfold drgepMatrixS
    rw [if_neg hv]
    simp only [fillDiagonal, hab, if_false, whereDivR, max_comm (0 : ℚ), zero_add,
      part_fixed hR hP _ _ (base_fixed hR c a)]
    have hDnn := den_nonneg c a
    unfold Spec.drgep at hs01 ⊢
    generalize (∑ r, if Spec.Involves c b r then Spec.rate c a r else 0) = S at *
    generalize part ((c.validWith b).map (baseR rnd c a)) = S' at *
    generalize max (Spec.P c a) (Spec.C c a) = D at *
    generalize max (tot (c.valid.map (fun r => max (baseR rnd c a r) 0)))
          (tot (c.valid.map (fun r => max (-baseR rnd c a r) 0))) = D' at *
    by_cases hD0 : D = 0
    · have : D' = 0 := by
        have h1 := hD.1
        have h2 := hD.2
        rw [hD0, mul_zero] at h1 h2
        linarith
      simpa [hD0, this] using h0
    · have hDp : 0 < D := lt_of_le_of_ne hDnn (Ne.symm hD0)
      have hDp' : 0 < D' := lt_of_lt_of_le (mul_pos hLp hDp) hD.1
      have hne : (D' != 0) = true := by simpa using hDp'.ne'
      rw [if_neg hD0] at hs01 ⊢
      rw [if_pos hne]
      have hq0 : 0 ≤ |S'| / D' := by positivity
      have hN1 : |S| ≤ D := by
        have := hs01.2
        rwa [div_le_one hDp] at this
      have r2 : |(|S'| / D' - |S| / D)| ≤ 3 * g / L := by
        rw [div_sub_div _ _ hDp'.ne' hDp.ne', abs_div, abs_of_pos (mul_pos hDp' hDp)]
        have hx : |(|S'| - |S|)| ≤ g * (2 * D) := (abs_abs_sub_abs_le _ _).trans hS
        have hy : |D - D'| ≤ g * D := by
          have h1 := hD.1
          have h2 := hD.2
          rw [abs_le]
          constructor
          · have : (1 + u) ^ (m + 2) = g + 1 := by rw [hg]; ring
            rw [this] at h2
            linarith
          · nlinarith
        have hnum : |(|S'| * D - D' * |S|)| ≤ 3 * g * D * D := by
          calc |(|S'| * D - D' * |S|)| = |(|S'| - |S|) * D + |S| * (D - D')| := by ring_nf
            _ ≤ |(|S'| - |S|) * D| + |(|S| * (D - D'))| := abs_add_le _ _
            _ = |(|S'| - |S|)| * D + |S| * |D - D'| := by
                rw [abs_mul, abs_mul, abs_of_pos hDp, abs_abs]
            _ ≤ g * (2 * D) * D + D * (g * D) := by
                refine add_le_add (mul_le_mul_of_nonneg_right hx hDp.le) ?_
                exact mul_le_mul hN1 hy (abs_nonneg _) hDp.le
            _ = _ := by ring
        rw [div_le_div_iff₀ (mul_pos hDp' hDp) hLp]
        calc |(|S'| * D - D' * |S|)| * L ≤ 3 * g * D * D * L := mul_le_mul_of_nonneg_right hnum hLp.le
          _ = 3 * g * D * (L * D) := by ring
          _ ≤ 3 * g * D * D' := mul_le_mul_of_nonneg_left hD.1 (by positivity)
          _ = _ := by ring
      have hq1 : |S'| / D' ≤ 1 + 3 * g / L := by
        have := (abs_le.1 r2).2
        have := hs01.2
        linarith
      have r1 : |rnd (|S'| / D') - |S'| / D'| ≤ u * (1 + 3 * g / L) := by
        have := hR.err (|S'| / D')
        rw [abs_of_nonneg hq0] at this
        exact this.trans (mul_le_mul_of_nonneg_left hq1 hu)
      calc |rnd (|S'| / D') - |S| / D| = |(rnd (|S'| / D') - |S'| / D') + (|S'| / D' - |S| / D)| := by ring_nf
        _ ≤ |rnd (|S'| / D') - |S'| / D'| + |(|S'| / D' - |S| / D)| := abs_add_le _ _
        _ ≤ _ := by linarith

end Verif
