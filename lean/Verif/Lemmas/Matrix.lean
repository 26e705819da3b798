import Verif.Spec.Matrix
import Mathlib.Algebra.Order.BigOperators.Group.Finset
import Mathlib.Algebra.Order.Field.Basic
import Mathlib.Tactic.Ring
import Mathlib.Tactic.Linarith
namespace Verif
open Finset
variable {n m : Nat} (c : Chem n m)

theorem sum_filter_list {α} (l : List α) (p : α → Bool) (f : α → ℚ) :
    ((l.filter p).map f).sum = (l.map (fun x => if p x then f x else 0)).sum := by
  induction l with
  | nil => rfl
  | cons a l ih => by_cases h : p a <;> simp [h, ih]

/-- sum over reactions with non-zero rate equals the sum over all reactions when the
summand vanishes at zero rate -/
theorem sumOver_valid (f : Fin m → ℚ) (h : ∀ r, c.rop r = 0 → f r = 0) :
    sumOver c.valid f = ∑ r, f r := by
  unfold sumOver Chem.valid
  rw [sum_filter_list, Fin.sum_univ_def]
  congr 1
  apply List.map_congr_left
  intro r _
  by_cases hr : c.rop r = 0
  · simp [hr, h r hr]
  · simp [hr]

theorem flag_iff (b : Fin n) (r : Fin m) : c.flag b r = true ↔ Spec.Involves c b r := by
  simp [Chem.flag, Spec.Involves]

theorem sumOver_validWith (b : Fin n) (f : Fin m → ℚ) (h : ∀ r, c.rop r = 0 → f r = 0) :
    sumOver (c.validWith b) f = ∑ r, if Spec.Involves c b r then f r else 0 := by
  have : sumOver (c.validWith b) f =
      sumOver c.valid (fun r => if c.flag b r then f r else 0) := by
    unfold sumOver Chem.validWith
    rw [sum_filter_list]
  rw [this, sumOver_valid]
  · apply Finset.sum_congr rfl
    intro r _
    by_cases hf : Spec.Involves c b r
    · simp [hf, (flag_iff c b r).2 hf]
    · have : ¬ c.flag b r = true := fun h => hf ((flag_iff c b r).1 h)
      simp [hf, this]
  · intro r hr
    simp [h r hr]

theorem rate_zero (a : Fin n) (r : Fin m) (h : c.rop r = 0) :
    c.netStoich a r * c.rop r = 0 := by simp [h]

theorem valid_empty (h : c.valid.isEmpty = true) (a : Fin n) (r : Fin m) :
    Spec.rate c a r = 0 := by
  rw [List.isEmpty_iff] at h
  unfold Chem.valid at h
  rw [List.filter_eq_nil_iff] at h
  have := h r (List.mem_finRange r)
  have h0 : c.rop r = 0 := by simpa using this
  simp [Spec.rate, h0]

theorem whereDiv_eq (num : Mat n) (den : Fin n → ℚ) (a b : Fin n) :
    whereDiv num den a b = if den a = 0 then 0 else num a b / den a := by
  unfold whereDiv
  by_cases h : den a = 0 <;> simp [h]

theorem drgMatrix_eq (a b : Fin n) :
    drgMatrix c a b = if a = b then 0 else Spec.drg c a b := by
  unfold drgMatrix
  split_ifs with h hab hab
  · simp [fillDiagonal, hab]
  · simp [fillDiagonal, Spec.drg, valid_empty c h]
  · simp [fillDiagonal, hab]
  · simp only [fillDiagonal, hab, if_false, whereDiv_eq, Spec.drg, zero_add]
    rw [sumOver_valid _ _ (fun r hr => by simp [hr]),
      sumOver_validWith _ _ _ (fun r hr => by simp [hr])]
    simp only [Chem.netStoich, Spec.rate]
    split_ifs <;> rfl

theorem drgepMatrix_eq (a b : Fin n) :
    drgepMatrix c a b = if a = b then 0 else Spec.drgep c a b := by
  unfold drgepMatrix
  split_ifs with h hab hab
  · simp [fillDiagonal, hab]
  · simp [fillDiagonal, Spec.drgep, Spec.P, Spec.C, valid_empty c h]
  · simp [fillDiagonal, hab]
  · simp only [fillDiagonal, hab, if_false, whereDiv_eq, Spec.drgep, zero_add]
    rw [sumOver_valid _ _ (fun r hr => by simp [hr]), sumOver_valid _ _ (fun r hr => by simp [hr]),
      sumOver_validWith _ _ _ (fun r hr => by simp [hr])]
    simp only [Chem.netStoich, Spec.rate, Spec.P, Spec.C, max_comm (0 : ℚ)]
    congr

/-- state after processing the intermediates in `l` -/
theorem pfa_fold (l : List (Fin n)) (s : PfaState n) :
    let t := l.foldl pfaStep s
    (∀ a b, a ≠ b → t.pro1 a b = s.pro1 a b) ∧ (∀ a b, a ≠ b → t.con1 a b = s.con1 a b) ∧
    (∀ a b, t.pro2 a b = s.pro2 a b +
      (l.map (fun k => if k = a ∨ k = b then 0 else s.pro1 a k * s.pro1 k b)).sum) ∧
    (∀ a b, t.con2 a b = s.con2 a b +
      (l.map (fun k => if k = a ∨ k = b then 0 else s.con1 a k * s.con1 k b)).sum) := by
  induction l generalizing s with
  | nil => simp
  | cons k l ih =>
    obtain ⟨h1, h2, h3, h4⟩ := ih (pfaStep s k)
    have e1 : ∀ a b, a ≠ b → (pfaStep s k).pro1 a b = s.pro1 a b := by
      intro a b hab
      simp only [pfaStep, setEntry]
      have : ¬ (a = k ∧ b = k) := by rintro ⟨rfl, rfl⟩; exact hab rfl
      simp [this]
    have e2 : ∀ a b, a ≠ b → (pfaStep s k).con1 a b = s.con1 a b := by
      intro a b hab
      simp only [pfaStep, setEntry]
      have : ¬ (a = k ∧ b = k) := by rintro ⟨rfl, rfl⟩; exact hab rfl
      simp [this]
    have q1 : ∀ a b, (pfaStep s k).pro2 a b = s.pro2 a b +
        if k = a ∨ k = b then 0 else s.pro1 a k * s.pro1 k b := by
      intro a b
      simp only [pfaStep, outer, setEntry]
      by_cases ha : k = a
      · simp [ha]
      · by_cases hb : k = b
        · simp [hb]
        · have ha' : ¬ a = k := fun h => ha h.symm
          have hb' : ¬ b = k := fun h => hb h.symm
          simp [ha, hb, ha', hb']
    have q2 : ∀ a b, (pfaStep s k).con2 a b = s.con2 a b +
        if k = a ∨ k = b then 0 else s.con1 a k * s.con1 k b := by
      intro a b
      simp only [pfaStep, outer, setEntry]
      by_cases ha : k = a
      · simp [ha]
      · by_cases hb : k = b
        · simp [hb]
        · have ha' : ¬ a = k := fun h => ha h.symm
          have hb' : ¬ b = k := fun h => hb h.symm
          simp [ha, hb, ha', hb']
    have r1 : ∀ a b, (l.map (fun j => if j = a ∨ j = b then 0
        else (pfaStep s k).pro1 a j * (pfaStep s k).pro1 j b)) =
        l.map (fun j => if j = a ∨ j = b then 0 else s.pro1 a j * s.pro1 j b) := by
      intro a b
      apply List.map_congr_left
      intro j _
      by_cases hj : j = a ∨ j = b
      · simp [hj]
      · have hj' := not_or.1 hj
        simp only [hj, if_false]
        rw [e1 a j (fun h => hj'.1 h.symm), e1 j b hj'.2]
    have r2 : ∀ a b, (l.map (fun j => if j = a ∨ j = b then 0
        else (pfaStep s k).con1 a j * (pfaStep s k).con1 j b)) =
        l.map (fun j => if j = a ∨ j = b then 0 else s.con1 a j * s.con1 j b) := by
      intro a b
      apply List.map_congr_left
      intro j _
      by_cases hj : j = a ∨ j = b
      · simp [hj]
      · have hj' := not_or.1 hj
        simp only [hj, if_false]
        rw [e2 a j (fun h => hj'.1 h.symm), e2 j b hj'.2]
    refine ⟨?_, ?_, ?_, ?_⟩
    · intro a b hab; rw [List.foldl_cons, h1 a b hab, e1 a b hab]
    · intro a b hab; rw [List.foldl_cons, h2 a b hab, e2 a b hab]
    · intro a b
      rw [List.foldl_cons, h3 a b, q1 a b, List.map_cons, List.sum_cons, r1 a b]; ring
    · intro a b
      rw [List.foldl_cons, h4 a b, q2 a b, List.map_cons, List.sum_cons, r2 a b]; ring

theorem pfaMatrix_eq (a b : Fin n) :
    pfaMatrix c a b = if a = b then 0 else Spec.pfa c a b := by
  unfold pfaMatrix
  split_ifs with h hab hab
  · simp [fillDiagonal, hab]
  · have : ∀ a : Fin n, max (Spec.P c a) (Spec.C c a) = 0 := by
      intro a; simp [Spec.P, Spec.C, valid_empty c h]
    simp [fillDiagonal, Spec.pfa, Spec.pro1, Spec.con1, this]
  · simp [fillDiagonal, hab]
  · simp only [fillDiagonal, hab, if_false]
    obtain ⟨h1, h2, h3, h4⟩ := pfa_fold (List.finRange n)
      { pro1 := whereDiv (fun a b => 0 + sumOver (c.validWith b)
          (fun r => max (c.netStoich a r * c.rop r) 0))
          (fun a => max (sumOver c.valid (fun r => max (c.netStoich a r * c.rop r) 0))
            (sumOver c.valid (fun r => max (-(c.netStoich a r * c.rop r)) 0))),
        con1 := whereDiv (fun a b => 0 + sumOver (c.validWith b)
          (fun r => max (-(c.netStoich a r * c.rop r)) 0))
          (fun a => max (sumOver c.valid (fun r => max (c.netStoich a r * c.rop r) 0))
            (sumOver c.valid (fun r => max (-(c.netStoich a r * c.rop r)) 0))),
        pro2 := fun _ _ => 0, con2 := fun _ _ => 0 }
    rw [h1 a b hab, h2 a b hab, h3 a b, h4 a b]
    have hp : ∀ a b, whereDiv (fun a b => 0 + sumOver (c.validWith b)
          (fun r => max (c.netStoich a r * c.rop r) 0))
          (fun a => max (sumOver c.valid (fun r => max (c.netStoich a r * c.rop r) 0))
            (sumOver c.valid (fun r => max (-(c.netStoich a r * c.rop r)) 0))) a b =
        Spec.pro1 c a b := by
      intro a b
      simp only [whereDiv_eq, Spec.pro1, zero_add]
      rw [sumOver_valid _ _ (fun r hr => by simp [hr]),
        sumOver_valid _ _ (fun r hr => by simp [hr]),
        sumOver_validWith _ _ _ (fun r hr => by simp [hr])]
      simp only [Chem.netStoich, Spec.rate, Spec.P, Spec.C, Spec.PAB]
      split_ifs <;> rfl
    have hq : ∀ a b, whereDiv (fun a b => 0 + sumOver (c.validWith b)
          (fun r => max (-(c.netStoich a r * c.rop r)) 0))
          (fun a => max (sumOver c.valid (fun r => max (c.netStoich a r * c.rop r) 0))
            (sumOver c.valid (fun r => max (-(c.netStoich a r * c.rop r)) 0))) a b =
        Spec.con1 c a b := by
      intro a b
      simp only [whereDiv_eq, Spec.con1, zero_add]
      rw [sumOver_valid _ _ (fun r hr => by simp [hr]),
        sumOver_valid _ _ (fun r hr => by simp [hr]),
        sumOver_validWith _ _ _ (fun r hr => by simp [hr])]
      simp only [Chem.netStoich, Spec.rate, Spec.P, Spec.C, Spec.CAB]
      split_ifs <;> rfl
    simp only [hp, hq]
    simp only [zero_add, Spec.pfa]
    rw [← Fin.sum_univ_def, ← Fin.sum_univ_def]

/-! ranges -/

theorem P_nonneg (a : Fin n) : 0 ≤ Spec.P c a :=
  Finset.sum_nonneg (fun _ _ => le_max_right _ _)
theorem C_nonneg (a : Fin n) : 0 ≤ Spec.C c a :=
  Finset.sum_nonneg (fun _ _ => le_max_right _ _)
theorem PAB_nonneg (a b : Fin n) : 0 ≤ Spec.PAB c a b :=
  Finset.sum_nonneg (fun _ _ => by split_ifs <;> simp)
theorem CAB_nonneg (a b : Fin n) : 0 ≤ Spec.CAB c a b :=
  Finset.sum_nonneg (fun _ _ => by split_ifs <;> simp)
theorem PAB_le (a b : Fin n) : Spec.PAB c a b ≤ Spec.P c a :=
  Finset.sum_le_sum (fun _ _ => by split_ifs <;> simp)
theorem CAB_le (a b : Fin n) : Spec.CAB c a b ≤ Spec.C c a :=
  Finset.sum_le_sum (fun _ _ => by split_ifs <;> simp)

theorem den_nonneg (a : Fin n) : 0 ≤ max (Spec.P c a) (Spec.C c a) :=
  le_max_of_le_left (P_nonneg c a)

theorem pro1_range (a b : Fin n) : 0 ≤ Spec.pro1 c a b ∧ Spec.pro1 c a b ≤ 1 := by
  unfold Spec.pro1
  split_ifs with h
  · simp
  · have hpos := lt_of_le_of_ne (den_nonneg c a) (Ne.symm h)
    refine ⟨div_nonneg (PAB_nonneg c a b) hpos.le, ?_⟩
    rw [div_le_one hpos]
    exact (PAB_le c a b).trans (le_max_left _ _)

theorem con1_range (a b : Fin n) : 0 ≤ Spec.con1 c a b ∧ Spec.con1 c a b ≤ 1 := by
  unfold Spec.con1
  split_ifs with h
  · simp
  · have hpos := lt_of_le_of_ne (den_nonneg c a) (Ne.symm h)
    refine ⟨div_nonneg (CAB_nonneg c a b) hpos.le, ?_⟩
    rw [div_le_one hpos]
    exact (CAB_le c a b).trans (le_max_right _ _)

theorem drg_range (a b : Fin n) : 0 ≤ Spec.drg c a b ∧ Spec.drg c a b ≤ 1 := by
  unfold Spec.drg
  have hnn : 0 ≤ ∑ r, |Spec.rate c a r| := Finset.sum_nonneg (fun _ _ => abs_nonneg _)
  split_ifs with h
  · simp
  · have hpos := lt_of_le_of_ne hnn (Ne.symm h)
    refine ⟨div_nonneg (Finset.sum_nonneg (fun _ _ => by split_ifs <;> simp)) hpos.le, ?_⟩
    rw [div_le_one hpos]
    exact Finset.sum_le_sum (fun _ _ => by split_ifs <;> simp)

theorem drgep_range (a b : Fin n) : 0 ≤ Spec.drgep c a b ∧ Spec.drgep c a b ≤ 1 := by
  unfold Spec.drgep
  split_ifs with h
  · simp
  · have hpos := lt_of_le_of_ne (den_nonneg c a) (Ne.symm h)
    refine ⟨div_nonneg (abs_nonneg _) hpos.le, ?_⟩
    rw [div_le_one hpos, abs_le]
    have hu : (∑ r, if Spec.Involves c b r then Spec.rate c a r else 0) ≤ Spec.P c a :=
      Finset.sum_le_sum (fun _ _ => by split_ifs <;> simp)
    have hl : -(∑ r, if Spec.Involves c b r then Spec.rate c a r else 0) ≤ Spec.C c a := by
      rw [← Finset.sum_neg_distrib]
      exact Finset.sum_le_sum (fun _ _ => by split_ifs <;> simp)
    constructor
    · have := le_max_right (Spec.P c a) (Spec.C c a); linarith
    · exact hu.trans (le_max_left _ _)

/-! scaling -/

/-- all rates of progress multiplied by `k` -/
def Chem.scale (k : ℚ) : Chem n m := { c with rop := fun r => k * c.rop r }

theorem rate_scale (k : ℚ) (a : Fin n) (r : Fin m) :
    Spec.rate (c.scale k) a r = k * Spec.rate c a r := by
  simp only [Spec.rate, Chem.scale]; ring

theorem involves_scale (k : ℚ) (b : Fin n) (r : Fin m) :
    Spec.Involves (c.scale k) b r ↔ Spec.Involves c b r := Iff.rfl

theorem drg_scale (k : ℚ) (hk : k ≠ 0) (a b : Fin n) :
    Spec.drg (c.scale k) a b = Spec.drg c a b := by
  unfold Spec.drg
  simp only [rate_scale, abs_mul, involves_scale]
  rw [← Finset.mul_sum]
  have : (∑ r, if Spec.Involves c b r then |k| * |Spec.rate c a r| else 0) =
      |k| * ∑ r, if Spec.Involves c b r then |Spec.rate c a r| else 0 := by
    rw [Finset.mul_sum]; exact Finset.sum_congr rfl (fun r _ => by split_ifs <;> simp)
  rw [this]
  have hk' : |k| ≠ 0 := abs_ne_zero.2 hk
  simp only [mul_eq_zero, hk', false_or]
  split_ifs with h
  · rfl
  · exact mul_div_mul_left _ _ hk'

theorem sum_ite_mul {p : Fin m → Prop} [DecidablePred p] (k : ℚ) (f : Fin m → ℚ) :
    (∑ r, if p r then k * f r else 0) = k * ∑ r, if p r then f r else 0 := by
  rw [Finset.mul_sum]; exact Finset.sum_congr rfl (fun r _ => by split_ifs <;> simp)

theorem scale_pos (k : ℚ) (hk : 0 < k) (a b : Fin n) :
    Spec.P (c.scale k) a = k * Spec.P c a ∧ Spec.C (c.scale k) a = k * Spec.C c a ∧
    Spec.PAB (c.scale k) a b = k * Spec.PAB c a b ∧
    Spec.CAB (c.scale k) a b = k * Spec.CAB c a b := by
  have h1 : ∀ x : ℚ, max (k * x) 0 = k * max x 0 := by
    intro x; rw [mul_max_of_nonneg _ _ hk.le, mul_zero]
  have h2 : ∀ x : ℚ, max (-(k * x)) 0 = k * max (-x) 0 := by
    intro x; rw [mul_max_of_nonneg _ _ hk.le, mul_zero, mul_neg]
  simp only [Spec.P, Spec.C, Spec.PAB, Spec.CAB, rate_scale, h1, h2, involves_scale,
    Finset.mul_sum, sum_ite_mul, and_self]

theorem scale_neg (k : ℚ) (hk : k < 0) (a b : Fin n) :
    Spec.P (c.scale k) a = -k * Spec.C c a ∧ Spec.C (c.scale k) a = -k * Spec.P c a ∧
    Spec.PAB (c.scale k) a b = -k * Spec.CAB c a b ∧
    Spec.CAB (c.scale k) a b = -k * Spec.PAB c a b := by
  have hk' : 0 ≤ -k := by linarith
  have h1 : ∀ x : ℚ, max (k * x) 0 = -k * max (-x) 0 := by
    intro x; rw [mul_max_of_nonneg _ _ hk', mul_zero, neg_mul_neg]
  have h2 : ∀ x : ℚ, max (-(k * x)) 0 = -k * max x 0 := by
    intro x; rw [mul_max_of_nonneg _ _ hk', mul_zero, neg_mul]
  simp only [Spec.P, Spec.C, Spec.PAB, Spec.CAB, rate_scale, h1, h2, involves_scale,
    Finset.mul_sum, sum_ite_mul, and_self]

theorem den_scale (k : ℚ) (a : Fin n) (hk : k ≠ 0) :
    max (Spec.P (c.scale k) a) (Spec.C (c.scale k) a) = |k| * max (Spec.P c a) (Spec.C c a) := by
  rcases lt_or_gt_of_ne hk with h | h
  · rw [(scale_neg c k h a a).1, (scale_neg c k h a a).2.1, abs_of_neg h,
      mul_max_of_nonneg _ _ (by linarith), max_comm]
  · rw [(scale_pos c k h a a).1, (scale_pos c k h a a).2.1, abs_of_pos h,
      mul_max_of_nonneg _ _ h.le]

theorem drgep_scale (k : ℚ) (hk : k ≠ 0) (a b : Fin n) :
    Spec.drgep (c.scale k) a b = Spec.drgep c a b := by
  unfold Spec.drgep
  have hk' : |k| ≠ 0 := abs_ne_zero.2 hk
  rw [den_scale c k a hk]
  simp only [rate_scale, involves_scale, sum_ite_mul, abs_mul, mul_eq_zero, hk', false_or]
  split_ifs with h
  · rfl
  · exact mul_div_mul_left _ _ hk'

theorem pro1_con1_scale (k : ℚ) (hk : k ≠ 0) (a b : Fin n) :
    (0 < k → Spec.pro1 (c.scale k) a b = Spec.pro1 c a b ∧
      Spec.con1 (c.scale k) a b = Spec.con1 c a b) ∧
    (k < 0 → Spec.pro1 (c.scale k) a b = Spec.con1 c a b ∧
      Spec.con1 (c.scale k) a b = Spec.pro1 c a b) := by
  have hk' : |k| ≠ 0 := abs_ne_zero.2 hk
  unfold Spec.pro1 Spec.con1
  rw [den_scale c k a hk]
  simp only [mul_eq_zero, hk', false_or]
  constructor
  · intro h
    obtain ⟨-, -, h1, h2⟩ := scale_pos c k h a b
    rw [h1, h2, abs_of_pos h, mul_div_mul_left _ _ h.ne', mul_div_mul_left _ _ h.ne']
    exact ⟨rfl, rfl⟩
  · intro h
    have hn : -k ≠ 0 := by linarith
    obtain ⟨-, -, h1, h2⟩ := scale_neg c k h a b
    rw [h1, h2, abs_of_neg h, mul_div_mul_left _ _ hn, mul_div_mul_left _ _ hn]
    exact ⟨rfl, rfl⟩

theorem pfa_scale (k : ℚ) (hk : k ≠ 0) (a b : Fin n) :
    Spec.pfa (c.scale k) a b = Spec.pfa c a b := by
  unfold Spec.pfa
  rcases lt_or_gt_of_ne hk with h | h
  · have e1 : ∀ a b, Spec.pro1 (c.scale k) a b = Spec.con1 c a b :=
      fun a b => ((pro1_con1_scale c k hk a b).2 h).1
    have e2 : ∀ a b, Spec.con1 (c.scale k) a b = Spec.pro1 c a b :=
      fun a b => ((pro1_con1_scale c k hk a b).2 h).2
    simp only [e1, e2]; ring
  · have e1 : ∀ a b, Spec.pro1 (c.scale k) a b = Spec.pro1 c a b :=
      fun a b => ((pro1_con1_scale c k hk a b).1 h).1
    have e2 : ∀ a b, Spec.con1 (c.scale k) a b = Spec.con1 c a b :=
      fun a b => ((pro1_con1_scale c k hk a b).1 h).2
    simp only [e1, e2]

end Verif
