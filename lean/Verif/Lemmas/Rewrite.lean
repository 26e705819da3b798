import Mathlib.Algebra.BigOperators.Group.Finset.Basic
import Mathlib.Algebra.BigOperators.Ring.Finset
import Verif.Spec.Rewrite
import Verif.Lemmas.Matrix
/-!
Sums over the reactions of two descriptions of the same chemistry.
-/
namespace Verif
open Spec Finset

section
variable {n m m' : Nat} {c : Chem n m} {c' : Chem n m'} {of : Fin m' → Fin m} {part : Fin m' → ℚ}

/-- the coefficients depend only on sums of this form -/
theorem Spec.Rewritten.sum (h : Rewritten c c' of part) {f : ℚ → ℚ} (hf : ∀ k x, 0 ≤ k → f (k * x) = k * f x)
    (A B : Fin n) :
    (∑ r', if Involves c' B r' then f (rate c' A r') else 0) =
      ∑ r, if Involves c B r then f (rate c A r) else 0 := by
  have f0 : f 0 = 0 := by simpa using hf 0 0 (le_refl _)
  have h1 : ∀ r', (if Involves c' B r' then f (rate c' A r') else 0) =
      part r' * (if Involves c B (of r') then f (rate c A (of r')) else 0) := by
    intro r'
    by_cases hz : rate c' A r' = 0
    · have h2 : part r' * f (rate c A (of r')) = 0 := by
        rw [← hf _ _ (h.nonneg r'), ← h.rates, hz, f0]
      rw [hz, f0]
      split_ifs <;> simp [h2]
    · have hi := h.species B r' ⟨A, hz⟩
      by_cases hB : Involves c' B r'
      · rw [if_pos hB, if_pos (hi.1 hB), h.rates, hf _ _ (h.nonneg r')]
      · rw [if_neg hB, if_neg (fun h' => hB (hi.2 h')), mul_zero]
  rw [Finset.sum_congr rfl (fun r' _ => h1 r'), ← Finset.sum_fiberwise (s := Finset.univ) (g := of)]
  apply Finset.sum_congr rfl
  intro r _
  have h3 : (∑ r' with of r' = r, part r' * (if Involves c B (of r') then f (rate c A (of r')) else 0)) =
      (∑ r' with of r' = r, part r') * (if Involves c B r then f (rate c A r) else 0) := by
    rw [Finset.sum_mul]
    apply Finset.sum_congr rfl
    intro r' hr'
    rw [(Finset.mem_filter.1 hr').2]
  rw [h3]
  by_cases hz : rate c A r = 0
  · rw [hz, f0]; simp
  · rw [h.whole r ⟨A, hz⟩, one_mul]

theorem Spec.Rewritten.sum_all (h : Rewritten c c' of part) {f : ℚ → ℚ}
    (hf : ∀ k x, 0 ≤ k → f (k * x) = k * f x) (A : Fin n) :
    (∑ r', f (rate c' A r')) = ∑ r, f (rate c A r) := by
  have f0 : f 0 = 0 := by simpa using hf 0 0 (le_refl _)
  have h1 : ∀ r', f (rate c' A r') = part r' * f (rate c A (of r')) := by
    intro r'
    rw [h.rates, hf _ _ (h.nonneg r')]
  rw [Finset.sum_congr rfl (fun r' _ => h1 r'), ← Finset.sum_fiberwise (s := Finset.univ) (g := of)]
  apply Finset.sum_congr rfl
  intro r _
  have h3 : (∑ r' with of r' = r, part r' * f (rate c A (of r'))) =
      (∑ r' with of r' = r, part r') * f (rate c A r) := by
    rw [Finset.sum_mul]
    apply Finset.sum_congr rfl
    intro r' hr'
    rw [(Finset.mem_filter.1 hr').2]
  rw [h3]
  by_cases hz : rate c A r = 0
  · rw [hz, f0, mul_zero]
  · rw [h.whole r ⟨A, hz⟩, one_mul]

theorem homog_abs (k x : ℚ) (hk : 0 ≤ k) : |k * x| = k * |x| := by
  rw [abs_mul, abs_of_nonneg hk]

theorem homog_max (k x : ℚ) (hk : 0 ≤ k) : max (k * x) 0 = k * max x 0 := by
  rw [mul_max_of_nonneg _ _ hk, mul_zero]

theorem homog_maxNeg (k x : ℚ) (hk : 0 ≤ k) : max (-(k * x)) 0 = k * max (-x) 0 := by
  rw [mul_max_of_nonneg _ _ hk, mul_zero, mul_neg]

theorem Spec.Rewritten.P (h : Rewritten c c' of part) (A : Fin n) : Spec.P c' A = Spec.P c A :=
  h.sum_all (f := fun x => max x 0) (fun k x hk => homog_max k x hk) A

theorem Spec.Rewritten.C (h : Rewritten c c' of part) (A : Fin n) : Spec.C c' A = Spec.C c A :=
  h.sum_all (f := fun x => max (-x) 0) (fun k x hk => homog_maxNeg k x hk) A

theorem Spec.Rewritten.drg (h : Rewritten c c' of part) (A B : Fin n) : Spec.drg c' A B = Spec.drg c A B := by
  unfold Spec.drg
  rw [h.sum_all (f := fun x => |x|) (fun k x hk => homog_abs k x hk) A,
    h.sum (f := fun x => |x|) (fun k x hk => homog_abs k x hk) A B]

theorem Spec.Rewritten.drgep (h : Rewritten c c' of part) (A B : Fin n) :
    Spec.drgep c' A B = Spec.drgep c A B := by
  unfold Spec.drgep
  rw [h.P, h.C, h.sum (f := fun x => x) (fun k x _ => rfl) A B]

theorem Spec.Rewritten.pro1 (h : Rewritten c c' of part) (A B : Fin n) : Spec.pro1 c' A B = Spec.pro1 c A B := by
  unfold Spec.pro1 Spec.PAB
  rw [h.P, h.C, h.sum (f := fun x => max x 0) (fun k x hk => homog_max k x hk) A B]

theorem Spec.Rewritten.con1 (h : Rewritten c c' of part) (A B : Fin n) : Spec.con1 c' A B = Spec.con1 c A B := by
  unfold Spec.con1 Spec.CAB
  rw [h.P, h.C, h.sum (f := fun x => max (-x) 0) (fun k x hk => homog_maxNeg k x hk) A B]

theorem Spec.Rewritten.pfa (h : Rewritten c c' of part) (A B : Fin n) : Spec.pfa c' A B = Spec.pfa c A B := by
  unfold Spec.pfa
  simp only [h.pro1, h.con1]

end

/-! ### a reversible reaction as a pair -/

section
variable {n m : Nat} (c : Chem n m) (r0 : Fin m) (f g : ℚ)

theorem asPair_last (A : Fin n) : rate (asPair c r0 f g) A (Fin.last m) =
    -((c.prod A r0 - c.reac A r0) * g) := by
  unfold rate asPair
  simp only [Fin.snoc_last]
  ring

theorem asPair_first (A : Fin n) (r : Fin m) : rate (asPair c r0 f g) A r.castSucc =
    if r = r0 then (c.prod A r0 - c.reac A r0) * f else rate c A r := by
  unfold rate asPair
  simp only [Fin.snoc_castSucc, Function.update_apply]
  split_ifs with h
  · rw [h]
  · rfl

theorem asPair_involves (B : Fin n) (r : Fin m) : Involves (asPair c r0 f g) B r.castSucc ↔ Involves c B r := by
  unfold Involves asPair
  simp only [Fin.snoc_castSucc]

theorem asPair_involves_last (B : Fin n) : Involves (asPair c r0 f g) B (Fin.last m) ↔ Involves c B r0 := by
  unfold Involves asPair
  simp only [Fin.snoc_last]
  exact or_comm

/-- a sum over the reactions, before and after -/
theorem asPair_sum (F : ℚ → ℚ) (Q : Fin m → Prop) [DecidablePred Q] (Q' : Fin (m + 1) → Prop) [DecidablePred Q']
    (h1 : ∀ r, Q' r.castSucc ↔ Q r) (h2 : Q' (Fin.last m) ↔ Q r0) (A : Fin n) :
    (∑ r', if Q' r' then F (rate (asPair c r0 f g) A r') else 0) =
      (∑ r, if Q r then F (rate c A r) else 0) +
        if Q r0 then F ((c.prod A r0 - c.reac A r0) * f) + F (-((c.prod A r0 - c.reac A r0) * g)) -
          F (rate c A r0) else 0 := by
  rw [Fin.sum_univ_castSucc, asPair_last]
  have e : ∀ r : Fin m, (if Q' r.castSucc then F (rate (asPair c r0 f g) A r.castSucc) else 0) =
      (if Q r then F (rate c A r) else 0) + if r = r0 then (if Q r0 then
        F ((c.prod A r0 - c.reac A r0) * f) - F (rate c A r0) else 0) else 0 := by
    intro r
    rw [asPair_first]
    by_cases hr : r = r0
    · subst hr
      by_cases hq : Q r
      · rw [if_pos ((h1 r).2 hq), if_pos rfl, if_pos hq, if_pos rfl, if_pos hq]; ring
      · rw [if_neg (fun h => hq ((h1 r).1 h)), if_neg hq, if_pos rfl, if_neg hq]; ring
    · rw [if_neg hr, if_neg hr, add_zero]
      by_cases hq : Q r
      · rw [if_pos ((h1 r).2 hq), if_pos hq]
      · rw [if_neg (fun h => hq ((h1 r).1 h)), if_neg hq]
  rw [Finset.sum_congr rfl (fun r _ => e r), Finset.sum_add_distrib, Finset.sum_ite_eq' Finset.univ r0,
    if_pos (Finset.mem_univ _)]
  by_cases hq : Q r0
  · rw [if_pos (h2.2 hq), if_pos hq, if_pos hq]; ring
  · rw [if_neg (fun h => hq (h2.1 h)), if_neg hq, if_neg hq]; ring

theorem asPair_total (F : ℚ → ℚ) (A : Fin n) :
    (∑ r', F (rate (asPair c r0 f g) A r')) = (∑ r, F (rate c A r)) +
      (F ((c.prod A r0 - c.reac A r0) * f) + F (-((c.prod A r0 - c.reac A r0) * g)) - F (rate c A r0)) := by
  have := asPair_sum c r0 f g F (fun _ => True) (fun _ => True) (fun _ => Iff.rfl) Iff.rfl A
  simpa using this

variable {c r0 f g}

/-- the pair proceeds in total by so much more -/
theorem pair_abs (hf : 0 ≤ f) (hg : 0 ≤ g) (v : ℚ) : |v * f| + |-(v * g)| - |v * (f - g)| = 2 * (|v| * min f g) := by
  rw [abs_neg, abs_mul, abs_mul, abs_mul, abs_of_nonneg hf, abs_of_nonneg hg]
  rcases le_total f g with h | h
  · rw [min_eq_left h, abs_of_nonpos (show f - g ≤ 0 by linarith)]; ring
  · rw [min_eq_right h, abs_of_nonneg (show 0 ≤ f - g by linarith)]; ring

theorem pair_max (hf : 0 ≤ f) (hg : 0 ≤ g) (v : ℚ) :
    max (v * f) 0 + max (-(v * g)) 0 - max (v * (f - g)) 0 = |v| * min f g := by
  rcases le_total 0 v with hv | hv
  · rw [abs_of_nonneg hv, max_eq_left (by positivity), max_eq_right (by nlinarith)]
    rcases le_total f g with h | h
    · rw [min_eq_left h, max_eq_right (by nlinarith)]; ring
    · rw [min_eq_right h, max_eq_left (by nlinarith)]; ring
  · rw [abs_of_nonpos hv, max_eq_right (by nlinarith), max_eq_left (by nlinarith)]
    rcases le_total f g with h | h
    · rw [min_eq_left h, max_eq_left (by nlinarith)]; ring
    · rw [min_eq_right h, max_eq_right (by nlinarith)]; ring

theorem asPair_P (hf : 0 ≤ f) (hg : 0 ≤ g) (hq : c.rop r0 = f - g) (A : Fin n) :
    Spec.P (asPair c r0 f g) A = Spec.P c A + |c.prod A r0 - c.reac A r0| * min f g := by
  unfold Spec.P
  rw [asPair_total c r0 f g (fun x => max x 0) A]
  congr 1
  rw [← pair_max hf hg]
  unfold rate
  rw [hq]

theorem asPair_C (hf : 0 ≤ f) (hg : 0 ≤ g) (hq : c.rop r0 = f - g) (A : Fin n) :
    Spec.C (asPair c r0 f g) A = Spec.C c A + |c.prod A r0 - c.reac A r0| * min f g := by
  unfold Spec.C
  rw [asPair_total c r0 f g (fun x => max (-x) 0) A]
  congr 1
  have := pair_max hf hg (-(c.prod A r0 - c.reac A r0))
  rw [abs_neg] at this
  rw [← this]
  unfold rate
  rw [hq]
  simp only [neg_mul, neg_neg]

end

end Verif
