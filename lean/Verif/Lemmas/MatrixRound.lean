import Verif.Model.MatrixRound
import Verif.Lemmas.Matrix
import Verif.Spec.Rounding
import Mathlib.Tactic.Linarith
import Mathlib.Tactic.Positivity
namespace Verif
open Spec
variable {n m : Nat}

section
variable {rnd : ℚ → ℚ} (hr : RndOk rnd)
include hr

theorem RndOk_nonneg {x : ℚ} (h : 0 ≤ x) : 0 ≤ rnd x := by
  rw [← hr.zero]; exact hr.mono _ _ h

theorem RndOk_le_one {x : ℚ} (h : x ≤ 1) : rnd x ≤ 1 := by
  rw [← hr.one]; exact hr.mono _ _ h

theorem foldl_fmt (l : List (Fin m)) (f : Fin m → ℚ) (s : ℚ) (hs : rnd s = s) :
    rnd (l.foldl (fun s r => rnd (s + f r)) s) = l.foldl (fun s r => rnd (s + f r)) s := by
  induction l generalizing s with
  | nil => exact hs
  | cons r l ih => exact ih _ (hr.idem _)

/-- sums are numbers of the format -/
theorem sumOverR_fmt (l : List (Fin m)) (f : Fin m → ℚ) :
    rnd (sumOverR rnd l f) = sumOverR rnd l f := foldl_fmt hr l f 0 hr.zero

/-- the sum over some of the terms is at most the sum of larger non-negative terms over all of
them: skipping a term is adding zero -/
theorem foldl_filter_le (p : Fin m → Bool) (l : List (Fin m)) (f g : Fin m → ℚ)
    (hfg : ∀ r, f r ≤ g r) (hg : ∀ r, 0 ≤ g r) (s t : ℚ) (hs : rnd s = s) (hst : s ≤ t) :
    (l.filter p).foldl (fun s r => rnd (s + f r)) s ≤ l.foldl (fun s r => rnd (s + g r)) t := by
  induction l generalizing s t with
  | nil => exact hst
  | cons r l ih =>
    by_cases hp : p r
    · rw [List.filter_cons_of_pos hp]
      exact ih _ _ (hr.idem _) (hr.mono _ _ (add_le_add hst (hfg r)))
    · rw [List.filter_cons_of_neg hp]
      refine ih _ _ hs ?_
      rw [← hs]
      exact hr.mono _ _ (by linarith [hg r])

theorem sumOverR_filter_le (p : Fin m → Bool) (l : List (Fin m)) (f g : Fin m → ℚ)
    (hfg : ∀ r, f r ≤ g r) (hg : ∀ r, 0 ≤ g r) :
    sumOverR rnd (l.filter p) f ≤ sumOverR rnd l g :=
  foldl_filter_le hr p l f g hfg hg 0 0 hr.zero le_rfl

theorem foldl_nonneg (l : List (Fin m)) (f : Fin m → ℚ) (hf : ∀ r, 0 ≤ f r) (s : ℚ) (hs : 0 ≤ s) :
    0 ≤ l.foldl (fun s r => rnd (s + f r)) s := by
  induction l generalizing s with
  | nil => exact hs
  | cons r l ih => exact ih _ (RndOk_nonneg hr (by linarith [hf r]))

theorem sumOverR_nonneg (l : List (Fin m)) (f : Fin m → ℚ) (hf : ∀ r, 0 ≤ f r) :
    0 ≤ sumOverR rnd l f := foldl_nonneg hr l f hf 0 le_rfl

omit hr in
theorem foldl_neg (hodd : ∀ x, rnd (-x) = - rnd x) (l : List (Fin m)) (f : Fin m → ℚ) (s : ℚ) :
    l.foldl (fun s r => rnd (s + -f r)) (-s) = - l.foldl (fun s r => rnd (s + f r)) s := by
  induction l generalizing s with
  | nil => rfl
  | cons r l ih =>
    rw [List.foldl_cons, List.foldl_cons, ← ih, ← hodd, neg_add]

omit hr in
theorem sumOverR_neg (hodd : ∀ x, rnd (-x) = - rnd x) (l : List (Fin m)) (f : Fin m → ℚ) :
    sumOverR rnd l (fun r => -f r) = - sumOverR rnd l f := by
  have := foldl_neg hodd l f 0
  rwa [neg_zero] at this

/-- a rounded quotient of a smaller by a larger non-negative number -/
theorem whereDivR_range (num : Mat n) (den : Fin n → ℚ) (a b : Fin n) (h0 : 0 ≤ num a b)
    (h1 : num a b ≤ den a) : 0 ≤ whereDivR rnd num den a b ∧ whereDivR rnd num den a b ≤ 1 := by
  unfold whereDivR
  by_cases hd : den a = 0
  · simp [hd]
  · have hpos : 0 < den a := lt_of_le_of_ne (h0.trans h1) (Ne.symm hd)
    rw [if_pos (by simpa using hd)]
    exact ⟨RndOk_nonneg hr (div_nonneg h0 hpos.le),
      RndOk_le_one hr (by rw [div_le_one hpos]; exact h1)⟩

omit hr in
theorem fillDiagonal_range (M : Mat n) (u : ℚ) (hu : 0 ≤ u) (h : ∀ a b, 0 ≤ M a b ∧ M a b ≤ u)
    (a b : Fin n) : 0 ≤ fillDiagonal M a b ∧ fillDiagonal M a b ≤ u := by
  unfold fillDiagonal
  split_ifs
  · exact ⟨le_rfl, hu⟩
  · exact h a b

/-- adding the sum to an array of zeros changes nothing -/
theorem rnd_zero_add_sum (l : List (Fin m)) (f : Fin m → ℚ) :
    rnd (0 + sumOverR rnd l f) = sumOverR rnd l f := by
  rw [zero_add, sumOverR_fmt hr]

end

/-! ### exact arithmetic is the special case without rounding -/

theorem sumOverR_id (l : List (Fin m)) (f : Fin m → ℚ) : sumOverR id l f = sumOver l f := by
  have : ∀ s : ℚ, l.foldl (fun s r => id (s + f r)) s = s + (l.map f).sum := by
    induction l with
    | nil => intro s; simp
    | cons r l ih => intro s; rw [List.foldl_cons, ih]; simp [add_assoc]
  unfold sumOverR sumOver
  rw [this, zero_add]

theorem matrices_id (c : Chem n m) :
    drgMatrixR id c = drgMatrix c ∧ drgepMatrixR id c = drgepMatrix c ∧
      pfaMatrixR id c = pfaMatrix c := by
  have hs : pfaStepR (n := n) id = pfaStep := rfl
  refine ⟨?_, ?_, ?_⟩
  · unfold drgMatrixR drgMatrix
    simp only [sumOverR_id]
    rfl
  · unfold drgepMatrixR drgepMatrix
    simp only [sumOverR_id]
    rfl
  · unfold pfaMatrixR pfaMatrix
    simp only [sumOverR_id, hs]
    rfl

/-! ### relative error of sums of non-negative terms -/

theorem foldl_rel {rnd : ℚ → ℚ} {u : ℚ} (hu0 : 0 ≤ u) (hu1 : u < 1)
    (hrel : ∀ x, 0 ≤ x → (1 - u) * x ≤ rnd x ∧ rnd x ≤ (1 + u) * x)
    (l : List (Fin m)) (f g : Fin m → ℚ) (hg : ∀ r, 0 ≤ g r) (lo hi s t : ℚ) (hlo : 0 ≤ lo)
    (hf : ∀ r, lo * g r ≤ f r ∧ f r ≤ hi * g r) (ht : 0 ≤ t) (hhi : 0 ≤ hi)
    (hst : lo * t ≤ s ∧ s ≤ hi * t) :
    lo * (1 - u) ^ l.length * (t + (l.map g).sum) ≤ l.foldl (fun s r => rnd (s + f r)) s ∧
      l.foldl (fun s r => rnd (s + f r)) s ≤ hi * (1 + u) ^ l.length * (t + (l.map g).sum) := by
  induction l generalizing lo hi s t with
  | nil => simpa using hst
  | cons r l ih =>
    have hx0 : 0 ≤ s + f r := add_nonneg ((mul_nonneg hlo ht).trans hst.1)
      ((mul_nonneg hlo (hg r)).trans (hf r).1)
    obtain ⟨a1, a2⟩ := hrel _ hx0
    have hu' : 0 ≤ 1 - u := by linarith
    have hle : lo * (1 - u) ≤ lo := by nlinarith
    have hge : hi ≤ hi * (1 + u) := by nlinarith
    have m1 : (1 - u) * (lo * t + lo * g r) ≤ (1 - u) * (s + f r) :=
      mul_le_mul_of_nonneg_left (add_le_add hst.1 (hf r).1) hu'
    have m2 : (1 + u) * (s + f r) ≤ (1 + u) * (hi * t + hi * g r) :=
      mul_le_mul_of_nonneg_left (add_le_add hst.2 (hf r).2) (by linarith)
    have := ih (lo * (1 - u)) (hi * (1 + u)) (rnd (s + f r)) (t + g r) (mul_nonneg hlo hu')
      (fun q => ⟨(mul_le_mul_of_nonneg_right hle (hg q)).trans (hf q).1,
        (hf q).2.trans (mul_le_mul_of_nonneg_right hge (hg q))⟩)
      (add_nonneg ht (hg r)) (by positivity)
      ⟨le_trans (by linarith) a1, le_trans a2 (by linarith)⟩
    rw [List.foldl_cons, List.map_cons, List.sum_cons, List.length_cons, ← add_assoc]
    refine ⟨le_trans (le_of_eq ?_) this.1, this.2.trans (le_of_eq ?_)⟩ <;> ring

theorem sumOverR_rel {rnd : ℚ → ℚ} {u : ℚ} (hu0 : 0 ≤ u) (hu1 : u < 1)
    (hrel : ∀ x, 0 ≤ x → (1 - u) * x ≤ rnd x ∧ rnd x ≤ (1 + u) * x)
    (l : List (Fin m)) (hl : l.length ≤ m) (f g : Fin m → ℚ) (hg : ∀ r, 0 ≤ g r) (lo hi : ℚ)
    (hlo : 0 ≤ lo) (hhi : 0 ≤ hi) (hf : ∀ r, lo * g r ≤ f r ∧ f r ≤ hi * g r) :
    lo * (1 - u) ^ m * sumOver l g ≤ sumOverR rnd l f ∧
      sumOverR rnd l f ≤ hi * (1 + u) ^ m * sumOver l g := by
  have h := foldl_rel hu0 hu1 hrel l f g hg lo hi 0 0 hlo hf le_rfl hhi (by simp)
  rw [zero_add] at h
  have hs : 0 ≤ (l.map g).sum := List.sum_nonneg (by
    intro x hx; obtain ⟨r, -, rfl⟩ := List.mem_map.1 hx; exact hg r)
  have e1 : (1 - u) ^ m ≤ (1 - u) ^ l.length :=
    pow_le_pow_of_le_one (by linarith) (by linarith) hl
  have e2 : (1 + u) ^ l.length ≤ (1 + u) ^ m := pow_le_pow_right₀ (by linarith) hl
  refine ⟨le_trans ?_ h.1, h.2.trans ?_⟩
  · exact mul_le_mul_of_nonneg_right (mul_le_mul_of_nonneg_left e1 hlo) hs
  · exact mul_le_mul_of_nonneg_right (mul_le_mul_of_nonneg_left e2 hhi) hs

/-- the computed rate of change of a species by a reaction has relative error two roundings -/
theorem baseR_rel {rnd : ℚ → ℚ} {u : ℚ} (hu0 : 0 ≤ u) (hu1 : u < 1)
    (hodd : ∀ x, rnd (-x) = - rnd x)
    (hrel : ∀ x, 0 ≤ x → (1 - u) * x ≤ rnd x ∧ rnd x ≤ (1 + u) * x) (c : Chem n m) (a : Fin n)
    (r : Fin m) : (1 - u) ^ 2 * |Spec.rate c a r| ≤ |baseR rnd c a r| ∧
      |baseR rnd c a r| ≤ (1 + u) ^ 2 * |Spec.rate c a r| := by
  have habs : ∀ x, |rnd x| = rnd |x| := by
    intro x
    rcases le_total 0 x with h | h
    · rw [abs_of_nonneg h, abs_of_nonneg]
      exact le_trans (mul_nonneg (by linarith) h) (hrel x h).1
    · have h' : 0 ≤ -x := by linarith
      have := le_trans (mul_nonneg (by linarith) h') (hrel _ h').1
      rw [hodd] at this
      rw [abs_of_nonpos h, abs_of_nonpos (by linarith), hodd]
  unfold baseR Spec.rate
  rw [habs, abs_mul (rnd _), habs, abs_mul]
  set d := |c.prod a r - c.reac a r| with hd
  set w := |c.rop r| with hw
  have hd0 : 0 ≤ d := abs_nonneg _
  have hw0 : 0 ≤ w := abs_nonneg _
  obtain ⟨a1, a2⟩ := hrel d hd0
  have hrd : 0 ≤ rnd d := le_trans (mul_nonneg (by linarith) hd0) a1
  obtain ⟨b1, b2⟩ := hrel (rnd d * w) (mul_nonneg hrd hw0)
  constructor
  · refine le_trans ?_ b1
    calc (1 - u) ^ 2 * (d * w) = (1 - u) * ((1 - u) * d * w) := by ring
      _ ≤ _ := mul_le_mul_of_nonneg_left (mul_le_mul_of_nonneg_right a1 hw0) (by linarith)
  · refine b2.trans ?_
    calc (1 + u) * (rnd d * w) ≤ (1 + u) * ((1 + u) * d * w) :=
          mul_le_mul_of_nonneg_left (mul_le_mul_of_nonneg_right a2 hw0) (by linarith)
      _ = _ := by ring

end Verif
