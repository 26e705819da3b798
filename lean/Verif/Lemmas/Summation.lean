import Verif.Spec.Summation
import Verif.Model.MatrixOrder
import Verif.Lemmas.Accuracy
import Mathlib.Algebra.Order.BigOperators.Group.List
import Mathlib.Tactic.Abel
import Mathlib.Algebra.Order.Group.Multiset
/-!
Sequential and blockwise addition are summation routines; errors of summation routines.
-/
namespace Verif
open Spec
variable {rnd : ℚ → ℚ} {u : ℚ}

/-- adding further terms one by one -/
theorem sums_foldl {l : List ℚ} {s : ℚ} (hl : l ≠ []) (h : Sums rnd l s) (l' : List ℚ) :
    Sums rnd (l ++ l') (l'.foldl (fun s x => rnd (s + x)) s) := by
  induction l' generalizing l s with
  | nil => simpa using h
  | cons x l' ih =>
    have := ih (l := l ++ [x]) (by simp) (Sums.add hl (by simp) h (.single x))
    simpa using this

theorem summation_seq : Summation rnd (seqSum rnd) := by
  intro l hl
  cases l with
  | nil => exact .nil
  | cons x l =>
    have := sums_foldl (rnd := rnd) (l := [x]) (by simp) (.single x) l
    unfold seqSum
    rw [List.foldl_cons, zero_add, hl x (by simp)]
    exact this

/-- the terms added so far by the eight running sums -/
def laneList (L : Fin 8 → List ℚ) : List ℚ :=
  ((L 0 ++ L 1) ++ (L 2 ++ L 3)) ++ ((L 4 ++ L 5) ++ (L 6 ++ L 7))

theorem laneSums_spec (l : List ℚ) (r : Fin 8 → ℚ) (L : Fin 8 → List ℚ)
    (hL : ∀ j, L j ≠ [] ∧ Sums rnd (L j) (r j)) :
    ∃ L' : Fin 8 → List ℚ, (∀ j, L' j ≠ [] ∧ Sums rnd (L' j) ((laneSums rnd r l).1 j)) ∧
      (laneList L' ++ (laneSums rnd r l).2).Perm (laneList L ++ l) := by
  induction r, l using laneSums.induct rnd generalizing L with
  | case1 r x0 x1 x2 x3 x4 x5 x6 x7 l ih =>
    obtain ⟨L', h1, h2⟩ := ih (fun j => L j ++ [![x0, x1, x2, x3, x4, x5, x6, x7] j]) (fun j =>
      ⟨by simp, .add (hL j).1 (by simp) (hL j).2 (.single _)⟩)
    refine ⟨L', ?_, ?_⟩
    · intro j; rw [laneSums]; exact h1 j
    · rw [laneSums]
      refine h2.trans ?_
      rw [← Multiset.coe_eq_coe]
      simp only [laneList, ← Multiset.coe_add, ← Multiset.cons_coe, ← Multiset.singleton_add,
        Matrix.cons_val]
      simp only [Multiset.coe_nil, add_zero]
      abel
  | case2 r l hl =>
    refine ⟨L, ?_, ?_⟩
    · intro j; rw [laneSums]; exact hL j; exact hl
    · rw [laneSums]; exact hl

theorem summation_block : Summation rnd (blockSum rnd) := by
  intro l hl
  unfold blockSum
  split
  · rename_i x0 x1 x2 x3 x4 x5 x6 x7 l
    obtain ⟨L, h1, h2⟩ := laneSums_spec (rnd := rnd) l ![x0, x1, x2, x3, x4, x5, x6, x7]
      (fun j => [![x0, x1, x2, x3, x4, x5, x6, x7] j]) (fun j => ⟨by simp, .single _⟩)
    dsimp only
    have hadd : ∀ i j, L i ++ L j ≠ [] ∧ Sums rnd (L i ++ L j)
        (rnd ((laneSums rnd ![x0, x1, x2, x3, x4, x5, x6, x7] l).1 i +
          (laneSums rnd ![x0, x1, x2, x3, x4, x5, x6, x7] l).1 j)) := fun i j =>
      ⟨by simp [(h1 i).1], .add (h1 i).1 (h1 j).1 (h1 i).2 (h1 j).2⟩
    refine Sums.perm ?_ (sums_foldl (l := laneList L) ?_ (.add ?_ ?_ (.add (hadd 0 1).1 (hadd 2 3).1
      (hadd 0 1).2 (hadd 2 3).2) (.add (hadd 4 5).1 (hadd 6 7).1 (hadd 4 5).2 (hadd 6 7).2)) _)
    · refine h2.trans ?_
      simp [laneList]
    · simp [laneList, (h1 0).1]
    · simp [(h1 0).1]
    · simp [(h1 4).1]
  · exact summation_seq l hl

theorem summation_pairAux (k : Nat) : Summation rnd (pairSumAux rnd k) := by
  induction k with
  | zero => exact summation_block
  | succ k ih =>
    intro l hl
    unfold pairSumAux
    split_ifs with h
    · exact summation_block l hl
    · dsimp only
      set q := l.length / 2 - (l.length / 2) % 8 with hq
      have h1 : 0 < q := by omega
      have h2 : q < l.length := by omega
      have := Sums.add (rnd := rnd) (l := l.take q) (l' := l.drop q)
        (by rw [ne_eq, List.take_eq_nil_iff]; rintro (h | h) <;> [omega; (subst h; simp at h2)])
        (by rw [ne_eq, List.drop_eq_nil_iff]; omega)
        (ih _ (fun x hx => hl x (List.mem_of_mem_take hx)))
        (ih _ (fun x hx => hl x (List.mem_of_mem_drop hx)))
      rwa [List.take_append_drop] at this

/-- blockwise addition, as for contiguous rows, is a summation routine -/
theorem summation_pair : Summation rnd (pairSum rnd) := fun l hl => summation_pairAux l.length l hl

/-! ### errors -/

theorem Spec.Sums.fixed (hr : RndOk rnd) {l : List ℚ} {s : ℚ} (h : Sums rnd l s)
    (hl : ∀ x ∈ l, rnd x = x) : rnd s = s := by
  induction h with
  | nil => exact hr.zero
  | single x => exact hl x (by simp)
  | add _ _ _ _ _ _ => exact hr.idem _
  | perm hp _ ih => exact ih (fun x hx => hl x (hp.mem_iff.1 hx))

theorem Spec.Sums.sum_rel (hR : Rounds rnd u) {l : List ℚ} {s : ℚ} (h : Sums rnd l s)
    (hl : ∀ x ∈ l, 0 ≤ x) :
    Within ((1 - u) ^ l.length) ((1 + u) ^ l.length) l.sum s := by
  have hu := hR.u0
  have hu1 : 0 < 1 - u := by linarith [hR.u1]
  induction h with
  | nil => simp [Within]
  | single x =>
    have hx := hl x (by simp)
    simp only [List.length_singleton, pow_one, List.sum_singleton, Within]
    constructor <;> nlinarith
  | @add l l' s t h1 h2 _ _ ih ih' =>
    have p1 := ih (fun x hx => hl x (by simp [hx]))
    have p2 := ih' (fun x hx => hl x (by simp [hx]))
    have e1 : 0 ≤ l.sum := List.sum_nonneg (fun x hx => hl x (by simp [hx]))
    have e2 : 0 ≤ l'.sum := List.sum_nonneg (fun x hx => hl x (by simp [hx]))
    rw [List.length_append, List.sum_append]
    obtain ⟨k, hk⟩ : ∃ k, l.length + l'.length = k + 1 :=
      ⟨l.length + l'.length - 1, by have := List.length_pos_iff.2 h1; omega⟩
    have hk1 : l.length ≤ k := by have := List.length_pos_iff.2 h2; omega
    have hk2 : l'.length ≤ k := by have := List.length_pos_iff.2 h1; omega
    have q1 := p1.weaken (pow_le_pow_of_le_one hu1.le (by linarith) hk1)
      (pow_le_pow_right₀ (by linarith) hk1) e1
    have q2 := p2.weaken (pow_le_pow_of_le_one hu1.le (by linarith) hk2)
      (pow_le_pow_right₀ (by linarith) hk2) e2
    have := (q1.add q2).round hR (by positivity) (by positivity)
    rwa [← pow_succ, ← pow_succ, ← hk] at this
  | perm hp _ ih =>
    rw [← hp.length_eq, ← hp.sum_eq]
    exact ih (fun x hx => hl x (hp.mem_iff.1 hx))

theorem Spec.Sums.sum_err (hR : Rounds rnd u) {l : List ℚ} {s : ℚ} (h : Sums rnd l s) :
    |s - l.sum| ≤ ((1 + u) ^ l.length - 1) * (l.map (fun x => |x|)).sum := by
  have hu := hR.u0
  induction h with
  | nil => simp
  | single x =>
    simp only [List.length_singleton, List.sum_singleton, List.map_singleton, sub_self, abs_zero]
    have := abs_nonneg x
    nlinarith
  | @add l l' s t h1 h2 _ _ ih ih' =>
    rw [List.length_append, List.sum_append, List.map_append, List.sum_append]
    obtain ⟨k, hk⟩ : ∃ k, l.length + l'.length = k + 1 :=
      ⟨l.length + l'.length - 1, by have := List.length_pos_iff.2 h1; omega⟩
    have hk1 : l.length ≤ k := by have := List.length_pos_iff.2 h2; omega
    have hk2 : l'.length ≤ k := by have := List.length_pos_iff.2 h1; omega
    have n1 : 0 ≤ (l.map (fun x => |x|)).sum := List.sum_nonneg (by simp)
    have n2 : 0 ≤ (l'.map (fun x => |x|)).sum := List.sum_nonneg (by simp)
    have a1 : |l.sum| ≤ (l.map (fun x => |x|)).sum := by
      clear * -
      induction l with
      | nil => simp
      | cons x l ih => simp only [List.sum_cons, List.map_cons]; exact (abs_add_le _ _).trans (by linarith)
    have a2 : |l'.sum| ≤ (l'.map (fun x => |x|)).sum := by
      clear * -
      induction l' with
      | nil => simp
      | cons x l ih => simp only [List.sum_cons, List.map_cons]; exact (abs_add_le _ _).trans (by linarith)
    have w1 := pow_le_pow_right₀ (show 1 ≤ 1 + u by linarith) hk1
    have w2 := pow_le_pow_right₀ (show 1 ≤ 1 + u by linarith) hk2
    have w0 : 1 ≤ (1 + u) ^ k := one_le_pow₀ (by linarith)
    generalize (l.map (fun x => |x|)).sum = A at *
    generalize (l'.map (fun x => |x|)).sum = B at *
    generalize l.sum = x at *
    generalize l'.sum = y at *
    have i1 : |s - x| ≤ ((1 + u) ^ k - 1) * A :=
      ih.trans (mul_le_mul_of_nonneg_right (by linarith) n1)
    have i2 : |t - y| ≤ ((1 + u) ^ k - 1) * B :=
      ih'.trans (mul_le_mul_of_nonneg_right (by linarith) n2)
    have i3 : |s + t - (x + y)| ≤ ((1 + u) ^ k - 1) * (A + B) := by
      calc |s + t - (x + y)| = |(s - x) + (t - y)| := by ring_nf
        _ ≤ |s - x| + |t - y| := abs_add_le _ _
        _ ≤ _ := by linarith
    have i4 : |s + t| ≤ (1 + u) ^ k * (A + B) := by
      calc |s + t| = |(s + t - (x + y)) + (x + y)| := by ring_nf
        _ ≤ |s + t - (x + y)| + |x + y| := abs_add_le _ _
        _ ≤ ((1 + u) ^ k - 1) * (A + B) + (A + B) :=
          add_le_add i3 ((abs_add_le _ _).trans (by linarith))
        _ = _ := by ring
    rw [hk]
    calc |rnd (s + t) - (x + y)| = |(rnd (s + t) - (s + t)) + (s + t - (x + y))| := by ring_nf
      _ ≤ |rnd (s + t) - (s + t)| + |s + t - (x + y)| := abs_add_le _ _
      _ ≤ u * |s + t| + ((1 + u) ^ k - 1) * (A + B) := add_le_add (hR.err _) i3
      _ ≤ u * ((1 + u) ^ k * (A + B)) + ((1 + u) ^ k - 1) * (A + B) := by
          have := mul_le_mul_of_nonneg_left i4 hu
          linarith
      _ = _ := by ring
  | perm hp _ ih => rwa [← hp.length_eq, ← hp.sum_eq, ← (hp.map _).sum_eq]

end Verif
