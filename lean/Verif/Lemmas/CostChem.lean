import Verif.Lemmas.Cost
import Verif.Spec.Cost
import Verif.Lemmas.Matrix
import Verif.Model.MatrixRound
import Verif.Spec.Rounding
import Mathlib.Tactic.Ring
import Mathlib.Tactic.FieldSimp
namespace Verif
open Spec

/-! ### sums that are exact in rounded arithmetic -/

def Dyadic (q : Nat) (x : ℚ) : Prop := ∃ z : ℤ, x = z / 2 ^ q

/-- multiples of `2^(-q)` up to two are not rounded -/
def ExactTo (rnd : ℚ → ℚ) (q : Nat) : Prop := ∀ x, Dyadic q x → |x| ≤ 2 → rnd x = x

theorem Dyadic.add {q : Nat} {x y : ℚ} (hx : Dyadic q x) (hy : Dyadic q y) : Dyadic q (x + y) := by
  obtain ⟨z, rfl⟩ := hx
  obtain ⟨w, rfl⟩ := hy
  exact ⟨z + w, by push_cast; ring⟩

theorem Dyadic.neg {q : Nat} {x : ℚ} (hx : Dyadic q x) : Dyadic q (-x) := by
  obtain ⟨z, rfl⟩ := hx
  exact ⟨-z, by push_cast; ring⟩

theorem Dyadic.zero (q : Nat) : Dyadic q 0 := ⟨0, by simp⟩

theorem Dyadic.int (q : Nat) (k : ℤ) : Dyadic q k := ⟨k * 2 ^ q, by push_cast; field_simp⟩

theorem Dyadic.max {q : Nat} {x y : ℚ} (hx : Dyadic q x) (hy : Dyadic q y) : Dyadic q (max x y) := by
  rcases max_choice x y with h | h <;> rw [h] <;> assumption

theorem sumOverR_exact {rnd : ℚ → ℚ} {q m : Nat} (h : ExactTo rnd q) (l : List (Fin m)) {f : Fin m → ℚ}
    (hf : ∀ r, Dyadic q (f r)) (hb : (l.map (fun r => |f r|)).sum ≤ 2) :
    sumOverR rnd l f = sumOver l f ∧ Dyadic q (sumOver l f) ∧ |sumOver l f| ≤ 2 := by
  have key : ∀ (l : List (Fin m)) (s : ℚ), Dyadic q s → |s| + (l.map (fun r => |f r|)).sum ≤ 2 →
      l.foldl (fun s r => rnd (s + f r)) s = s + sumOver l f ∧ Dyadic q (s + sumOver l f) ∧ |s + sumOver l f| ≤ 2 := by
    intro l
    induction l with
    | nil => intro s hs hb; simp at hb; simpa [sumOver] using ⟨hs, hb⟩
    | cons r l ih =>
      intro s hs hb
      rw [List.map_cons, List.sum_cons] at hb
      have h1 := abs_add_le s (f r)
      have h2 : 0 ≤ (l.map (fun r => |f r|)).sum := List.sum_nonneg (by
        intro x hx
        obtain ⟨y, -, rfl⟩ := List.mem_map.1 hx
        exact abs_nonneg _)
      have hd := hs.add (hf r)
      rw [List.foldl_cons, h _ hd (by linarith)]
      have := ih (s + f r) hd (by linarith)
      rwa [show s + f r + sumOver l f = s + sumOver (r :: l) f by simp [sumOver, add_assoc]] at this
  have := key l 0 (Dyadic.zero q) (by simpa using hb)
  rwa [zero_add] at this

theorem sum_sublist_le {m : Nat} {f : Fin m → ℚ} (hf : ∀ r, 0 ≤ f r) {l : List (Fin m)}
    (hl : l.Sublist (List.finRange m)) : (l.map f).sum ≤ ∑ r, f r := by
  have h1 := (hl.map f).sum_le_sum (by
    intro x hx
    obtain ⟨y, -, rfl⟩ := List.mem_map.1 hx
    exact hf y)
  have h2 : ((List.finRange m).map f).sum = ∑ r, f r := by
    rw [← List.ofFn_eq_map, List.sum_ofFn]
  exact h1.trans h2.le

/-- where all sums are exact, only the quotient is rounded -/
theorem drgepMatrixR_exact {rnd : ℚ → ℚ} {q n m : Nat} (h : ExactTo rnd q) (h0 : rnd 0 = 0) (c : Chem n m)
    (hnet : ∀ a r, rnd (c.prod a r - c.reac a r) = c.prod a r - c.reac a r)
    (hd : ∀ a r, Dyadic q (Spec.rate c a r)) (hs : ∀ a, ∑ r, |Spec.rate c a r| ≤ 2) (a b : Fin n) :
    drgepMatrixR rnd c a b = rnd (drgepMatrix c a b) := by
  have habs : ∀ a r, |Spec.rate c a r| ≤ 2 := fun a r =>
    (Finset.single_le_sum (f := fun r => |Spec.rate c a r|) (fun r _ => abs_nonneg _) (Finset.mem_univ r)).trans (hs a)
  have hbase : ∀ a r, baseR rnd c a r = c.netStoich a r * c.rop r := by
    intro a r
    unfold baseR
    rw [hnet]
    exact h _ (hd a r) (habs a r)
  have hvs : c.valid.Sublist (List.finRange m) := List.filter_sublist
  have hvw : ∀ b, (c.validWith b).Sublist (List.finRange m) := fun b => List.filter_sublist.trans hvs
  have hrate : ∀ a r, c.netStoich a r * c.rop r = Spec.rate c a r := fun a r => rfl
  have bnd : ∀ (a : Fin n) (l : List (Fin m)) (f : Fin m → ℚ), l.Sublist (List.finRange m) →
      (∀ r, |f r| ≤ |Spec.rate c a r|) → (l.map (fun r => |f r|)).sum ≤ 2 := by
    intro a l f hl hf
    refine (sum_sublist_le (fun r => abs_nonneg (f r)) hl).trans (le_trans ?_ (hs a))
    exact Finset.sum_le_sum (fun r _ => hf r)
  have mle : ∀ x : ℚ, |max 0 x| ≤ |x| := fun x => by
    rcases max_cases 0 x with ⟨e, -⟩ | ⟨e, -⟩ <;> rw [e]
    rw [abs_zero]; exact abs_nonneg _
  have e1 : ∀ a, sumOverR rnd c.valid (fun r => max 0 (-baseR rnd c a r)) =
      sumOver c.valid (fun r => max 0 (-(c.netStoich a r * c.rop r))) := by
    intro a
    simp only [hbase]
    exact (sumOverR_exact h _ (fun r => (Dyadic.zero q).max (hd a r).neg)
      (bnd a _ _ hvs (fun r => (mle _).trans (abs_neg _).le))).1
  have e2 : ∀ a, sumOverR rnd c.valid (fun r => max 0 (baseR rnd c a r)) =
      sumOver c.valid (fun r => max 0 (c.netStoich a r * c.rop r)) := by
    intro a
    simp only [hbase]
    exact (sumOverR_exact h _ (fun r => (Dyadic.zero q).max (hd a r))
      (bnd a _ _ hvs (fun r => mle _))).1
  have e3 : ∀ a b, rnd (0 + sumOverR rnd (c.validWith b) (baseR rnd c a)) =
      0 + sumOver (c.validWith b) (fun r => c.netStoich a r * c.rop r) := by
    intro a b
    have hb : baseR rnd c a = fun r => c.netStoich a r * c.rop r := funext (hbase a)
    rw [hb]
    obtain ⟨g1, g2, g3⟩ := sumOverR_exact (f := fun r => c.netStoich a r * c.rop r) h (c.validWith b) (fun r => hd a r)
      (bnd a _ _ (hvw b) (fun r => by rw [hrate]))
    rw [g1, zero_add]
    exact h _ g2 g3
  unfold drgepMatrixR drgepMatrix
  split_ifs
  · simp [fillDiagonal, h0]
  · simp only [fillDiagonal, whereDivR, whereDiv, e1, e2, e3]
    split_ifs <;> simp [h0]

/-! ### the model of isomerisations -/

theorem tilt_pos (k : Nat) : 0 < tilt k := by unfold tilt; positivity

theorem tilt_le (k : Nat) : tilt k ≤ 1 / 4 := by
  unfold tilt
  rw [show (1 / 4 : ℚ) = 1 / 2 ^ 2 by norm_num]
  exact one_div_le_one_div_of_le (by positivity) (pow_le_pow_right₀ (by norm_num) (by omega))

theorem direct_pos (k : Nat) : 0 < direct k := by have := tilt_le k; unfold direct; linarith
theorem detour_pos (k : Nat) : 0 < detour k := by have := tilt_pos k; unfold detour; linarith
theorem shares_one (k : Nat) : direct k + detour k = 1 := by unfold direct detour; ring

theorem iso_zero : isoFrom 0 = 0 ∧ isoTo 0 = 1 ∧ isoRate 0 = 1 := by simp [isoFrom, isoTo, isoRate]

theorem iso_one (k : Nat) : isoFrom (3 * k + 1) = 2 * k + 1 ∧ isoTo (3 * k + 1) = 2 * k + 3 ∧
    isoRate (3 * k + 1) = direct k := by
  have h1 : (3 * k) % 3 = 0 := by omega
  have h2 : (3 * k) / 3 = k := by omega
  simp [isoFrom, isoTo, isoRate]

theorem iso_two (k : Nat) : isoFrom (3 * k + 2) = 2 * k + 1 ∧ isoTo (3 * k + 2) = 2 * k + 2 ∧
    isoRate (3 * k + 2) = detour k := by
  have h1 : (3 * k + 1) % 3 = 1 := by omega
  have h2 : (3 * k + 1) / 3 = k := by omega
  simp [isoFrom, isoTo, isoRate, h2]

theorem iso_three (k : Nat) : isoFrom (3 * k + 3) = 2 * k + 2 ∧ isoTo (3 * k + 3) = 2 * k + 3 ∧
    isoRate (3 * k + 3) = detour k := by
  have h1 : (3 * k + 2) % 3 = 2 := by omega
  have h2 : (3 * k + 2) / 3 = k := by omega
  simp [isoFrom, isoTo, isoRate, h2]

theorem iso_cases (r : Nat) : r = 0 ∨ ∃ k, r = 3 * k + 1 ∨ r = 3 * k + 2 ∨ r = 3 * k + 3 := by
  rcases Nat.eq_zero_or_pos r with h | h
  · exact .inl h
  · exact .inr ⟨(r - 1) / 3, by omega⟩

theorem iso_ne (r : Nat) : isoFrom r ≠ isoTo r ∧ 0 < isoRate r := by
  rcases iso_cases r with rfl | ⟨k, rfl | rfl | rfl⟩
  · simp [iso_zero]
  · simp [iso_one, direct_pos]
  · simp [iso_two, detour_pos]
  · simp [iso_three, detour_pos]

theorem sum_iso (n : Nat) (f : Nat → ℚ) : ∑ r : Fin (3 * n + 1), f r =
    f 0 + ∑ k ∈ Finset.range n, (f (3 * k + 1) + f (3 * k + 2) + f (3 * k + 3)) := by
  rw [Fin.sum_univ_eq_sum_range f (3 * n + 1)]
  induction n with
  | zero => simp
  | succ n ih =>
    rw [show 3 * (n + 1) + 1 = 3 * n + 1 + 1 + 1 + 1 by ring, Finset.sum_range_succ, Finset.sum_range_succ,
      Finset.sum_range_succ, ih, Finset.sum_range_succ]
    ring

/-- amount converted from `x` to `y` per unit of time -/
def isoFlow (n x y : Nat) : ℚ := ∑ r : Fin (3 * n + 1), if isoFrom r = x ∧ isoTo r = y then isoRate r else 0
def isoOut (n x : Nat) : ℚ := ∑ r : Fin (3 * n + 1), if isoFrom r = x then isoRate r else 0
def isoIn (n x : Nat) : ℚ := ∑ r : Fin (3 * n + 1), if isoTo r = x then isoRate r else 0

theorem iso_rate {n : Nat} (a : Fin (2 * n + 2)) (r : Fin (3 * n + 1)) : Spec.rate (isoChem n) a r =
    (if isoTo r = a.val then isoRate r else 0) - (if isoFrom r = a.val then isoRate r else 0) := by
  simp only [Spec.rate, isoChem, eq_comm (a := a.val)]
  split_ifs <;> ring

theorem iso_P {n : Nat} (a : Fin (2 * n + 2)) : Spec.P (isoChem n) a = isoIn n a := by
  refine Finset.sum_congr rfl fun r _ => ?_
  rw [iso_rate]
  obtain ⟨h1, h2⟩ := iso_ne r
  split_ifs with g1 g2 g2
  · exact absurd (g2.trans g1.symm) h1
  · rw [sub_zero, max_eq_left h2.le]
  · rw [zero_sub, max_eq_right (by linarith)]
  · simp

theorem iso_C {n : Nat} (a : Fin (2 * n + 2)) : Spec.C (isoChem n) a = isoOut n a := by
  refine Finset.sum_congr rfl fun r _ => ?_
  rw [iso_rate]
  obtain ⟨h1, h2⟩ := iso_ne r
  split_ifs with g1 g2 g2
  · exact absurd (g2.trans g1.symm) h1
  · rw [sub_zero, max_eq_right (by linarith)]
  · rw [zero_sub, neg_neg, max_eq_left h2.le]
  · simp

theorem iso_num {n : Nat} {a b : Fin (2 * n + 2)} (hab : a ≠ b) :
    (∑ r, if Involves (isoChem n) b r then Spec.rate (isoChem n) a r else 0) = isoFlow n b a - isoFlow n a b := by
  unfold isoFlow
  rw [← Finset.sum_sub_distrib]
  refine Finset.sum_congr rfl fun r _ => ?_
  have hv : a.val ≠ b.val := fun h => hab (Fin.ext h)
  have hi : Involves (isoChem n) b r ↔ isoTo r = b.val ∨ isoFrom r = b.val := by
    simp only [Involves, isoChem, eq_comm (a := b.val)]
    constructor
    · rintro (h | h)
      · left; by_contra g; simp [g] at h
      · right; by_contra g; simp [g] at h
    · rintro (h | h)
      · left; simp [h]
      · right; simp [h]
  rw [iso_rate]
  simp only [hi]
  obtain ⟨h1, -⟩ := iso_ne r
  by_cases t1 : isoTo r = a.val <;> by_cases t2 : isoFrom r = a.val <;>
    by_cases t3 : isoTo r = b.val <;> by_cases t4 : isoFrom r = b.val <;> simp [t1, t2, t3, t4, hv, hv.symm]

theorem isoOut_eq (n x : Nat) : isoOut n x = (if x = 0 then 1 else 0) + ∑ k ∈ Finset.range n,
    ((if x = 2 * k + 1 then 1 else 0) + if x = 2 * k + 2 then detour k else 0) := by
  unfold isoOut
  rw [sum_iso n (fun r => if isoFrom r = x then isoRate r else 0)]
  simp only [iso_zero, iso_one, iso_two, iso_three, eq_comm (b := x)]
  congr 1
  refine Finset.sum_congr rfl fun k _ => ?_
  rw [← shares_one k]
  split_ifs <;> ring

theorem isoIn_eq (n x : Nat) : isoIn n x = (if x = 1 then 1 else 0) + ∑ k ∈ Finset.range n,
    ((if x = 2 * k + 3 then 1 else 0) + if x = 2 * k + 2 then detour k else 0) := by
  unfold isoIn
  rw [sum_iso n (fun r => if isoTo r = x then isoRate r else 0)]
  simp only [iso_zero, iso_one, iso_two, iso_three, eq_comm (b := x)]
  congr 1
  refine Finset.sum_congr rfl fun k _ => ?_
  rw [← shares_one k]
  split_ifs <;> ring

theorem isoFlow_eq (n x y : Nat) : isoFlow n x y = (if x = 0 ∧ y = 1 then 1 else 0) + ∑ k ∈ Finset.range n,
    ((if x = 2 * k + 1 ∧ y = 2 * k + 3 then direct k else 0) + (if x = 2 * k + 1 ∧ y = 2 * k + 2 then detour k else 0) +
      if x = 2 * k + 2 ∧ y = 2 * k + 3 then detour k else 0) := by
  unfold isoFlow
  rw [sum_iso n (fun r => if isoFrom r = x ∧ isoTo r = y then isoRate r else 0)]
  simp only [iso_zero, iso_one, iso_two, iso_three, eq_comm (b := x), eq_comm (b := y)]

/-- one term of a sum -/
theorem sum_one {n : Nat} (f : Nat → ℚ) (i : Nat) (h : ∀ k, k ≠ i → f k = 0) :
    ∑ k ∈ Finset.range n, f k = if i < n then f i else 0 := by
  split_ifs with hi
  · exact Finset.sum_eq_single_of_mem i (Finset.mem_range.2 hi) (fun k _ hk => h k hk)
  · exact Finset.sum_eq_zero (fun k hk => h k (by rw [Finset.mem_range] at hk; omega))

theorem flow_zero (n y : Nat) : isoFlow n 0 y = if y = 1 then 1 else 0 := by
  rw [isoFlow_eq, Finset.sum_eq_zero]
  · simp
  · intro k _
    simp

theorem flow_v (n i y : Nat) : isoFlow n (2 * i + 1) y =
    if i < n then (if y = 2 * i + 3 then direct i else 0) + (if y = 2 * i + 2 then detour i else 0) else 0 := by
  rw [isoFlow_eq, sum_one _ i]
  · have h1 : ¬ (2 * i + 1 = 2 * i + 2) := by omega
    simp
  · intro k hk
    rw [if_neg (by omega), if_neg (by omega), if_neg (by omega)]
    ring

theorem flow_u (n i y : Nat) : isoFlow n (2 * i + 2) y =
    if i < n then (if y = 2 * i + 3 then detour i else 0) else 0 := by
  rw [isoFlow_eq, sum_one _ i]
  · simp
  · intro k hk
    rw [if_neg (by omega), if_neg (by omega), if_neg (by omega)]
    ring

theorem out_le (n x : Nat) (hx : x < 2 * n + 2) : isoOut n x ≤ 1 ∧ isoIn n x ≤ 1 ∧
    max (isoIn n x) (isoOut n x) = if x % 2 = 0 ∧ x ≠ 0 then detour (x / 2 - 1) else 1 := by
  have d1 : ∀ k, detour k ≤ 1 := fun k => by have := direct_pos k; have := shares_one k; linarith
  obtain ⟨i, hi⟩ : ∃ i, x = 0 ∨ x = 2 * i + 1 ∨ x = 2 * i + 2 := ⟨(x - 1) / 2, by omega⟩
  rcases hi with rfl | rfl | rfl
  · have h1 : isoOut n 0 = 1 := by
      rw [isoOut_eq, Finset.sum_eq_zero]
      · simp
      · intro k _; simp
    have h2 : isoIn n 0 = 0 := by
      rw [isoIn_eq, Finset.sum_eq_zero]
      · simp
      · intro k _; simp
    rw [h1, h2]
    simp
  · have h1 : isoOut n (2 * i + 1) = if i < n then 1 else 0 := by
      rw [isoOut_eq, sum_one _ i]
      · simp
      · intro k hk
        rw [if_neg (by omega), if_neg (by omega)]
        ring
    have h2 : isoIn n (2 * i + 1) = 1 := by
      rw [isoIn_eq]
      cases i with
      | zero =>
        rw [Finset.sum_eq_zero]
        · simp
        · intro k _
          have h2 : ¬ (1 = 2 * k + 2) := by omega
          simp
      | succ i =>
        rw [sum_one _ i]
        · have : i < n := by omega
          have h3 : ¬ (2 * (i + 1) + 1 = 2 * i + 2) := by omega
          have h4 : 2 * (i + 1) + 1 = 2 * i + 3 := by omega
          simp [this, h4]
        · intro k hk
          rw [if_neg (by omega), if_neg (by omega)]
          ring
    have h3 : ¬ ((2 * i + 1) % 2 = 0 ∧ 2 * i + 1 ≠ 0) := by omega
    rw [h1, h2, if_neg h3]
    split_ifs <;> simp
  · have hi' : i < n := by omega
    have h1 : isoOut n (2 * i + 2) = detour i := by
      rw [isoOut_eq, sum_one _ i]
      · simp [hi']
      · intro k hk
        rw [if_neg (by omega), if_neg (by omega)]
        ring
    have h2 : isoIn n (2 * i + 2) = detour i := by
      rw [isoIn_eq, sum_one _ i]
      · have : ¬ (2 * i + 2 = 2 * i + 3) := by omega
        simp [hi']
      · intro k hk
        rw [if_neg (by omega), if_neg (by omega)]
        ring
    have h3 : (2 * i + 2) % 2 = 0 ∧ 2 * i + 2 ≠ 0 := by omega
    have h4 : (2 * i + 2) / 2 - 1 = i := by omega
    rw [h1, h2, if_pos h3, h4, max_self]
    exact ⟨d1 i, d1 i, rfl⟩

end Verif
