import Verif.Lemmas.CostChem
import Verif.Model.Importance
import Mathlib.Data.List.Sort
namespace Verif
open Spec

/-! ### coefficients of the model of isomerisations -/

/-- one reaction leads from `x` to `y` -/
def Leads (n x y : Nat) : Prop :=
  (x = 0 ∧ y = 1) ∨ ∃ k < n, (x = 2 * k + 1 ∧ y = 2 * k + 3) ∨ (x = 2 * k + 1 ∧ y = 2 * k + 2) ∨
    (x = 2 * k + 2 ∧ y = 2 * k + 3)

theorem flow_support {n x y : Nat} (h : ¬ Leads n x y) : isoFlow n x y = 0 := by
  rw [isoFlow_eq, if_neg (fun g => h (.inl g)), zero_add]
  refine Finset.sum_eq_zero fun k hk => ?_
  have hk := Finset.mem_range.1 hk
  rw [if_neg (fun g => h (.inr ⟨k, hk, .inl g⟩)), if_neg (fun g => h (.inr ⟨k, hk, .inr (.inl g)⟩)),
    if_neg (fun g => h (.inr ⟨k, hk, .inr (.inr g)⟩))]
  ring

theorem dyadic_share {n k : Nat} (h : k < n) : Dyadic (n + 2) (direct k) ∧ Dyadic (n + 2) (detour k) := by
  obtain ⟨d, rfl⟩ : ∃ d, n = k + 1 + d := ⟨n - k - 1, by omega⟩
  unfold direct detour tilt
  refine ⟨⟨(2 ^ (k + 2) - 1) * 2 ^ d, ?_⟩, ⟨(2 ^ (k + 2) + 1) * 2 ^ d, ?_⟩⟩
  · push_cast
    rw [show k + 1 + d + 2 = (k + 2) + d + 1 by ring, pow_succ _ ((k + 2) + d), pow_add _ (k + 2) d]
    field_simp
  · push_cast
    rw [show k + 1 + d + 2 = (k + 2) + d + 1 by ring, pow_succ _ ((k + 2) + d), pow_add _ (k + 2) d]
    field_simp

theorem dyadic_rate {n r : Nat} (h : r < 3 * n + 1) : Dyadic (n + 2) (isoRate r) := by
  rcases iso_cases r with rfl | ⟨k, rfl | rfl | rfl⟩
  · rw [iso_zero.2.2]; exact_mod_cast Dyadic.int (n + 2) 1
  · rw [(iso_one k).2.2]; exact (dyadic_share (by omega)).1
  · rw [(iso_two k).2.2]; exact (dyadic_share (by omega)).2
  · rw [(iso_three k).2.2]; exact (dyadic_share (by omega)).2

def isoMat (rnd : ℚ → ℚ) (n : Nat) : NMat := (drgepMatrixR rnd (isoChem n)).toN

section
variable {rnd : ℚ → ℚ} {n : Nat} (hE : ExactTo rnd (n + 2))
include hE

theorem exact_zero : rnd 0 = 0 := hE 0 (Dyadic.zero _) (by norm_num)
theorem exact_one : rnd 1 = 1 := hE 1 (by exact_mod_cast Dyadic.int (n + 2) 1) (by norm_num)

theorem iso_entry {i j : Nat} (hi : i < 2 * n + 2) (hj : j < 2 * n + 2) (hij : i ≠ j) : isoMat rnd n i j =
    rnd (|isoFlow n j i - isoFlow n i j| / if i % 2 = 0 ∧ i ≠ 0 then detour (i / 2 - 1) else 1) := by
  have h1 : isoMat rnd n i j = drgepMatrixR rnd (isoChem n) ⟨i, hi⟩ ⟨j, hj⟩ := by simp [isoMat, Mat.toN, hi, hj]
  have hab : (⟨i, hi⟩ : Fin (2 * n + 2)) ≠ ⟨j, hj⟩ := fun h => hij (by simpa using h)
  obtain ⟨-, -, hden⟩ := out_le n i hi
  rw [h1, drgepMatrixR_exact hE (exact_zero hE), drgepMatrix_eq, if_neg hab, Spec.drgep, iso_num hab, iso_P, iso_C]
  · simp only [hden]
    rw [if_neg]
    split_ifs
    · exact (detour_pos _).ne'
    · norm_num
  · intro a r
    apply hE
    · simp only [isoChem]
      split_ifs <;> norm_num
      · exact Dyadic.zero _
      · exact_mod_cast Dyadic.int (n + 2) 1
      · exact_mod_cast Dyadic.int (n + 2) (-1)
      · exact Dyadic.zero _
    · simp only [isoChem]
      split_ifs <;> norm_num
  · intro a r
    rw [iso_rate, sub_eq_add_neg]
    refine Dyadic.add ?_ (Dyadic.neg ?_) <;> split_ifs <;>
      first | exact dyadic_rate r.isLt | exact Dyadic.zero _
  · intro a
    obtain ⟨o1, o2, -⟩ := out_le n a.val a.isLt
    have : ∑ r, |Spec.rate (isoChem n) a r| ≤ isoIn n a + isoOut n a := by
      unfold isoIn isoOut
      rw [← Finset.sum_add_distrib]
      refine Finset.sum_le_sum fun r _ => ?_
      rw [iso_rate]
      have := (iso_ne r).2
      split_ifs <;> simp [abs_of_pos this]
      linarith
    linarith

theorem iso_none {i j : Nat} (hi : i < 2 * n + 2) (hj : j < 2 * n + 2) (h1 : ¬ Leads n i j) (h2 : ¬ Leads n j i) :
    isoMat rnd n i j = 0 := by
  by_cases hij : i = j
  · subst hij
    simp only [isoMat, Mat.toN, hi, dif_pos]
    unfold drgepMatrixR
    split_ifs <;> simp [fillDiagonal]
  · rw [iso_entry hE hi hj hij, flow_support h1, flow_support h2]
    simp [exact_zero hE]

/-- entries along the reactions -/
theorem iso_forward {i j : Nat} (hi : i < 2 * n + 2) (hj : j < 2 * n + 2) (hij : i ≠ j) (h2 : ¬ Leads n j i)
    (h : 0 ≤ isoFlow n i j) : isoMat rnd n i j =
    rnd (isoFlow n i j / if i % 2 = 0 ∧ i ≠ 0 then detour (i / 2 - 1) else 1) := by
  rw [iso_entry hE hi hj hij, flow_support h2, zero_sub, abs_neg, abs_of_nonneg h]

/-- entries against the reactions -/
theorem iso_backward {i j : Nat} (hi : i < 2 * n + 2) (hj : j < 2 * n + 2) (hij : i ≠ j) (h2 : ¬ Leads n i j)
    (h : 0 ≤ isoFlow n j i) : isoMat rnd n i j =
    rnd (isoFlow n j i / if i % 2 = 0 ∧ i ≠ 0 then detour (i / 2 - 1) else 1) := by
  rw [iso_entry hE hi hj hij, flow_support h2, sub_zero, abs_of_nonneg h]

theorem not_leads_back {x y : Nat} (h : y ≤ x) : ¬ Leads n x y := by
  rintro (h1 | ⟨k, hk, h1⟩) <;> omega

theorem share_fix {k : Nat} (hk : k < n) : rnd (direct k) = direct k ∧ rnd (detour k) = detour k := by
  have h1 := direct_pos k
  have h2 := detour_pos k
  have h3 := shares_one k
  exact ⟨hE _ (dyadic_share hk).1 (by rw [abs_of_pos h1]; linarith),
    hE _ (dyadic_share hk).2 (by rw [abs_of_pos h2]; linarith)⟩

theorem entry_tv : isoMat rnd n 0 1 = 1 := by
  rw [iso_forward hE (by omega) (by omega) (by omega) (not_leads_back hE (by omega)) (by simp [flow_zero])]
  simp [flow_zero, exact_one hE]

theorem entry_vt : isoMat rnd n 1 0 = 1 := by
  rw [iso_backward hE (by omega) (by omega) (by omega) (not_leads_back hE (by omega)) (by simp [flow_zero])]
  simp [flow_zero, exact_one hE]

theorem entry_vv {k : Nat} (hk : k < n) : isoMat rnd n (2 * k + 1) (2 * k + 3) = direct k := by
  have e : isoFlow n (2 * k + 1) (2 * k + 3) = direct k := by simp [flow_v, hk]
  rw [iso_forward hE (by omega) (by omega) (by omega) (not_leads_back hE (by omega)) (by rw [e]; exact (direct_pos k).le),
    e, if_neg (by omega), div_one, (share_fix hE hk).1]

theorem entry_vu {k : Nat} (hk : k < n) : isoMat rnd n (2 * k + 1) (2 * k + 2) = detour k := by
  have e : isoFlow n (2 * k + 1) (2 * k + 2) = detour k := by simp [flow_v, hk]
  rw [iso_forward hE (by omega) (by omega) (by omega) (not_leads_back hE (by omega)) (by rw [e]; exact (detour_pos k).le),
    e, if_neg (by omega), div_one, (share_fix hE hk).2]

theorem entry_uv {k : Nat} (hk : k < n) : isoMat rnd n (2 * k + 2) (2 * k + 3) = 1 := by
  have e : isoFlow n (2 * k + 2) (2 * k + 3) = detour k := by simp [flow_u, hk]
  rw [iso_forward hE (by omega) (by omega) (by omega) (not_leads_back hE (by omega)) (by rw [e]; exact (detour_pos k).le),
    e, if_pos (by omega), show (2 * k + 2) / 2 - 1 = k by omega, div_self (detour_pos k).ne', exact_one hE]

theorem entry_vv' {k : Nat} (hk : k < n) : isoMat rnd n (2 * k + 3) (2 * k + 1) = direct k := by
  have e : isoFlow n (2 * k + 1) (2 * k + 3) = direct k := by simp [flow_v, hk]
  rw [iso_backward hE (by omega) (by omega) (by omega) (not_leads_back hE (by omega)) (by rw [e]; exact (direct_pos k).le),
    e, if_neg (by omega), div_one, (share_fix hE hk).1]

theorem entry_vu' {k : Nat} (hk : k < n) : isoMat rnd n (2 * k + 3) (2 * k + 2) = detour k := by
  have e : isoFlow n (2 * k + 2) (2 * k + 3) = detour k := by simp [flow_u, hk]
  rw [iso_backward hE (by omega) (by omega) (by omega) (not_leads_back hE (by omega)) (by rw [e]; exact (detour_pos k).le),
    e, if_neg (by omega), div_one, (share_fix hE hk).2]

theorem entry_uv' {k : Nat} (hk : k < n) : isoMat rnd n (2 * k + 2) (2 * k + 1) = 1 := by
  have e : isoFlow n (2 * k + 1) (2 * k + 2) = detour k := by simp [flow_v, hk]
  rw [iso_backward hE (by omega) (by omega) (by omega) (not_leads_back hE (by omega)) (by rw [e]; exact (detour_pos k).le),
    e, if_pos (by omega), show (2 * k + 2) / 2 - 1 = k by omega, div_self (detour_pos k).ne', exact_one hE]

/-- the non-zero entries of a row -/
theorem row_of {i : Nat} (hi : i < 2 * n + 2) {l : List Nat} (hs : l.Pairwise (· < ·))
    (h1 : ∀ j ∈ l, j < 2 * n + 2 ∧ isoMat rnd n i j ≠ 0)
    (h2 : ∀ j, j < 2 * n + 2 → Leads n i j ∨ Leads n j i → j ∈ l) :
    (List.range (2 * n + 2)).filter (fun j => isoMat rnd n i j != 0) = l := by
  refine List.Pairwise.eq_of_mem_iff (List.Pairwise.filter _ List.pairwise_lt_range) hs fun j => ?_
  rw [List.mem_filter, List.mem_range, bne_iff_ne]
  refine ⟨fun ⟨g1, g2⟩ => h2 j g1 ?_, h1 j⟩
  by_contra g
  rw [not_or] at g
  exact g2 (iso_none hE hi g1 g.1 g.2)

theorem row_t : (List.range (2 * n + 2)).filter (fun j => isoMat rnd n 0 j != 0) = [1] := by
  refine row_of hE (by omega) (by simp) ?_ ?_
  · intro j hj
    rw [List.mem_singleton] at hj
    subst hj
    exact ⟨by omega, by rw [entry_tv hE]; norm_num⟩
  · rintro j hj ((h | ⟨k, hk, h⟩) | (h | ⟨k, hk, h⟩)) <;> simp <;> omega

theorem row_v0 (hn : 0 < n) : (List.range (2 * n + 2)).filter (fun j => isoMat rnd n 1 j != 0) = [0, 2, 3] := by
  refine row_of hE (by omega) (by simp) ?_ ?_
  · intro j hj
    simp only [List.mem_cons, List.not_mem_nil, or_false] at hj
    rcases hj with rfl | rfl | rfl
    · exact ⟨by omega, by rw [entry_vt hE]; norm_num⟩
    · exact ⟨by omega, by have := entry_vu hE hn; simp at this; rw [this]; exact (detour_pos 0).ne'⟩
    · exact ⟨by omega, by have := entry_vv hE hn; simp at this; rw [this]; exact (direct_pos 0).ne'⟩
  · rintro j hj ((h | ⟨k, hk, h⟩) | (h | ⟨k, hk, h⟩)) <;> simp <;> omega

theorem row_v {k : Nat} (hk : k + 1 < n) : (List.range (2 * n + 2)).filter (fun j => isoMat rnd n (2 * k + 3) j != 0) =
    [2 * k + 1, 2 * k + 2, 2 * k + 4, 2 * k + 5] := by
  refine row_of hE (by omega) (by simp) ?_ ?_
  · intro j hj
    simp only [List.mem_cons, List.not_mem_nil, or_false] at hj
    rcases hj with rfl | rfl | rfl | rfl
    · exact ⟨by omega, by rw [entry_vv' hE (by omega)]; exact (direct_pos _).ne'⟩
    · exact ⟨by omega, by rw [entry_vu' hE (by omega)]; exact (detour_pos _).ne'⟩
    · exact ⟨by omega, by have := entry_vu hE hk; rw [show 2 * (k + 1) + 1 = 2 * k + 3 by ring,
        show 2 * (k + 1) + 2 = 2 * k + 4 by ring] at this; rw [this]; exact (detour_pos _).ne'⟩
    · exact ⟨by omega, by have := entry_vv hE hk; rw [show 2 * (k + 1) + 1 = 2 * k + 3 by ring,
        show 2 * (k + 1) + 3 = 2 * k + 5 by ring] at this; rw [this]; exact (direct_pos _).ne'⟩
  · rintro j hj ((h | ⟨k, hk, h⟩) | (h | ⟨k, hk, h⟩)) <;> simp <;> omega

theorem row_last {k : Nat} (hk : k + 1 = n) : (List.range (2 * n + 2)).filter (fun j => isoMat rnd n (2 * k + 3) j != 0) =
    [2 * k + 1, 2 * k + 2] := by
  refine row_of hE (by omega) (by simp) ?_ ?_
  · intro j hj
    simp only [List.mem_cons, List.not_mem_nil, or_false] at hj
    rcases hj with rfl | rfl
    · exact ⟨by omega, by rw [entry_vv' hE (by omega)]; exact (direct_pos _).ne'⟩
    · exact ⟨by omega, by rw [entry_vu' hE (by omega)]; exact (detour_pos _).ne'⟩
  · rintro j hj ((h | ⟨k, hk, h⟩) | (h | ⟨k, hk, h⟩)) <;> simp <;> omega

theorem row_u {k : Nat} (hk : k < n) : (List.range (2 * n + 2)).filter (fun j => isoMat rnd n (2 * k + 2) j != 0) =
    [2 * k + 1, 2 * k + 3] := by
  refine row_of hE (by omega) (by simp) ?_ ?_
  · intro j hj
    simp only [List.mem_cons, List.not_mem_nil, or_false] at hj
    rcases hj with rfl | rfl
    · exact ⟨by omega, by rw [entry_uv' hE hk]; norm_num⟩
    · exact ⟨by omega, by rw [entry_uv hE hk]; norm_num⟩
  · rintro j hj ((h | ⟨k, hk, h⟩) | (h | ⟨k, hk, h⟩)) <;> simp <;> omega

end
end Verif
