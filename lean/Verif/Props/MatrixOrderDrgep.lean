import Verif.Props.MatrixOrder
/-!
# C114: the order of additions and what DRGEP keeps

As long as no computed coefficient exceeds one, DRGEP too ends and keeps the same species whatever
the order of additions, away from ties.
-/
namespace Verif
open Spec Finset
variable {n m : Nat} {tot part : List ℚ → ℚ}

/-- coefficients of DRGEP are not negative, whatever the order -/
theorem drgepS_nonneg (hT : Summation rnd64 tot) (hP : Summation rnd64 part) (c : Chem n m)
    (i j : Nat) : 0 ≤ matrixOfS .drgep rnd64 tot part c i j := by
  by_cases h : i < n ∧ j < n
  · obtain ⟨hi, hj⟩ := h
    have hs : ∀ (M : Mat n), M.toN i j = M ⟨i, hi⟩ ⟨j, hj⟩ := fun M => by simp [Mat.toN, hi, hj]
    simp only [matrixOfS, hs]
    have ht := (totalsS rounds_rnd64 hT hP c ⟨i, hi⟩ ⟨j, hj⟩).1.1
    have hP0 : 0 ≤ Spec.P c ⟨i, hi⟩ := Finset.sum_nonneg (fun r _ => le_max_right _ _)
    have hd : (0 : ℚ) ≤ tot (c.valid.map (fun r => max (baseR rnd64 c ⟨i, hi⟩ r) 0)) :=
      le_trans (mul_nonneg (by norm_num) hP0) ht
    unfold drgepMatrixS
    split_ifs
    · simp [fillDiagonal]
    · simp only [fillDiagonal]
      split_ifs
      · exact le_rfl
      · simp only [whereDivR]
        split_ifs
        · refine ?_
          refine rnd64_usable.1.zero.ge.trans (rnd64_usable.1.mono _ _ (div_nonneg (abs_nonneg _) (le_max_of_le_left ?_)))
          simpa only [max_comm] using hd
        · exact le_rfl
  · simp only [matrixOfS, Mat.toN]
    split_ifs with h1 h2
    · exact absurd ⟨h1, h2⟩ h
    · exact le_rfl
    · exact le_rfl

/-- absolute error of DRGEP coefficients in binary64, as matrices, for any order -/
theorem absS_binary64 (hT : Summation rnd64 tot) (hP : Summation rnd64 part)
    (hm : 4 * m + n + 14 ≤ 2 ^ 51) (c : Chem n m) {i j : Nat} (hi : i < n) (hj : j < n) :
    |(published .drgep c).toN i j - matrixOfS .drgep rnd64 tot part c i j| ≤ (m + 2) / 2 ^ 49 := by
  have hs : ∀ (M : Mat n), M.toN i j = M ⟨i, hi⟩ ⟨j, hj⟩ := fun M => by simp [Mat.toN, hi, hj]
  by_cases hij : (⟨i, hi⟩ : Fin n) = ⟨j, hj⟩
  · have hij' : i = j := by simpa using hij
    have e0 : matrixOfS .drgep rnd64 tot part c i j = 0 := by rw [hij']; exact matrixOfS_diag .drgep c
    rw [hs, e0, hij, published_diag]
    simp
    positivity
  · simp only [matrixOfS, hs]
    unfold published
    rw [if_neg hij, abs_sub_comm]
    exact (C114_binary64 hT hP hm c _ _ hij).2.1

section
variable {c : Ctx} {sol : Mech} {states : List (Chem sol.names.length m)} {t : ℚ} {s : String}

/-- **C114** (DRGEP): as long as no computed coefficient exceeds one, the search for paths ends, and
what is kept is within rounding error of what the published coefficients determine, for every order
of additions. -/
theorem C114_drgep_kept_partial (hT : Summation rnd64 tot) (hP : Summation rnd64 part)
    (hm : 4 * m + sol.names.length + 14 ≤ 2 ^ 51)
    (hM : c.matrices = states.map (matrixOfS .drgep rnd64 tot part)) (hr : c.rndMul = rnd64)
    (hone : ∀ x ∈ states, ∀ i < sol.names.length, ∀ j < sol.names.length,
      matrixOfS .drgep rnd64 tot part x i j ≤ 1) :
    (sol.names.Nodup → (∀ t ∈ c.targets, t ∈ sol.names) →
      ∃ N, ∀ fuel ≥ N, ∃ imp, getImportanceCoeffs c.rndMul sol.names c.targets c.matrices fuel = .ok imp) ∧
    (KeptPublished .drgep sol.names c.targets c.safe states
        (t + sol.names.length * ((m + 3) / 2 ^ 49)) s → Kept .drgep c sol t s) ∧
    (Kept .drgep c sol t s → KeptPublished .drgep sol.names c.targets c.safe states
        (t - sol.names.length * ((m + 3) / 2 ^ 49)) s) := by
  have hv : ∀ x : ℚ, 0 ≤ x → x ≤ 1 → |id x - x| ≤ 0 := by simp
  have hv' : ∀ x : ℚ, 0 ≤ x → x ≤ 1 → |rnd64 x - x| ≤ 1 / 2 ^ 53 := by
    intro x h0 h1
    have := rounds_rnd64.err x
    rw [abs_of_nonneg h0] at this
    exact this.trans (mul_le_of_le_one_right (by norm_num) h1)
  have unit' : ∀ x ∈ states, UnitMatrix (matrixOfS .drgep rnd64 tot part x) sol.names.length :=
    fun x hx i hi j hj => ⟨drgepS_nonneg hT hP x i j, hone x hx i hi j hj⟩
  have unit : ∀ x ∈ states, UnitMatrix (published .drgep x).toN sol.names.length := fun x _ =>
    published_unit x
  have h0 : (0 : ℚ) ≤ (m + 2) / 2 ^ 49 := by positivity
  have hδ : (sol.names.length : ℚ) * ((m + 2) / 2 ^ 49 + 0 + 1 / 2 ^ 53) ≤
      sol.names.length * ((m + 3) / 2 ^ 49) := by
    refine mul_le_mul_of_nonneg_left ?_ (by positivity)
    linarith
  have hδ' : (sol.names.length : ℚ) * ((m + 2) / 2 ^ 49 + 1 / 2 ^ 53 + 0) ≤
      sol.names.length * ((m + 3) / 2 ^ 49) := by
    refine mul_le_mul_of_nonneg_left ?_ (by positivity)
    linarith
  refine ⟨fun hn hts => ?_, ?_, ?_⟩
  · obtain ⟨N, h⟩ := C16_range_and_targets rnd64_usable.1 hn hts (matrices := c.matrices) (by
      intro M h
      rw [hM] at h
      obtain ⟨x, hx, rfl⟩ := List.mem_map.1 h
      exact unit' x hx)
    refine ⟨N, fun fuel hf => ?_⟩
    obtain ⟨imp, h1, -⟩ := h fuel hf
    exact ⟨imp, hr ▸ h1⟩
  · rintro (⟨y, hy, hty⟩ | h)
    · obtain ⟨z, hz, hyz⟩ := candidate_transfer rounds_id.toRndOk rnd64_usable.1 hv hv'
        (fun x => (published .drgep x).toN) (matrixOfS .drgep rnd64 tot part) states unit unit' h0
        (fun x _ i hi j hj => absS_binary64 hT hP hm x hi hj) hy
      refine .inl ⟨z, ?_, by linarith⟩
      rw [hM, hr]; exact hz
    · exact .inr h
  · rintro (⟨y, hy, hty⟩ | h)
    · rw [hM, hr] at hy
      obtain ⟨z, hz, hyz⟩ := candidate_transfer rnd64_usable.1 rounds_id.toRndOk hv' hv
        (matrixOfS .drgep rnd64 tot part) (fun x => (published .drgep x).toN) states unit' unit h0
        (fun x _ i hi j hj => by rw [abs_sub_comm]; exact absS_binary64 hT hP hm x hi hj) hy
      exact .inl ⟨z, hz, by linarith⟩
    · exact .inr h

/-- published coefficients that stay clear of one are computed as at most one, in every order -/
theorem drgepS_le_one (hT : Summation rnd64 tot) (hP : Summation rnd64 part)
    (hm : 4 * m + n + 14 ≤ 2 ^ 51) (x : Chem n m)
    (hx : ∀ a b, published .drgep x a b ≤ 1 - (m + 2) / 2 ^ 49) :
    ∀ i < n, ∀ j < n, matrixOfS .drgep rnd64 tot part x i j ≤ 1 := by
  intro i hi j hj
  have hs : ∀ (M : Mat n), M.toN i j = M ⟨i, hi⟩ ⟨j, hj⟩ := fun M => by simp [Mat.toN, hi, hj]
  have h1 := (abs_le.1 (absS_binary64 hT hP hm x hi hj)).1
  have h2 := hx ⟨i, hi⟩ ⟨j, hj⟩
  rw [← hs (published .drgep x)] at h2
  linarith

/-- **C114** (DRGEP): if no computed coefficient exceeds one and the published importance of a
species is not within rounding error of the threshold, the species is kept exactly when its
published importance is not below the threshold, so that two orders of additions agree. -/
theorem C114_drgep_agree_partial (hT : Summation rnd64 tot) (hP : Summation rnd64 part)
    (hm : 4 * m + sol.names.length + 14 ≤ 2 ^ 51)
    (hM : c.matrices = states.map (matrixOfS .drgep rnd64 tot part)) (hr : c.rndMul = rnd64)
    (hone : ∀ x ∈ states, (∀ i < sol.names.length, ∀ j < sol.names.length,
        matrixOfS .drgep rnd64 tot part x i j ≤ 1) ∨
      ∀ a b, published .drgep x a b ≤ 1 - (m + 2) / 2 ^ 49)
    {x : ℚ} (hx : IsGreatest (Candidates id sol.names c.targets
      (states.map (fun y => (published .drgep y).toN)) s) x)
    (hgap : |x - t| > sol.names.length * ((m + 3) / 2 ^ 49)) :
    Kept .drgep c sol t s ↔ t ≤ x ∨ s ∈ c.safe := by
  have hδ : (0 : ℚ) ≤ sol.names.length * ((m + 3) / 2 ^ 49) := by positivity
  obtain ⟨-, k1, k2⟩ := C114_drgep_kept_partial (t := t) (s := s) hT hP hm hM hr
    (fun y hy => (hone y hy).elim id (drgepS_le_one hT hP hm y))
  constructor
  · intro h
    rcases k2 h with ⟨y, hy, hty⟩ | h
    · left
      have := hx.2 hy
      rcases lt_abs.1 hgap with hg | hg <;> linarith
    · exact .inr h
  · rintro (h | h)
    · refine k1 (.inl ⟨x, hx.1, ?_⟩)
      rcases lt_abs.1 hgap with hg | hg <;> linarith
    · exact k1 (.inr h)

end

/-- non-vacuity: with blockwise addition `A` is kept, its importance being 1 -/
example : Kept .drgep { accCtx .drgep with
      matrices := [matrixOfS .drgep rnd64 (pairSum rnd64) (pairSum rnd64) accChem] } accMech (1 / 10) "A" := by
  have hx : IsGreatest (Candidates id accMech.names ["B"]
      ([accChem].map (fun y => (published .drgep y).toN)) "A") 1 := by
    constructor
    · refine .inr ⟨_, List.mem_singleton.2 rfl, "B", by simp, ?_⟩
      have h := PathProduct.step (rnd := id) (M := (published .drgep accChem).toN)
        (PathProduct.nil (a := "B") (names := accMech.names) (by decide)) (i := 1) (j := 0) (c := "A")
        rfl rfl (by decide +kernel)
      have e : id (1 * (published .drgep accChem).toN 1 0) = 1 := by decide +kernel
      rw [e] at h
      exact h
    · rintro y (rfl | ⟨M, hM, t, -, hp⟩)
      · exact zero_le_one
      · obtain rfl := List.mem_singleton.1 hM
        exact (Spec.PathProduct.range rounds_id.toRndOk (published_unit accChem) hp).2
  refine (C114_drgep_agree_partial (m := 3) (states := [accChem]) summation_pair summation_pair
    (by decide) rfl rfl (fun y hy => .inl ?_) hx (by
    show (_ : ℚ) < _
    decide +kernel)).2 (.inl (by norm_num))
  obtain rfl := List.mem_singleton.1 hy
  show ∀ i < 4, ∀ j < 4, matrixOfS .drgep rnd64 (pairSum rnd64) (pairSum rnd64) accChem i j ≤ 1
  decide +kernel

end Verif
