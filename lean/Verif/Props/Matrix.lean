import Verif.Lemmas.Matrix
/-!
# C06–C09: interaction-coefficient matrices
-/
namespace Verif
open Finset
variable {n m : Nat}

/-- example chemistry: A → 2B, B → C, D inert; third reaction has zero rate -/
def exChem : Chem 4 3 where
  prod := fun s r => ![![0, 0, 1], ![2, 0, 0], ![0, 1, 0], ![0, 0, 0]] s r
  reac := fun s r => ![![1, 0, 0], ![0, 1, 0], ![0, 0, 1], ![0, 0, 0]] s r
  rop := ![3, 1/2, 0]

/-- **C06.** The DRG matrix is the published coefficient off the diagonal and 0 on it. -/
theorem C06_drg_formula (c : Chem n m) (A B : Fin n) :
    (A ≠ B → drgMatrix c A B = Spec.drg c A B) ∧ drgMatrix c A A = 0 := by
  simp only [drgMatrix_eq]
  exact ⟨fun h => by simp [h], by simp⟩

/-- **C06.** Every DRG entry lies in [0,1]. -/
theorem C06_drg_range (c : Chem n m) (A B : Fin n) :
    0 ≤ drgMatrix c A B ∧ drgMatrix c A B ≤ 1 := by
  rw [drgMatrix_eq]
  split_ifs
  · simp
  · exact drg_range c A B

/-- **C06.** There is an edge A → B exactly when some reaction with a non-zero net rate
changes A and involves B. -/
theorem C06_drg_edge_iff (c : Chem n m) (A B : Fin n) (h : A ≠ B) :
    drgMatrix c A B ≠ 0 ↔
      ∃ r, c.rop r ≠ 0 ∧ c.prod A r ≠ c.reac A r ∧ (c.prod B r ≠ 0 ∨ c.reac B r ≠ 0) := by
  rw [(C06_drg_formula c A B).1 h]
  have hr : ∀ r, Spec.rate c A r ≠ 0 ↔ c.rop r ≠ 0 ∧ c.prod A r ≠ c.reac A r := by
    intro r; unfold Spec.rate; rw [mul_ne_zero_iff, sub_ne_zero, and_comm]
  have hnn : ∀ r, 0 ≤ (if Spec.Involves c B r then |Spec.rate c A r| else 0) := by
    intro r; split_ifs <;> simp
  have hnum : (∑ r, if Spec.Involves c B r then |Spec.rate c A r| else 0) ≠ 0 ↔
      ∃ r, c.rop r ≠ 0 ∧ c.prod A r ≠ c.reac A r ∧ (c.prod B r ≠ 0 ∨ c.reac B r ≠ 0) := by
    rw [Ne, Finset.sum_eq_zero_iff_of_nonneg (fun r _ => hnn r)]
    push Not
    constructor
    · rintro ⟨r, -, h2⟩
      by_cases hi : Spec.Involves c B r
      · simp only [hi, if_true, ne_eq, abs_eq_zero] at h2
        exact ⟨r, ((hr r).1 h2).1, ((hr r).1 h2).2, hi⟩
      · simp [hi] at h2
    · rintro ⟨r, h1, h2, h3⟩
      refine ⟨r, Finset.mem_univ _, ?_⟩
      have hi : Spec.Involves c B r := h3
      simp only [hi, if_true, ne_eq, abs_eq_zero]
      exact (hr r).2 ⟨h1, h2⟩
  rw [← hnum]
  unfold Spec.drg
  split_ifs with h0
  · simp only [ne_eq, not_true_eq_false, false_iff, not_not]
    refine le_antisymm ?_ (Finset.sum_nonneg (fun r _ => hnn r))
    refine le_trans ?_ h0.le
    refine Finset.sum_le_sum (fun r _ => ?_)
    split_ifs
    · exact le_refl _
    · exact abs_nonneg _
  · rw [Ne, div_eq_zero_iff, not_or]
    exact ⟨fun h => h.1, fun h => ⟨h, h0⟩⟩

example : drgMatrix exChem 1 0 = 12/13 ∧ drgMatrix exChem 1 2 = 1/13 ∧
    drgMatrix exChem 3 0 = 0 ∧ drgMatrix exChem 1 1 = 0 := by decide +kernel

/-- **C07.** The DRGEP matrix is the published coefficient off the diagonal and 0 on it. -/
theorem C07_drgep_formula (c : Chem n m) (A B : Fin n) :
    (A ≠ B → drgepMatrix c A B = Spec.drgep c A B) ∧ drgepMatrix c A A = 0 := by
  simp only [drgepMatrix_eq]
  exact ⟨fun h => by simp [h], by simp⟩

/-- **C07.** Every DRGEP entry lies in [0,1]. -/
theorem C07_drgep_range (c : Chem n m) (A B : Fin n) :
    0 ≤ drgepMatrix c A B ∧ drgepMatrix c A B ≤ 1 := by
  rw [drgepMatrix_eq]
  split_ifs
  · simp
  · exact drgep_range c A B

example : drgepMatrix exChem 1 0 = 1 ∧ drgepMatrix exChem 1 2 = 1/12 ∧
    drgepMatrix exChem 3 0 = 0 := by decide +kernel

/-- **C08.** The PFA matrix is the published coefficient off the diagonal and 0 on it,
whatever the in-place updates do to the intermediate arrays. -/
theorem C08_pfa_formula (c : Chem n m) (A B : Fin n) :
    (A ≠ B → pfaMatrix c A B = Spec.pfa c A B) ∧ pfaMatrix c A A = 0 := by
  simp only [pfaMatrix_eq]
  exact ⟨fun h => by simp [h], by simp⟩

/-- **C08.** PFA entries are non-negative and bounded by `2 n + 2` for `n` species. -/
theorem C08_pfa_range (c : Chem n m) (A B : Fin n) :
    0 ≤ pfaMatrix c A B ∧ pfaMatrix c A B ≤ 2 * n + 2 := by
  rw [pfaMatrix_eq]
  split_ifs
  · exact ⟨le_refl _, by positivity⟩
  · unfold Spec.pfa
    have hp := pro1_range c
    have hq := con1_range c
    have t1 : ∀ M, 0 ≤ (if M = A ∨ M = B then 0 else Spec.pro1 c A M * Spec.pro1 c M B) ∧
        (if M = A ∨ M = B then 0 else Spec.pro1 c A M * Spec.pro1 c M B) ≤ 1 := by
      intro M; split_ifs
      · simp
      · exact ⟨mul_nonneg (hp _ _).1 (hp _ _).1,
          mul_le_one₀ (hp _ _).2 (hp _ _).1 (hp _ _).2⟩
    have t2 : ∀ M, 0 ≤ (if M = A ∨ M = B then 0 else Spec.con1 c A M * Spec.con1 c M B) ∧
        (if M = A ∨ M = B then 0 else Spec.con1 c A M * Spec.con1 c M B) ≤ 1 := by
      intro M; split_ifs
      · simp
      · exact ⟨mul_nonneg (hq _ _).1 (hq _ _).1,
          mul_le_one₀ (hq _ _).2 (hq _ _).1 (hq _ _).2⟩
    have s1 := Finset.sum_nonneg (s := Finset.univ) (fun M _ => (t1 M).1)
    have s2 := Finset.sum_nonneg (s := Finset.univ) (fun M _ => (t2 M).1)
    have u1 := Finset.sum_le_card_nsmul Finset.univ _ 1 (fun M _ => (t1 M).2)
    have u2 := Finset.sum_le_card_nsmul Finset.univ _ 1 (fun M _ => (t2 M).2)
    simp only [Finset.card_univ, Fintype.card_fin, nsmul_eq_mul, mul_one] at u1 u2
    have a1 := hp A B
    have a2 := hq A B
    constructor <;> linarith [a1.1, a1.2, a2.1, a2.2]

example : pfaMatrix exChem 1 0 = 1 ∧ pfaMatrix exChem 0 2 = 1/12 ∧
    pfaMatrix exChem 3 0 = 0 := by decide +kernel

/-- **C09.** Scaling all rates by the same non-zero constant changes none of the matrices. -/
theorem C09_scale_invariant (c : Chem n m) (k : ℚ) (hk : k ≠ 0) (A B : Fin n) :
    drgMatrix { c with rop := fun r => k * c.rop r } A B = drgMatrix c A B ∧
    drgepMatrix { c with rop := fun r => k * c.rop r } A B = drgepMatrix c A B ∧
    pfaMatrix { c with rop := fun r => k * c.rop r } A B = pfaMatrix c A B := by
  have h1 := drg_scale c k hk A B
  have h2 := drgep_scale c k hk A B
  have h3 := pfa_scale c k hk A B
  unfold Chem.scale at h1 h2 h3
  rw [drgMatrix_eq, drgMatrix_eq, drgepMatrix_eq, drgepMatrix_eq, pfaMatrix_eq, pfaMatrix_eq,
    h1, h2, h3]
  exact ⟨rfl, rfl, rfl⟩

end Verif
