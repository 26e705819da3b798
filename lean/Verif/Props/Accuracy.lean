import Verif.Lemmas.AccuracyPaths
/-!
# C107: how far rounding moves coefficients, and when it changes what is kept
-/
namespace Verif
open Spec Finset
variable {n m : Nat} {rnd : ℚ → ℚ} {u : ℚ}

/-! ### coefficients -/

/-- **C107** (PFA): with unit roundoff `u` the computed coefficient agrees with the published one
up to a factor that depends on the numbers of species and reactions only. -/
theorem C107_pfa_accuracy (hR : Rounds rnd u) (c : Chem n m) (a b : Fin n) (hab : a ≠ b) :
    (1 - u) ^ (2 * m + n + 10) * Spec.pfa c a b ≤ (1 + u) ^ (2 * m + 4) * pfaMatrixR rnd c a b ∧
      (1 - u) ^ (2 * m + 4) * pfaMatrixR rnd c a b ≤ (1 + u) ^ (2 * m + n + 10) * Spec.pfa c a b := by
  have hu := hR.u0
  have hu1 : 0 < 1 - u := by linarith [hR.u1]
  obtain ⟨h1, h2⟩ := pfa_within hR c a b hab
  rw [div_mul_eq_mul_div, div_le_iff₀ (by positivity)] at h1
  rw [div_mul_eq_mul_div, le_div_iff₀ (by positivity)] at h2
  exact ⟨by linarith, by linarith⟩

theorem pfa_nonneg (c : Chem n m) (a b : Fin n) : 0 ≤ Spec.pfa c a b := by
  unfold Spec.pfa
  have h1 := (pro1_range c a b).1
  have h2 := (con1_range c a b).1
  have h3 : 0 ≤ ∑ k, (if k = a ∨ k = b then 0 else Spec.pro1 c a k * Spec.pro1 c k b) :=
    Finset.sum_nonneg (fun k _ => by
      split_ifs <;> [exact le_rfl; exact mul_nonneg (pro1_range c _ _).1 (pro1_range c _ _).1])
  have h4 : 0 ≤ ∑ k, (if k = a ∨ k = b then 0 else Spec.con1 c a k * Spec.con1 c k b) :=
    Finset.sum_nonneg (fun k _ => by
      split_ifs <;> [exact le_rfl; exact mul_nonneg (con1_range c _ _).1 (con1_range c _ _).1])
  positivity

/-- **C107** (PFA): rounding neither removes nor adds an edge. -/
theorem C107_pfa_edges (hR : Rounds rnd u) (c : Chem n m) (a b : Fin n) (hab : a ≠ b) :
    pfaMatrixR rnd c a b = 0 ↔ Spec.pfa c a b = 0 := by
  have hu := hR.u0
  have hu1 : 0 < 1 - u := by linarith [hR.u1]
  obtain ⟨h1, h2⟩ := pfa_within hR c a b hab
  have hp := pfa_nonneg c a b
  constructor
  · intro h
    rw [h] at h1
    by_contra hne
    have : 0 < (1 - u) ^ (2 * m + n + 10) / (1 + u) ^ (2 * m + 4) * Spec.pfa c a b :=
      mul_pos (by positivity) (lt_of_le_of_ne hp (Ne.symm hne))
    linarith
  · intro h
    rw [h, mul_zero] at h1 h2
    linarith

/-- **C107** (DRGEP): with unit roundoff `u` the computed coefficient differs from the published one
by a bounded amount (not a bounded factor: terms of both signs are added). -/
theorem C107_drgep_accuracy (hR : Rounds rnd u) (c : Chem n m) (a b : Fin n) (hab : a ≠ b) :
    |drgepMatrixR rnd c a b - Spec.drgep c a b| ≤
      3 * ((1 + u) ^ (m + 2) - 1) / (1 - u) ^ (m + 2) + u := drgep_err hR c a b hab

theorem u64 : (0 : ℚ) ≤ 1 / 2 ^ 53 ∧ (1 : ℚ) / 2 ^ 53 < 1 := by norm_num

/-- **C107** in binary64 (DRG): relative error at most `(2m+5)/2^52` for `m` reactions. -/
theorem C107_drg_binary64 (hm : 2 * m + 5 ≤ 2 ^ 52) (c : Chem n m) (a b : Fin n) (hab : a ≠ b) :
    |drgMatrixR rnd64 c a b - Spec.drg c a b| ≤ (2 * m + 5) / 2 ^ 52 * Spec.drg c a b := by
  obtain ⟨h1, h2, h3⟩ := rnd64_usable
  obtain ⟨r1, r2⟩ := C85_drg_accuracy h1 u64.1 u64.2 h2 h3 c a b hab
  have hm' : (2 * m + 5 : ℚ) ≤ 2 ^ 52 := by exact_mod_cast hm
  have hw : Within ((1 - 1 / 2 ^ 53) ^ (m + 3) / (1 + 1 / 2 ^ 53) ^ (m + 2))
      ((1 + 1 / 2 ^ 53) ^ (m + 3) / (1 - 1 / 2 ^ 53) ^ (m + 2)) (Spec.drg c a b)
      (drgMatrixR rnd64 c a b) := by
    have e : (0 : ℚ) < 1 - 1 / 2 ^ 53 := by norm_num
    constructor
    · rw [div_mul_eq_mul_div, div_le_iff₀ (by positivity)]; linarith
    · rw [div_mul_eq_mul_div, le_div_iff₀ (by positivity)]; linarith
  have := within_abs u64.1 u64.2 (by push_cast; linarith) (drg_range c a b).1 hw
  refine this.trans (le_of_eq ?_)
  push_cast
  ring

/-- **C107** in binary64 (PFA): relative error at most `(4m+n+14)/2^52`. -/
theorem C107_pfa_binary64 (hm : 4 * m + n + 14 ≤ 2 ^ 52) (c : Chem n m) (a b : Fin n) (hab : a ≠ b) :
    |pfaMatrixR rnd64 c a b - Spec.pfa c a b| ≤ (4 * m + n + 14) / 2 ^ 52 * Spec.pfa c a b := by
  have hm' : (4 * m + n + 14 : ℚ) ≤ 2 ^ 52 := by exact_mod_cast hm
  have := within_abs u64.1 u64.2 (by push_cast; linarith) (pfa_nonneg c a b) (pfa_within rounds_rnd64 c a b hab)
  refine this.trans (le_of_eq ?_)
  push_cast
  ring

/-- **C107** in binary64 (DRGEP): absolute error at most `(m+2)/2^49`. -/
theorem C107_drgep_binary64 (hm : m + 2 ≤ 2 ^ 51) (c : Chem n m) (a b : Fin n) (hab : a ≠ b) :
    |drgepMatrixR rnd64 c a b - Spec.drgep c a b| ≤ (m + 2) / 2 ^ 49 := by
  have hm' : (m + 2 : ℚ) ≤ 2 ^ 51 := by exact_mod_cast hm
  refine (drgep_err rounds_rnd64 c a b hab).trans ?_
  have h := pow_ratio_high u64.1 u64.2 (m + 2) (m + 2) (by push_cast; linarith)
  have e : (0 : ℚ) < 1 - 1 / 2 ^ 53 := by norm_num
  have h1 : (1 : ℚ) ≤ 1 / (1 - 1 / 2 ^ 53) ^ (m + 2) := by
    rw [one_le_div (by positivity)]
    exact pow_le_one₀ e.le (by norm_num)
  have h2 : 3 * ((1 + 1 / 2 ^ 53) ^ (m + 2) - 1) / (1 - 1 / 2 ^ 53) ^ (m + 2) =
      3 * ((1 + 1 / 2 ^ 53) ^ (m + 2) / (1 - 1 / 2 ^ 53) ^ (m + 2)) -
        3 * ((1 : ℚ) / (1 - 1 / 2 ^ 53) ^ (m + 2)) := by ring
  rw [h2]
  push_cast at h
  have h0 : (0 : ℚ) ≤ m := by positivity
  linarith

/-- **C107**: for DRGEP no relative bound holds, even with rates and coefficients that binary64
represents exactly: an edge can get lost, and one that is not there can appear. -/
theorem C107_drgep_edges_refuted :
    (∃ c : Chem 2 3, (∀ r, rnd64 (c.rop r) = c.rop r) ∧ drgepMatrixR rnd64 c 0 1 = 0 ∧
      Spec.drgep c 0 1 ≠ 0) ∧
    (∃ c : Chem 2 4, (∀ r, rnd64 (c.rop r) = c.rop r) ∧ drgepMatrixR rnd64 c 0 1 ≠ 0 ∧
      Spec.drgep c 0 1 = 0) := by
  refine ⟨⟨⟨fun s r => ![![1, 1, 0], ![0, 0, 1]] s r, fun s r => ![![0, 0, 1], ![1, 1, 0]] s r,
      ![1, 1 / 2 ^ 60, 1]⟩, ?_, ?_, ?_⟩,
    ⟨⟨fun s r => ![![1, 1, 0, 0], ![0, 0, 1, 1]] s r, fun s r => ![![0, 0, 1, 1], ![1, 1, 0, 0]] s r,
      ![1, 1 / 2 ^ 53, 1, 1 / 2 ^ 53]⟩, ?_, ?_, ?_⟩⟩ <;> decide +kernel

/-! ### what is kept -/

theorem published_diag (meth : Method) (c : Chem n m) (a : Fin n) : published meth c a a = 0 := by
  simp [published]

theorem published_unit (c : Chem n m) : UnitMatrix (published .drgep c).toN n :=
  toN_unit _ (fun a b => by
    unfold published
    split_ifs
    · simp
    · exact drgep_range c a b)

/-- relative error of DRG and PFA coefficients in binary64, as matrices -/
theorem rel_binary64 {meth : Method} (hmeth : meth ≠ .drgep) (hm : 4 * m + n + 14 ≤ 2 ^ 51)
    (c : Chem n m) {i j : Nat} (hi : i < n) (hj : j < n) :
    0 ≤ (published meth c).toN i j ∧
    |matrixOf meth rnd64 c i j - (published meth c).toN i j| ≤
      (4 * m + n + 14) / 2 ^ 52 * (published meth c).toN i j := by
  have hnn : (0 : ℚ) ≤ m ∧ (0 : ℚ) ≤ n := ⟨by positivity, by positivity⟩
  have hs : ∀ (M : Mat n), M.toN i j = M ⟨i, hi⟩ ⟨j, hj⟩ := fun M => by simp [Mat.toN, hi, hj]
  by_cases hij : (⟨i, hi⟩ : Fin n) = ⟨j, hj⟩
  · have e0 : matrixOf meth rnd64 c i j = 0 := by
      cases meth <;> simp only [matrixOf, hs, hij] <;>
        [unfold drgMatrixR; unfold drgepMatrixR; unfold pfaMatrixR] <;>
        split_ifs <;> simp [fillDiagonal]
    rw [hs, e0, hij, published_diag]
    simp
  · have e : (published meth c).toN i j = match meth with
      | .drg => Spec.drg c ⟨i, hi⟩ ⟨j, hj⟩
      | .drgep => Spec.drgep c ⟨i, hi⟩ ⟨j, hj⟩
      | .pfa => Spec.pfa c ⟨i, hi⟩ ⟨j, hj⟩ := by
      rw [hs]
      unfold published
      rw [if_neg hij]
      cases meth <;> rfl
    rw [e]
    cases meth with
    | drgep => exact absurd rfl hmeth
    | drg =>
      refine ⟨(drg_range c _ _).1, ?_⟩
      simp only [matrixOf, hs]
      refine (C107_drg_binary64 (by omega) c _ _ hij).trans ?_
      refine mul_le_mul_of_nonneg_right ?_ (drg_range c _ _).1
      rw [div_le_div_iff_of_pos_right (by norm_num)]
      linarith
    | pfa =>
      refine ⟨pfa_nonneg c _ _, ?_⟩
      simp only [matrixOf, hs]
      exact C107_pfa_binary64 (by omega) c _ _ hij

/-- absolute error of DRGEP coefficients in binary64, as matrices -/
theorem abs_binary64 (hm : m + 2 ≤ 2 ^ 51) (c : Chem n m) {i j : Nat} (hi : i < n) (hj : j < n) :
    |(published .drgep c).toN i j - matrixOf .drgep rnd64 c i j| ≤ (m + 2) / 2 ^ 49 := by
  have hs : ∀ (M : Mat n), M.toN i j = M ⟨i, hi⟩ ⟨j, hj⟩ := fun M => by simp [Mat.toN, hi, hj]
  simp only [matrixOf, hs]
  unfold published
  by_cases hij : (⟨i, hi⟩ : Fin n) = ⟨j, hj⟩
  · have e0 : drgepMatrixR rnd64 c ⟨i, hi⟩ ⟨j, hj⟩ = 0 := by
      unfold drgepMatrixR
      split_ifs <;> simp [fillDiagonal, hij]
    rw [e0, if_pos hij]
    simp
    positivity
  · rw [if_neg hij, abs_sub_comm]
    exact C107_drgep_binary64 hm c _ _ hij

section
variable {c : Ctx} {sol : Mech} {states : List (Chem sol.names.length m)} {t : ℚ} {s : String}

/-- **C107** (DRG and PFA): a species linked to a target by published coefficients a shade above
the threshold is kept in binary64, and whatever is kept in binary64 is linked to a target by
published coefficients not more than a shade below the threshold. -/
theorem C107_kept {meth : Method} (hmeth : meth ≠ .drgep)
    (hm : 4 * m + sol.names.length + 14 ≤ 2 ^ 51)
    (hM : c.matrices = states.map (matrixOf meth rnd64)) :
    (KeptPublished meth sol.names c.targets c.safe states
        (t / (1 - (4 * m + sol.names.length + 14) / 2 ^ 52)) s → Kept meth c sol t s) ∧
    (Kept meth c sol t s → KeptPublished meth sol.names c.targets c.safe states
        (t / (1 + (4 * m + sol.names.length + 14) / 2 ^ 52)) s) := by
  have hk : Kept meth c sol t s ↔ (∃ x ∈ states, Linked (matrixOf meth rnd64 x) sol.names c.targets t s) ∨
      s ∈ c.safe := by
    have : Kept meth c sol t s ↔ KeptDrg c sol t s := by cases meth <;> first | rfl | exact absurd rfl hmeth
    rw [this]
    unfold KeptDrg
    rw [hM]
    simp
  have hp : ∀ t', KeptPublished meth sol.names c.targets c.safe states t' s ↔
      (∃ x ∈ states, Linked (published meth x).toN sol.names c.targets t' s) ∨ s ∈ c.safe := by
    intro t'
    cases meth <;> first | rfl | exact absurd rfl hmeth
  have hm' : (4 * m + sol.names.length + 14 : ℚ) ≤ 2 ^ 51 := by exact_mod_cast hm
  rw [hk, hp, hp]
  set δ : ℚ := (4 * m + sol.names.length + 14) / 2 ^ 52 with hδ
  have hδ0 : 0 ≤ δ := by positivity
  have hδ1 : δ < 1 := by rw [hδ, div_lt_one (by norm_num)]; linarith
  constructor
  · rintro (⟨x, hx, h⟩ | h)
    · refine .inl ⟨x, hx, linked_imp (fun i hi j hj h1 h2 => ?_) h⟩
      obtain ⟨r0, r1⟩ := rel_binary64 hmeth hm x hi hj
      rw [← hδ, abs_le] at r1
      rw [div_le_iff₀ (by linarith)] at h1
      have hpos : 0 < (published meth x).toN i j := lt_of_le_of_ne r0 (Ne.symm h2)
      have : 0 < (1 - δ) * (published meth x).toN i j := mul_pos (by linarith) hpos
      exact ⟨by linarith [r1.1], by intro h0; linarith [r1.1]⟩
    · exact .inr h
  · rintro (⟨x, hx, h⟩ | h)
    · refine .inl ⟨x, hx, linked_imp (fun i hi j hj h1 h2 => ?_) h⟩
      obtain ⟨r0, r1⟩ := rel_binary64 hmeth hm x hi hj
      rw [← hδ, abs_le] at r1
      rw [div_le_iff₀ (by linarith)]
      exact ⟨by linarith [r1.2], fun h0 => h2 (by rw [h0] at r1; linarith [r1.1, r1.2])⟩
    · exact .inr h

/-- **C107** (DRG and PFA): if no published coefficient is within rounding error of the threshold,
exactly the species determined by the published coefficients are kept. -/
theorem C107_unchanged {meth : Method} (hmeth : meth ≠ .drgep)
    (hm : 4 * m + sol.names.length + 14 ≤ 2 ^ 51)
    (hM : c.matrices = states.map (matrixOf meth rnd64))
    (hgap : ∀ x ∈ states, ∀ a b, published meth x a b ≠ 0 →
      |published meth x a b - t| > (4 * m + sol.names.length + 14) / 2 ^ 52 * published meth x a b) :
    Kept meth c sol t s ↔ KeptPublished meth sol.names c.targets c.safe states t s := by
  have hk : Kept meth c sol t s ↔ (∃ x ∈ states, Linked (matrixOf meth rnd64 x) sol.names c.targets t s) ∨
      s ∈ c.safe := by
    have : Kept meth c sol t s ↔ KeptDrg c sol t s := by cases meth <;> first | rfl | exact absurd rfl hmeth
    rw [this]
    unfold KeptDrg
    rw [hM]
    simp
  have hp : KeptPublished meth sol.names c.targets c.safe states t s ↔
      (∃ x ∈ states, Linked (published meth x).toN sol.names c.targets t s) ∨ s ∈ c.safe := by
    cases meth <;> first | rfl | exact absurd rfl hmeth
  rw [hk, hp]
  have hs : ∀ (M : Mat sol.names.length) i j (hi : i < sol.names.length) (hj : j < sol.names.length),
    M.toN i j = M ⟨i, hi⟩ ⟨j, hj⟩ := fun M i j hi hj => by simp [Mat.toN, hi, hj]
  have hm' : (4 * m + sol.names.length + 14 : ℚ) ≤ 2 ^ 51 := by exact_mod_cast hm
  set δ : ℚ := (4 * m + sol.names.length + 14) / 2 ^ 52 with hδ
  have hδ0 : 0 ≤ δ := by positivity
  have hδ1 : δ < 1 := by rw [hδ, div_lt_one (by norm_num)]; linarith
  have key : ∀ x ∈ states, ∀ i < sol.names.length, ∀ j < sol.names.length,
      ((t ≤ matrixOf meth rnd64 x i j ∧ matrixOf meth rnd64 x i j ≠ 0) ↔
        (t ≤ (published meth x).toN i j ∧ (published meth x).toN i j ≠ 0)) := by
    intro x hx i hi j hj
    obtain ⟨r0, r1⟩ := rel_binary64 hmeth hm x hi hj
    have hg := hgap x hx ⟨i, hi⟩ ⟨j, hj⟩
    rw [← hs (published meth x) i j hi hj] at hg
    rw [← hδ, abs_le] at r1
    by_cases h0 : (published meth x).toN i j = 0
    · rw [h0, mul_zero, sub_zero] at r1
      have : matrixOf meth rnd64 x i j = 0 := by linarith [r1.1, r1.2]
      rw [this, h0]
    · have hg := hg h0
      have hpos : 0 < (published meth x).toN i j := lt_of_le_of_ne r0 (Ne.symm h0)
      have h2 : 0 < (1 - δ) * (published meth x).toN i j := mul_pos (by linarith) hpos
      have hne : matrixOf meth rnd64 x i j ≠ 0 := by intro h; linarith [r1.1]
      simp only [hne, h0, ne_eq, not_false_eq_true, and_true]
      rcases lt_abs.1 hg with hg | hg <;> constructor <;> intro h <;> linarith [r1.1, r1.2]
  refine or_congr (exists_congr fun x => and_congr_right fun hx => ?_) Iff.rfl
  exact ⟨linked_imp (fun i hi j hj h1 h2 => (key x hx i hi j hj).1 ⟨h1, h2⟩),
    linked_imp (fun i hi j hj h1 h2 => (key x hx i hi j hj).2 ⟨h1, h2⟩)⟩

/-- **C107** (DRGEP): a species whose published importance exceeds the threshold by `δ` is kept in
binary64, and whatever is kept in binary64 has a published importance not more than `δ` below the
threshold; `δ` is the number of species times `(m+3)/2^49`. -/
theorem C107_kept_drgep (hm : m + 2 ≤ 2 ^ 51)
    (hM : c.matrices = states.map (matrixOf .drgep rnd64)) (hr : c.rndMul = rnd64) :
    (KeptPublished .drgep sol.names c.targets c.safe states
        (t + sol.names.length * ((m + 3) / 2 ^ 49)) s → Kept .drgep c sol t s) ∧
    (Kept .drgep c sol t s → KeptPublished .drgep sol.names c.targets c.safe states
        (t - sol.names.length * ((m + 3) / 2 ^ 49)) s) := by
  have hv : ∀ x : ℚ, 0 ≤ x → x ≤ 1 → |id x - x| ≤ 0 := by simp
  have hv' : ∀ x : ℚ, 0 ≤ x → x ≤ 1 → |rnd64 x - x| ≤ 1 / 2 ^ 53 := by
    intro x h0 h1
    have := rounds_rnd64.err x
    rw [abs_of_nonneg h0] at this
    exact this.trans (mul_le_of_le_one_right (by norm_num) h1)
  have unit' : ∀ x ∈ states, UnitMatrix (matrixOf .drgep rnd64 x) sol.names.length := fun x _ =>
    toN_unit _ (C84_drgep_range rnd64_usable.1 rnd64_usable.2.1 x)
  have unit : ∀ x ∈ states, UnitMatrix (published .drgep x).toN sol.names.length := fun x _ =>
    published_unit x
  have h0 : (0 : ℚ) ≤ (m + 2) / 2 ^ 49 := by positivity
  have hδ : (sol.names.length : ℚ) * ((m + 2) / 2 ^ 49 + 0 + 1 / 2 ^ 53) ≤
      sol.names.length * ((m + 3) / 2 ^ 49) := by
    refine mul_le_mul_of_nonneg_left ?_ (by positivity)
    linarith
  have hδ' : (sol.names.length : ℚ) * ((m + 2) / 2 ^ 49 + 1 / 2 ^ 53 + 0) ≤
      sol.names.length * ((m + 3) / 2 ^ 49) := by
    refine mul_le_mul_of_nonneg_left ?_ (by positivity)
    linarith
  constructor
  · rintro (⟨y, hy, hty⟩ | h)
    · obtain ⟨z, hz, hyz⟩ := candidate_transfer rounds_id.toRndOk rnd64_usable.1 hv hv'
        (fun x => (published .drgep x).toN) (matrixOf .drgep rnd64) states unit unit' h0
        (fun x _ i hi j hj => abs_binary64 hm x hi hj) hy
      refine .inl ⟨z, ?_, by linarith⟩
      rw [hM, hr]; exact hz
    · exact .inr h
  · rintro (⟨y, hy, hty⟩ | h)
    · rw [hM, hr] at hy
      obtain ⟨z, hz, hyz⟩ := candidate_transfer rnd64_usable.1 rounds_id.toRndOk hv' hv
        (matrixOf .drgep rnd64) (fun x => (published .drgep x).toN) states unit' unit h0
        (fun x _ i hi j hj => by rw [abs_sub_comm]; exact abs_binary64 hm x hi hj) hy
      exact .inl ⟨z, hz, by linarith⟩
    · exact .inr h

/-- **C107** (DRGEP): if the published importance of a species is not within `δ` of the threshold,
it is kept in binary64 exactly when its published importance is not below the threshold. -/
theorem C107_unchanged_drgep (hm : m + 2 ≤ 2 ^ 51)
    (hM : c.matrices = states.map (matrixOf .drgep rnd64)) (hr : c.rndMul = rnd64) {x : ℚ}
    (hx : IsGreatest (Candidates id sol.names c.targets
      (states.map (fun y => (published .drgep y).toN)) s) x)
    (hgap : |x - t| > sol.names.length * ((m + 3) / 2 ^ 49)) :
    Kept .drgep c sol t s ↔ t ≤ x ∨ s ∈ c.safe := by
  obtain ⟨h1, h2⟩ := C107_kept_drgep (t := t) (s := s) hm hM hr
  have hδ : (0 : ℚ) ≤ sol.names.length * ((m + 3) / 2 ^ 49) := by positivity
  constructor
  · intro h
    rcases h2 h with ⟨y, hy, hty⟩ | h
    · left
      have := hx.2 hy
      rcases lt_abs.1 hgap with hg | hg <;> linarith
    · exact .inr h
  · rintro (h | h)
    · refine h1 (.inl ⟨x, hx.1, ?_⟩)
      rcases lt_abs.1 hgap with hg | hg <;> linarith
    · exact .inr h

end

/-! ### a case -/

def accMech : Mech where
  species := ["A", "B", "C", "D"].map (fun s => ⟨s, 0⟩)
  reactions := []
  transport := 0
  tp := 0
  name := []

def accChem : Chem accMech.names.length 3 := exChem

def accCtx (meth : Method) : Ctx where
  modelFile := []
  targets := ["B"]
  safe := []
  matrices := [matrixOf meth rnd64 exChem]
  errOf _ := .fin 0
  phase := []
  path := []
  upper := none
  rndMul := rnd64

/-- binary64 and published coefficients differ, yet at threshold 1/10 both keep `A`, reached from
the target `B`, for DRG and PFA -/
example (meth : Method) (h : meth ≠ .drgep) :
    (matrixOf .drg rnd64 accChem 1 0 ≠ (published .drg accChem).toN 1 0) ∧
    Kept meth (accCtx meth) accMech (1 / 10) "A" := by
  refine ⟨by decide +kernel, ?_⟩
  refine (C107_unchanged (m := 3) (sol := accMech) (states := [accChem]) h (by decide) rfl ?_).2 ?_
  · intro x hx
    obtain rfl := List.mem_singleton.1 hx
    have e : ∀ a b : Fin accMech.names.length, published meth accChem a b = 0 ∨
        (4 * (3 : Nat) + (4 : Nat) + 14) / 2 ^ 52 * published meth accChem a b <
          |published meth accChem a b - 1 / 10| := by
      cases meth <;> decide +kernel
    intro a b hab
    exact (e a b).resolve_left hab
  · refine .inl ?_
    have e : StrongEdge (published meth accChem).toN ["A", "B", "C", "D"] (1 / 10) "B" "A" := by
      refine ⟨1, 0, rfl, rfl, ?_⟩
      cases meth <;> decide +kernel
    cases meth
    · exact ⟨accChem, List.mem_singleton.2 rfl, "B", by simp [accCtx], .single e⟩
    · exact absurd rfl h
    · exact ⟨accChem, List.mem_singleton.2 rfl, "B", by simp [accCtx], .single e⟩

/-- the same for DRGEP: the importance of `A` is 1 -/
example : Kept .drgep (accCtx .drgep) accMech (1 / 10) "A" := by
  have hx : IsGreatest (Candidates id accMech.names (accCtx .drgep).targets
      ([accChem].map (fun y => (published .drgep y).toN)) "A") 1 := by
    constructor
    · refine .inr ⟨_, List.mem_singleton.2 rfl, "B", by simp [accCtx], ?_⟩
      have h := PathProduct.step (rnd := id) (M := (published .drgep accChem).toN)
        (PathProduct.nil (a := "B") (names := accMech.names) (by decide)) (i := 1) (j := 0) (c := "A")
        rfl rfl (by decide +kernel)
      have e : id (1 * (published .drgep accChem).toN 1 0) = 1 := by decide +kernel
      rw [e] at h
      exact h
    · rintro y (rfl | ⟨M, hM, t, -, hp⟩)
      · exact zero_le_one
      · obtain rfl := List.mem_singleton.1 hM
        exact (Spec.PathProduct.range rounds_id.toRndOk (published_unit accChem) hp).2
  exact (C107_unchanged_drgep (m := 3) (by decide) rfl rfl hx (by
    show (_ : ℚ) < _
    decide +kernel)).2 (.inl (by norm_num))

end Verif
