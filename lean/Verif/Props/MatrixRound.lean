import Verif.Lemmas.MatrixRound
import Verif.Lemmas.Num
import Verif.Props.Matrix
import Verif.Props.Importance
/-!
# C84, C85: interaction coefficients in rounded arithmetic
-/
namespace Verif
open Spec Finset
variable {n m : Nat} {rnd : ℚ → ℚ}

/-- **C84** (DRG): whatever the rounding, coefficients stay in `[0,1]`. -/
theorem C84_drg_range (hr : RndOk rnd) (c : Chem n m) (a b : Fin n) :
    0 ≤ drgMatrixR rnd c a b ∧ drgMatrixR rnd c a b ≤ 1 := by
  unfold drgMatrixR
  split_ifs
  · exact fillDiagonal_range _ 1 zero_le_one (fun _ _ => ⟨le_rfl, zero_le_one⟩) a b
  · refine fillDiagonal_range _ 1 zero_le_one (fun a b => ?_) a b
    refine whereDivR_range hr _ _ a b ?_ ?_
    · rw [rnd_zero_add_sum hr]; exact sumOverR_nonneg hr _ _ (fun _ => abs_nonneg _)
    · rw [rnd_zero_add_sum hr]
      exact sumOverR_filter_le hr _ _ _ _ (fun _ => le_rfl) (fun _ => abs_nonneg _)

/-- **C84** (DRGEP): whatever the (sign-symmetric) rounding, coefficients stay in `[0,1]`. -/
theorem C84_drgep_range (hr : RndOk rnd) (hodd : ∀ x, rnd (-x) = -rnd x) (c : Chem n m)
    (a b : Fin n) : 0 ≤ drgepMatrixR rnd c a b ∧ drgepMatrixR rnd c a b ≤ 1 := by
  unfold drgepMatrixR
  split_ifs
  · exact fillDiagonal_range _ 1 zero_le_one (fun _ _ => ⟨le_rfl, zero_le_one⟩) a b
  · refine fillDiagonal_range _ 1 zero_le_one (fun a b => ?_) a b
    refine whereDivR_range hr _ _ a b (abs_nonneg _) ?_
    rw [rnd_zero_add_sum hr]
    refine abs_le'.2 ⟨le_trans ?_ (le_max_left _ _), le_trans ?_ (le_max_right _ _)⟩
    · exact sumOverR_filter_le hr _ _ _ _ (fun _ => le_max_right _ _) (fun _ => le_max_left _ _)
    · rw [← sumOverR_neg hodd]
      exact sumOverR_filter_le hr _ _ _ _ (fun _ => le_max_right _ _) (fun _ => le_max_left _ _)

/-- bounds kept by the second-generation loop of PFA -/
theorem pfaFoldR_range (hr : RndOk rnd) (hn : ∀ k : Nat, k ≤ 2 * n + 2 → rnd k = k)
    (l : List (Fin n)) (s : PfaState n) (j : Nat) (hj : j + l.length ≤ n)
    (hp : ∀ a b, 0 ≤ s.pro1 a b ∧ s.pro1 a b ≤ 1) (hc : ∀ a b, 0 ≤ s.con1 a b ∧ s.con1 a b ≤ 1)
    (hp2 : ∀ a b, 0 ≤ s.pro2 a b ∧ s.pro2 a b ≤ j) (hc2 : ∀ a b, 0 ≤ s.con2 a b ∧ s.con2 a b ≤ j) :
    let t := l.foldl (pfaStepR rnd) s
    (∀ a b, 0 ≤ t.pro1 a b ∧ t.pro1 a b ≤ 1) ∧ (∀ a b, 0 ≤ t.con1 a b ∧ t.con1 a b ≤ 1) ∧
      (∀ a b, 0 ≤ t.pro2 a b ∧ t.pro2 a b ≤ n) ∧ (∀ a b, 0 ≤ t.con2 a b ∧ t.con2 a b ≤ n) := by
  induction l generalizing s j with
  | nil =>
    have : (j : ℚ) ≤ n := by exact_mod_cast (by simpa using hj)
    exact ⟨hp, hc, fun a b => ⟨(hp2 a b).1, (hp2 a b).2.trans this⟩,
      fun a b => ⟨(hc2 a b).1, (hc2 a b).2.trans this⟩⟩
  | cons k l ih =>
    rw [List.length_cons] at hj
    have set_range : ∀ M : Mat n, (∀ a b, 0 ≤ M a b ∧ M a b ≤ 1) →
        ∀ a b, 0 ≤ setEntry (setEntry M k k 0) k k 0 a b ∧ setEntry (setEntry M k k 0) k k 0 a b ≤ 1 := by
      intro M h a b
      unfold setEntry
      split_ifs
      · exact ⟨le_rfl, zero_le_one⟩
      · exact h a b
    have acc : ∀ x y z : ℚ, (0 ≤ x ∧ x ≤ 1) → (0 ≤ y ∧ y ≤ 1) → (0 ≤ z ∧ z ≤ j) →
        0 ≤ rnd (z + rnd (x * y)) ∧ rnd (z + rnd (x * y)) ≤ ((j + 1 : Nat) : ℚ) := by
      intro x y z hx hy hz
      have h0 : 0 ≤ rnd (x * y) := RndOk_nonneg hr (mul_nonneg hx.1 hy.1)
      have h1 : rnd (x * y) ≤ 1 := RndOk_le_one hr (mul_le_one₀ hx.2 hy.1 hy.2)
      refine ⟨RndOk_nonneg hr (add_nonneg hz.1 h0), ?_⟩
      rw [← hn (j + 1) (by omega)]
      refine hr.mono _ _ ?_
      push_cast
      linarith [hz.2]
    have hP := set_range _ hp
    have hC := set_range _ hc
    exact ih (pfaStepR rnd s k) (j + 1) (by omega) hP hC
      (fun a b => acc _ _ _ (hP _ _) (hP _ _) (hp2 a b))
      (fun a b => acc _ _ _ (hC _ _) (hC _ _) (hc2 a b))

/-- **C84** (PFA): coefficients are non-negative and at most `2 n + 2` for `n` species, if the
whole numbers up to that bound are exact. -/
theorem C84_pfa_range (hr : RndOk rnd) (hn : ∀ k : Nat, k ≤ 2 * n + 2 → rnd k = k) (c : Chem n m)
    (a b : Fin n) : 0 ≤ pfaMatrixR rnd c a b ∧ pfaMatrixR rnd c a b ≤ 2 * n + 2 := by
  have h22 : (0 : ℚ) ≤ 2 * n + 2 := by positivity
  unfold pfaMatrixR
  split_ifs
  · exact fillDiagonal_range _ _ h22 (fun _ _ => ⟨le_rfl, h22⟩) a b
  · refine fillDiagonal_range _ _ h22 (fun a b => ?_) a b
    have first : ∀ f : Fin n → Fin m → ℚ, (∀ a r, 0 ≤ f a r) → ∀ den : Fin n → ℚ,
        (∀ a, sumOverR rnd c.valid (f a) ≤ den a) → ∀ a b,
        0 ≤ whereDivR rnd (fun a b => rnd (0 + sumOverR rnd (c.validWith b) (f a))) den a b ∧
          whereDivR rnd (fun a b => rnd (0 + sumOverR rnd (c.validWith b) (f a))) den a b ≤ 1 := by
      intro f hf den hd a b
      refine whereDivR_range hr _ _ a b ?_ ?_
      · rw [rnd_zero_add_sum hr]; exact sumOverR_nonneg hr _ _ (hf a)
      · rw [rnd_zero_add_sum hr]
        exact (sumOverR_filter_le hr _ _ _ _ (fun _ => le_rfl) (hf a)).trans (hd a)
    have hp := first (fun a r => max (baseR rnd c a r) 0) (fun _ _ => le_max_right _ _)
      (fun a => max (sumOverR rnd c.valid (fun r => max (baseR rnd c a r) 0))
        (sumOverR rnd c.valid (fun r => max (-baseR rnd c a r) 0))) (fun a => le_max_left _ _)
    have hq := first (fun a r => max (-baseR rnd c a r) 0) (fun _ _ => le_max_right _ _)
      (fun a => max (sumOverR rnd c.valid (fun r => max (baseR rnd c a r) 0))
        (sumOverR rnd c.valid (fun r => max (-baseR rnd c a r) 0))) (fun a => le_max_right _ _)
    dsimp only at hp hq ⊢
    generalize whereDivR rnd (fun a b => rnd (0 + sumOverR rnd (c.validWith b)
      (fun r => max (baseR rnd c a r) 0))) _ = P at hp ⊢
    generalize whereDivR rnd (fun a b => rnd (0 + sumOverR rnd (c.validWith b)
      (fun r => max (-baseR rnd c a r) 0))) _ = Q at hq ⊢
    obtain ⟨h1, h2, h3, h4⟩ := pfaFoldR_range hr hn (List.finRange n)
      ⟨P, Q, fun _ _ => 0, fun _ _ => 0⟩ 0 (by simp) hp hq
      (fun _ _ => ⟨le_rfl, by simp⟩) (fun _ _ => ⟨le_rfl, by simp⟩)
    have add_range : ∀ (x y : ℚ) (i j : Nat), i + j ≤ 2 * n + 2 → (0 ≤ x ∧ x ≤ i) → (0 ≤ y ∧ y ≤ j) →
        0 ≤ rnd (x + y) ∧ rnd (x + y) ≤ ((i + j : Nat) : ℚ) := by
      intro x y i j hij hx hy
      refine ⟨RndOk_nonneg hr (add_nonneg hx.1 hy.1), ?_⟩
      rw [← hn (i + j) hij]
      refine hr.mono _ _ ?_
      push_cast
      linarith [hx.2, hy.2]
    have e1 := add_range _ _ 1 1 (by omega) (by simpa using h1 a b) (by simpa using h2 a b)
    have e2 := add_range _ _ (1 + 1) n (by omega) e1 (h3 a b)
    have e3 := add_range _ _ (1 + 1 + n) n (by omega) e2 (h4 a b)
    refine ⟨e3.1, e3.2.trans (le_of_eq ?_)⟩
    push_cast
    ring

theorem toN_unit (M : Mat n) (h : ∀ a b, 0 ≤ M a b ∧ M a b ≤ 1) : UnitMatrix M.toN n := by
  intro i hi j hj
  simp only [Mat.toN, hi, hj, dif_pos]
  exact h _ _

/-- **C84**: in rounded arithmetic, from matrices to products, the importance coefficients of
DRGEP are computed in finitely many steps, lie in `[0,1]`, and are 1 for targets. -/
theorem C84_importance (hr : RndOk rnd) (hodd : ∀ x, rnd (-x) = -rnd x) {names targets : List String}
    (hn : names.Nodup) (ht : ∀ t ∈ targets, t ∈ names) (states : List (Chem names.length m)) :
    ∃ N, ∀ fuel ≥ N, ∃ imp, getImportanceCoeffs rnd names targets
        (states.map (fun c => (drgepMatrixR rnd c).toN)) fuel = .ok imp ∧
      (∀ sp x, imp sp = some x → 0 ≤ x ∧ x ≤ 1) ∧ (states ≠ [] → ∀ t ∈ targets, imp t = some 1) := by
  obtain ⟨N, h⟩ := C16_range_and_targets hr hn ht
    (matrices := states.map (fun c => (drgepMatrixR rnd c).toN)) (by
      intro M hM
      obtain ⟨c, -, rfl⟩ := List.mem_map.1 hM
      exact toN_unit _ (C84_drgep_range hr hodd c))
  refine ⟨N, fun fuel hf => ?_⟩
  obtain ⟨imp, h1, h2, h3⟩ := h fuel hf
  exact ⟨imp, h1, h2, fun hs => h3 (by simpa using hs)⟩

/-- the hypotheses hold for binary64 -/
theorem rnd64_usable : RndOk rnd64 ∧ (∀ x, rnd64 (-x) = -rnd64 x) ∧
    ∀ x, 0 ≤ x → (1 - 1 / 2 ^ 53) * x ≤ rnd64 x ∧ rnd64 x ≤ (1 + 1 / 2 ^ 53) * x := by
  refine ⟨rndOk_rnd64, rnd64_neg, fun x hx => ?_⟩
  have := abs_le.1 (rnd64_close hx)
  constructor <;> [have := this.1; have := this.2] <;> linarith

/-- three reactions `A → B` whose computed rates do not add exactly -/
def exRound : Chem 2 3 where
  prod := fun s _ => ![0, 1] s
  reac := fun s _ => ![1, 0] s
  rop := ![1/10, 2/10, 3/10]

/-- non-vacuity: rounding changes the sums, yet the coefficient is exactly 1 -/
example : sumOverR rnd64 exRound.valid (fun r => |baseR rnd64 exRound 0 r|) ≠ 6/10 ∧
    drgMatrixR rnd64 exRound 0 1 = 1 ∧ drgepMatrixR rnd64 exRound 0 1 = 1 ∧
    (∀ k : Nat, k ≤ 2 * 2 + 2 → rnd64 k = k) := by
  refine ⟨by decide +kernel, by decide +kernel, by decide +kernel, ?_⟩
  decide +kernel

/-! ### C85 -/

theorem length_valid_le (c : Chem n m) : c.valid.length ≤ m := by
  unfold Chem.valid
  exact (List.length_filter_le _ _).trans (by simp)

theorem length_validWith_le (c : Chem n m) (b : Fin n) : (c.validWith b).length ≤ m := by
  unfold Chem.validWith
  exact (List.length_filter_le _ _).trans (length_valid_le c)

/-- **C85**: with unit roundoff `u` the computed DRG coefficient agrees with the published one
up to a factor `((1 + u) / (1 - u)) ^ (m + 2) * (1 ± u)` for `m` reactions. -/
theorem C85_drg_accuracy (hr : RndOk rnd) {u : ℚ} (hu0 : 0 ≤ u) (hu1 : u < 1)
    (hodd : ∀ x, rnd (-x) = -rnd x)
    (hrel : ∀ x, 0 ≤ x → (1 - u) * x ≤ rnd x ∧ rnd x ≤ (1 + u) * x) (c : Chem n m) (a b : Fin n)
    (hab : a ≠ b) :
    (1 - u) ^ (m + 3) * Spec.drg c a b ≤ (1 + u) ^ (m + 2) * drgMatrixR rnd c a b ∧
      (1 - u) ^ (m + 2) * drgMatrixR rnd c a b ≤ (1 + u) ^ (m + 3) * Spec.drg c a b := by
  have hul : 0 < 1 - u := by linarith
  have huu : 0 < 1 + u := by linarith
  by_cases hv : c.valid.isEmpty = true
  · have e : drgMatrixR rnd c a b = 0 := by unfold drgMatrixR; rw [if_pos hv]; simp [fillDiagonal]
    have e' : Spec.drg c a b = 0 := by
      unfold Spec.drg
      rw [if_pos (by simp [valid_empty c hv])]
    rw [e, e']; simp
  · have key := sumOverR_rel (m := m) hu0 hu1 hrel
    have hden := key c.valid (length_valid_le c) (fun r => |baseR rnd c a r|) (fun r => |Spec.rate c a r|)
      (fun _ => abs_nonneg _) ((1 - u) ^ 2) ((1 + u) ^ 2) (by positivity) (by positivity)
      (baseR_rel hu0 hu1 hodd hrel c a)
    have hnum := key (c.validWith b) (length_validWith_le c b) (fun r => |baseR rnd c a r|)
      (fun r => |Spec.rate c a r|) (fun _ => abs_nonneg _) ((1 - u) ^ 2) ((1 + u) ^ 2) (by positivity)
      (by positivity) (baseR_rel hu0 hu1 hodd hrel c a)
    have hz : ∀ r, c.rop r = 0 → |Spec.rate c a r| = 0 := by
      intro r h; simp [Spec.rate, h]
    rw [sumOver_valid c _ hz] at hden
    rw [sumOver_validWith c b _ hz] at hnum
    have e : drgMatrixR rnd c a b =
        if sumOverR rnd c.valid (fun r => |baseR rnd c a r|) = 0 then 0 else
          rnd (sumOverR rnd (c.validWith b) (fun r => |baseR rnd c a r|) /
            sumOverR rnd c.valid (fun r => |baseR rnd c a r|)) := by
      unfold drgMatrixR
      rw [if_neg hv]
      simp only [fillDiagonal, hab, if_false, whereDivR, rnd_zero_add_sum hr, bne_iff_ne, ne_eq,
        ite_not]
    have hN0 : 0 ≤ ∑ r, if Spec.Involves c b r then |Spec.rate c a r| else 0 :=
      Finset.sum_nonneg (fun r _ => by split_ifs <;> simp)
    have hD0 : 0 ≤ ∑ r, |Spec.rate c a r| := Finset.sum_nonneg (fun r _ => abs_nonneg _)
    rw [e]
    unfold Spec.drg
    generalize (∑ r, if Spec.Involves c b r then |Spec.rate c a r| else 0) = N at *
    generalize (∑ r, |Spec.rate c a r|) = D at *
    generalize sumOverR rnd (c.validWith b) (fun r => |baseR rnd c a r|) = N' at *
    generalize sumOverR rnd c.valid (fun r => |baseR rnd c a r|) = D' at *
    rw [← pow_add] at hden hnum
    rw [← pow_add] at hden hnum
    rw [add_comm 2 m] at hden hnum
    set L := (1 - u) ^ (m + 2) with hL
    set U := (1 + u) ^ (m + 2) with hU
    have hLp : 0 < L := by positivity
    have hUp : 0 < U := by positivity
    by_cases hD : D = 0
    · have hD' : D' = 0 := by
        subst hD
        simp only [mul_zero] at hden
        linarith [hden.1, hden.2]
      simp [hD, hD']
    · have hDp : 0 < D := lt_of_le_of_ne hD0 (Ne.symm hD)
      have hDp' : 0 < D' := lt_of_lt_of_le (mul_pos hLp hDp) hden.1
      rw [if_neg hD, if_neg hDp'.ne']
      have hN'0 : 0 ≤ N' := le_trans (mul_nonneg hLp.le hN0) hnum.1
      obtain ⟨q1, q2⟩ := hrel (N' / D') (div_nonneg hN'0 hDp'.le)
      have r1 : L * (N / D) ≤ U * (N' / D') := by
        rw [← mul_div_assoc, ← mul_div_assoc, div_le_div_iff₀ hDp hDp']
        calc L * N * D' ≤ L * N * (U * D) := mul_le_mul_of_nonneg_left hden.2 (by positivity)
          _ = (L * N) * (U * D) := rfl
          _ ≤ N' * (U * D) := mul_le_mul_of_nonneg_right hnum.1 (by positivity)
          _ = U * N' * D := by ring
      have r2 : L * (N' / D') ≤ U * (N / D) := by
        rw [← mul_div_assoc, ← mul_div_assoc, div_le_div_iff₀ hDp' hDp]
        calc L * N' * D ≤ L * (U * N) * D := by gcongr; exact hnum.2
          _ = (U * N) * (L * D) := by ring
          _ ≤ (U * N) * D' := mul_le_mul_of_nonneg_left hden.1 (by positivity)
      have eL : (1 - u) ^ (m + 3) = (1 - u) * L := by rw [hL]; ring
      have eU : (1 + u) ^ (m + 3) = (1 + u) * U := by rw [hU]; ring
      rw [eL, eU]
      constructor
      · calc (1 - u) * L * (N / D) = (1 - u) * (L * (N / D)) := by ring
          _ ≤ (1 - u) * (U * (N' / D')) := mul_le_mul_of_nonneg_left r1 hul.le
          _ = U * ((1 - u) * (N' / D')) := by ring
          _ ≤ _ := mul_le_mul_of_nonneg_left q1 hUp.le
      · calc L * rnd (N' / D') ≤ L * ((1 + u) * (N' / D')) := mul_le_mul_of_nonneg_left q2 hLp.le
          _ = (1 + u) * (L * (N' / D')) := by ring
          _ ≤ (1 + u) * (U * (N / D)) := mul_le_mul_of_nonneg_left r2 huu.le
          _ = _ := by ring

/-- **C85**: rounding neither removes nor adds an edge of the DRG graph: there is one from A to
B exactly when some reaction with a non-zero net rate changes A and involves B. -/
theorem C85_drg_edges (hr : RndOk rnd) {u : ℚ} (hu0 : 0 ≤ u) (hu1 : u < 1)
    (hodd : ∀ x, rnd (-x) = -rnd x)
    (hrel : ∀ x, 0 ≤ x → (1 - u) * x ≤ rnd x ∧ rnd x ≤ (1 + u) * x) (c : Chem n m) (a b : Fin n)
    (hab : a ≠ b) :
    drgMatrixR rnd c a b ≠ 0 ↔
      ∃ r, c.rop r ≠ 0 ∧ c.prod a r ≠ c.reac a r ∧ (c.prod b r ≠ 0 ∨ c.reac b r ≠ 0) := by
  rw [← C06_drg_edge_iff c a b hab, (C06_drg_formula c a b).1 hab, not_iff_not]
  obtain ⟨h1, h2⟩ := C85_drg_accuracy hr hu0 hu1 hodd hrel c a b hab
  have hul : 0 < 1 - u := by linarith
  have huu : 0 < 1 + u := by linarith
  have hp : 0 ≤ Spec.drg c a b := by
    rw [← (C06_drg_formula c a b).1 hab]; exact (C06_drg_range c a b).1
  have hp' := (C84_drg_range hr c a b).1
  constructor
  · intro h
    rw [h, mul_zero] at h1
    by_contra hne
    have : 0 < (1 - u) ^ (m + 3) * Spec.drg c a b :=
      mul_pos (by positivity) (lt_of_le_of_ne hp (Ne.symm hne))
    linarith
  · intro h
    rw [h, mul_zero] at h2
    by_contra hne
    have : 0 < (1 - u) ^ (m + 2) * drgMatrixR rnd c a b :=
      mul_pos (by positivity) (lt_of_le_of_ne hp' (Ne.symm hne))
    linarith

theorem sumOverR_scale {k : ℚ} (hk : ∀ x, rnd (k * x) = k * rnd x) (l : List (Fin m)) (f : Fin m → ℚ) :
    sumOverR rnd l (fun r => k * f r) = k * sumOverR rnd l f := by
  have : ∀ s : ℚ, l.foldl (fun s r => rnd (s + k * f r)) (k * s) =
      k * l.foldl (fun s r => rnd (s + f r)) s := by
    induction l with
    | nil => intro s; rfl
    | cons r l ih => intro s; rw [List.foldl_cons, List.foldl_cons, ← ih, ← hk, mul_add]
  have := this 0
  rwa [mul_zero] at this

theorem valid_scale (c : Chem n m) {k : ℚ} (hk : k ≠ 0) :
    ({ c with rop := fun r => k * c.rop r } : Chem n m).valid = c.valid ∧
    ∀ b, ({ c with rop := fun r => k * c.rop r } : Chem n m).validWith b = c.validWith b := by
  have : ({ c with rop := fun r => k * c.rop r } : Chem n m).valid = c.valid := by
    unfold Chem.valid
    congr 1
    funext r
    rw [Bool.eq_iff_iff]
    simp [hk]
  refine ⟨this, fun b => ?_⟩
  unfold Chem.validWith
  rw [this]
  rfl

theorem baseR_scale {k : ℚ} (hk : ∀ x, rnd (k * x) = k * rnd x) (c : Chem n m) (a : Fin n) (r : Fin m) :
    baseR rnd { c with rop := fun r => k * c.rop r } a r = k * baseR rnd c a r := by
  unfold baseR
  dsimp only
  rw [← hk]
  congr 1
  ring

theorem whereDivR_scale {k : ℚ} (hk : k ≠ 0) (num num' : Mat n) (den den' : Fin n → ℚ)
    (hn : ∀ a b, num' a b = k * num a b) (hd : ∀ a, den' a = k * den a) :
    whereDivR rnd num' den' = whereDivR rnd num den := by
  funext a b
  unfold whereDivR
  rw [hn, hd, mul_div_mul_left _ _ hk]
  simp [hk]

/-- **C85**: scaling all rates of progress by a factor that rounding respects (a power of two
in binary64) changes nothing, not even in rounded arithmetic. -/
theorem C85_scale {k : ℚ} (hk0 : 0 < k) (hk : ∀ x, rnd (k * x) = k * rnd x) (c : Chem n m) :
    drgMatrixR rnd { c with rop := fun r => k * c.rop r } = drgMatrixR rnd c ∧
    drgepMatrixR rnd { c with rop := fun r => k * c.rop r } = drgepMatrixR rnd c ∧
    pfaMatrixR rnd { c with rop := fun r => k * c.rop r } = pfaMatrixR rnd c := by
  obtain ⟨v1, v2⟩ := valid_scale c hk0.ne'
  have habs : ∀ x : ℚ, |k * x| = k * |x| := fun x => by rw [abs_mul, abs_of_pos hk0]
  have hm1 : ∀ x : ℚ, max 0 (k * x) = k * max 0 x := fun x => by
    rw [mul_max_of_nonneg _ _ hk0.le, mul_zero]
  have hm2 : ∀ x : ℚ, max (k * x) 0 = k * max x 0 := fun x => by
    rw [mul_max_of_nonneg _ _ hk0.le, mul_zero]
  have hmm : ∀ x y : ℚ, max (k * x) (k * y) = k * max x y := fun x y =>
    (mul_max_of_nonneg _ _ hk0.le).symm
  have hneg : ∀ x : ℚ, -(k * x) = k * -x := fun x => by ring
  have hz : ∀ x : ℚ, 0 + k * x = k * (0 + x) := fun x => by ring
  refine ⟨?_, ?_, ?_⟩
  · unfold drgMatrixR
    rw [v1]
    by_cases hv : c.valid.isEmpty = true
    · rw [if_pos hv, if_pos hv]
    · rw [if_neg hv, if_neg hv]
      dsimp only
      congr 1
      apply whereDivR_scale hk0.ne'
      · intro a b
        simp only [baseR_scale hk, habs, sumOverR_scale hk, v2, hz, hk]
      · intro a
        simp only [baseR_scale hk, habs, sumOverR_scale hk]
  · unfold drgepMatrixR
    rw [v1]
    by_cases hv : c.valid.isEmpty = true
    · rw [if_pos hv, if_pos hv]
    · rw [if_neg hv, if_neg hv]
      dsimp only
      congr 1
      apply whereDivR_scale hk0.ne'
      · intro a b
        have : baseR rnd { c with rop := fun r => k * c.rop r } a = fun r => k * baseR rnd c a r :=
          funext (baseR_scale hk c a)
        simp only [this, sumOverR_scale hk, v2, hz, hk, habs]
      · intro a
        simp only [baseR_scale hk, hneg, hm1, sumOverR_scale hk, hmm]
  · unfold pfaMatrixR
    rw [v1]
    by_cases hv : c.valid.isEmpty = true
    · rw [if_pos hv, if_pos hv]
    · rw [if_neg hv, if_neg hv]
      dsimp only
      congr 1
      simp only [baseR_scale hk, hneg, hm2, sumOverR_scale hk, hmm, v2, hz, hk]
      have e : ∀ (N : Mat n) (D : Fin n → ℚ),
          whereDivR rnd (fun a b => k * N a b) (fun a => k * D a) = whereDivR rnd N D := fun N D =>
        whereDivR_scale hk0.ne' _ _ _ _ (fun _ _ => rfl) (fun _ => rfl)
      simp only [e]

/-- **C85** in binary64: the accuracy bound with unit roundoff `2^-53`, the same edges as in
exact arithmetic, and invariance under scaling by powers of two. -/
theorem C85_binary64 (c : Chem n m) (a b : Fin n) (hab : a ≠ b) (j : Int) :
    ((1 - 1 / 2 ^ 53) ^ (m + 3) * Spec.drg c a b ≤ (1 + 1 / 2 ^ 53) ^ (m + 2) * drgMatrixR rnd64 c a b ∧
      (1 - 1 / 2 ^ 53) ^ (m + 2) * drgMatrixR rnd64 c a b ≤ (1 + 1 / 2 ^ 53) ^ (m + 3) * Spec.drg c a b) ∧
    (drgMatrixR rnd64 c a b ≠ 0 ↔
      ∃ r, c.rop r ≠ 0 ∧ c.prod a r ≠ c.reac a r ∧ (c.prod b r ≠ 0 ∨ c.reac b r ≠ 0)) ∧
    drgepMatrixR rnd64 { c with rop := fun r => 2 ^ j * c.rop r } = drgepMatrixR rnd64 c := by
  obtain ⟨h1, h2, h3⟩ := rnd64_usable
  exact ⟨C85_drg_accuracy h1 (by norm_num) (by norm_num) h2 h3 c a b hab,
    C85_drg_edges h1 (by norm_num) (by norm_num) h2 h3 c a b hab,
    (C85_scale (by positivity) (rnd64_zpow j) c).2.1⟩

example : drgMatrixR rnd64 exChem 1 0 ≠ drgMatrix exChem 1 0 ∧ drgMatrixR rnd64 exChem 1 0 ≠ 0 ∧
    drgMatrixR rnd64 exChem 1 2 ≠ 0 ∧ drgMatrixR rnd64 exChem 2 0 = 0 := by decide +kernel

end Verif
