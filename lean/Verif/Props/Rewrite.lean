import Verif.Lemmas.Rewrite
import Verif.Props.Matrix
import Verif.Props.Published
import Verif.Props.ReduceCases
/-!
# C127: how the reactions are written down does not matter
-/
namespace Verif
open Spec Finset

/-- **C127** (parts): two descriptions of the same chemistry, in which each reaction of the one is cut
into parts that proceed in its direction, have the same coefficients in all three methods. -/
theorem C127_parts_partial {n m m' : Nat} {c : Chem n m} {c' : Chem n m'} {of : Fin m' → Fin m}
    {part : Fin m' → ℚ} (h : Rewritten c c' of part) (A B : Fin n) :
    drgMatrix c' A B = drgMatrix c A B ∧ drgepMatrix c' A B = drgepMatrix c A B ∧
      pfaMatrix c' A B = pfaMatrix c A B := by
  rw [drgMatrix_eq, drgMatrix_eq, drgepMatrix_eq, drgepMatrix_eq, pfaMatrix_eq, pfaMatrix_eq,
    h.drg, h.drgep, h.pfa]
  exact ⟨rfl, rfl, rfl⟩

/-- **C127** (direction): writing any of the reactions from right to left changes no bit of a computed
matrix, whatever the rounding. -/
theorem C127_turned_partial {n m : Nat} (c : Chem n m) (S : Fin m → Bool) {rnd : ℚ → ℚ}
    (hodd : ∀ x, rnd (-x) = -rnd x) (meth : Method) :
    matrixOf meth rnd (turned c S) = matrixOf meth rnd c := by
  have hb : baseR rnd (turned c S) = baseR rnd c := by
    funext a r
    unfold baseR turned
    dsimp only
    cases S r with
    | false => rfl
    | true =>
      simp only [if_true]
      rw [show c.reac a r - c.prod a r = -(c.prod a r - c.reac a r) by ring, hodd]
      rw [neg_mul_neg]
  have hv : (turned c S).valid = c.valid := by
    unfold Chem.valid turned
    apply List.filter_congr
    intro r _
    dsimp only
    cases S r with
    | false => rfl
    | true => rw [Bool.eq_iff_iff]; simp
  have hw : (turned c S).validWith = c.validWith := by
    funext b
    unfold Chem.validWith
    rw [hv]
    apply List.filter_congr
    intro r _
    unfold Chem.flag turned
    dsimp only
    cases S r with
    | false => rfl
    | true => simp only [if_true]; rw [Bool.or_comm]
  unfold matrixOf
  cases meth with
  | drg => dsimp only; unfold drgMatrixR; rw [hb, hv, hw]
  | drgep => dsimp only; unfold drgepMatrixR; rw [hb, hv, hw]
  | pfa => dsimp only; unfold pfaMatrixR; rw [hb, hv, hw]

/-- DRG coefficients of a species outside the pair -/
theorem drg_asPair {n m : Nat} (c : Chem n m) {r0 : Fin m} {f g : ℚ} (hf : 0 ≤ f) (hg : 0 ≤ g)
    (hq : c.rop r0 = f - g) {A B : Fin n} (hAB : A ≠ B) (hB : ¬ Involves c B r0) :
    drgMatrix (asPair c r0 f g) A B =
      if (∑ r, |rate c A r|) + 2 * (|c.prod A r0 - c.reac A r0| * min f g) = 0 then 0
      else (∑ r, if Involves c B r then |rate c A r| else 0) /
        ((∑ r, |rate c A r|) + 2 * (|c.prod A r0 - c.reac A r0| * min f g)) := by
  have hnum := asPair_sum c r0 f g (fun x => |x|) (fun r => Involves c B r)
    (fun r => Involves (asPair c r0 f g) B r) (asPair_involves c r0 f g B) (asPair_involves_last c r0 f g B) A
  rw [if_neg hB, add_zero] at hnum
  have hden := asPair_total c r0 f g (fun x => |x|) A
  have hx := pair_abs hf hg (c.prod A r0 - c.reac A r0)
  have hr : rate c A r0 = (c.prod A r0 - c.reac A r0) * (f - g) := by unfold rate; rw [hq]
  rw [hr, hx] at hden
  rw [(C06_drg_formula _ A B).1 hAB]
  unfold Spec.drg
  rw [hnum, hden]

/-- **C127** is false for DRG: a reversible reaction written as two irreversible ones lowers the
coefficient of every species `B` that is not in it, for every species `A` it changes. -/
theorem C127_pair_drg_refuted {n m : Nat} (c : Chem n m) {r0 : Fin m} {f g : ℚ} (hf : 0 < f) (hg : 0 < g)
    (hq : c.rop r0 = f - g) {A B : Fin n} (hA : c.prod A r0 ≠ c.reac A r0) (hB : ¬ Involves c B r0)
    (hne : drgMatrix c A B ≠ 0) : drgMatrix (asPair c r0 f g) A B < drgMatrix c A B := by
  have hAB : A ≠ B := by
    rintro rfl
    exact hne (C06_drg_formula c A A).2
  rw [drg_asPair c hf.le hg.le hq hAB hB]
  have hmin : 0 < |c.prod A r0 - c.reac A r0| * min f g :=
    mul_pos (abs_pos.2 (sub_ne_zero.2 hA)) (lt_min hf hg)
  rw [(C06_drg_formula c A B).1 hAB] at hne ⊢
  unfold Spec.drg at hne ⊢
  have h0 : 0 ≤ ∑ r, |rate c A r| := Finset.sum_nonneg (fun r _ => abs_nonneg _)
  have hN : 0 ≤ ∑ r, (if Involves c B r then |rate c A r| else 0) :=
    Finset.sum_nonneg (fun r _ => by split_ifs <;> simp)
  generalize (∑ r, |rate c A r|) = D at *
  generalize (∑ r, (if Involves c B r then |rate c A r| else 0)) = N at *
  by_cases hz : D = 0
  · rw [if_pos hz] at hne
    exact absurd rfl hne
  · rw [if_neg hz] at hne ⊢
    have hd : 0 < D := lt_of_le_of_ne h0 (Ne.symm hz)
    have hn : 0 < N := by
      apply lt_of_le_of_ne hN
      intro e
      rw [← e, zero_div] at hne
      exact hne rfl
    rw [if_neg (by linarith)]
    exact div_lt_div_of_pos_left hn hd (by linarith)

/-- **C127** is false for DRG without bound: the faster both directions proceed, the less `A` seems to
need `B`; the coefficient falls below every positive number. -/
theorem C127_pair_vanishes_refuted {n m : Nat} (c : Chem n m) {r0 : Fin m} {A B : Fin n} (hAB : A ≠ B)
    (hA : c.prod A r0 ≠ c.reac A r0) (hB : ¬ Involves c B r0) {ε : ℚ} (hε : 0 < ε) :
    ∃ f g, 0 < f ∧ 0 < g ∧ c.rop r0 = f - g ∧ drgMatrix (asPair c r0 f g) A B < ε := by
  have hvp : 0 < |c.prod A r0 - c.reac A r0| := abs_pos.2 (sub_ne_zero.2 hA)
  have h0 : 0 ≤ ∑ r, |rate c A r| := Finset.sum_nonneg (fun r _ => abs_nonneg _)
  have hN : 0 ≤ ∑ r, (if Involves c B r then |rate c A r| else 0) :=
    Finset.sum_nonneg (fun r _ => by split_ifs <;> simp)
  have key := fun (f g : ℚ) (hf : 0 ≤ f) (hg : 0 ≤ g) (hq : c.rop r0 = f - g) => drg_asPair c hf hg hq hAB hB
  generalize (∑ r, |rate c A r|) = D at *
  generalize (∑ r, (if Involves c B r then |rate c A r| else 0)) = N at *
  generalize |c.prod A r0 - c.reac A r0| = v at *
  obtain ⟨x, hxp, hx⟩ : ∃ x, 0 < x ∧ v * x * ε = N + 1 :=
    ⟨(N + 1) / (v * ε), by positivity, by field_simp⟩
  have hfx : x ≤ x + max (c.rop r0) 0 := by have := le_max_right (c.rop r0) 0; linarith
  have hgx : x ≤ x + max (-c.rop r0) 0 := by have := le_max_right (-c.rop r0) 0; linarith
  have hq : c.rop r0 = (x + max (c.rop r0) 0) - (x + max (-c.rop r0) 0) := by
    rcases le_total 0 (c.rop r0) with h | h
    · rw [max_eq_left h, max_eq_right (show -c.rop r0 ≤ 0 by linarith)]; ring
    · rw [max_eq_right h, max_eq_left (show 0 ≤ -c.rop r0 by linarith)]; ring
  refine ⟨_, _, hxp.trans_le hfx, hxp.trans_le hgx, hq, ?_⟩
  rw [key _ _ (hxp.le.trans hfx) (hxp.le.trans hgx) hq]
  have hm : x ≤ min (x + max (c.rop r0) 0) (x + max (-c.rop r0) 0) := le_min hfx hgx
  generalize min (x + max (c.rop r0) 0) (x + max (-c.rop r0) 0) = y at hm
  have hvy : v * x ≤ v * y := mul_le_mul_of_nonneg_left hm hvp.le
  have hvx : 0 < v * x := mul_pos hvp hxp
  have hpos : 0 < D + 2 * (v * y) := by linarith
  rw [if_neg (ne_of_gt hpos), div_lt_iff₀ hpos]
  have h1 : v * x * ε ≤ v * y * ε := mul_le_mul_of_nonneg_right hvy hε.le
  have h2 : 0 ≤ D * ε := mul_nonneg h0 hε.le
  linarith

/-- **C127** is false for DRGEP: a reversible reaction written as two irreversible ones lowers every
coefficient of every species it changes. -/
theorem C127_pair_drgep_refuted {n m : Nat} (c : Chem n m) {r0 : Fin m} {f g : ℚ} (hf : 0 < f) (hg : 0 < g)
    (hq : c.rop r0 = f - g) {A B : Fin n} (hA : c.prod A r0 ≠ c.reac A r0)
    (hne : drgepMatrix c A B ≠ 0) : drgepMatrix (asPair c r0 f g) A B < drgepMatrix c A B := by
  have hAB : A ≠ B := by
    rintro rfl
    exact hne (C07_drgep_formula c A A).2
  have hnum := asPair_sum c r0 f g (fun x => x) (fun r => Involves c B r)
    (fun r => Involves (asPair c r0 f g) B r) (asPair_involves c r0 f g B) (asPair_involves_last c r0 f g B) A
  have hr : rate c A r0 = (c.prod A r0 - c.reac A r0) * (f - g) := by unfold rate; rw [hq]
  rw [hr, show (c.prod A r0 - c.reac A r0) * f + -((c.prod A r0 - c.reac A r0) * g) -
    (c.prod A r0 - c.reac A r0) * (f - g) = 0 by ring, ite_self, add_zero] at hnum
  have hmin : 0 < |c.prod A r0 - c.reac A r0| * min f g :=
    mul_pos (abs_pos.2 (sub_ne_zero.2 hA)) (lt_min hf hg)
  rw [(C07_drgep_formula c A B).1 hAB] at hne ⊢
  rw [(C07_drgep_formula _ A B).1 hAB]
  unfold Spec.drgep at hne ⊢
  rw [hnum, asPair_P hf.le hg.le hq, asPair_C hf.le hg.le hq, max_add_add_right]
  have h0 : 0 ≤ max (Spec.P c A) (Spec.C c A) :=
    le_max_of_le_left (Finset.sum_nonneg (fun r _ => le_max_right _ _))
  by_cases hz : max (Spec.P c A) (Spec.C c A) = 0
  · rw [if_pos hz] at hne
    exact absurd rfl hne
  · rw [if_neg hz] at hne ⊢
    have hd : 0 < max (Spec.P c A) (Spec.C c A) := lt_of_le_of_ne h0 (Ne.symm hz)
    rw [if_neg (by linarith)]
    have hn : 0 < |∑ r, (if Involves c B r then rate c A r else 0)| := by
      rw [abs_pos]
      intro e
      rw [e, abs_zero, zero_div] at hne
      exact hne rfl
    exact div_lt_div_of_pos_left hn hd (by linarith)

/-! ### examples -/

/-- `A ⇌ C` and `A ⇌ B`, net rates 1 and 1 -/
def rwChem : Chem 3 2 where
  prod := ![![0, 0], ![0, 1], ![1, 0]]
  reac := ![![1, 1], ![0, 0], ![0, 0]]
  rop := ![1, 1]

/-- the same with `A ⇌ C` written as two duplicates, one of them right to left, and `A ⇌ B` as
`2 A ⇌ 2 B` -/
def rwParts : Chem 3 3 where
  prod := ![![1, 0, 0], ![0, 2, 0], ![0, 0, 1]]
  reac := ![![0, 2, 1], ![0, 0, 0], ![1, 0, 0]]
  rop := ![-1/3, 1/2, 2/3]

/-- the hypotheses of `C127_parts_partial` are met -/
example : Rewritten rwChem rwParts ![0, 1, 0] ![1/3, 1, 2/3] where
  nonneg := by decide +kernel
  whole r _ := by
    revert r
    decide +kernel
  rates := by decide +kernel
  species B r' _ := by
    revert B r'
    unfold Involves
    decide +kernel

/-- the hypotheses of the refutations are met: `A ⇌ C` at rates 1000 and 999, `B` is not in it -/
example : (0 : ℚ) < 1000 ∧ (0 : ℚ) < 999 ∧ rwChem.rop 0 = 1000 - 999 ∧ rwChem.prod 0 0 ≠ rwChem.reac 0 0 ∧
    ¬ Involves rwChem 1 0 ∧ drgMatrix rwChem 0 1 = 1/2 ∧ drgepMatrix rwChem 0 1 = 1/2 ∧
    drgMatrix (asPair rwChem 0 1000 999) 0 1 = 1/2000 ∧
    drgepMatrix (asPair rwChem 0 1000 999) 0 1 = 1/1001 ∧
    pfaMatrix rwChem 0 1 = 1/2 ∧ pfaMatrix (asPair rwChem 0 1000 999) 0 1 = 1/1001 := by
  refine ⟨by norm_num, by norm_num, by decide +kernel, by decide +kernel, ?_, ?_⟩
  · unfold Involves; decide +kernel
  · decide +kernel

/-- **C127** is false for PFA without bound, if the reaction changes all its species: the faster both directions proceed, the less
a species in it seems to need any species that is not, directly or through another one. -/
theorem C127_pair_pfa_refuted {n m : Nat} (c : Chem n m) {r0 : Fin m} (hall : ∀ M, Involves c M r0 → c.prod M r0 ≠ c.reac M r0)
    {A B : Fin n} (hA : Involves c A r0) (hB : ¬ Involves c B r0) {ε : ℚ} (hε : 0 < ε) :
    ∃ f g, 0 < f ∧ 0 < g ∧ c.rop r0 = f - g ∧ pfaMatrix (asPair c r0 f g) A B < ε := by
  have hAB : A ≠ B := by rintro rfl; exact hB hA
  obtain ⟨δ, hδ, hδε⟩ : ∃ δ : ℚ, 0 < δ ∧ δ * (2 * n + 3) = ε :=
    ⟨ε / (2 * n + 3), by positivity, by field_simp⟩
  let v : Fin n → ℚ := fun M => |c.prod M r0 - c.reac M r0|
  have hv : ∀ M, Involves c M r0 → 0 < v M := fun M h => abs_pos.2 (sub_ne_zero.2 (hall M h))
  have hterm : ∀ M B', 0 ≤ (Spec.PAB c M B' + Spec.CAB c M B') / v M := fun M B' =>
    div_nonneg (add_nonneg (PAB_nonneg c M B') (CAB_nonneg c M B')) (abs_nonneg _)
  let S : ℚ := ∑ M, ∑ B', (Spec.PAB c M B' + Spec.CAB c M B') / v M
  have hS : ∀ M B', (Spec.PAB c M B' + Spec.CAB c M B') / v M ≤ S := fun M B' =>
    (Finset.single_le_sum (f := fun B' => (Spec.PAB c M B' + Spec.CAB c M B') / v M) (fun b _ => hterm M b)
      (Finset.mem_univ B')).trans
    (Finset.single_le_sum (f := fun M => ∑ B', (Spec.PAB c M B' + Spec.CAB c M B') / v M)
      (fun a _ => Finset.sum_nonneg fun b _ => hterm a b) (Finset.mem_univ M))
  have hS0 : 0 ≤ S := Finset.sum_nonneg fun a _ => Finset.sum_nonneg fun b _ => hterm a b
  obtain ⟨x, hxp, hx⟩ : ∃ x, 0 < x ∧ x * δ = S + 1 := ⟨(S + 1) / δ, by positivity, by field_simp⟩
  have hfx : x ≤ x + max (c.rop r0) 0 := by have := le_max_right (c.rop r0) 0; linarith
  have hgx : x ≤ x + max (-c.rop r0) 0 := by have := le_max_right (-c.rop r0) 0; linarith
  have hq : c.rop r0 = (x + max (c.rop r0) 0) - (x + max (-c.rop r0) 0) := by
    rcases le_total 0 (c.rop r0) with h | h
    · rw [max_eq_left h, max_eq_right (show -c.rop r0 ≤ 0 by linarith)]; ring
    · rw [max_eq_right h, max_eq_left (show 0 ≤ -c.rop r0 by linarith)]; ring
  refine ⟨_, _, hxp.trans_le hfx, hxp.trans_le hgx, hq, ?_⟩
  generalize x + max (c.rop r0) 0 = f at *
  generalize x + max (-c.rop r0) 0 = g at *
  have hP := asPair_P (hxp.le.trans hfx) (hxp.le.trans hgx) hq
  have hC := asPair_C (hxp.le.trans hfx) (hxp.le.trans hgx) hq
  have hm : x ≤ min f g := le_min hfx hgx
  have hPAB : ∀ M B', ¬ Involves c B' r0 → Spec.PAB (asPair c r0 f g) M B' = Spec.PAB c M B' := fun M B' hb => by
    have := asPair_sum c r0 f g (fun x => max x 0) (fun r => Involves c B' r)
      (fun r => Involves (asPair c r0 f g) B' r) (asPair_involves c r0 f g B') (asPair_involves_last c r0 f g B') M
    rw [if_neg hb, add_zero] at this
    exact this
  have hCAB : ∀ M B', ¬ Involves c B' r0 → Spec.CAB (asPair c r0 f g) M B' = Spec.CAB c M B' := fun M B' hb => by
    have := asPair_sum c r0 f g (fun x => max (-x) 0) (fun r => Involves c B' r)
      (fun r => Involves (asPair c r0 f g) B' r) (asPair_involves c r0 f g B') (asPair_involves_last c r0 f g B') M
    rw [if_neg hb, add_zero] at this
    exact this
  have hsmall : ∀ M B' y, Involves c M r0 → 0 ≤ y → y ≤ Spec.PAB c M B' + Spec.CAB c M B' →
      (if max (Spec.P (asPair c r0 f g) M) (Spec.C (asPair c r0 f g) M) = 0 then 0
        else y / max (Spec.P (asPair c r0 f g) M) (Spec.C (asPair c r0 f g) M)) ≤ δ := by
    intro M B' y hM hy0 hy
    have hvM := hv M hM
    have hd : v M * x ≤ max (Spec.P (asPair c r0 f g) M) (Spec.C (asPair c r0 f g) M) := by
      refine le_max_of_le_left ?_
      rw [hP M]
      have := mul_le_mul_of_nonneg_left hm hvM.le
      have := P_nonneg c M
      show v M * x ≤ _ + v M * _
      linarith
    have hpos : 0 < v M * x := mul_pos hvM hxp
    rw [if_neg (ne_of_gt (hpos.trans_le hd)), div_le_iff₀ (hpos.trans_le hd)]
    have h1 := hS M B'
    rw [div_le_iff₀ hvM] at h1
    have h2 : δ * (v M * x) = v M * (S + 1) := by rw [← hx]; ring
    have h3 := mul_le_mul_of_nonneg_left hd hδ.le
    have h4 : v M * (S + 1) = S * v M + v M := by ring
    linarith
  have hp : ∀ M B', Involves c M r0 → ¬ Involves c B' r0 → Spec.pro1 (asPair c r0 f g) M B' ≤ δ := fun M B' h h' => by
    unfold Spec.pro1
    rw [hPAB M B' h']
    exact hsmall M B' _ h (PAB_nonneg c M B') (by linarith [CAB_nonneg c M B'])
  have hc : ∀ M B', Involves c M r0 → ¬ Involves c B' r0 → Spec.con1 (asPair c r0 f g) M B' ≤ δ := fun M B' h h' => by
    unfold Spec.con1
    rw [hCAB M B' h']
    exact hsmall M B' _ h (CAB_nonneg c M B') (by linarith [PAB_nonneg c M B'])
  have hsum : ∀ (u : Fin n → Fin n → ℚ), (∀ a b, 0 ≤ u a b ∧ u a b ≤ 1) →
      (∀ M B', Involves c M r0 → ¬ Involves c B' r0 → u M B' ≤ δ) →
      (∑ M, if M = A ∨ M = B then 0 else u A M * u M B) ≤ n * δ := by
    intro u hu hud
    have : (n : ℚ) * δ = ∑ _M : Fin n, δ := by simp
    rw [this]
    refine Finset.sum_le_sum fun M _ => ?_
    split_ifs with h
    · exact hδ.le
    · by_cases hM : Involves c M r0
      · calc u A M * u M B ≤ 1 * u M B := mul_le_mul_of_nonneg_right (hu A M).2 (hu M B).1
          _ ≤ δ := by rw [one_mul]; exact hud M B hM hB
      · calc u A M * u M B ≤ u A M * 1 := mul_le_mul_of_nonneg_left (hu M B).2 (hu A M).1
          _ ≤ δ := by rw [mul_one]; exact hud A M hA hM
  rw [(C08_pfa_formula _ A B).1 hAB]
  unfold Spec.pfa
  have h1 := hp A B hA hB
  have h2 := hc A B hA hB
  have h3 := hsum _ (fun a b => pro1_range _ a b) hp
  have h4 := hsum _ (fun a b => con1_range _ a b) hc
  have h5 : δ * (2 * n + 3) = δ + δ + n * δ + n * δ + δ := by ring
  linarith

/-- in one such mechanism the pair takes the coefficient of `A` on `B` from 1/2 to 1/1001 -/
example : (∀ M, Involves rwChem M 0 → rwChem.prod M 0 ≠ rwChem.reac M 0) ∧ Involves rwChem 0 0 ∧ ¬ Involves rwChem 1 0 ∧
    pfaMatrix rwChem 0 1 = 1 / 2 ∧ pfaMatrix (asPair rwChem 0 1000 999) 0 1 = 1 / 1001 := by
  decide +kernel

end Verif
