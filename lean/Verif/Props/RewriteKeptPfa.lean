import Verif.Props.RewriteKept
import Verif.Props.Cost
/-!
# What PFA and DRGEP keep when a reversible reaction is written as two (C127)
-/
namespace Verif
open Spec

/-- fast in both directions, the pair makes every coefficient in PFA of a species inside on one outside small -/
theorem pfa_asPair_small {n m : Nat} (c : Chem n m) {r0 : Fin m} (hall : ∀ M, Involves c M r0 → c.prod M r0 ≠ c.reac M r0)
    {ε : ℚ} (hε : 0 < ε) :
    ∃ X : ℚ, ∀ f g, X ≤ f → X ≤ g → c.rop r0 = f - g → ∀ A B, Involves c A r0 → ¬ Involves c B r0 →
      pfaMatrix (asPair c r0 f g) A B < ε := by
  obtain ⟨δ, hδ, hδε⟩ : ∃ δ : ℚ, 0 < δ ∧ δ * (2 * n + 3) = ε :=
    ⟨ε / (2 * n + 3), by positivity, by field_simp⟩
  let v : Fin n → ℚ := fun M => |c.prod M r0 - c.reac M r0|
  have hv : ∀ M, Involves c M r0 → 0 < v M := fun M h => abs_pos.2 (sub_ne_zero.2 (hall M h))
  have hterm : ∀ M B', 0 ≤ (Spec.PAB c M B' + Spec.CAB c M B') / v M := fun M B' =>
    div_nonneg (add_nonneg (PAB_nonneg c M B') (CAB_nonneg c M B')) (abs_nonneg _)
  let S : ℚ := ∑ M, ∑ B', (Spec.PAB c M B' + Spec.CAB c M B') / v M
  have hS : ∀ M B', (Spec.PAB c M B' + Spec.CAB c M B') / v M ≤ S := fun M B' =>
    (Finset.single_le_sum (f := fun B' => (Spec.PAB c M B' + Spec.CAB c M B') / v M) (fun b _ => hterm M b)
      (Finset.mem_univ B')).trans
    (Finset.single_le_sum (f := fun M => ∑ B', (Spec.PAB c M B' + Spec.CAB c M B') / v M)
      (fun a _ => Finset.sum_nonneg fun b _ => hterm a b) (Finset.mem_univ M))
  have hS0 : 0 ≤ S := Finset.sum_nonneg fun a _ => Finset.sum_nonneg fun b _ => hterm a b
  obtain ⟨x, hxp, hx⟩ : ∃ x, 0 < x ∧ x * δ = S + 1 := ⟨(S + 1) / δ, by positivity, by field_simp⟩
  refine ⟨x, fun f g hfx hgx hq A B hA hB => ?_⟩
  have hAB : A ≠ B := by rintro rfl; exact hB hA
  have hP := asPair_P (hxp.le.trans hfx) (hxp.le.trans hgx) hq
  have hC := asPair_C (hxp.le.trans hfx) (hxp.le.trans hgx) hq
  have hm : x ≤ min f g := le_min hfx hgx
  have hPAB : ∀ M B', ¬ Involves c B' r0 → Spec.PAB (asPair c r0 f g) M B' = Spec.PAB c M B' := fun M B' hb => by
    have := asPair_sum c r0 f g (fun x => max x 0) (fun r => Involves c B' r)
      (fun r => Involves (asPair c r0 f g) B' r) (asPair_involves c r0 f g B') (asPair_involves_last c r0 f g B') M
    rw [if_neg hb, add_zero] at this
    exact this
  have hCAB : ∀ M B', ¬ Involves c B' r0 → Spec.CAB (asPair c r0 f g) M B' = Spec.CAB c M B' := fun M B' hb => by
    have := asPair_sum c r0 f g (fun x => max (-x) 0) (fun r => Involves c B' r)
      (fun r => Involves (asPair c r0 f g) B' r) (asPair_involves c r0 f g B') (asPair_involves_last c r0 f g B') M
    rw [if_neg hb, add_zero] at this
    exact this
  have hsmall : ∀ M B' y, Involves c M r0 → 0 ≤ y → y ≤ Spec.PAB c M B' + Spec.CAB c M B' →
      (if max (Spec.P (asPair c r0 f g) M) (Spec.C (asPair c r0 f g) M) = 0 then 0
        else y / max (Spec.P (asPair c r0 f g) M) (Spec.C (asPair c r0 f g) M)) ≤ δ := by
    intro M B' y hM hy0 hy
    have hvM := hv M hM
    have hd : v M * x ≤ max (Spec.P (asPair c r0 f g) M) (Spec.C (asPair c r0 f g) M) := by
      refine le_max_of_le_left ?_
      rw [hP M]
      have := mul_le_mul_of_nonneg_left hm hvM.le
      have := P_nonneg c M
      show v M * x ≤ _ + v M * _
      linarith
    have hpos : 0 < v M * x := mul_pos hvM hxp
    rw [if_neg (ne_of_gt (hpos.trans_le hd)), div_le_iff₀ (hpos.trans_le hd)]
    have h1 := hS M B'
    rw [div_le_iff₀ hvM] at h1
    have h2 : δ * (v M * x) = v M * (S + 1) := by rw [← hx]; ring
    have h3 := mul_le_mul_of_nonneg_left hd hδ.le
    have h4 : v M * (S + 1) = S * v M + v M := by ring
    linarith
  have hp : ∀ M B', Involves c M r0 → ¬ Involves c B' r0 → Spec.pro1 (asPair c r0 f g) M B' ≤ δ := fun M B' h h' => by
    unfold Spec.pro1
    rw [hPAB M B' h']
    exact hsmall M B' _ h (PAB_nonneg c M B') (by linarith [CAB_nonneg c M B'])
  have hc : ∀ M B', Involves c M r0 → ¬ Involves c B' r0 → Spec.con1 (asPair c r0 f g) M B' ≤ δ := fun M B' h h' => by
    unfold Spec.con1
    rw [hCAB M B' h']
    exact hsmall M B' _ h (CAB_nonneg c M B') (by linarith [PAB_nonneg c M B'])
  have hsum : ∀ (u : Fin n → Fin n → ℚ), (∀ a b, 0 ≤ u a b ∧ u a b ≤ 1) →
      (∀ M B', Involves c M r0 → ¬ Involves c B' r0 → u M B' ≤ δ) →
      (∑ M, if M = A ∨ M = B then 0 else u A M * u M B) ≤ n * δ := by
    intro u hu hud
    have : (n : ℚ) * δ = ∑ _M : Fin n, δ := by simp
    rw [this]
    refine Finset.sum_le_sum fun M _ => ?_
    split_ifs with h
    · exact hδ.le
    · by_cases hM : Involves c M r0
      · calc u A M * u M B ≤ 1 * u M B := mul_le_mul_of_nonneg_right (hu A M).2 (hu M B).1
          _ ≤ δ := by rw [one_mul]; exact hud M B hM hB
      · calc u A M * u M B ≤ u A M * 1 := mul_le_mul_of_nonneg_left (hu M B).2 (hu A M).1
          _ ≤ δ := by rw [mul_one]; exact hud A M hA hM
  rw [(C08_pfa_formula _ A B).1 hAB]
  unfold Spec.pfa
  have h1 := hp A B hA hB
  have h2 := hc A B hA hB
  have h3 := hsum _ (fun a b => pro1_range _ a b) hp
  have h4 := hsum _ (fun a b => con1_range _ a b) hc
  have h5 : δ * (2 * n + 3) = δ + δ + n * δ + n * δ + δ := by ring
  linarith

/-- **C127** is false of what PFA keeps, in the same way as for DRG (`C127_pair_kept_refuted`). -/
theorem C127_pair_kept_pfa_refuted {names targets : List String} {m : Nat} {states : List (Chem names.length m)} {r0 : Fin m}
    (hn : names.Nodup) {S : Fin names.length → Prop} (hS : ∀ c ∈ states, ∀ A, Involves c A r0 ↔ S A)
    (hall : ∀ c ∈ states, ∀ A, S A → c.prod A r0 ≠ c.reac A r0) (ht : ∀ t ∈ targets, ∃ i, names[i] = t ∧ S i)
    {thr : ℚ} (hthr : 0 < thr) :
    ∃ X : ℚ, ∀ f g : Chem names.length m → ℚ, (∀ c ∈ states, X ≤ f c ∧ X ≤ g c ∧ c.rop r0 = f c - g c) →
      ∃ l, retained (states.map fun c => matrixOf .pfa id (asPair c r0 (f c) (g c))) names targets thr = .ok l ∧
        ∀ s ∈ l, ∃ i, names[i] = s ∧ S i := by
  obtain ⟨X, hX⟩ : ∃ X : ℚ, ∀ c ∈ states, ∀ f g, X ≤ f → X ≤ g → c.rop r0 = f - g → ∀ A B,
      Involves c A r0 → ¬ Involves c B r0 → pfaMatrix (asPair c r0 f g) A B < thr := by
    have hall' : ∀ c ∈ states, ∀ M, Involves c M r0 → c.prod M r0 ≠ c.reac M r0 := fun c hc M hM =>
      hall c hc M ((hS c hc M).1 hM)
    clear hS hall
    induction states with
    | nil => exact ⟨0, by simp⟩
    | cons c cs ih =>
      obtain ⟨X, hX⟩ := ih (fun c' hc' => hall' c' (List.mem_cons_of_mem _ hc'))
      obtain ⟨Y, hY⟩ := pfa_asPair_small c (hall' c (List.mem_cons_self ..)) hthr
      refine ⟨max X Y, fun c' hc' f g hf hg => ?_⟩
      rcases List.mem_cons.1 hc' with rfl | hc'
      · exact hY f g ((le_max_right _ _).trans hf) ((le_max_right _ _).trans hg)
      · exact hX c' hc' f g ((le_max_left _ _).trans hf) ((le_max_left _ _).trans hg)
  refine ⟨X, fun f g hfg => ?_⟩
  obtain ⟨l, h1, -, h2⟩ := retained_spec thr hn (fun t h => by
    obtain ⟨i, rfl, -⟩ := ht t h
    exact List.getElem_mem _) (states.map fun c => matrixOf .pfa id (asPair c r0 (f c) (g c)))
  refine ⟨l, h1, fun s hs => ?_⟩
  obtain ⟨M, hM, t, htt, hp⟩ := (h2 s).1 hs
  obtain ⟨c, hc, rfl⟩ := List.mem_map.1 hM
  obtain ⟨f1, f2, f3⟩ := hfg c hc
  induction hp with
  | refl => exact ht t htt
  | @tail a b _ hab ih =>
    obtain ⟨i, hi, hSi⟩ := ih ((h2 a).2 ⟨_, hM, t, htt, by assumption⟩)
    obtain ⟨x, y, hx, hy, hle, -⟩ := hab
    obtain ⟨hy1, hy2⟩ := List.getElem?_eq_some_iff.1 hy
    obtain ⟨hx1, hx2⟩ := List.getElem?_eq_some_iff.1 hx
    refine ⟨⟨y, hy1⟩, hy2, ?_⟩
    by_contra hSy
    have hxi : x = i.1 := (List.Nodup.getElem_inj_iff hn).1 (hx2.trans hi.symm)
    subst hxi
    have hm : matrixOf .pfa id (asPair c r0 (f c) (g c)) i.1 y = pfaMatrix (asPair c r0 (f c) (g c)) i ⟨y, hy1⟩ := by
      show (pfaMatrixR id _).toN i.1 y = _
      rw [(matrices_id _).2.2]
      simp [Mat.toN, hy1]
    rw [hm] at hle
    have := hX c hc _ _ f1 f2 f3 i ⟨y, hy1⟩ ((hS c hc _).2 hSi) (fun h => hSy ((hS c hc _).1 h))
    linarith

/-- half of what `A` does is done with `B`, and at a threshold of one tenth PFA keeps `B`; written as two, it does not -/
example : retained [matrixOf .pfa id rwChem] ["A", "B", "C"] ["A"] (1 / 10) = .ok ["A", "B", "C"] ∧
    retained [matrixOf .pfa id (asPair rwChem 0 1000 999)] ["A", "B", "C"] ["A"] (1 / 10) = .ok ["A", "C"] := by
  decide +kernel

/-- the hypotheses of the theorem are met by it: `A` and `C` are in the reaction -/
example : ∃ X : ℚ, ∀ f g : Chem 3 2 → ℚ, (∀ c ∈ [rwChem], X ≤ f c ∧ X ≤ g c ∧ c.rop 0 = f c - g c) →
    ∃ l, retained ([rwChem].map fun c => matrixOf .pfa id (asPair c 0 (f c) (g c))) ["A", "B", "C"] ["A"] (1 / 10) = .ok l ∧
      "B" ∉ l := by
  obtain ⟨X, hX⟩ := C127_pair_kept_pfa_refuted (names := ["A", "B", "C"]) (targets := ["A"]) (states := [rwChem]) (r0 := 0)
    (by decide) (S := fun i => i ≠ (1 : Fin 3)) (by
      intro c hc A
      obtain rfl := List.mem_singleton.1 hc
      revert A
      unfold Involves
      decide +kernel) (by
      intro c hc A hA
      obtain rfl := List.mem_singleton.1 hc
      revert A
      decide +kernel) (by
      intro t ht
      obtain rfl := List.mem_singleton.1 ht
      exact ⟨0, rfl, by decide⟩) (thr := 1 / 10) (by norm_num)
  refine ⟨X, fun f g h => ?_⟩
  obtain ⟨l, h1, h2⟩ := hX f g h
  refine ⟨l, h1, fun hB => ?_⟩
  obtain ⟨i, hi, hne⟩ := h2 "B" hB
  revert i
  decide

/-! ### DRGEP -/

/-- fast in both directions, the pair makes every coefficient in DRGEP of a species it changes small -/
theorem drgep_asPair_small {n m : Nat} (c : Chem n m) (r0 : Fin m) {ε : ℚ} (hε : 0 < ε) :
    ∃ X : ℚ, ∀ f g, X ≤ f → X ≤ g → c.rop r0 = f - g → ∀ A B, c.prod A r0 ≠ c.reac A r0 →
      drgepMatrix (asPair c r0 f g) A B < ε := by
  let D : Fin n → ℚ := fun A => ∑ r, |rate c A r|
  let v : Fin n → ℚ := fun A => |c.prod A r0 - c.reac A r0|
  have hD : ∀ A, 0 ≤ D A := fun A => Finset.sum_nonneg (fun r _ => abs_nonneg _)
  have hv : ∀ A, 0 ≤ v A := fun A => abs_nonneg _
  have hterm : ∀ A, 0 ≤ D A / (v A * ε) := fun A => div_nonneg (hD A) (mul_nonneg (hv A) hε.le)
  refine ⟨1 + ∑ A, D A / (v A * ε), fun f g hf hg hq A B hA => ?_⟩
  have hX : 0 ≤ ∑ A, D A / (v A * ε) := Finset.sum_nonneg (fun A _ => hterm A)
  have hXA : D A / (v A * ε) ≤ ∑ A, D A / (v A * ε) := Finset.single_le_sum (fun A _ => hterm A) (Finset.mem_univ A)
  have hvA : 0 < v A := abs_pos.2 (sub_ne_zero.2 hA)
  by_cases hAB : A = B
  · subst hAB
    rw [(C07_drgep_formula _ A A).2]
    exact hε
  have hnum := asPair_sum c r0 f g (fun x => x) (fun r => Involves c B r)
    (fun r => Involves (asPair c r0 f g) B r) (asPair_involves c r0 f g B) (asPair_involves_last c r0 f g B) A
  have hr : rate c A r0 = (c.prod A r0 - c.reac A r0) * (f - g) := by unfold rate; rw [hq]
  rw [hr, show (c.prod A r0 - c.reac A r0) * f + -((c.prod A r0 - c.reac A r0) * g) -
    (c.prod A r0 - c.reac A r0) * (f - g) = 0 by ring, ite_self, add_zero] at hnum
  have hf0 : 0 ≤ f := by linarith
  have hg0 : 0 ≤ g := by linarith
  rw [(C07_drgep_formula _ A B).1 hAB]
  unfold Spec.drgep
  rw [hnum, asPair_P hf0 hg0 hq, asPair_C hf0 hg0 hq, max_add_add_right]
  have h0 : 0 ≤ max (Spec.P c A) (Spec.C c A) :=
    le_max_of_le_left (Finset.sum_nonneg (fun r _ => le_max_right _ _))
  have hN : |∑ r, (if Involves c B r then rate c A r else 0)| ≤ D A :=
    (Finset.abs_sum_le_sum_abs _ _).trans (Finset.sum_le_sum (fun r _ => by split_ifs <;> simp))
  have hmin : 1 + D A / (v A * ε) ≤ min f g := le_min (by linarith) (by linarith)
  generalize max (Spec.P c A) (Spec.C c A) = d at h0 ⊢
  generalize |∑ r, (if Involves c B r then rate c A r else 0)| = N at hN ⊢
  change (if d + v A * min f g = 0 then 0 else N / (d + v A * min f g)) < ε
  have hpos : 0 < d + v A * min f g := by
    have : 0 < v A * min f g := mul_pos hvA (by linarith [hterm A])
    linarith
  rw [if_neg (ne_of_gt hpos), div_lt_iff₀ hpos]
  have h1 : v A * ε * (1 + D A / (v A * ε)) ≤ v A * ε * min f g :=
    mul_le_mul_of_nonneg_left hmin (mul_nonneg hvA.le hε.le)
  have h2 : v A * ε * (1 + D A / (v A * ε)) = v A * ε + D A := by field_simp
  have h3 : 0 < v A * ε := mul_pos hvA hε
  have h4 : 0 ≤ ε * d := mul_nonneg hε.le h0
  nlinarith

/-- a path whose first coefficient is small has a small product -/
theorem pathProduct_small {M : NMat} {names : List String} (hM : UnitMatrix M names.length) {t s : String} {y thr : ℚ}
    (ht : ∀ i j, names[i]? = some t → j < names.length → M i j < thr) (h : PathProduct id M names t y s) :
    0 ≤ y ∧ y ≤ 1 ∧ (s = t ∨ y < thr) := by
  induction h with
  | nil => exact ⟨zero_le_one, le_rfl, .inl rfl⟩
  | @step b c x i j _ hi hj _ ih =>
    obtain ⟨h0, h1, h2⟩ := ih
    obtain ⟨hi', -⟩ := List.getElem?_eq_some_iff.1 hi
    obtain ⟨hj', -⟩ := List.getElem?_eq_some_iff.1 hj
    obtain ⟨m0, m1⟩ := hM i hi' j hj'
    refine ⟨mul_nonneg h0 m0, mul_le_one₀ h1 m0 m1, .inr ?_⟩
    show x * M i j < thr
    rcases h2 with rfl | h2
    · exact lt_of_le_of_lt (mul_le_of_le_one_left m0 h1) (ht i j hi hj')
    · exact lt_of_le_of_lt (mul_le_of_le_one_right h0 m1) h2

/-- **C127** is false of what DRGEP keeps: if one reversible reaction changes all targets then, written as two irreversible
ones and fast enough in both directions in every sampled state, it brings the importance of every other species
below any positive threshold, so that all of them may go. -/
theorem C127_pair_kept_drgep_refuted {names targets : List String} {m : Nat} {states : List (Chem names.length m)} {r0 : Fin m}
    (hn : names.Nodup) (ht : ∀ t ∈ targets, ∃ i, names[i] = t ∧ ∀ c ∈ states, c.prod i r0 ≠ c.reac i r0)
    {thr : ℚ} (hthr : 0 < thr) :
    ∃ X : ℚ, ∀ f g : Chem names.length m → ℚ, (∀ c ∈ states, X ≤ f c ∧ X ≤ g c ∧ c.rop r0 = f c - g c) →
      ∃ imp N, (∀ fuel ≥ N, getImportanceCoeffs id names targets
        (states.map fun c => matrixOf .drgep id (asPair c r0 (f c) (g c))) fuel = .ok imp) ∧
        ∀ s ∈ names, s ∉ targets → ∃ x, imp s = some x ∧ x < thr := by
  obtain ⟨X, hX⟩ : ∃ X : ℚ, ∀ c ∈ states, ∀ f g, X ≤ f → X ≤ g → c.rop r0 = f - g → ∀ A B,
      c.prod A r0 ≠ c.reac A r0 → drgepMatrix (asPair c r0 f g) A B < thr := by
    clear ht
    induction states with
    | nil => exact ⟨0, by simp⟩
    | cons c cs ih =>
      obtain ⟨X, hX⟩ := ih
      obtain ⟨Y, hY⟩ := drgep_asPair_small c r0 hthr
      refine ⟨max X Y, fun c' hc' f g hf hg => ?_⟩
      rcases List.mem_cons.1 hc' with rfl | hc'
      · exact hY f g ((le_max_right _ _).trans hf) ((le_max_right _ _).trans hg)
      · exact hX c' hc' f g ((le_max_left _ _).trans hf) ((le_max_left _ _).trans hg)
  refine ⟨X, fun f g hfg => ?_⟩
  have hm : ∀ c : Chem names.length (m + 1), ∀ i j, ∀ hi : i < names.length, ∀ hj : j < names.length,
      matrixOf .drgep id c i j = drgepMatrix c ⟨i, hi⟩ ⟨j, hj⟩ := by
    intro c i j hi hj
    show (drgepMatrixR id c).toN i j = _
    rw [(matrices_id _).2.1]
    simp [Mat.toN, hi, hj]
  have hU : ∀ M ∈ states.map fun c => matrixOf .drgep id (asPair c r0 (f c) (g c)), UnitMatrix M names.length := by
    intro M hM i hi j hj
    obtain ⟨c, -, rfl⟩ := List.mem_map.1 hM
    rw [hm _ i j hi hj]
    exact C07_drgep_range _ _ _
  obtain ⟨imp, h1, h2⟩ := C112_bound_partial rndOk_id hn (targets := targets) (fun t h => by
    obtain ⟨i, rfl, -⟩ := ht t h
    exact List.getElem_mem _) hU
  refine ⟨imp, _, h1, fun s hs hst => ?_⟩
  obtain ⟨x, hx, hg, -⟩ := h2 s hs
  refine ⟨x, hx, ?_⟩
  rcases hg with rfl | ⟨M, hM, t, htt, hp⟩
  · exact hthr
  obtain ⟨k, hk, hk'⟩ := ht t htt
  obtain ⟨-, -, h3⟩ := pathProduct_small (hU M hM) (thr := thr) (by
    intro i j hi hj
    obtain ⟨c, hc, rfl⟩ := List.mem_map.1 hM
    obtain ⟨f1, f2, f3⟩ := hfg c hc
    obtain ⟨hi1, hi2⟩ := List.getElem?_eq_some_iff.1 hi
    have hik : i = k.1 := (List.Nodup.getElem_inj_iff hn).1 (hi2.trans hk.symm)
    subst hik
    rw [hm _ _ j hi1 hj]
    exact hX c hc _ _ f1 f2 f3 _ _ (hk' c hc)) hp
  rcases h3 with rfl | h3
  · exact absurd htt hst
  · exact h3

/-- so the next model that DRGEP tries at that threshold has no species but targets and species to keep -/
theorem C127_pair_left_drgep_refuted {names targets safe : List String} {m : Nat} {states : List (Chem names.length m)} {r0 : Fin m}
    (hn : names.Nodup) (ht : ∀ t ∈ targets, ∃ i, names[i] = t ∧ ∀ c ∈ states, c.prod i r0 ≠ c.reac i r0)
    {thr : ℚ} (hthr : 0 < thr) :
    ∃ X : ℚ, ∀ f g : Chem names.length m → ℚ, (∀ c ∈ states, X ≤ f c ∧ X ≤ g c ∧ c.rop r0 = f c - g c) →
      ∃ imp N, (∀ fuel ≥ N, getImportanceCoeffs id names targets
        (states.map fun c => matrixOf .drgep id (asPair c r0 (f c) (g c))) fuel = .ok imp) ∧
        ∃ removed, removedDrgep imp safe thr names = .ok removed ∧
          ∀ s ∈ names, s ∉ targets → s ∉ safe → s ∈ removed := by
  obtain ⟨X, hX⟩ := C127_pair_kept_drgep_refuted hn ht hthr
  refine ⟨X, fun f g hfg => ?_⟩
  obtain ⟨imp, N, h1, h2⟩ := hX f g hfg
  refine ⟨imp, N, h1, ?_⟩
  have hsome := importance_isSome (h1 N le_rfl)
  clear h1
  have : ∀ l removed, removedDrgep imp safe thr l = .ok removed → ∀ s ∈ l, s ∈ names → s ∉ targets → s ∉ safe → s ∈ removed := by
    intro l
    induction l with
    | nil => simp
    | cons a l ih =>
      intro removed hr s hs hsn hst hss
      rw [removedDrgep] at hr
      split at hr
      · cases hr
      rename_i x hx
      split at hr
      · cases hr
      rename_i l' hl'
      cases hr
      rcases List.mem_cons.1 hs with rfl | hs
      · obtain ⟨y, hy, hy'⟩ := h2 s hsn hst
        rw [hx] at hy
        cases hy
        rw [if_pos ⟨hy', hss⟩]
        exact List.mem_cons_self ..
      · have := ih l' hl' s hs hsn hst hss
        split_ifs
        · exact List.mem_cons_of_mem _ this
        · exact this
  have hr : ∀ l : List String, (∀ s ∈ l, s ∈ names) → ∃ removed, removedDrgep imp safe thr l = .ok removed := by
    intro l
    induction l with
    | nil => exact fun _ => ⟨[], rfl⟩
    | cons a l ih =>
      intro hl
      obtain ⟨r, hr⟩ := ih fun s hs => hl s (List.mem_cons_of_mem _ hs)
      obtain ⟨x, hx⟩ := Option.isSome_iff_exists.1 (hsome a (hl a (List.mem_cons_self ..)))
      rw [removedDrgep, hx, hr]
      exact ⟨_, rfl⟩
  obtain ⟨removed, hr⟩ := hr names fun _ h => h
  exact ⟨removed, hr, fun s hs => this names removed hr s hs hs⟩

/-- the hypotheses of the theorem are met: `A` is changed; and the pair takes the importance of `B` and `C` from
one half to 1/1001 -/
example : (∀ t ∈ ["A"], ∃ i : Fin 3, ["A", "B", "C"][i] = t ∧ ∀ c ∈ [rwChem], c.prod i 0 ≠ c.reac i 0) ∧
    (getImportanceCoeffs id ["A", "B", "C"] ["A"] [matrixOf .drgep id rwChem] 20).toOption.map (fun f => (f "B", f "C")) =
      some (some (1 / 2), some (1 / 2)) ∧
    (getImportanceCoeffs id ["A", "B", "C"] ["A"] [matrixOf .drgep id (asPair rwChem 0 1000 999)] 20).toOption.map
      (fun f => (f "B", f "C", removedDrgep f [] (1 / 10) ["A", "B", "C"])) =
      some (some (1 / 1001), some (1 / 1001), .ok ["B", "C"]) := by
  refine ⟨fun t ht => ?_, by decide +kernel, by decide +kernel⟩
  obtain rfl := List.mem_singleton.1 ht
  exact ⟨0, rfl, by decide +kernel⟩

end Verif
