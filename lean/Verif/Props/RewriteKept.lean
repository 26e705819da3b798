import Verif.Props.Rewrite
import Verif.Props.Published
import Verif.Lemmas.ReduceBehaves
/-!
# What DRG keeps when a reversible reaction is written as two (C127)
-/
namespace Verif
open Spec

/-- fast in both directions, the pair makes every coefficient on a species outside small -/
theorem drg_asPair_small {n m : Nat} (c : Chem n m) (r0 : Fin m) {ε : ℚ} (hε : 0 < ε) :
    ∃ X : ℚ, ∀ f g, X ≤ f → X ≤ g → c.rop r0 = f - g → ∀ A B, A ≠ B → c.prod A r0 ≠ c.reac A r0 → ¬ Involves c B r0 →
      drgMatrix (asPair c r0 f g) A B < ε := by
  let D : Fin n → ℚ := fun A => ∑ r, |rate c A r|
  let v : Fin n → ℚ := fun A => |c.prod A r0 - c.reac A r0|
  have hD : ∀ A, 0 ≤ D A := fun A => Finset.sum_nonneg (fun r _ => abs_nonneg _)
  have hv : ∀ A, 0 ≤ v A := fun A => abs_nonneg _
  have hterm : ∀ A, 0 ≤ D A / (v A * ε) := fun A => div_nonneg (hD A) (mul_nonneg (hv A) hε.le)
  refine ⟨1 + ∑ A, D A / (v A * ε), fun f g hf hg hq A B hAB hA hB => ?_⟩
  have hX : 0 ≤ ∑ A, D A / (v A * ε) := Finset.sum_nonneg (fun A _ => hterm A)
  have hXA : D A / (v A * ε) ≤ ∑ A, D A / (v A * ε) := Finset.single_le_sum (fun A _ => hterm A) (Finset.mem_univ A)
  have hvA : 0 < v A := abs_pos.2 (sub_ne_zero.2 hA)
  rw [drg_asPair c (by linarith) (by linarith) hq hAB hB]
  have hN : (∑ r, if Involves c B r then |rate c A r| else 0) ≤ D A :=
    Finset.sum_le_sum (fun r _ => by split_ifs <;> simp)
  change (if D A + 2 * (v A * min f g) = 0 then 0 else (∑ r, if Involves c B r then |rate c A r| else 0) /
    (D A + 2 * (v A * min f g))) < ε
  have hmin : 1 + D A / (v A * ε) ≤ min f g := le_min (by linarith) (by linarith)
  have hpos : 0 < D A + 2 * (v A * min f g) := by
    have : 0 < v A * min f g := mul_pos hvA (by linarith [hterm A])
    linarith [hD A]
  rw [if_neg (ne_of_gt hpos), div_lt_iff₀ hpos]
  have h1 : v A * ε * (1 + D A / (v A * ε)) ≤ v A * ε * min f g :=
    mul_le_mul_of_nonneg_left hmin (mul_nonneg hvA.le hε.le)
  have h2 : v A * ε * (1 + D A / (v A * ε)) = v A * ε + D A := by field_simp
  have h3 : 0 < v A * ε := mul_pos hvA hε
  have h4 : 0 ≤ ε * D A := mul_nonneg hε.le (hD A)
  nlinarith

/-- **C127** is false of what DRG keeps: if all targets are in one reversible reaction that changes all its species, then,
written as two irreversible ones and fast enough in both directions in every sampled state, it cuts the targets off from the rest of the
mechanism: no species outside that reaction is kept, however much the targets need it. -/
theorem C127_pair_kept_refuted {names targets : List String} {m : Nat} {states : List (Chem names.length m)} {r0 : Fin m}
    (hn : names.Nodup) {S : Fin names.length → Prop} (hS : ∀ c ∈ states, ∀ A, Involves c A r0 ↔ S A)
    (hall : ∀ c ∈ states, ∀ A, S A → c.prod A r0 ≠ c.reac A r0) (ht : ∀ t ∈ targets, ∃ i, names[i] = t ∧ S i)
    {thr : ℚ} (hthr : 0 < thr) :
    ∃ X : ℚ, ∀ f g : Chem names.length m → ℚ, (∀ c ∈ states, X ≤ f c ∧ X ≤ g c ∧ c.rop r0 = f c - g c) →
      ∃ l, retained (states.map fun c => matrixOf .drg id (asPair c r0 (f c) (g c))) names targets thr = .ok l ∧
        ∀ s ∈ l, ∃ i, names[i] = s ∧ S i := by
  obtain ⟨X, hX⟩ : ∃ X : ℚ, ∀ c ∈ states, ∀ f g, X ≤ f → X ≤ g → c.rop r0 = f - g → ∀ A B, A ≠ B →
      c.prod A r0 ≠ c.reac A r0 → ¬ Involves c B r0 → drgMatrix (asPair c r0 f g) A B < thr := by
    clear hS hall
    induction states with
    | nil => exact ⟨0, by simp⟩
    | cons c cs ih =>
      obtain ⟨X, hX⟩ := ih
      obtain ⟨Y, hY⟩ := drg_asPair_small c r0 hthr
      refine ⟨max X Y, fun c' hc' f g hf hg => ?_⟩
      rcases List.mem_cons.1 hc' with rfl | hc'
      · exact hY f g ((le_max_right _ _).trans hf) ((le_max_right _ _).trans hg)
      · exact hX c' hc' f g ((le_max_left _ _).trans hf) ((le_max_left _ _).trans hg)
  refine ⟨X, fun f g hfg => ?_⟩
  obtain ⟨l, h1, -, h2⟩ := retained_spec thr hn (fun t h => by
    obtain ⟨i, rfl, -⟩ := ht t h
    exact List.getElem_mem _) (states.map fun c => matrixOf .drg id (asPair c r0 (f c) (g c)))
  refine ⟨l, h1, fun s hs => ?_⟩
  obtain ⟨M, hM, t, htt, hp⟩ := (h2 s).1 hs
  obtain ⟨c, hc, rfl⟩ := List.mem_map.1 hM
  obtain ⟨f1, f2, f3⟩ := hfg c hc
  induction hp with
  | refl => exact ht t htt
  | @tail a b _ hab ih =>
    obtain ⟨i, hi, hSi⟩ := ih ((h2 a).2 ⟨_, hM, t, htt, by assumption⟩)
    obtain ⟨x, y, hx, hy, hle, -⟩ := hab
    obtain ⟨hy1, hy2⟩ := List.getElem?_eq_some_iff.1 hy
    obtain ⟨hx1, hx2⟩ := List.getElem?_eq_some_iff.1 hx
    refine ⟨⟨y, hy1⟩, hy2, ?_⟩
    by_contra hSy
    have hxi : x = i.1 := (List.Nodup.getElem_inj_iff hn).1 (hx2.trans hi.symm)
    subst hxi
    have hne : i ≠ ⟨y, hy1⟩ := by rintro rfl; exact hSy hSi
    have hm : matrixOf .drg id (asPair c r0 (f c) (g c)) i.1 y = drgMatrix (asPair c r0 (f c) (g c)) i ⟨y, hy1⟩ := by
      show (drgMatrixR id _).toN i.1 y = _
      rw [(matrices_id _).1]
      simp [Mat.toN, hy1]
    rw [hm] at hle
    have := hX c hc _ _ f1 f2 f3 i ⟨y, hy1⟩ hne (hall c hc i hSi) (fun h => hSy ((hS c hc _).1 h))
    linarith

/-- half of what `A` does is done with `B`, and at a threshold of one tenth DRG keeps `B`; written as two, it does not -/
example : retained [matrixOf .drg id rwChem] ["A", "B", "C"] ["A"] (1 / 10) = .ok ["A", "B", "C"] ∧
    retained [matrixOf .drg id (asPair rwChem 0 1000 999)] ["A", "B", "C"] ["A"] (1 / 10) = .ok ["A", "C"] := by
  decide +kernel

/-- the hypotheses of the theorem are met by it: `A` and `C` are in the reaction -/
example : ∃ X : ℚ, ∀ f g : Chem 3 2 → ℚ, (∀ c ∈ [rwChem], X ≤ f c ∧ X ≤ g c ∧ c.rop 0 = f c - g c) →
    ∃ l, retained ([rwChem].map fun c => matrixOf .drg id (asPair c 0 (f c) (g c))) ["A", "B", "C"] ["A"] (1 / 10) = .ok l ∧
      "B" ∉ l := by
  obtain ⟨X, hX⟩ := C127_pair_kept_refuted (names := ["A", "B", "C"]) (targets := ["A"]) (states := [rwChem]) (r0 := 0)
    (by decide) (S := fun i => i ≠ (1 : Fin 3)) (by
      intro c hc A
      obtain rfl := List.mem_singleton.1 hc
      revert A
      unfold Involves
      decide +kernel) (by
      intro c hc A hA
      obtain rfl := List.mem_singleton.1 hc
      revert A
      decide +kernel) (by
      intro t ht
      obtain rfl := List.mem_singleton.1 ht
      exact ⟨0, rfl, by decide⟩) (thr := 1 / 10) (by norm_num)
  refine ⟨X, fun f g h => ?_⟩
  obtain ⟨l, h1, h2⟩ := hX f g h
  refine ⟨l, h1, fun hB => ?_⟩
  obtain ⟨i, hi, hne⟩ := h2 "B" hB
  revert i
  decide

end Verif
