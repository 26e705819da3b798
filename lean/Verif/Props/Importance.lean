import Verif.Lemmas.Importance
/-!
# C16: importance coefficients
-/
namespace Verif
open Spec

/-- **C16**: for coefficients in `[0,1]` the computation ends and gives every species of the
model the greatest path product over all sampled states and targets (0 if there is none),
and nothing to other names; products are exact (`rnd = id`) or rounded. -/
theorem C16_importance {rnd : ℚ → ℚ} (hr : RndOk rnd) {names targets : List String} {matrices : List NMat} (hn : names.Nodup)
    (ht : ∀ t ∈ targets, t ∈ names) (hM : ∀ M ∈ matrices, UnitMatrix M names.length) :
    ∃ N imp, (∀ fuel ≥ N, getImportanceCoeffs rnd names targets matrices fuel = .ok imp) ∧
      (∀ sp, sp ∉ names → imp sp = none) ∧
      ∀ sp ∈ names, ∃ x, imp sp = some x ∧
        IsGreatest (Candidates rnd names targets matrices sp) x := by
  obtain ⟨N, d, h1, h2, h3⟩ := importanceLoop_spec hr hn ht matrices hM
    (fun sp => if sp ∈ names then some 0 else none) (by
      intro sp x hx
      split_ifs at hx
      simp only [Option.some.injEq] at hx
      exact hx.le)
  refine ⟨N, d, h1, ?_, ?_⟩
  · intro sp hsp; exact h2 sp (by simp [hsp])
  · intro sp hsp; exact h3 sp 0 (by simp [hsp])

/-- **C16**: importance coefficients lie in `[0,1]`, and targets have coefficient 1 as soon
as one state was sampled. -/
theorem C16_range_and_targets {rnd : ℚ → ℚ} (hr : RndOk rnd) {names targets : List String} {matrices : List NMat}
    (hn : names.Nodup) (ht : ∀ t ∈ targets, t ∈ names)
    (hM : ∀ M ∈ matrices, UnitMatrix M names.length) :
    ∃ N, ∀ fuel ≥ N, ∃ imp, getImportanceCoeffs rnd names targets matrices fuel = .ok imp ∧
      (∀ sp x, imp sp = some x → 0 ≤ x ∧ x ≤ 1) ∧
      (matrices ≠ [] → ∀ t ∈ targets, imp t = some 1) := by
  obtain ⟨N, d, h1, h2, h3⟩ := C16_importance hr hn ht hM
  have hle : ∀ sp x, d sp = some x → 0 ≤ x ∧ x ≤ 1 := by
    intro sp x hx
    by_cases hsp : sp ∈ names
    · obtain ⟨z, hz, hg⟩ := h3 sp hsp
      rw [hx] at hz
      simp only [Option.some.injEq] at hz
      subst hz
      refine ⟨hg.2 (Or.inl rfl), ?_⟩
      rcases hg.1 with h | ⟨M, hm, t, -, hp⟩
      · rw [h]; norm_num
      · exact (hp.range hr (hM M hm)).2
    · rw [h2 sp hsp] at hx; simp at hx
  refine ⟨N, fun fuel hf => ⟨d, h1 fuel hf, hle, ?_⟩⟩
  intro hne t htt
  obtain ⟨M, hm⟩ := List.exists_mem_of_ne_nil _ hne
  obtain ⟨z, hz, hg⟩ := h3 t (ht t htt)
  rw [hz]
  have : (1 : ℚ) ≤ z := hg.2 (Or.inr ⟨M, hm, t, htt, .nil (ht t htt)⟩)
  rw [le_antisymm (hle t z hz).2 this]

/-- **C16**: the coefficients depend only on which targets and which states are given, not on
their order or repetition. -/
theorem C16_order_irrelevant {rnd : ℚ → ℚ} (hr : RndOk rnd) {names targets targets' : List String}
    {matrices matrices' : List NMat} (hn : names.Nodup) (ht : ∀ t ∈ targets, t ∈ names)
    (hM : ∀ M ∈ matrices, UnitMatrix M names.length)
    (h1 : ∀ t, t ∈ targets ↔ t ∈ targets') (h2 : ∀ M, M ∈ matrices ↔ M ∈ matrices') :
    ∃ N, ∀ fuel ≥ N, ∃ imp, getImportanceCoeffs rnd names targets matrices fuel = .ok imp ∧
      getImportanceCoeffs rnd names targets' matrices' fuel = .ok imp := by
  obtain ⟨N, d, a1, a2, a3⟩ := C16_importance hr hn ht hM
  obtain ⟨N', d', b1, b2, b3⟩ := C16_importance hr (targets := targets') (matrices := matrices') hn
    (fun t h => ht t ((h1 t).2 h)) (fun M h => hM M ((h2 M).2 h))
  have : d = d' := by
    funext sp
    by_cases hsp : sp ∈ names
    · obtain ⟨x, hx, hg⟩ := a3 sp hsp
      obtain ⟨x', hx', hg'⟩ := b3 sp hsp
      have hc : Candidates rnd names targets matrices sp = Candidates rnd names targets' matrices' sp := by
        ext y; simp only [Candidates, Set.mem_ofPred_eq, h1, h2]
      rw [hx, hx']
      rw [hc] at hg
      rw [hg.unique hg']
    · rw [a2 sp hsp, b2 sp hsp]
  exact ⟨max N N', fun fuel hf => ⟨d, a1 fuel (by omega), this ▸ b1 fuel (by omega)⟩⟩

/-- **C16**: adding a target or a sampled state never lowers a coefficient. -/
theorem C16_monotone {rnd : ℚ → ℚ} (hr : RndOk rnd) {names targets targets' : List String}
    {matrices matrices' : List NMat} (hn : names.Nodup) (ht : ∀ t ∈ targets', t ∈ names)
    (hM : ∀ M ∈ matrices', UnitMatrix M names.length)
    (h1 : targets ⊆ targets') (h2 : matrices ⊆ matrices') :
    ∃ N, ∀ fuel ≥ N, ∃ imp imp', getImportanceCoeffs rnd names targets matrices fuel = .ok imp ∧
      getImportanceCoeffs rnd names targets' matrices' fuel = .ok imp' ∧
      ∀ sp ∈ names, ∃ x x', imp sp = some x ∧ imp' sp = some x' ∧ x ≤ x' := by
  obtain ⟨N, d, a1, a2, a3⟩ := C16_importance hr (targets := targets) (matrices := matrices) hn
    (fun t h => ht t (h1 h)) (fun M h => hM M (h2 h))
  obtain ⟨N', d', b1, b2, b3⟩ := C16_importance hr hn ht hM
  refine ⟨max N N', fun fuel hf => ⟨d, d', a1 fuel (by omega), b1 fuel (by omega), ?_⟩⟩
  intro sp hsp
  obtain ⟨x, hx, hg⟩ := a3 sp hsp
  obtain ⟨x', hx', hg'⟩ := b3 sp hsp
  refine ⟨x, x', hx, hx', hg'.2 ?_⟩
  rcases hg.1 with h | ⟨M, hm, t, htt, hp⟩
  · exact Or.inl h
  · exact Or.inr ⟨M, h2 hm, t, h1 htt, hp⟩

/-- **C16**: a target that is not in the model raises `KeyError` when a state was sampled. -/
theorem C16_missing_target {rnd : ℚ → ℚ} (hr : RndOk rnd) {names targets : List String} {M : NMat} {matrices : List NMat}
    (hn : names.Nodup) (ht : ∃ t ∈ targets, t ∉ names)
    (hM : ∀ M' ∈ M :: matrices, UnitMatrix M' names.length) :
    ∃ N, ∀ fuel ≥ N, getImportanceCoeffs rnd names targets (M :: matrices) fuel = .error .keyError := by
  obtain ⟨N, h⟩ := searchLoop_missing hr hn (hM M (by simp)) targets ht (fun _ => none)
  refine ⟨N, fun fuel hf => ?_⟩
  unfold getImportanceCoeffs importanceLoop graphSearchDrgep
  rw [h fuel hf]

/-! ### example -/

/-- two sampled states on `A`, `B`, `C`, `D` -/
def exM1 : NMat := fun i j => if (i, j) = (0, 1) then 1/2 else if (i, j) = (1, 2) then 1/2 else 0
def exM2 : NMat := fun i j => if (i, j) = (0, 2) then 1/10 else if (i, j) = (1, 0) then 1 else 0

example : ["A", "B", "C", "D"].Nodup ∧ (∀ t ∈ ["A"], t ∈ ["A", "B", "C", "D"]) ∧
    (∀ M ∈ [exM1, exM2], UnitMatrix M ["A", "B", "C", "D"].length) ∧
    (getImportanceCoeffs id ["A", "B", "C", "D"] ["A"] [exM1, exM2] 20).toOption.map
      (fun d => (d "A", d "B", d "C", d "D", d "E")) =
      some (some 1, some (1/2), some (1/4), some 0, none) := by
  refine ⟨by decide, by decide, ?_, by decide +kernel⟩
  intro M hM i _ j _
  simp only [List.mem_cons, List.not_mem_nil, or_false] at hM
  rcases hM with rfl | rfl
  · unfold exM1; split_ifs <;> norm_num
  · unfold exM2; split_ifs <;> norm_num

end Verif
