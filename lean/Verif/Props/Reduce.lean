import Verif.Lemmas.DrgepTargets
/-!
# C17-C28: the reduction loops
-/
namespace Verif
open Spec

/-! ### C17 -/

/-- **C17**: `reduce_drgep` trims the starting model by exactly the species whose coefficient
is below the threshold and that are not protected. -/
theorem C17_removes_exactly {c : Ctx} {sol : Mech} {imp : String → Option ℚ} {w : World}
    (hw : w.fs c.modelFile = some sol) (hi : ∀ s ∈ sol.names, (imp s).isSome) (t : ℚ) :
    ∃ r w' removed, reduceDrgep c imp t none w = (.ok r, w') ∧
      r.model = trim sol removed ("reduced_".toList ++ c.modelFile) c.phase ∧
      r.error = c.errOf r.model ∧
      (∀ s, s ∈ removed ↔ s ∈ sol.names ∧ s ∉ c.safe ∧ ∃ x, imp s = some x ∧ x < t) ∧
      (∀ s, s ∈ r.model.names ↔ s ∈ sol.names ∧ (s ∈ c.safe ∨ ∃ x, imp s = some x ∧ t ≤ x)) := by
  classical
  refine ⟨_, _, _, reduceDrgep_fresh hi t w hw none (by simp), rfl, rfl, ?_, ?_⟩
  · intro s
    simp only [List.mem_filter, decide_eq_true_eq]
    refine and_congr_right fun hs => ?_
    obtain ⟨x, hx⟩ := Option.isSome_iff_exists.1 (hi s hs)
    unfold KeptDrgep
    rw [hx]
    push Not
    simp [and_comm]
  · intro s
    simp only [freshResult, mem_candidate_names, KeptDrgep]
    rw [or_comm]

/-- **C17**: raising the threshold never brings a species back. -/
theorem C17_monotone {c : Ctx} {sol : Mech} {imp : String → Option ℚ} {w : World}
    (hw : w.fs c.modelFile = some sol) (hi : ∀ s ∈ sol.names, (imp s).isSome) {t t' : ℚ}
    (ht : t ≤ t') {r r' : RModel} (h : (reduceDrgep c imp t none w).1 = .ok r)
    (h' : (reduceDrgep c imp t' none w).1 = .ok r') : r'.model.names ⊆ r.model.names := by
  rw [reduceDrgep_fresh hi t w hw none (by simp)] at h
  rw [reduceDrgep_fresh hi t' w hw none (by simp)] at h'
  simp only [Except.ok.injEq] at h h'
  subst h h'
  intro s hs
  simp only [freshResult, mem_candidate_names] at hs ⊢
  exact ⟨hs.1, keptDrgep_anti c imp t t' s ht hs.2⟩

/-- **C17**: a species without coefficient makes the reduction fail. -/
theorem C17_missing {c : Ctx} {sol : Mech} {imp : String → Option ℚ} {w : World}
    (hw : w.fs c.modelFile = some sol) (hi : ∃ s ∈ sol.names, imp s = none) (t : ℚ)
    (prev : Option RModel) : reduceDrgep c imp t prev w = (.error .keyError, w) := by
  have : removedDrgep imp c.safe t sol.names = .error .keyError := by
    generalize sol.names = l at hi
    induction l with
    | nil => obtain ⟨s, hs, -⟩ := hi; simp at hs
    | cons a l ih =>
      unfold removedDrgep
      rcases ha : imp a with _ | x
      · rfl
      · dsimp only
        rw [ih (by
          obtain ⟨s, hs, h0⟩ := hi
          rcases List.mem_cons.1 hs with rfl | hs
          · rw [ha] at h0; cases h0
          · exact ⟨s, hs, h0⟩)]
  rw [reduceDrgep_eq]
  rw [loadModel_ok hw]
  dsimp only
  rw [this]

/-! ### C18 -/

theorem reuse_sound {c : Ctx} {sol : Mech} {reduce : ReduceFn} {kept : ℚ → String → Prop}
    {short : ℚ → Nat → Prop} {limbo : ℚ → Option (List String)}
    (B : Behaves c sol reduce kept short limbo) {t t' : ℚ} (ht : t' ≤ t) {w w0 : World}
    (hw : w.fs c.modelFile = some sol) (hw0 : w0.fs c.modelFile = some sol) {p : RModel}
    (hp : (reduce t' none w0).1 = .ok p) :
    ∃ r w1 r' w2, reduce t (some p) w = (.ok r, w1) ∧ reduce t none w = (.ok r', w2) ∧
      r.model = r'.model ∧ r.error = r'.error := by
  rw [B.fresh t' w0 hw0] at hp
  simp only [Except.ok.injEq] at hp
  by_cases hs : short t p.model.nSpecies
  · refine ⟨p, w, _, _, B.reuse t w p hw hs, B.fresh t w hw, ?_⟩
    subst hp
    have : candidate c sol kept t' = candidate c sol kept t :=
      candidate_congr _ _ _ _ _ fun s hsn =>
        ⟨B.short_prev t t' ht hs s hsn, B.anti t' t s ht⟩
    exact ⟨this, congrArg c.errOf this⟩
  · exact ⟨_, _, _, _, (B.build t w p hw hs).trans (B.fresh t w hw), B.fresh t w hw, rfl, rfl⟩

theorem reuse_start {c : Ctx} {sol : Mech} {reduce : ReduceFn} {kept : ℚ → String → Prop}
    {short : ℚ → Nat → Prop} {limbo : ℚ → Option (List String)}
    (B : Behaves c sol reduce kept short limbo) {t : ℚ} {w : World}
    (hw : w.fs c.modelFile = some sol) {p : RModel} (hp : p.model = sol) :
    ∃ r w1 r' w2, reduce t (some p) w = (.ok r, w1) ∧ reduce t none w = (.ok r', w2) ∧
      r.model.names = r'.model.names := by
  by_cases hs : short t p.model.nSpecies
  · refine ⟨p, w, _, _, B.reuse t w p hw hs, B.fresh t w hw, ?_⟩
    rw [hp] at hs ⊢
    classical
    show _ = (candidate c sol kept t).names
    rw [candidate_names, eq_comm, List.filter_eq_self]
    intro s hsn
    simpa using B.short_full t hs s hsn
  · exact ⟨_, _, _, _, (B.build t w p hw hs).trans (B.fresh t w hw), B.fresh t w hw, rfl⟩

/-- **C18** (DRG): with a previous model made at a threshold not above the current one, the
result has the same model and error as a fresh reduction. -/
theorem C18_drg {c : Ctx} {sol : Mech} (S : Setting c sol) {t t' : ℚ} (ht : t' ≤ t) {w w0 : World}
    (hw : w.fs c.modelFile = some sol) (hw0 : w0.fs c.modelFile = some sol) {p : RModel}
    (hp : (reduceDrg c t' none w0).1 = .ok p) :
    ∃ r w1 r' w2, reduceDrg c t (some p) w = (.ok r, w1) ∧ reduceDrg c t none w = (.ok r', w2) ∧
      r.model = r'.model ∧ r.error = r'.error :=
  reuse_sound (reduceDrg_behaves S) ht hw hw0 hp

/-- **C18** (PFA). -/
theorem C18_pfa {c : Ctx} {sol : Mech} (S : Setting c sol)
    (hu : truthy c.upper = none ∨ c.matrices ≠ []) {t t' : ℚ} (ht : t' ≤ t) {w w0 : World}
    (hw : w.fs c.modelFile = some sol) (hw0 : w0.fs c.modelFile = some sol) {p : RModel}
    (hp : (reducePfa c t' none w0).1 = .ok p) :
    ∃ r w1 r' w2, reducePfa c t (some p) w = (.ok r, w1) ∧ reducePfa c t none w = (.ok r', w2) ∧
      r.model = r'.model ∧ r.error = r'.error :=
  reuse_sound (reducePfa_behaves S hu) ht hw hw0 hp

/-- **C18** (DRGEP). -/
theorem C18_drgep {c : Ctx} {sol : Mech} (S : Setting c sol) {imp : String → Option ℚ}
    (hi : ∀ s ∈ sol.names, (imp s).isSome) {t t' : ℚ} (ht : t' ≤ t) {w w0 : World}
    (hw : w.fs c.modelFile = some sol) (hw0 : w0.fs c.modelFile = some sol) {p : RModel}
    (hp : (reduceDrgep c imp t' none w0).1 = .ok p) :
    ∃ r w1 r' w2, reduceDrgep c imp t (some p) w = (.ok r, w1) ∧
      reduceDrgep c imp t none w = (.ok r', w2) ∧ r.model = r'.model ∧ r.error = r'.error :=
  reuse_sound (reduceDrgep_behaves S hi) ht hw hw0 hp

/-- **C18**: the same when the previous model is the starting model: the species agree with a
fresh reduction, in all three methods. -/
theorem C18_start {c : Ctx} {sol : Mech} (S : Setting c sol)
    (hu : truthy c.upper = none ∨ c.matrices ≠ []) {imp : String → Option ℚ}
    (hi : ∀ s ∈ sol.names, (imp s).isSome) (t : ℚ) {w : World}
    (hw : w.fs c.modelFile = some sol) {p : RModel} (hp : p.model = sol) :
    (∃ r w1 r' w2, reduceDrg c t (some p) w = (.ok r, w1) ∧ reduceDrg c t none w = (.ok r', w2) ∧
      r.model.names = r'.model.names) ∧
    (∃ r w1 r' w2, reducePfa c t (some p) w = (.ok r, w1) ∧ reducePfa c t none w = (.ok r', w2) ∧
      r.model.names = r'.model.names) ∧
    (∃ r w1 r' w2, reduceDrgep c imp t (some p) w = (.ok r, w1) ∧
      reduceDrgep c imp t none w = (.ok r', w2) ∧ r.model.names = r'.model.names) :=
  ⟨reuse_start (reduceDrg_behaves S) hw hp, reuse_start (reducePfa_behaves S hu) hw hp,
    reuse_start (reduceDrgep_behaves S hi) hw hp⟩

/-! ### C19 -/

/-- **C19**: whatever a run returns is the candidate at the back-step threshold after the
first violation on the grid.  Holds in exact and in binary64 arithmetic. -/
theorem C19_returned {m : Method} {c : Ctx} {sol : Mech} (U : Usable m c sol) {limit : PyF}
    (hl : LimitOk c sol limit) (a : Arith) :
    ∃ N, ∀ dfuel ≥ N, ∀ fuel w r w', w.fs c.modelFile = some sol →
      runMethod m c a.rnd limit dfuel fuel w = (some (.ok r), w') →
      ∃ j k, j ≤ lastStart m a ∧
        (∀ i < j, Exceeds c sol (Kept m c sol) limit (startThr a.rnd i)) ∧
        (∀ i ≤ k, Meets c sol (Kept m c sol) limit (gridThr a.rnd j i)) ∧
        Exceeds c sol (Kept m c sol) limit (gridThr a.rnd j (k + 1)) ∧
        r.model = candidate c sol (Kept m c sol) (finalThr a.rnd j k) ∧
        r.error = c.errOf r.model := by
  obtain ⟨N, hN⟩ := method_isRun U
  refine ⟨N, fun dfuel hd fuel w r w' hw hrun => ?_⟩
  obtain ⟨reduce, finish, short, limbo, R⟩ := hN dfuel hd
  have he := R.eq a.rnd limit fuel w hw
  rw [hrun] at he
  have hend := run_end (ex := exitThr m a.rnd) R.behaves hl (gridThr_mono a.ok)
    (R.finishOk a.rnd limit) fuel hw
  generalize runWith reduce (finish a.rnd limit) a.rnd (exitThr m a.rnd) limit fuel
    (loopInit a.rnd sol c.modelFile w) = x at he hend
  cases hend with
  | running w => simp at he
  | exit => simp at he
  | undefined => simp at he
  | done j k w h1 h2 h3 h4 =>
    simp only [Option.some.injEq, Except.ok.injEq] at he
    refine ⟨j, k, ?_, h1, h2, h3, by rw [he]; rfl, by rw [he]; rfl⟩
    by_contra hc
    push Not at hc
    exact h4 (lastStart m a + 1) hc (by omega) (exit_facts m a).2

/-- **C19**: in exact arithmetic every returned model has an error within the limit, and it is
the candidate at the last grid threshold before the first violation. -/
theorem C19_within_limit_partial {m : Method} {c : Ctx} {sol : Mech} (U : Usable m c sol) {limit : PyF}
    (hl : LimitOk c sol limit) :
    ∃ N, ∀ dfuel ≥ N, ∀ fuel w r w', w.fs c.modelFile = some sol →
      runMethod m c id limit dfuel fuel w = (some (.ok r), w') →
      r.error.le limit = true ∧ r.error = c.errOf r.model ∧
      ∃ j k : Nat, j ≤ lastStart m .exact ∧
        (∀ i < j, Exceeds c sol (Kept m c sol) limit (1 / 100 / 10 ^ i)) ∧
        (∀ i ≤ k, Meets c sol (Kept m c sol) limit ((i + 1) * (1 / 100 / 10 ^ j))) ∧
        Exceeds c sol (Kept m c sol) limit ((k + 2) * (1 / 100 / 10 ^ j)) ∧
        r.model = candidate c sol (Kept m c sol) ((k + 1) * (1 / 100 / 10 ^ j)) := by
  obtain ⟨N, hN⟩ := C19_returned U hl .exact
  refine ⟨N, fun dfuel hd fuel w r w' hw hrun => ?_⟩
  obtain ⟨j, k, hj, h1, h2, h3, h4, h5⟩ := hN dfuel hd fuel w r w' hw hrun
  have hf : finalThr Arith.exact.rnd j k = gridThr id j k := finalThr_exact j k
  rw [hf] at h4
  refine ⟨?_, h5, j, k, hj, ?_, ?_, ?_, ?_⟩
  · rw [h5, h4]; exact h2 k le_rfl
  · intro i hi; rw [← startThr_exact]; exact h1 i hi
  · intro i hi; rw [← startThr_exact, ← gridThr_exact]; exact h2 i hi
  · have : ((k : ℚ) + 2) * (1 / 100 / 10 ^ j) = gridThr id j (k + 1) := by
      rw [gridThr_exact, startThr_exact]; push_cast; ring
    rw [this]; exact h3
  · rw [h4, gridThr_exact, startThr_exact]

/-- **C19**: conversely, when the starting thresholds before the `j`-th fail, the next `k + 1`
grid thresholds meet the limit and the one after exceeds it, the run does return. -/
theorem C19_returns {m : Method} {c : Ctx} {sol : Mech} (U : Usable m c sol) {limit : PyF}
    (hl : LimitOk c sol limit) (a : Arith) {j k : Nat} (hj : j ≤ lastStart m a)
    (h1 : ∀ i < j, Exceeds c sol (Kept m c sol) limit (startThr a.rnd i))
    (h2 : ∀ i ≤ k, Meets c sol (Kept m c sol) limit (gridThr a.rnd j i))
    (h3 : Exceeds c sol (Kept m c sol) limit (gridThr a.rnd j (k + 1))) :
    ∃ N, ∀ dfuel ≥ N, ∀ fuel ≥ j + k + 3, ∀ w, w.fs c.modelFile = some sol →
      ∃ r w', runMethod m c a.rnd limit dfuel fuel w = (some (.ok r), w') ∧
        r.model = candidate c sol (Kept m c sol) (finalThr a.rnd j k) := by
  obtain ⟨N, hN⟩ := method_isRun U
  refine ⟨N, fun dfuel hd fuel hfu w hw => ?_⟩
  obtain ⟨reduce, finish, short, limbo, R⟩ := hN dfuel hd
  have h0 : ¬ Exceeds c sol (Kept m c sol) limit (startThr a.rnd j) :=
    Spec.Meets.not_exceeds (h2 0 (by omega))
  have h5 : ¬ Meets c sol (Kept m c sol) limit (gridThr a.rnd j (k + 1)) :=
    fun hm => Spec.Meets.not_exceeds hm h3
  have := (run_stops (ex := exitThr m a.rnd) R.behaves hl a.ok (R.finishOk a.rnd limit) hw h1
    (fun i hi => (exit_facts m a).1 i (by omega)) h0 (fun i hi => h2 i (by omega)) h5).2.2 k rfl h3
    fuel (by omega)
  rw [← R.eq a.rnd limit fuel w hw] at this
  exact ⟨_, _, Prod.ext this rfl, rfl⟩

/-! ### C20 -/

theorem runMethod_fresh {m : Method} {c : Ctx} {sol : Mech} (S : Setting c sol) {rnd : ℚ → ℚ}
    {limit : PyF} {dfuel fuel : Nat} {w w' : World} {r : RModel}
    (hw : w.fs c.modelFile = some sol)
    (hrun : runMethod m c rnd limit dfuel fuel w = (some (.ok r), w')) :
    ∃ t w1 w2, w1.fs c.modelFile = some sol ∧
      (match m with
        | .drg => reduceDrg c t none w1 = (.ok r, w2)
        | .pfa => reducePfa c t none w1 = (.ok r, w2)
        | .drgep => ∃ imp, getImportanceCoeffs c.rndMul sol.names c.targets c.matrices dfuel = .ok imp ∧
            reduceDrgep c imp t none w1 = (.ok r, w2)) := by
  cases m with
  | drg =>
    have hrun : runDrg c rnd limit fuel w = _ := hrun
    rw [runDrg_eq] at hrun
    rw [loadModel_ok hw] at hrun
    dsimp only at hrun
    by_cases ht : c.targets = []
    · rw [if_pos ht] at hrun; simp at hrun
    rw [if_neg ht] at hrun
    obtain ⟨t, w1, h1, h2⟩ := runWith_ok_fresh (reduceDrg_fileSafe c) S.noclash
      finishDrg_fresh hrun
    exact ⟨t, w1, w', h1.trans hw, h2⟩
  | pfa =>
    have hrun : runPfa c rnd limit fuel w = _ := hrun
    rw [runPfa_eq] at hrun
    rw [loadModel_ok hw] at hrun
    dsimp only at hrun
    by_cases ht : c.targets = []
    · rw [if_pos ht] at hrun; simp at hrun
    rw [if_neg ht] at hrun
    obtain ⟨t, w1, h1, h2⟩ := runWith_ok_fresh (reducePfa_fileSafe c) S.noclash
      finishOther_fresh hrun
    exact ⟨t, w1, w', h1.trans hw, h2⟩
  | drgep =>
    have hrun : runDrgep c rnd limit dfuel fuel w = _ := hrun
    have hrun0 := hrun
    rw [runDrgep_eq] at hrun
    rw [loadModel_ok hw] at hrun
    dsimp only at hrun
    by_cases ht : c.targets = []
    · rw [if_pos ht] at hrun; simp at hrun
    rcases hi : getImportanceCoeffs c.rndMul sol.names c.targets c.matrices dfuel with e | imp
    · rw [if_neg ht, hi] at hrun; simp at hrun
    · have := runDrgep_fst S.noclash ht hi rnd limit fuel w hw
      rw [hrun0] at this
      dsimp only at this
      obtain ⟨t, w1, h1, h2⟩ := runWith_ok_fresh (reduceDrgep_fileSafe c imp) S.noclash
        (finish := finishOther (reduceDrgep c imp) rnd limit c.path) (rnd := rnd) (r := r)
        (ex := rnd (1 / 1000000)) (limit := limit) (fuel := fuel)
        (s := loopInit rnd sol c.modelFile w)
        (w' := (runWith (reduceDrgep c imp) (finishOther (reduceDrgep c imp) rnd limit c.path) rnd
          (rnd (1 / 1000000)) limit fuel (loopInit rnd sol c.modelFile w)).2)
        finishOther_fresh (Prod.ext this.symm rfl)
      exact ⟨t, w1, _, h1.trans hw, imp, rfl, h2⟩

/-- **C20** (DRG, PFA): targets and protected species are in every returned model, for any
error function, limit and arithmetic. -/
theorem C20_drg_pfa {m : Method} (hm : m ≠ .drgep) {c : Ctx} {sol : Mech} (U : Usable m c sol)
    (hM : c.matrices ≠ []) {rnd : ℚ → ℚ} {limit : PyF} {dfuel fuel : Nat} {w w' : World}
    {r : RModel} (hw : w.fs c.modelFile = some sol)
    (hrun : runMethod m c rnd limit dfuel fuel w = (some (.ok r), w')) :
    ∀ s ∈ sol.names, s ∈ c.targets ∨ s ∈ c.safe → s ∈ r.model.names := by
  obtain ⟨M, hMm⟩ := List.exists_mem_of_ne_nil _ hM
  have key : ∀ t, ∀ s ∈ sol.names, s ∈ c.targets ∨ s ∈ c.safe →
      s ∈ (candidate c sol (KeptDrg c sol) t).names := by
    intro t s hs h
    refine mem_candidate_names.2 ⟨hs, ?_⟩
    rcases h with h | h
    · exact Or.inl ⟨M, hMm, s, h, .refl⟩
    · exact Or.inr h
  obtain ⟨t, w1, w2, h1, h2⟩ := runMethod_fresh U.toSetting hw hrun
  cases m with
  | drgep => exact absurd rfl hm
  | drg =>
    dsimp only at h2
    rw [reduceDrg_fresh U.toSetting t w1 h1 none (by simp)] at h2
    simp only [Prod.mk.injEq, Except.ok.injEq] at h2
    rw [← h2.1]
    exact key t
  | pfa =>
    dsimp only at h2
    rw [reducePfa_fresh U.toSetting (U.upper rfl) t w1 h1 none (by simp)] at h2
    simp only [Prod.mk.injEq, Except.ok.injEq] at h2
    rw [← h2.1]
    exact key t

/-- **C20** (DRGEP): protected species are in every returned model, for any error function,
limit and arithmetic. -/
theorem C20_drgep_safe {c : Ctx} {sol : Mech} (S : Setting c sol)
    {rnd : ℚ → ℚ} {limit : PyF} {dfuel fuel : Nat} {w w' : World}
    {r : RModel} (hw : w.fs c.modelFile = some sol)
    (hrun : runMethod .drgep c rnd limit dfuel fuel w = (some (.ok r), w')) :
    ∀ s ∈ sol.names, s ∈ c.safe → s ∈ r.model.names := by
  obtain ⟨t, w1, w2, h1, imp, h2, h3⟩ := runMethod_fresh S hw hrun
  rw [reduceDrgep_fresh (importance_isSome h2) t w1 h1 none (by simp)] at h3
  simp only [Prod.mk.injEq, Except.ok.injEq] at h3
  rw [← h3.1]
  intro s hs h
  exact mem_candidate_names.2 ⟨hs, Or.inr h⟩

/-- above 1 a DRGEP candidate keeps the protected species only -/
theorem keptPath_above_one {c : Ctx} {sol : Mech}
    (hr : RndOk c.rndMul) (hu : ∀ M ∈ c.matrices, UnitMatrix M sol.names.length) {t : ℚ}
    (ht : 1 < t) (s : String) :
    KeptPath c sol t s ↔ s ∈ c.safe := by
  constructor
  · rintro (⟨y, hy, hl⟩ | h)
    · rcases hy with rfl | ⟨M, hm, x, -, hp⟩
      · linarith
      · have := (hp.range hr (hu M hm)).2; linarith
    · exact h
  · exact Or.inr

/-- **C20** (DRGEP): targets are in every returned model, although reductions above threshold 1
would drop them, for any error function and limit and both arithmetics. -/
theorem C20_drgep_targets {c : Ctx} {sol : Mech} (U : Usable .drgep c sol)
    (hM : c.matrices ≠ []) (a : Arith) (limit : PyF) :
    ∃ N, ∀ dfuel ≥ N, ∀ fuel w r w', w.fs c.modelFile = some sol →
      runMethod .drgep c a.rnd limit dfuel fuel w = (some (.ok r), w') →
      ∀ s ∈ c.targets, s ∈ r.model.names := by
  classical
  obtain ⟨N, imp, h1, -, h3⟩ := C16_importance (U.unit rfl).1 U.nodup U.targets (U.unit rfl).2
  refine ⟨N, fun dfuel hd fuel w r w' hw hrun => ?_⟩
  have hi : ∀ s ∈ sol.names, (imp s).isSome := fun s hs => by
    obtain ⟨x, hx, -⟩ := h3 s hs
    rw [hx]; rfl
  have B := reduceDrgep_behaves U.toSetting (imp := imp) hi
  have hrun : runDrgep c a.rnd limit dfuel fuel w = _ := hrun
  have h2 := runDrgep_fst U.noclash U.target (h1 dfuel hd) a.rnd limit fuel w hw
  rw [hrun] at h2
  dsimp only at h2
  unfold runWith at h2
  rcases hl : whileLoop (reduceDrgep c imp) a.rnd (a.rnd (1 / 1000000)) limit fuel
    (loopInit a.rnd sol c.modelFile w) with u | u | ⟨e, v⟩ <;> rw [hl] at h2
  · cases h2
  · have hshort : ∀ t, ShortDrgep c sol imp t (candidate c sol (KeptDrgep c imp) t).nSpecies := by
      intro t
      refine ⟨_, removedDrgep_spec c imp t _ hi, ?_⟩
      have := removed_length c sol (KeptDrgep c imp) t
      omega
    have hhigh : ∀ t t' n, 1 < t → t ≤ t' → ShortDrgep c sol imp t n → ShortDrgep c sol imp t' n := by
      rintro t t' n ht hle ⟨rem, g1, g2⟩
      refine ⟨rem, ?_, g2⟩
      rw [removedDrgep_spec c imp _ _ hi] at g1 ⊢
      rw [← g1]
      congr 1
      apply List.filter_congr
      intro s hs
      obtain ⟨x, hx, hg⟩ := h3 s hs
      have e1 := (keptDrgep_iff hx hg t).trans (keptPath_above_one (U.unit rfl).1 (U.unit rfl).2 ht s)
      have e2 := (keptDrgep_iff hx hg t').trans
        (keptPath_above_one (U.unit rfl).1 (U.unit rfl).2 (lt_of_lt_of_le ht hle) s)
      rw [e1, e2]
    have hinit : BelowOne c sol (ShortDrgep c sol imp) a.rnd limit (lastStart .drgep a)
        (loopInit a.rnd sol c.modelFile w) :=
      ⟨hw, 0, Nat.zero_le _, rfl, Or.inl ⟨rfl, rfl, rfl, Or.inl rfl⟩⟩
    obtain ⟨g1, g2⟩ := belowOne_loop B (reduceDrgep_fileSafe c imp) hshort hhigh a.ok
      (exit_facts .drgep a).2 fuel hinit hl
    have hres : (finishOther (reduceDrgep c imp) a.rnd limit c.path u) =
        (.ok r, (finishOther (reduceDrgep c imp) a.rnd limit c.path u).2) :=
      Prod.ext (Option.some.inj h2).symm rfl
    obtain ⟨q, hq, g3⟩ := belowOne_final (by cases a <;> decide) g1 g2 hres
    rw [B.fresh q u.w g1.1] at g3
    simp only [Prod.mk.injEq, Except.ok.injEq] at g3
    obtain ⟨M, hMm⟩ := List.exists_mem_of_ne_nil _ hM
    intro s hs
    obtain ⟨x, hx, hg⟩ := h3 s (U.targets s hs)
    rw [← g3.1]
    exact mem_candidate_names.2 ⟨U.targets s hs, (keptDrgep_iff hx hg q).2 (Or.inl ⟨1, Or.inr
      ⟨M, hMm, s, hs, .nil (U.targets s hs)⟩, hq⟩)⟩
  · cases h2

/-! ### C21, C22 -/

theorem runMethod_safe (m : Method) (c : Ctx) (rnd : ℚ → ℚ) (limit : PyF) (dfuel fuel : Nat)
    (w : World) : RunSafe c w (runMethod m c rnd limit dfuel fuel w) := by
  have base : ∀ e : Err, e ≠ .fileNotFound → RunSafe c w (some (.error e), w) := by
    intro e he
    refine ⟨fun _ _ => rfl, by simp, ?_⟩
    simpa using he
  cases m with
  | drg =>
    show RunSafe c w (runDrg c rnd limit fuel w)
    rw [runDrg_eq]
    rcases hl : loadModel w c.modelFile with e | sol
    · exact base e (by rw [loadModel_error hl]; decide)
    · dsimp only
      split_ifs
      · exact base _ (by decide)
      · exact (runWith_safe (reduceDrg_fileSafe c) (finishDrg_safe (reduceDrg_fileSafe c) rnd limit)
          rnd _ limit fuel _).1
  | pfa =>
    show RunSafe c w (runPfa c rnd limit fuel w)
    rw [runPfa_eq]
    rcases hl : loadModel w c.modelFile with e | sol
    · exact base e (by rw [loadModel_error hl]; decide)
    · dsimp only
      split_ifs
      · exact base _ (by decide)
      · exact (runWith_safe (reducePfa_fileSafe c) (finishOther_safe (reducePfa_fileSafe c) rnd limit)
          rnd _ limit fuel _).1
  | drgep =>
    show RunSafe c w (runDrgep c rnd limit dfuel fuel w)
    rw [runDrgep_eq]
    rcases hl : loadModel w c.modelFile with e | sol
    · exact base e (by rw [loadModel_error hl]; decide)
    · dsimp only
      split_ifs
      · exact base _ (by decide)
      · rcases hi : getImportanceCoeffs c.rndMul sol.names c.targets c.matrices dfuel with e | imp
        · refine base e ?_
          rintro rfl
          exact importance_no_fileNotFound hi
        · dsimp only
          have hs := (runWith_safe (reduceDrgep_fileSafe c imp)
            (finishOther_safe (reduceDrgep_fileSafe c imp) rnd limit)
            rnd (rnd (1 / 1000000)) limit fuel (loopInit rnd sol c.modelFile w)).1
          generalize runWith (reduceDrgep c imp) (finishOther (reduceDrgep c imp) rnd limit c.path)
            rnd (rnd (1 / 1000000)) limit fuel (loopInit rnd sol c.modelFile w) = x at hs
          obtain ⟨_ | _ | r, w1⟩ := x
          · exact hs
          · exact hs
          · dsimp only
            obtain ⟨h1, h2, h3⟩ := hs
            unfold appendLimbo
            rcases r.limbo with _ | l
            · exact ⟨h1, h2, h3⟩
            · refine ⟨h1, ?_, by simp⟩
              intro r' hr'
              simp only [Option.some.injEq, Except.ok.injEq] at hr'
              subst hr'
              exact h2 r rfl

/-- **C21**: no run, whether it is still going, has returned or has raised, changes any file
that is not called `reduced_<n>.yaml` in the output directory. -/
theorem C21_other_files_untouched (m : Method) (c : Ctx) (rnd : ℚ → ℚ) (limit : PyF)
    (dfuel fuel : Nat) (w : World) (f : Text)
    (hf : ∀ n, f ≠ joinPath c.path (reducedName n)) :
    (runMethod m c rnd limit dfuel fuel w).2.fs f = w.fs f :=
  (runMethod_safe m c rnd limit dfuel fuel w).1 f hf

/-- **C22**: the returned file name holds the returned model. -/
theorem C22_file_holds_model {m : Method} {c : Ctx} {rnd : ℚ → ℚ} {limit : PyF}
    {dfuel fuel : Nat} {w w' : World} {r : RModel}
    (h : runMethod m c rnd limit dfuel fuel w = (some (.ok r), w')) :
    w'.fs r.filename = some r.model ∧
      r.filename = joinPath c.path (reducedName r.model.nSpecies) := by
  have := (runMethod_safe m c rnd limit dfuel fuel w).2.1 r (by rw [h])
  rw [h] at this
  exact ⟨this.2, this.1⟩

/-- **C22**: the clean-up inside the loop never fails on a missing file. -/
theorem C22_cleanup_never_fails (m : Method) (c : Ctx) (rnd : ℚ → ℚ) (limit : PyF)
    (dfuel fuel : Nat) (w : World) :
    (runMethod m c rnd limit dfuel fuel w).1 ≠ some (.error .fileNotFound) :=
  (runMethod_safe m c rnd limit dfuel fuel w).2.2

/-! ### C23 -/

/-- **C23**: if every candidate on the grid meets the limit, the run never stops. -/
theorem C23_never_stops {m : Method} {c : Ctx} {sol : Mech} (U : Usable m c sol) {limit : PyF}
    (hl : LimitOk c sol limit) (a : Arith)
    (h : ∀ k, Meets c sol (Kept m c sol) limit (gridThr a.rnd 0 k)) :
    ∃ N, ∀ dfuel ≥ N, ∀ fuel w, w.fs c.modelFile = some sol →
      (runMethod m c a.rnd limit dfuel fuel w).1 = none := by
  obtain ⟨N, hN⟩ := method_isRun U
  refine ⟨N, fun dfuel hd fuel w hw => ?_⟩
  obtain ⟨reduce, finish, short, limbo, R⟩ := hN dfuel hd
  rw [R.eq a.rnd limit fuel w hw]
  exact run_never_stops R.behaves hl a.ok hw (j := 0) (by intro i hi; omega)
    (fun i hi => (exit_facts m a).1 i (by omega)) h fuel

/-- **C23**: a run stops exactly when it does not get stuck on a grid all of whose thresholds
meet the limit. -/
theorem C23_stops_iff {m : Method} {c : Ctx} {sol : Mech} (U : Usable m c sol) {limit : PyF}
    (hl : LimitOk c sol limit) (a : Arith) :
    ∃ N, ∀ dfuel ≥ N, ∀ w, w.fs c.modelFile = some sol →
      ((∃ n, ∀ fuel ≥ n, (runMethod m c a.rnd limit dfuel fuel w).1 ≠ none) ↔
        ¬ ∃ j ≤ lastStart m a, (∀ i < j, Exceeds c sol (Kept m c sol) limit (startThr a.rnd i)) ∧
          ∀ k, Meets c sol (Kept m c sol) limit (gridThr a.rnd j k)) := by
  obtain ⟨N, hN⟩ := method_isRun U
  refine ⟨N, fun dfuel hd w hw => ?_⟩
  obtain ⟨reduce, finish, short, limbo, R⟩ := hN dfuel hd
  have := run_stops_iff (ex := exitThr m a.rnd) R.behaves hl a.ok (R.finishOk a.rnd limit) hw
    (exit_facts m a).1 (exit_facts m a).2
  rw [← this]
  constructor <;>
  · rintro ⟨n, hn⟩
    refine ⟨n, fun fuel hf => ?_⟩
    have := hn fuel hf
    rwa [R.eq a.rnd limit fuel w hw] at *

/-- the species left at thresholds above every coefficient: the protected ones, for DRG and
PFA also the targets -/
def core (m : Method) (c : Ctx) (s : String) : Prop :=
  s ∈ c.safe ∨ (m ≠ .drgep ∧ s ∈ c.targets)

/-- **C23**: if the model left at thresholds above every coefficient exceeds the limit, the
run stops. -/
theorem C23_core_stops {m : Method} {c : Ctx} {sol : Mech} (U : Usable m c sol) {limit : PyF}
    (hl : LimitOk c sol limit) (a : Arith) (hM : c.matrices ≠ [])
    (hu : ∀ M ∈ c.matrices, ∀ i j, M i j ≤ 1)
    (h : limit.lt (c.errOf (trim sol (open Classical in sol.names.filter (fun s => ¬ core m c s))
      ("reduced_".toList ++ c.modelFile) c.phase)) = true) :
    ∃ N, ∀ dfuel ≥ N, ∀ w, w.fs c.modelFile = some sol →
      ∃ n, ∀ fuel ≥ n, (runMethod m c a.rnd limit dfuel fuel w).1 ≠ none := by
  obtain ⟨M0, hM0⟩ := List.exists_mem_of_ne_nil _ hM
  have hcore : ∀ t, 1 < t → ∀ s, Kept m c sol t s ↔ core m c s := by
    intro t ht s
    have lin : ∀ M ∈ c.matrices, Linked M sol.names c.targets t s → s ∈ c.targets := by
      rintro M hm ⟨x, hx, hr⟩
      cases hr with
      | refl => exact hx
      | tail _ h2 =>
        obtain ⟨i, j, -, -, h3, -⟩ := h2
        have := hu M hm i j; linarith
    have kd : KeptDrg c sol t s ↔ (s ∈ c.safe ∨ s ∈ c.targets) := by
      constructor
      · rintro (⟨M, hm, hl⟩ | h2)
        · exact Or.inr (lin M hm hl)
        · exact Or.inl h2
      · rintro (h2 | h2)
        · exact Or.inr h2
        · exact Or.inl ⟨M0, hM0, s, h2, .refl⟩
    unfold core
    cases m
    · simpa [Kept] using kd
    · simpa [Kept] using keptPath_above_one (U.unit rfl).1 (U.unit rfl).2 ht s
    · simpa [Kept] using kd
  obtain ⟨N, hN⟩ := C23_stops_iff U hl a
  refine ⟨N, fun dfuel hd w hw => (hN dfuel hd w hw).2 ?_⟩
  rintro ⟨j, hj, -, hall⟩
  have hj4 : j ≤ 4 := by
    have : lastStart m a ≤ 4 := by cases m <;> cases a <;> decide
    omega
  obtain ⟨k, hk⟩ := grid_passes_one a j hj4
  have hc : candidate c sol (Kept m c sol) (gridThr a.rnd j k) =
      trim sol (open Classical in sol.names.filter (fun s => ¬ core m c s))
      ("reduced_".toList ++ c.modelFile) c.phase := by
    classical
    unfold candidate
    congr 1
    apply List.filter_congr
    intro s _
    simp [hcore _ hk s]
  have := hall k
  unfold Meets at this
  rw [hc] at this
  rw [PyF.not_lt_of_le this] at h
  cases h

/-! ### C24 -/

/-- **C24**: if the candidate exceeds the limit at every starting threshold, the run ends with
`SystemExit` in exactly `lastStart m a + 1` iterations: three for DRG and PFA, for DRGEP four
in exact and five in binary64 arithmetic. -/
theorem C24_exit {m : Method} {c : Ctx} {sol : Mech} (U : Usable m c sol) {limit : PyF}
    (hl : LimitOk c sol limit) (a : Arith)
    (h : ∀ i ≤ lastStart m a, Exceeds c sol (Kept m c sol) limit (startThr a.rnd i)) :
    ∃ N, ∀ dfuel ≥ N, ∀ fuel w, w.fs c.modelFile = some sol →
      (runMethod m c a.rnd limit dfuel fuel w).1 =
        if fuel < lastStart m a + 1 then none else some (.error .systemExit) := by
  obtain ⟨N, hN⟩ := method_isRun U
  refine ⟨N, fun dfuel hd fuel w hw => ?_⟩
  obtain ⟨reduce, finish, short, limbo, R⟩ := hN dfuel hd
  rw [R.eq a.rnd limit fuel w hw]
  obtain ⟨h1, h2⟩ := run_exits (finish := finish a.rnd limit) (ex := exitThr m a.rnd) R.behaves hl
    hw h (exit_facts m a).1 (exit_facts m a).2
  split_ifs with hf
  · exact h1 fuel (by omega)
  · exact h2 fuel (by omega)

/-- **C24**: `SystemExit` only ever comes from all starting thresholds failing. -/
theorem C24_exit_only {m : Method} {c : Ctx} {sol : Mech} (U : Usable m c sol) {limit : PyF}
    (hl : LimitOk c sol limit) (a : Arith) :
    ∃ N, ∀ dfuel ≥ N, ∀ fuel w, w.fs c.modelFile = some sol →
      (runMethod m c a.rnd limit dfuel fuel w).1 = some (.error .systemExit) →
      ∀ i ≤ lastStart m a, Exceeds c sol (Kept m c sol) limit (startThr a.rnd i) := by
  obtain ⟨N, hN⟩ := method_isRun U
  refine ⟨N, fun dfuel hd fuel w hw hrun => ?_⟩
  obtain ⟨reduce, finish, short, limbo, R⟩ := hN dfuel hd
  rw [R.eq a.rnd limit fuel w hw] at hrun
  have hend := run_end (ex := exitThr m a.rnd) R.behaves hl (gridThr_mono a.ok)
    (R.finishOk a.rnd limit) fuel hw
  generalize runWith reduce (finish a.rnd limit) a.rnd (exitThr m a.rnd) limit fuel
    (loopInit a.rnd sol c.modelFile w) = x at hrun hend
  cases hend with
  | running w => simp at hrun
  | undefined => simp at hrun
  | done => simp at hrun
  | exit j w h1 h2 h3 =>
    intro i hi
    apply h1
    by_contra hc
    push Not at hc
    exact (exit_facts m a).1 (j + 1) (by omega) (by omega) h3

/-! ### C25 -/

/-- **C25**: when the run reaches a candidate with undefined error, it raises. -/
theorem C25_nan_raises {m : Method} {c : Ctx} {sol : Mech} (U : Usable m c sol) {limit : PyF}
    (hl : LimitOk c sol limit) (a : Arith) {j k : Nat} (hj : j ≤ lastStart m a)
    (h1 : ∀ i < j, Exceeds c sol (Kept m c sol) limit (startThr a.rnd i))
    (h2 : ∀ i < k, Meets c sol (Kept m c sol) limit (gridThr a.rnd j i))
    (h3 : c.errOf (candidate c sol (Kept m c sol) (gridThr a.rnd j k)) = .nan) :
    ∃ N, ∀ dfuel ≥ N, ∀ fuel ≥ j + k + 2, ∀ w, w.fs c.modelFile = some sol →
      (runMethod m c a.rnd limit dfuel fuel w).1 = some (.error .attributeError) := by
  obtain ⟨N, hN⟩ := method_isRun U
  refine ⟨N, fun dfuel hd fuel hfu w hw => ?_⟩
  obtain ⟨reduce, finish, short, limbo, R⟩ := hN dfuel hd
  have hnm : ¬ Meets c sol (Kept m c sol) limit (gridThr a.rnd j k) := by
    unfold Meets; rw [h3]; cases limit <;> simp [PyF.le]
  have hne : ¬ Exceeds c sol (Kept m c sol) limit (gridThr a.rnd j k) := by
    unfold Exceeds; rw [h3]; cases limit <;> simp [PyF.lt]
  have h0 : ¬ Exceeds c sol (Kept m c sol) limit (startThr a.rnd j) := by
    rcases k with _ | k
    · exact hne
    · exact Spec.Meets.not_exceeds (h2 0 (by omega))
  rw [R.eq a.rnd limit fuel w hw]
  exact (run_stops (ex := exitThr m a.rnd) R.behaves hl a.ok (R.finishOk a.rnd limit) hw h1
    (fun i hi => (exit_facts m a).1 i (by omega)) h0 h2 hnm).2.1 hne fuel (by omega)

/-- **C25**: in exact arithmetic a returned model never has an undefined error. -/
theorem C25_never_returned_partial {m : Method} {c : Ctx} {sol : Mech} (U : Usable m c sol)
    {limit : PyF} (hl : LimitOk c sol limit) :
    ∃ N, ∀ dfuel ≥ N, ∀ fuel w r w', w.fs c.modelFile = some sol →
      runMethod m c id limit dfuel fuel w = (some (.ok r), w') → r.error ≠ .nan := by
  obtain ⟨N, hN⟩ := C19_within_limit_partial U hl
  refine ⟨N, fun dfuel hd fuel w r w' hw hrun => ?_⟩
  exact (PyF.le_nan (hN dfuel hd fuel w r w' hw hrun).1).1

end Verif
