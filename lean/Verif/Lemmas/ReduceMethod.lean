import Verif.Lemmas.ReduceRun
import Verif.Lemmas.Num
import Mathlib.Tactic.IntervalCases
/-!
The three run functions as instances of the generic loop.
-/
namespace Verif
open Spec

theorem Spec.Arith.ok (a : Arith) : RndOk a.rnd := by
  cases a
  · exact rndOk_id
  · exact rndOk_rnd64
  · exact rndOk_rnd754

/-- the constant the starting thresholds are compared with -/
def exitThr : Method → (ℚ → ℚ) → ℚ
  | .drgep, rnd => rnd (1 / 1000000)
  | _, rnd => rnd (1 / 100000)

theorem exit_facts (m : Method) (a : Arith) :
    (∀ i ≤ lastStart m a, i ≠ 0 → ¬ startThr a.rnd i ≤ exitThr m a.rnd) ∧
    startThr a.rnd (lastStart m a + 1) ≤ exitThr m a.rnd := by
  have h : ∀ m a, (∀ i < 5, i ≤ lastStart m a → i ≠ 0 → ¬ startThr a.rnd i ≤ exitThr m a.rnd) ∧
      startThr a.rnd (lastStart m a + 1) ≤ exitThr m a.rnd := by
    intro m a
    cases m <;> cases a <;> decide +kernel
  refine ⟨fun i hi => (h m a).1 i ?_ hi, (h m a).2⟩
  have : lastStart m a ≤ 4 := by cases m <;> cases a <;> decide
  omega

/-- kept by importance coefficient = kept by path products -/
theorem keptDrgep_iff {c : Ctx} {sol : Mech} {imp : String → Option ℚ} {s : String} {x : ℚ}
    (h : imp s = some x) (hg : IsGreatest (Candidates c.rndMul sol.names c.targets c.matrices s) x) (t : ℚ) :
    KeptDrgep c imp t s ↔ KeptPath c sol t s := by
  unfold KeptDrgep KeptPath
  rw [h]
  constructor
  · rintro (⟨y, hy, hl⟩ | h2)
    · simp only [Option.some.injEq] at hy
      subst hy
      exact Or.inl ⟨x, hg.1, hl⟩
    · exact Or.inr h2
  · rintro (⟨y, hy, hl⟩ | h2)
    · exact Or.inl ⟨x, rfl, hl.trans (hg.2 hy)⟩
    · exact Or.inr h2

theorem Behaves.congr {c : Ctx} {sol : Mech} {reduce : ReduceFn} {kept kept' : ℚ → String → Prop}
    {short : ℚ → Nat → Prop} {limbo : ℚ → Option (List String)}
    (B : Behaves c sol reduce kept short limbo) (hk : ∀ t, ∀ s ∈ sol.names, (kept t s ↔ kept' t s))
    (hanti : ∀ t t' s, t ≤ t' → kept' t' s → kept' t s) :
    Behaves c sol reduce kept' short limbo := by
  have hc : ∀ t, candidate c sol kept t = candidate c sol kept' t := by
    classical
    intro t
    rw [candidate_eq, candidate_eq]
    congr 1
    apply List.filter_congr
    intro s hs
    simp [hk t s hs]
  refine ⟨?_, B.reuse, B.build, hanti, ?_, ?_, B.noclash⟩
  · intro t w hw
    have := B.fresh t w hw
    unfold freshResult at this ⊢
    rw [hc t] at this
    exact this
  · intro t h s hs
    exact (hk t s hs).1 (B.short_full t h s hs)
  · intro t t' hle h s hs h'
    rw [← hc] at h
    exact (hk t s hs).1 (B.short_prev t t' hle h s hs ((hk t' s hs).2 h'))

/-- a run of a method is a run of the generic loop -/
structure IsRun (m : Method) (c : Ctx) (sol : Mech) (dfuel : Nat) (reduce : ReduceFn)
    (finish : (ℚ → ℚ) → PyF → LoopState → Except Err RModel × World)
    (short : ℚ → Nat → Prop) (limbo : ℚ → Option (List String)) : Prop where
  behaves : Behaves c sol reduce (Kept m c sol) short limbo
  finishOk : ∀ rnd limit, FinishOk reduce limit rnd c.path (finish rnd limit)
  eq : ∀ rnd limit fuel w, w.fs c.modelFile = some sol →
    (runMethod m c rnd limit dfuel fuel w).1 =
      (runWith reduce (finish rnd limit) rnd (exitThr m rnd) limit fuel
        (loopInit rnd sol c.modelFile w)).1

theorem loadModel_ok {w : World} {f : Text} {sol : Mech} (h : w.fs f = some sol) :
    loadModel w f = .ok sol := by
  unfold loadModel; rw [h]

theorem reduceDrgep_limbo {c : Ctx} {imp : String → Option ℚ} {t : ℚ} {w w' : World} {r : RModel}
    (h : reduceDrgep c imp t none w = (.ok r, w')) : r.limbo = none := by
  rw [reduceDrgep_eq] at h
  rcases h0 : loadModel w c.modelFile with e | sol <;> rw [h0] at h
  · simp at h
  · dsimp only at h
    rcases h1 : removedDrgep imp c.safe t sol.names with e | rem <;> rw [h1] at h
    · simp at h
    · dsimp only at h
      rw [buildCandidate_eq] at h
      simp only [Prod.mk.injEq, Except.ok.injEq] at h
      rw [← h.1]

theorem runDrgep_fst {c : Ctx} {sol : Mech} (hnc : ∀ n, redFile c n ≠ c.modelFile)
    {imp : String → Option ℚ} {dfuel : Nat} (ht : c.targets ≠ [])
    (hi : getImportanceCoeffs c.rndMul sol.names c.targets c.matrices dfuel = .ok imp)
    (rnd : ℚ → ℚ) (limit : PyF) (fuel : Nat) (w : World) (hw : w.fs c.modelFile = some sol) :
    (runDrgep c rnd limit dfuel fuel w).1 =
      (runWith (reduceDrgep c imp) (finishOther (reduceDrgep c imp) rnd limit c.path) rnd
        (rnd (1 / 1000000)) limit fuel (loopInit rnd sol c.modelFile w)).1 := by
  rw [runDrgep_eq]
  rw [loadModel_ok hw]
  dsimp only
  rw [if_neg ht, hi]
  dsimp only
  rcases hrun : runWith (reduceDrgep c imp) (finishOther (reduceDrgep c imp) rnd limit c.path) rnd
        (rnd (1 / 1000000)) limit fuel (loopInit rnd sol c.modelFile w) with ⟨_ | _ | r, w'⟩
  · rfl
  · rfl
  · obtain ⟨t, w1, -, h2⟩ := runWith_ok_fresh (reduceDrgep_fileSafe c imp) hnc
      finishOther_fresh hrun
    have := reduceDrgep_limbo h2
    dsimp only
    unfold appendLimbo
    rw [this]

theorem method_isRun {m : Method} {c : Ctx} {sol : Mech} (U : Usable m c sol) :
    ∃ N, ∀ dfuel ≥ N, ∃ reduce finish short limbo,
      IsRun m c sol dfuel reduce finish short limbo := by
  cases m with
  | drg =>
    refine ⟨0, fun dfuel _ => ⟨_, fun rnd limit => finishDrg (reduceDrg c) rnd limit c.path, _, _,
      reduceDrg_behaves U.toSetting, fun rnd limit => finishDrg_ok _, ?_⟩⟩
    intro rnd limit fuel w hw
    show (runDrg c rnd limit fuel w).1 = _
    rw [runDrg_eq]
    rw [loadModel_ok hw]
    dsimp only
    rw [if_neg U.target]
    rfl
  | pfa =>
    refine ⟨0, fun dfuel _ => ⟨_, fun rnd limit => finishOther (reducePfa c) rnd limit c.path, _, _,
      reducePfa_behaves U.toSetting (U.upper rfl), fun rnd limit => finishOther_ok _, ?_⟩⟩
    intro rnd limit fuel w hw
    show (runPfa c rnd limit fuel w).1 = _
    rw [runPfa_eq]
    rw [loadModel_ok hw]
    dsimp only
    rw [if_neg U.target]
    rfl
  | drgep =>
    obtain ⟨N, imp, h1, -, h3⟩ := C16_importance (U.unit rfl).1 U.nodup U.targets (U.unit rfl).2
    refine ⟨N, fun dfuel hd => ⟨_, fun rnd limit => finishOther (reduceDrgep c imp) rnd limit c.path,
      _, _, (reduceDrgep_behaves U.toSetting (imp := imp) ?_).congr ?_ ?_,
      fun rnd limit => finishOther_ok _, ?_⟩⟩
    · intro s hs
      obtain ⟨x, hx, -⟩ := h3 s hs
      rw [hx]; rfl
    · intro t s hs
      obtain ⟨x, hx, hg⟩ := h3 s hs
      exact keptDrgep_iff hx hg t
    · rintro t t' s hle (⟨y, hy, hl⟩ | h2)
      · exact Or.inl ⟨y, hy, hle.trans hl⟩
      · exact Or.inr h2
    · intro rnd limit fuel w hw
      exact runDrgep_fst U.noclash U.target (h1 dfuel hd) rnd limit fuel w hw

/-! ### the grid passes 1 -/

theorem startThr_pos (a : Arith) (j : Nat) (hj : j ≤ 4) : 1 / 10 ^ 7 ≤ startThr a.rnd j := by
  have h : ∀ a : Arith, ∀ j < 5, 1 / 10 ^ 7 ≤ startThr a.rnd j := by
    intro a; cases a <;> decide +kernel
  exact h a j (by omega)

theorem gridThr_step_binary64 (j : Nat) (hj : j ≤ 4) (k : Nat) (h : gridThr rnd64 j k ≤ 1) :
    gridThr rnd64 j k + startThr rnd64 j / 2 ≤ gridThr rnd64 j (k + 1) := by
  have hs : 1 / 10 ^ 7 ≤ startThr rnd64 j := startThr_pos .binary64 j hj
  have hs1 : startThr rnd64 j ≤ 1 := by
    have : ∀ j < 5, startThr rnd64 j ≤ 1 := by decide +kernel
    exact this j (by omega)
  have hg : 0 ≤ gridThr rnd64 j k := by
    induction k with
    | zero => exact startThr_nonneg rndOk_rnd64 j
    | succ k ih =>
      have := gridThr_mono rndOk_rnd64 j k
      exact (ih (this.trans h)).trans this
  have := rnd64_close (q := gridThr rnd64 j k + startThr rnd64 j) (by linarith)
  rw [abs_le] at this
  show _ ≤ rnd64 (gridThr rnd64 j k + startThr rnd64 j)
  have h2 : (gridThr rnd64 j k + startThr rnd64 j) / 2 ^ 53 ≤ 2 / 2 ^ 53 := by
    gcongr; linarith
  norm_num at h2 hs
  linarith [this.1]

theorem tiny_le : (1 : ℚ) / 2 ^ 1022 ≤ 1 / 10 ^ 8 :=
  one_div_le_one_div_of_le (by norm_num)
    ((by norm_num : (10 : ℚ) ^ 8 ≤ 2 ^ 27).trans (pow_le_pow_right₀ (by norm_num) (by norm_num)))

theorem startThr_ieee {j : Nat} (hj : j ≤ 4) : startThr rnd754 j = startThr rnd64 j := by
  have : ∀ j < 5, startThr rnd754 j = startThr rnd64 j := by decide +kernel
  exact this j (by omega)

/-- thresholds do not underflow -/
theorem gridThr_ieee {j : Nat} (hj : j ≤ 4) (k : Nat) : gridThr rnd754 j k = gridThr rnd64 j k := by
  induction k with
  | zero => exact startThr_ieee hj
  | succ k ih =>
    show rnd754 (_ + _) = rnd64 (_ + _)
    rw [ih, startThr_ieee hj]
    apply rnd754_normal
    have h1 : 1 / 10 ^ 7 ≤ startThr rnd64 j := startThr_pos .binary64 j hj
    have h2 : startThr rnd64 j ≤ gridThr rnd64 j k :=
      monotone_nat_of_le_succ (gridThr_mono rndOk_rnd64 j) (Nat.zero_le k)
    have h3 := tiny_le
    refine le_trans ?_ (le_abs_self _)
    generalize (1 : ℚ) / 2 ^ 1022 = e at h3 ⊢
    norm_num at h1 h3
    linarith

theorem finalThr_ieee {j : Nat} (hj : j ≤ 4) (k : Nat) : finalThr rnd754 j k = finalThr rnd64 j k := by
  unfold finalThr
  rw [gridThr_ieee hj, startThr_ieee hj]
  have h : ∀ j < 5, rnd754 (2 * startThr rnd64 j) = rnd64 (2 * startThr rnd64 j) ∧
      1 / 10 ^ 8 ≤ gridThr rnd64 j 2 - rnd64 (2 * startThr rnd64 j) := by decide +kernel
  obtain ⟨h1, h2⟩ := h j (by omega)
  rw [h1]
  apply rnd754_normal
  have h3 : gridThr rnd64 j 2 ≤ gridThr rnd64 j (k + 2) :=
    monotone_nat_of_le_succ (gridThr_mono rndOk_rnd64 j) (by omega)
  exact (tiny_le.trans (h2.trans (by linarith))).trans (le_abs_self _)

theorem grid_passes_one (a : Arith) (j : Nat) (hj : j ≤ 4) : ∃ k, 1 < gridThr a.rnd j k := by
  by_contra hc
  push Not at hc
  have hs := startThr_pos a j hj
  have hstep : ∀ k, gridThr a.rnd j k + startThr a.rnd j / 2 ≤ gridThr a.rnd j (k + 1) := by
    intro k
    cases a
    · show _ ≤ gridThr id j k + startThr id j
      have : 0 ≤ startThr id j := startThr_nonneg rndOk_id j
      change gridThr id j k + startThr id j / 2 ≤ _
      linarith
    · exact gridThr_step_binary64 j hj k (hc k)
    · show gridThr rnd754 j k + startThr rnd754 j / 2 ≤ gridThr rnd754 j (k + 1)
      have : gridThr rnd754 j k ≤ 1 := hc k
      rw [gridThr_ieee hj] at this
      rw [gridThr_ieee hj, gridThr_ieee hj, startThr_ieee hj]
      exact gridThr_step_binary64 j hj k this
  have hlow : ∀ k : Nat, k * (startThr a.rnd j / 2) ≤ gridThr a.rnd j k := by
    intro k
    induction k with
    | zero => simpa [gridThr] using startThr_nonneg a.ok j
    | succ k ih => have := hstep k; push_cast; linarith
  have h1 := hlow (3 * 10 ^ 7)
  have h2 := hc (3 * 10 ^ 7)
  generalize gridThr a.rnd j (3 * 10 ^ 7) = g at *
  push_cast at h1
  linarith

end Verif
