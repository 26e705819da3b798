import Verif.Lemmas.ReduceBehaves
/-!
Whole runs: which fuel suffices, which result comes out.
-/
namespace Verif
open Spec

/-! ### the threshold grid -/

theorem rndOk_id : RndOk id := ⟨fun _ _ h => h, fun _ => rfl, rfl, rfl⟩

theorem startThr_nonneg {rnd : ℚ → ℚ} (h : RndOk rnd) (j : Nat) : 0 ≤ startThr rnd j := by
  induction j with
  | zero =>
    have := h.mono 0 (1/100) (by norm_num)
    rwa [h.zero] at this
  | succ j ih =>
    have := h.mono 0 (startThr rnd j / 10) (by positivity)
    rwa [h.zero] at this

theorem startThr_idem {rnd : ℚ → ℚ} (h : RndOk rnd) (j : Nat) : rnd (startThr rnd j) = startThr rnd j := by
  cases j <;> exact h.idem _

theorem gridThr_idem {rnd : ℚ → ℚ} (h : RndOk rnd) (j k : Nat) :
    rnd (gridThr rnd j k) = gridThr rnd j k := by
  cases k
  · exact startThr_idem h j
  · exact h.idem _

theorem gridThr_mono {rnd : ℚ → ℚ} (h : RndOk rnd) (j k : Nat) :
    gridThr rnd j k ≤ gridThr rnd j (k + 1) := by
  have := h.mono (gridThr rnd j k) (gridThr rnd j k + startThr rnd j)
    (by have := startThr_nonneg h j; linarith)
  rwa [gridThr_idem h] at this

theorem startThr_exact (j : Nat) : startThr id j = 1 / 100 / 10 ^ j := by
  induction j with
  | zero => simp [startThr]
  | succ j ih =>
    show startThr id j / 10 = _
    rw [ih, pow_succ]
    field_simp

theorem gridThr_exact (j k : Nat) : gridThr id j k = (k + 1) * startThr id j := by
  induction k with
  | zero => simp [gridThr]
  | succ k ih =>
    show gridThr id j k + startThr id j = _
    rw [ih]; push_cast; ring

theorem finalThr_exact (j k : Nat) : finalThr id j k = gridThr id j k := by
  unfold finalThr
  rw [gridThr_exact, gridThr_exact]
  simp only [id]
  push_cast
  ring

section
variable {c : Ctx} {sol : Mech} {reduce : ReduceFn} {kept : ℚ → String → Prop}
  {short : ℚ → Nat → Prop} {limbo : ℚ → Option (List String)}
  {rnd : ℚ → ℚ} {ex : ℚ} {limit : PyF} {finish : LoopState → Except Err RModel × World}

theorem runWith_shift {n : Nat} {s s' : LoopState}
    (h : ∀ m, whileLoop reduce rnd ex limit (n + m) s = whileLoop reduce rnd ex limit m s') (m : Nat) :
    runWith reduce finish rnd ex limit (n + m) s = runWith reduce finish rnd ex limit m s' := by
  unfold runWith; rw [h]

theorem whileLoop_one {s s' : LoopState} (h : loopStep reduce rnd ex limit s = .running s') (m : Nat) :
    whileLoop reduce rnd ex limit (1 + m) s = whileLoop reduce rnd ex limit m s' := by
  rw [Nat.add_comm]
  conv_lhs => unfold whileLoop
  rw [h]

/-- the run reaches the `k`-th grid threshold above the `j`-th starting threshold -/
theorem run_reaches (B : Behaves c sol reduce kept short limbo) (hl : LimitOk c sol limit)
    (hr : RndOk rnd) {w : World} (hw : w.fs c.modelFile = some sol) {j k : Nat}
    (h1 : ∀ i < j, Exceeds c sol kept limit (startThr rnd i))
    (h2 : ∀ i ≤ j, i ≠ 0 → ¬ startThr rnd i ≤ ex)
    (h3 : ¬ Exceeds c sol kept limit (startThr rnd j))
    (h4 : ∀ i < k, Meets c sol kept limit (gridThr rnd j i)) :
    ∃ s, Phase2 c sol kept rnd j k s ∧ ∀ m,
      whileLoop reduce rnd ex limit (j + 1 + k + m) (loopInit rnd sol c.modelFile w) =
        whileLoop reduce rnd ex limit m s := by
  obtain ⟨s1, -, a2, a3⟩ := whileLoop_phase1 (ex := ex) (rnd := rnd) (limit := limit) B hl j 0
    (loopInit rnd sol c.modelFile w) (phase1_init B hw) (by
      intro i hi
      rw [Nat.zero_add]
      exact ⟨h1 i hi, h2 (i + 1) (by omega) (by omega)⟩)
  rw [Nat.zero_add] at a3
  obtain ⟨s2, b1, b2⟩ := (phase1_step (ex := ex) (rnd := rnd) B hl a3).2.2 h3
  obtain ⟨s3, -, d2, d3⟩ := whileLoop_phase2 (ex := ex) B hl (gridThr_mono hr) k 0 s2 b2 (by
    intro i hi; rw [Nat.zero_add]; exact h4 i hi)
  rw [Nat.zero_add] at d3
  refine ⟨s3, d3, fun m => ?_⟩
  rw [show j + 1 + k + m = j + (1 + (k + m)) by omega, a2, whileLoop_one b1, d2]

theorem run_never_stops (B : Behaves c sol reduce kept short limbo) (hl : LimitOk c sol limit)
    (hr : RndOk rnd) {w : World} (hw : w.fs c.modelFile = some sol) {j : Nat}
    (h1 : ∀ i < j, Exceeds c sol kept limit (startThr rnd i))
    (h2 : ∀ i ≤ j, i ≠ 0 → ¬ startThr rnd i ≤ ex)
    (h3 : ∀ k, Meets c sol kept limit (gridThr rnd j k)) (fuel : Nat) :
    (runWith reduce finish rnd ex limit fuel (loopInit rnd sol c.modelFile w)).1 = none := by
  have h0 : ¬ Exceeds c sol kept limit (startThr rnd j) := Spec.Meets.not_exceeds (h3 0)
  by_cases hf : fuel ≤ j
  · obtain ⟨s1, a1, -⟩ := whileLoop_phase1 (ex := ex) (rnd := rnd) (limit := limit) B hl fuel 0
      (loopInit rnd sol c.modelFile w) (phase1_init B hw) (by
        intro i hi
        rw [Nat.zero_add]
        exact ⟨h1 i (by omega), h2 (i + 1) (by omega) (by omega)⟩)
    unfold runWith; rw [a1]
  · obtain ⟨k, rfl⟩ : ∃ k, fuel = j + 1 + k + 0 := ⟨fuel - (j + 1), by omega⟩
    obtain ⟨s, -, a⟩ := run_reaches (ex := ex) B hl hr hw (k := k) h1 h2 h0 (fun i _ => h3 i)
    unfold runWith; rw [a]; rfl

/-- the run stops at a grid threshold that does not meet the limit -/
theorem run_stops (B : Behaves c sol reduce kept short limbo) (hl : LimitOk c sol limit)
    (hr : RndOk rnd) (hf : FinishOk reduce limit rnd c.path finish)
    {w : World} (hw : w.fs c.modelFile = some sol) {j k : Nat}
    (h1 : ∀ i < j, Exceeds c sol kept limit (startThr rnd i))
    (h2 : ∀ i ≤ j, i ≠ 0 → ¬ startThr rnd i ≤ ex)
    (h3 : ¬ Exceeds c sol kept limit (startThr rnd j))
    (h4 : ∀ i < k, Meets c sol kept limit (gridThr rnd j i))
    (h5 : ¬ Meets c sol kept limit (gridThr rnd j k)) :
    (∀ fuel < j + 1 + k + 1,
      (runWith reduce finish rnd ex limit fuel (loopInit rnd sol c.modelFile w)).1 = none) ∧
    (¬ Exceeds c sol kept limit (gridThr rnd j k) → ∀ fuel ≥ j + 1 + k + 1,
      (runWith reduce finish rnd ex limit fuel (loopInit rnd sol c.modelFile w)).1 =
        some (.error .attributeError)) ∧
    (∀ k', k = k' + 1 → Exceeds c sol kept limit (gridThr rnd j k) → ∀ fuel ≥ j + 1 + k + 1,
      (runWith reduce finish rnd ex limit fuel (loopInit rnd sol c.modelFile w)).1 =
        some (.ok (freshResult c sol kept limbo (finalThr rnd j k')))) := by
  refine ⟨?_, ?_⟩
  · intro fuel hfu
    by_cases hfj : fuel ≤ j
    · obtain ⟨s1, a1, -⟩ := whileLoop_phase1 (ex := ex) (rnd := rnd) (limit := limit) B hl fuel 0
        (loopInit rnd sol c.modelFile w) (phase1_init B hw) (by
          intro i hi
          rw [Nat.zero_add]
          exact ⟨h1 i (by omega), h2 (i + 1) (by omega) (by omega)⟩)
      unfold runWith; rw [a1]
    · obtain ⟨k', rfl⟩ : ∃ k', fuel = j + 1 + k' + 0 := ⟨fuel - (j + 1), by omega⟩
      obtain ⟨s, -, a⟩ := run_reaches (ex := ex) B hl hr hw (k := k') h1 h2 h3
        (fun i hi => h4 i (by omega))
      unfold runWith; rw [a]; rfl
  · obtain ⟨s, p, a⟩ := run_reaches (ex := ex) B hl hr hw h1 h2 h3 h4
    have hleft := (phase2_step (ex := ex) B hl (gridThr_mono hr j k) p).2 h5
    have e : ∀ fuel ≥ j + 1 + k + 1,
        runWith reduce finish rnd ex limit fuel (loopInit rnd sol c.modelFile w) =
          (some (finish s).1, (finish s).2) := by
      intro fuel hfu
      obtain ⟨m, rfl⟩ : ∃ m, fuel = j + 1 + k + (m + 1) := ⟨fuel - (j + 1 + k + 1), by omega⟩
      unfold runWith
      rw [a]
      unfold whileLoop
      rw [hleft]
    obtain ⟨f1, f2⟩ := hf s p.last p.errCur
    constructor
    · intro hne fuel hfu
      rw [e fuel hfu]
      rw [f2 (by rw [← Bool.not_eq_true, p.rep.lt_iff hl]; exact hne)]
    · rintro k' rfl he fuel hfu
      rw [e fuel hfu, f1 ((p.rep.lt_iff hl).2 he), B.fresh _ _ p.fs]
      have hb : backStep rnd s = finalThr rnd j k' := by
        simp [backStep, finalThr, p.thr, p.inc]
      rw [hb]

/-- the run exits when every starting threshold fails -/
theorem run_exits (B : Behaves c sol reduce kept short limbo) (hl : LimitOk c sol limit)
    {w : World} (hw : w.fs c.modelFile = some sol) {J : Nat}
    (h1 : ∀ i ≤ J, Exceeds c sol kept limit (startThr rnd i))
    (h2 : ∀ i ≤ J, i ≠ 0 → ¬ startThr rnd i ≤ ex) (h3 : startThr rnd (J + 1) ≤ ex) :
    (∀ fuel ≤ J,
      (runWith reduce finish rnd ex limit fuel (loopInit rnd sol c.modelFile w)).1 = none) ∧
    (∀ fuel > J,
      (runWith reduce finish rnd ex limit fuel (loopInit rnd sol c.modelFile w)).1 =
        some (.error .systemExit)) := by
  constructor
  · intro fuel hf
    obtain ⟨s1, a1, -⟩ := whileLoop_phase1 (ex := ex) (rnd := rnd) (limit := limit) B hl fuel 0
      (loopInit rnd sol c.modelFile w) (phase1_init B hw) (by
        intro i hi
        rw [Nat.zero_add]
        exact ⟨h1 i (by omega), h2 (i + 1) (by omega) (by omega)⟩)
    unfold runWith; rw [a1]
  · intro fuel hf
    obtain ⟨s1, -, a2, a3⟩ := whileLoop_phase1 (ex := ex) (rnd := rnd) (limit := limit) B hl J 0
      (loopInit rnd sol c.modelFile w) (phase1_init B hw) (by
        intro i hi
        rw [Nat.zero_add]
        exact ⟨h1 i (by omega), h2 (i + 1) (by omega) (by omega)⟩)
    rw [Nat.zero_add] at a3
    obtain ⟨w', e⟩ := (phase1_step (ex := ex) (rnd := rnd) B hl a3).1 (h1 J le_rfl) h3
    obtain ⟨m, rfl⟩ : ∃ m, fuel = J + (m + 1) := ⟨fuel - (J + 1), by omega⟩
    unfold runWith
    rw [a2]
    unfold whileLoop
    rw [e]

/-- a run stops exactly when it is not stuck on a grid all of whose thresholds meet the
limit -/
theorem run_stops_iff (B : Behaves c sol reduce kept short limbo) (hl : LimitOk c sol limit)
    (hr : RndOk rnd) (hf : FinishOk reduce limit rnd c.path finish)
    {w : World} (hw : w.fs c.modelFile = some sol) {J : Nat}
    (h2 : ∀ i ≤ J, i ≠ 0 → ¬ startThr rnd i ≤ ex) (h3 : startThr rnd (J + 1) ≤ ex) :
    (∃ N, ∀ fuel ≥ N,
      (runWith reduce finish rnd ex limit fuel (loopInit rnd sol c.modelFile w)).1 ≠ none) ↔
    ¬ ∃ j ≤ J, (∀ i < j, Exceeds c sol kept limit (startThr rnd i)) ∧
      ∀ k, Meets c sol kept limit (gridThr rnd j k) := by
  classical
  constructor
  · rintro ⟨N, hN⟩ ⟨j, hj, h1, h4⟩
    exact hN N le_rfl (run_never_stops B hl hr hw h1 (fun i hi => h2 i (by omega)) h4 N)
  · intro hno
    by_cases hall : ∀ i ≤ J, Exceeds c sol kept limit (startThr rnd i)
    · refine ⟨J + 1, fun fuel hfu => ?_⟩
      rw [(run_exits B hl hw hall h2 h3).2 fuel hfu]
      simp
    · push Not at hall
      let P : Nat → Prop := fun j => j ≤ J ∧ ¬ Exceeds c sol kept limit (startThr rnd j)
      have hP : ∃ j, P j := hall
      obtain ⟨hj, hne⟩ := Nat.find_spec hP
      have hmin : ∀ i < Nat.find hP, Exceeds c sol kept limit (startThr rnd i) := by
        intro i hi
        by_contra hc
        exact Nat.find_min hP hi ⟨by omega, hc⟩
      have hex : ∃ k, ¬ Meets c sol kept limit (gridThr rnd (Nat.find hP) k) := by
        by_contra hc
        push Not at hc
        exact hno ⟨_, hj, hmin, hc⟩
      have hk := Nat.find_spec hex
      have hkmin : ∀ i < Nat.find hex, Meets c sol kept limit (gridThr rnd (Nat.find hP) i) := by
        intro i hi
        by_contra hc
        exact Nat.find_min hex hi hc
      obtain ⟨-, r2, r3⟩ := run_stops (ex := ex) B hl hr hf hw hmin
        (fun i hi => h2 i (by omega)) hne hkmin hk
      refine ⟨Nat.find hP + 1 + Nat.find hex + 1, fun fuel hfu => ?_⟩
      by_cases he : Exceeds c sol kept limit (gridThr rnd (Nat.find hP) (Nat.find hex))
      · rcases hk0 : Nat.find hex with _ | k'
        · rw [hk0] at he; exact absurd he hne
        · rw [r3 k' hk0 he fuel hfu]; simp
      · rw [r2 he fuel hfu]; simp

end

/-- anything a run returns was produced by a final reduction without previous model -/
theorem runWith_ok_fresh {c : Ctx} {reduce : ReduceFn} (h : FileSafe c reduce)
    (hnc : ∀ n, redFile c n ≠ c.modelFile)
    {finish : LoopState → Except Err RModel × World} {rnd : ℚ → ℚ}
    (hf : ∀ s r, (finish s).1 = .ok r → ∃ t, finish s = reduce t none s.w)
    {ex : ℚ} {limit : PyF} {fuel : Nat} {s : LoopState} {r : RModel} {w' : World}
    (hrun : runWith reduce finish rnd ex limit fuel s = (some (.ok r), w')) :
    ∃ t w1, w1.fs c.modelFile = s.w.fs c.modelFile ∧ reduce t none w1 = (.ok r, w') := by
  obtain ⟨h1, -, -⟩ := whileLoop_touches h rnd ex limit fuel s
  unfold runWith at hrun
  rcases hst : whileLoop reduce rnd ex limit fuel s with t | t | ⟨e, w⟩
  · rw [hst] at hrun; simp at hrun
  · rw [hst] at hrun h1
    simp only [Prod.mk.injEq, Option.some.injEq] at hrun
    obtain ⟨q, hq⟩ := hf t r hrun.1
    refine ⟨q, t.w, h1 _ (fun n => (hnc n).symm), ?_⟩
    rw [← hq]
    exact Prod.ext hrun.1 hrun.2
  · rw [hst] at hrun; simp at hrun

theorem finishDrg_fresh {reduce : ReduceFn} {rnd : ℚ → ℚ} {limit : PyF} {path : Text}
    (s : LoopState) (r : RModel) (h : (finishDrg reduce rnd limit path s).1 = .ok r) :
    ∃ t, finishDrg reduce rnd limit path s = reduce t none s.w := by
  unfold finishDrg at h ⊢
  split_ifs at h ⊢ with h1
  · exact ⟨_, rfl⟩
  · rcases hq : s.last with _ | q <;> rw [hq] at h <;> simp [writeYamlTuple] at h

theorem finishOther_fresh {reduce : ReduceFn} {rnd : ℚ → ℚ} {limit : PyF} {path : Text}
    (s : LoopState) (r : RModel) (h : (finishOther reduce rnd limit path s).1 = .ok r) :
    ∃ t, finishOther reduce rnd limit path s = reduce t none s.w := by
  unfold finishOther at h ⊢
  rcases hq : s.last with _ | q <;> rw [hq] at h
  · simp at h
  · dsimp only at h ⊢
    split_ifs at h ⊢ with h1
    · exact ⟨_, rfl⟩
    · simp [writeYamlTuple] at h

theorem importanceLoop_isSome {rnd : ℚ → ℚ} {names targets : List String} {fuel : Nat} (Ms : List NMat) :
    ∀ (d imp : String → Option ℚ), importanceLoop rnd names targets fuel Ms d = .ok imp →
      ∀ s, (d s).isSome → (imp s).isSome := by
  induction Ms with
  | nil =>
    intro d imp h s hs
    simp only [importanceLoop, Except.ok.injEq] at h
    rw [← h]; exact hs
  | cons M Ms ih =>
    intro d imp h s hs
    unfold importanceLoop at h
    rcases hg : graphSearchDrgep rnd (matrixGraph M names) targets fuel with e | co
    · rw [hg] at h; cases h
    · rw [hg] at h
      exact ih _ imp h s (by simpa [maxInto] using hs)

theorem importance_isSome {rnd : ℚ → ℚ} {names targets : List String} {Ms : List NMat} {fuel : Nat}
    {imp : String → Option ℚ} (h : getImportanceCoeffs rnd names targets Ms fuel = .ok imp) :
    ∀ s ∈ names, (imp s).isSome := by
  intro s hs
  exact importanceLoop_isSome Ms _ imp h s (by simp [hs])

theorem searchLoop_errors {rnd : ℚ → ℚ} {g : WGraph String ℚ} {fuel : Nat} {e : Err} (ts : List String) :
    ∀ d, searchLoop rnd g fuel ts d = .error e → e = .outOfFuel ∨ e = .keyError := by
  induction ts with
  | nil => intro d h; simp [searchLoop] at h
  | cons t ts ih =>
    intro d h
    unfold searchLoop at h
    rcases hs : ssDijkstra rnd g t fuel with e' | co <;> rw [hs] at h
    · simp only [Except.error.injEq] at h
      subst h
      unfold ssDijkstra at hs
      split_ifs at hs
      · split at hs
        · simp at hs
        · simp only [Except.error.injEq] at hs; exact Or.inl hs.symm
      · simp only [Except.error.injEq] at hs; exact Or.inr hs.symm
    · exact ih _ h

theorem importance_no_fileNotFound {rnd : ℚ → ℚ} {names targets : List String} {Ms : List NMat} {fuel : Nat} :
    getImportanceCoeffs rnd names targets Ms fuel ≠ .error .fileNotFound := by
  unfold getImportanceCoeffs
  generalize (fun sp => if sp ∈ names then some (0 : ℚ) else none) = d
  induction Ms generalizing d with
  | nil => simp [importanceLoop]
  | cons M Ms ih =>
    unfold importanceLoop
    rcases hg : graphSearchDrgep rnd (matrixGraph M names) targets fuel with e | co
    · rcases searchLoop_errors _ _ hg with rfl | rfl <;> simp
    · exact ih _

end Verif
