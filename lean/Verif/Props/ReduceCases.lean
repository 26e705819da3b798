import Verif.Props.Reduce
/-!
# C19, C25, C26: binary64; C27, C28, C67: limbo species; C68: impossible limits; examples
-/
namespace Verif
open Spec

/-! ### the back-step in binary64 arithmetic -/

/-- **C26** (exact): the final threshold is the last accepted one. -/
theorem C26_exact_partial (j k : Nat) : finalThr Arith.exact.rnd j k = gridThr Arith.exact.rnd j k :=
  finalThr_exact j k

/-- **C26** (binary64): the final threshold differs from the last accepted one already after
the first acceptance: `0.01 + 0.01 + 0.01 - 2 * 0.01 < 0.01`. -/
theorem C26_binary64_refuted :
    finalThr Arith.binary64.rnd 0 0 < gridThr Arith.binary64.rnd 0 0 := by
  decide +kernel

theorem rnd64_two_mul_start (j : Nat) (hj : j ≤ 4) : rnd64 (2 * startThr rnd64 j) = 2 * startThr rnd64 j := by
  have : ∀ j < 5, rnd64 (2 * startThr rnd64 j) = 2 * startThr rnd64 j := by decide +kernel
  exact this j (by omega)

theorem gridThr_ge_start {rnd : ℚ → ℚ} (h : RndOk rnd) (j k : Nat) :
    startThr rnd j ≤ gridThr rnd j k := by
  induction k with
  | zero => exact le_rfl
  | succ k ih => exact ih.trans (gridThr_mono h j k)

/-- **C26** (binary64): the difference is a few units in the last place. -/
theorem C26_binary64_close_partial (j k : Nat) (hj : j ≤ 4) :
    |finalThr Arith.binary64.rnd j k - gridThr Arith.binary64.rnd j k| ≤
      4 / 2 ^ 53 * gridThr Arith.binary64.rnd j (k + 2) := by
  show |finalThr rnd64 j k - gridThr rnd64 j k| ≤ 4 / 2 ^ 53 * gridThr rnd64 j (k + 2)
  have hs := startThr_nonneg rndOk_rnd64 j
  have g0 : 0 ≤ gridThr rnd64 j k := hs.trans (gridThr_ge_start rndOk_rnd64 j k)
  have m1 := gridThr_mono rndOk_rnd64 j k
  have m2 := gridThr_mono rndOk_rnd64 j (k + 1)
  have c1 := rnd64_close (q := gridThr rnd64 j k + startThr rnd64 j) (by linarith)
  have c2 := rnd64_close (q := gridThr rnd64 j (k + 1) + startThr rnd64 j) (by linarith)
  have e1 : rnd64 (gridThr rnd64 j k + startThr rnd64 j) = gridThr rnd64 j (k + 1) := rfl
  have e2 : rnd64 (gridThr rnd64 j (k + 1) + startThr rnd64 j) = gridThr rnd64 j (k + 2) := rfl
  rw [e1] at c1
  rw [e2] at c2
  have hf : finalThr rnd64 j k = rnd64 (gridThr rnd64 j (k + 2) - 2 * startThr rnd64 j) := by
    unfold finalThr; rw [rnd64_two_mul_start j hj]
  rw [hf]
  have gs := gridThr_ge_start rndOk_rnd64 j k
  generalize gridThr rnd64 j (k + 2) = g2 at *
  generalize gridThr rnd64 j (k + 1) = g1 at *
  generalize gridThr rnd64 j k = g at *
  generalize startThr rnd64 j = s at *
  rw [abs_le] at c1 c2
  norm_num at c1 c2
  have hnn : 0 ≤ g2 - 2 * s := by linarith [c1.1, c1.2, c2.1, c2.2]
  have c3 := rnd64_close hnn
  rw [abs_le] at c3 ⊢
  norm_num at c3 ⊢
  constructor <;> linarith [c1.1, c1.2, c2.1, c2.2, c3.1, c3.2]

/-- no coefficient separates the two thresholds -/
def NotSeparated (m : Method) (c : Ctx) (sol : Mech) (t t' : ℚ) : Prop :=
  match m with
  | .drgep => ∀ s ∈ sol.names, ∀ y ∈ Candidates c.rndMul sol.names c.targets c.matrices s, t ≤ y ↔ t' ≤ y
  | _ => ∀ M ∈ c.matrices, ∀ i j, t ≤ M i j ↔ t' ≤ M i j

theorem candidate_notSeparated {m : Method} {c : Ctx} {sol : Mech} {t t' : ℚ}
    (h : NotSeparated m c sol t t') :
    candidate c sol (Kept m c sol) t = candidate c sol (Kept m c sol) t' := by
  have drg : (∀ M ∈ c.matrices, ∀ i j, t ≤ M i j ↔ t' ≤ M i j) → ∀ s,
      KeptDrg c sol t s ↔ KeptDrg c sol t' s := by
    intro h s
    unfold KeptDrg
    have : ∀ M ∈ c.matrices, Linked M sol.names c.targets t s ↔ Linked M sol.names c.targets t' s := by
      intro M hm
      have : StrongEdge M sol.names t = StrongEdge M sol.names t' := by
        funext a b
        unfold StrongEdge
        simp only [h M hm]
      unfold Linked
      rw [this]
    constructor
    · rintro (⟨M, hm, hl⟩ | h2)
      · exact Or.inl ⟨M, hm, (this M hm).1 hl⟩
      · exact Or.inr h2
    · rintro (⟨M, hm, hl⟩ | h2)
      · exact Or.inl ⟨M, hm, (this M hm).2 hl⟩
      · exact Or.inr h2
  apply candidate_congr
  intro s hs
  cases m with
  | drg => exact drg h s
  | pfa => exact drg h s
  | drgep =>
    show KeptPath c sol t s ↔ KeptPath c sol t' s
    unfold KeptPath
    constructor
    · rintro (⟨y, hy, hl⟩ | h2)
      · exact Or.inl ⟨y, hy, (h s hs y hy).1 hl⟩
      · exact Or.inr h2
    · rintro (⟨y, hy, hl⟩ | h2)
      · exact Or.inl ⟨y, hy, (h s hs y hy).2 hl⟩
      · exact Or.inr h2

/-- **C19** (binary64): if no coefficient lies between the last accepted threshold and the
slightly different final one, the returned model is the last accepted one and within the
limit. -/
theorem C19_binary64_partial {m : Method} {c : Ctx} {sol : Mech} (U : Usable m c sol)
    {limit : PyF} (hl : LimitOk c sol limit)
    (hsep : ∀ j ≤ lastStart m .binary64, ∀ k,
      NotSeparated m c sol (finalThr rnd64 j k) (gridThr rnd64 j k)) :
    ∃ N, ∀ dfuel ≥ N, ∀ fuel w r w', w.fs c.modelFile = some sol →
      runMethod m c rnd64 limit dfuel fuel w = (some (.ok r), w') →
      r.error.le limit = true ∧ r.error = c.errOf r.model ∧
      ∃ j k, r.model = candidate c sol (Kept m c sol) (gridThr rnd64 j k) ∧
        Exceeds c sol (Kept m c sol) limit (gridThr rnd64 j (k + 1)) := by
  obtain ⟨N, hN⟩ := C19_returned U hl .binary64
  refine ⟨N, fun dfuel hd fuel w r w' hw hrun => ?_⟩
  obtain ⟨j, k, hj, h1, h2, h3, h4, h5⟩ := hN dfuel hd fuel w r w' hw hrun
  have := candidate_notSeparated (hsep j hj k)
  have h4' : r.model = candidate c sol (Kept m c sol) (gridThr rnd64 j k) := h4.trans this
  refine ⟨?_, h5, j, k, h4', h3⟩
  rw [h5, h4']
  exact h2 k le_rfl

/-! ### witness -/

/-- four species without reactions -/
def bsSol : Mech where
  species := [⟨"A", 0⟩, ⟨"B", 0⟩, ⟨"C", 0⟩, ⟨"D", 0⟩]
  reactions := []
  transport := 0
  tp := 0
  name := []

/-- `A` needs `B` with a coefficient just below 0.01 and `C` with 0.015 -/
def bsM : NMat := fun i j =>
  if (i, j) = (0, 1) then 2882303761517117/288230376151711744
  else if (i, j) = (0, 2) then 15/1000 else 0

/-- the models `{A, C}` and the full one are perfect, every other one has error `x` -/
def bsErr (x : PyF) (m : Mech) : PyF :=
  if m.names = ["A", "C"] ∨ m.names.length = 4 then .fin 0 else x

def bsCtx (x : PyF) : Ctx where
  modelFile := "m.yaml".toList
  targets := ["A"]
  safe := []
  matrices := [bsM]
  errOf := bsErr x
  phase := []
  path := []
  upper := none

def bsWorld : World where
  fs := fun f => if f = "m.yaml".toList then some bsSol else none
  limbo := []

theorem reducedName_head (n : Nat) : (reducedName n).head? = some 'r' := by
  unfold reducedName
  rw [List.append_assoc]
  rfl

theorem joinPath_nil (name : Text) : joinPath [] name = name := by
  simp [joinPath]

theorem ne_of_head {a b : Text} (h : a.head? ≠ b.head?) : a ≠ b := by
  rintro rfl; exact h rfl

theorem bsCtx_usable (m : Method) (x : PyF) : Usable m (bsCtx x) bsSol where
  nodup := by decide
  targets := by simp [bsCtx, bsSol, Mech.names]
  noclash n := by
    show joinPath [] (reducedName n) ≠ "m.yaml".toList
    rw [joinPath_nil]
    apply ne_of_head
    rw [reducedName_head]
    decide
  target := by simp [bsCtx]
  unit _ := by
    refine ⟨rndOk_id, ?_⟩
    intro M hM i _ j _
    obtain rfl : M = bsM := by simpa [bsCtx] using hM
    unfold bsM
    split_ifs <;> norm_num
  upper _ := Or.inl rfl

theorem bsCtx_limit (x : PyF) : LimitOk (bsCtx x) bsSol (.fin 1) where
  nonneg := by decide +kernel
  full := by
    have : (trim bsSol [] ("reduced_".toList ++ "m.yaml".toList) []).names.length = 4 := by
      decide +kernel
    change (bsErr x (trim bsSol [] ("reduced_".toList ++ "m.yaml".toList) [])).le (.fin 1) = true
    unfold bsErr
    rw [if_pos (Or.inr this)]
    decide +kernel

/-- what is observed of a run -/
def runView (x : RunResult) : Option (Except Err (List String × PyF)) :=
  x.1.map (Except.map (fun r => (r.model.names, r.error)))

theorem runView_ok {x : RunResult} {a : List String × PyF} (h : runView x = some (.ok a)) :
    ∃ r w', x = (some (.ok r), w') ∧ (r.model.names, r.error) = a := by
  obtain ⟨_ | _ | r, w'⟩ := x
  · simp [runView] at h
  · simp [runView, Except.map] at h
  · refine ⟨r, w', rfl, ?_⟩
    simpa [runView, Except.map] using h

instance : DecidableEq (Except Err (List String × PyF)) := fun a b =>
  match a, b with
  | .error x, .error y => if h : x = y then .isTrue (by rw [h]) else .isFalse (by simpa using h)
  | .ok x, .ok y => if h : x = y then .isTrue (by rw [h]) else .isFalse (by simpa using h)
  | .error _, .ok _ => .isFalse (by simp)
  | .ok _, .error _ => .isFalse (by simp)

/-- **C19** is false in binary64 arithmetic, for each method: a run with a limit of 1 % that
the full model meets returns a model whose error is 100 %. -/
theorem C19_binary64_refuted (m : Method) :
    ∃ c sol w limit r w', Usable m c sol ∧ LimitOk c sol limit ∧ w.fs c.modelFile = some sol ∧
      runMethod m c rnd64 limit 20 20 w = (some (.ok r), w') ∧ limit.lt r.error = true := by
  have h : runView (runMethod m (bsCtx (.fin 100)) rnd64 (.fin 1) 20 20 bsWorld) =
      some (.ok (["A", "B", "C"], .fin 100)) := by
    cases m <;> decide +kernel
  obtain ⟨r, w', h1, h2⟩ := runView_ok h
  refine ⟨bsCtx (.fin 100), bsSol, bsWorld, .fin 1, r, w', bsCtx_usable m _, bsCtx_limit _, rfl, h1, ?_⟩
  simp only [Prod.mk.injEq] at h2
  rw [h2.2]
  decide +kernel

/-- like `bsErr`, but undefined for `{A, B, C}` -/
def bsNanErr (m : Mech) : PyF := if m.names = ["A", "B", "C"] then .nan else bsErr (.fin 100) m

def bsNan : Ctx := { bsCtx .nan with errOf := bsNanErr }

/-- **C25** is false in binary64 arithmetic, for each method: a model with undefined error can
be returned. -/
theorem C25_binary64_refuted (m : Method) :
    ∃ c sol w limit r w', Usable m c sol ∧ LimitOk c sol limit ∧ w.fs c.modelFile = some sol ∧
      runMethod m c rnd64 limit 20 20 w = (some (.ok r), w') ∧ r.error = .nan := by
  have h : runView (runMethod m (bsNan) rnd64 (.fin 1) 20 20 bsWorld) =
      some (.ok (["A", "B", "C"], .nan)) := by
    cases m <;> decide +kernel
  obtain ⟨r, w', h1, h2⟩ := runView_ok h
  refine ⟨bsNan, bsSol, bsWorld, .fin 1, r, w', ?_, ?_, rfl, h1, ?_⟩
  · have := bsCtx_usable m .nan
    exact ⟨⟨this.nodup, this.targets, this.noclash⟩, this.target, this.unit, this.upper⟩
  · exact ⟨by decide +kernel, by decide +kernel⟩
  · simp only [Prod.mk.injEq] at h2
    exact h2.2

/-- In exact arithmetic the same run returns `{A, C}`. -/
example (m : Method) : runView (runMethod m (bsCtx (.fin 100)) id (.fin 1) 20 20 bsWorld) =
    some (.ok (["A", "C"], .fin 0)) := by
  cases m <;> decide +kernel

/-- The hypotheses of C19, C20, C23, C25 are met by this run. -/
example (m : Method) : Usable m (bsCtx (.fin 100)) bsSol ∧ LimitOk (bsCtx (.fin 100)) bsSol (.fin 1) ∧
    bsWorld.fs (bsCtx (.fin 100)).modelFile = some bsSol ∧ (bsCtx (.fin 100)).matrices ≠ [] :=
  ⟨bsCtx_usable m _, bsCtx_limit _, rfl, by simp [bsCtx]⟩

/-! ### limbo species -/

/-- **C27** is false, always: with at least one sampled state and a non-zero upper threshold,
every target species is handed over as limbo species, and no limbo species would be removed
at the upper threshold. -/
theorem C27_limbo_refuted {c : Ctx} {sol : Mech} (S : Setting c sol) (hM : c.matrices ≠ [])
    {u : ℚ} (hu : c.upper = some u) (h0 : u ≠ 0) (t : ℚ) {w : World}
    (hw : w.fs c.modelFile = some sol) :
    ∃ r w' l, reduceDrg c t none w = (.ok r, w') ∧ r.limbo = some l ∧
      (∀ s ∈ c.targets, s ∈ l) ∧ (∀ s, s ∈ l ↔ ∃ M ∈ c.matrices, Linked M sol.names c.targets u s) ∧
      ∀ s ∈ l, KeptDrg c sol u s := by
  obtain ⟨M, hMm⟩ := List.exists_mem_of_ne_nil _ hM
  obtain ⟨l, e1, -, e3⟩ := retained_spec u S.nodup S.targets c.matrices
  refine ⟨_, _, l, reduceDrg_fresh S t w hw none (by simp), ?_, ?_, e3, ?_⟩
  · have : truthy c.upper = some u := by rw [hu]; simp [truthy, h0]
    simp only [freshResult, limboDrg]
    rw [this]
    simp only [e1]
    rfl
  · intro s hs; exact (e3 s).2 ⟨M, hMm, s, hs, .refl⟩
  · intro s hs; exact Or.inl ((e3 s).1 hs)

/-- **C27**: what remains true: for an upper threshold not below the threshold the limbo
species are species of the reduced model. -/
theorem C27_limbo_in_model_partial {c : Ctx} {sol : Mech} (S : Setting c sol)
    {u t : ℚ} (hu : c.upper = some u) (ht : t ≤ u) {w : World}
    (hw : w.fs c.modelFile = some sol) :
    ∃ r w' l, reduceDrg c t none w = (.ok r, w') ∧ r.limbo = some l ∧ l ⊆ r.model.names := by
  obtain ⟨l, e1, -, e3⟩ := retained_spec u S.nodup S.targets c.matrices
  by_cases h0 : u = 0
  · refine ⟨_, _, [], reduceDrg_fresh S t w hw none (by simp), ?_, by simp⟩
    have : truthy c.upper = none := by rw [hu]; simp [truthy, h0]
    simp only [freshResult, limboDrg]
    rw [this]
  · refine ⟨_, _, l, reduceDrg_fresh S t w hw none (by simp), ?_, ?_⟩
    · have : truthy c.upper = some u := by rw [hu]; simp [truthy, h0]
      simp only [freshResult, limboDrg]
      rw [this]
      simp only [e1]
      rfl
    · intro s hs
      obtain ⟨M, hm, hl⟩ := (e3 s).1 hs
      exact mem_candidate_names.2 ⟨hl.mem S.targets, Or.inl ⟨M, hm, hl.anti ht⟩⟩

/-- the limbo list of a DRGEP run, in terms of the list shared by all models created earlier
in the process -/
theorem runDrgep_limbo {c : Ctx} {sol : Mech} (S : Setting c sol) {rnd : ℚ → ℚ} {limit : PyF}
    {dfuel fuel : Nat} {w w' : World} {r : RModel} (hw : w.fs c.modelFile = some sol)
    (hrun : runDrgep c rnd limit dfuel fuel w = (some (.ok r), w')) :
    ∃ imp, getImportanceCoeffs c.rndMul sol.names c.targets c.matrices dfuel = .ok imp ∧
      r.limboList w' = w.limbo ++ limboDrgep c imp r ∧ w'.limbo = w.limbo ++ limboDrgep c imp r := by
  rw [runDrgep_eq] at hrun
  rw [loadModel_ok hw] at hrun
  dsimp only at hrun
  by_cases ht : c.targets = []
  · rw [if_pos ht] at hrun; simp at hrun
  rw [if_neg ht] at hrun
  rcases hi : getImportanceCoeffs c.rndMul sol.names c.targets c.matrices dfuel with e | imp <;>
    rw [hi] at hrun
  · simp at hrun
  dsimp only at hrun
  refine ⟨imp, rfl, ?_⟩
  have hlim := (runWith_safe (reduceDrgep_fileSafe c imp)
    (finishOther_safe (reduceDrgep_fileSafe c imp) rnd limit)
    rnd (rnd (1 / 1000000)) limit fuel (loopInit rnd sol c.modelFile w)).2
  rcases hx : runWith (reduceDrgep c imp) (finishOther (reduceDrgep c imp) rnd limit c.path)
    rnd (rnd (1 / 1000000)) limit fuel (loopInit rnd sol c.modelFile w) with ⟨_ | _ | q, w1⟩ <;>
    rw [hx] at hrun hlim
  · simp at hrun
  · simp at hrun
  · obtain ⟨t, w2, -, h2⟩ := runWith_ok_fresh (reduceDrgep_fileSafe c imp) S.noclash
      finishOther_fresh hx
    have hq := reduceDrgep_limbo h2
    dsimp only at hrun hlim
    unfold appendLimbo at hrun
    rw [hq] at hrun
    simp only [Prod.mk.injEq, Option.some.injEq, Except.ok.injEq] at hrun
    obtain ⟨rfl, rfl⟩ := hrun
    have hl0 : w1.limbo = w.limbo := hlim
    unfold RModel.limboList
    rw [hq]
    simp only [Option.getD_none]
    rw [hl0]
    exact ⟨rfl, rfl⟩

/-- the result of a DRGEP run refers to the shared list -/
theorem runDrgep_shared {c : Ctx} {sol : Mech} (S : Setting c sol) {rnd : ℚ → ℚ} {limit : PyF}
    {dfuel fuel : Nat} {w w' : World} {r : RModel} (hw : w.fs c.modelFile = some sol)
    (hrun : runDrgep c rnd limit dfuel fuel w = (some (.ok r), w')) : r.limbo = none := by
  rw [runDrgep_eq] at hrun
  rw [loadModel_ok hw] at hrun
  dsimp only at hrun
  by_cases ht : c.targets = []
  · rw [if_pos ht] at hrun; simp at hrun
  rw [if_neg ht] at hrun
  rcases hi : getImportanceCoeffs c.rndMul sol.names c.targets c.matrices dfuel with e | imp <;>
    rw [hi] at hrun
  · simp at hrun
  dsimp only at hrun
  rcases hx : runWith (reduceDrgep c imp) (finishOther (reduceDrgep c imp) rnd limit c.path)
    rnd (rnd (1 / 1000000)) limit fuel (loopInit rnd sol c.modelFile w) with ⟨_ | _ | q, w1⟩ <;>
    rw [hx] at hrun
  · simp at hrun
  · simp at hrun
  · obtain ⟨t, w2, -, h2⟩ := runWith_ok_fresh (reduceDrgep_fileSafe c imp) S.noclash
      finishOther_fresh hx
    have hq := reduceDrgep_limbo h2
    dsimp only at hrun
    unfold appendLimbo at hrun
    rw [hq] at hrun
    simp only [Prod.mk.injEq, Option.some.injEq, Except.ok.injEq] at hrun
    obtain ⟨rfl, rfl⟩ := hrun
    exact hq

/-- a DRGEP run adds its own limbo species to the shared list -/
theorem drgep_limbo_own {c : Ctx} {sol : Mech} (U : Usable .drgep c sol) {rnd : ℚ → ℚ}
    {limit : PyF} {u : ℚ} (hu : c.upper = some u) (h0 : u ≠ 0) :
    ∃ N, ∀ dfuel ≥ N, ∀ fuel w r w', w.fs c.modelFile = some sol →
      runMethod .drgep c rnd limit dfuel fuel w = (some (.ok r), w') →
      ∃ own, r.limboList w' = w.limbo ++ own ∧ ∀ s, s ∈ own ↔ s ∈ r.model.names ∧ s ∉ c.safe ∧
        ∀ y ∈ Candidates c.rndMul sol.names c.targets c.matrices s, y < u := by
  obtain ⟨N, imp, h1, -, h3⟩ := C16_importance (U.unit rfl).1 U.nodup U.targets (U.unit rfl).2
  refine ⟨N, fun dfuel hd fuel w r w' hw hrun => ?_⟩
  obtain ⟨imp', hi, hlim, -⟩ := runDrgep_limbo U.toSetting hw hrun
  obtain rfl : imp = imp' := by rw [h1 dfuel hd] at hi; cases hi; rfl
  refine ⟨_, hlim, fun s => ?_⟩
  have htr : truthy c.upper = some u := by rw [hu]; simp [truthy, h0]
  unfold limboDrgep
  rw [htr]
  simp only [List.mem_filter, Bool.and_eq_true, decide_eq_true_eq, Bool.not_eq_true',
    List.contains_eq_mem, decide_eq_false_iff_not]
  refine and_congr_right fun hs => ?_
  have hsn : s ∈ sol.names := by
    obtain ⟨t, w1, w2, k1, imp'', k2, k3⟩ := runMethod_fresh U.toSetting hw hrun
    rw [reduceDrgep_fresh (importance_isSome k2) t w1 k1 none (by simp)] at k3
    simp only [Prod.mk.injEq, Except.ok.injEq] at k3
    rw [← k3.1] at hs
    exact (mem_candidate_names.1 hs).1
  obtain ⟨x, hx, hg⟩ := h3 s hsn
  rw [hx, Option.getD_some, and_comm]
  refine and_congr_right fun _ => ?_
  constructor
  · intro hlt y hy; exact lt_of_le_of_lt (hg.2 hy) hlt
  · intro h; exact h x hg.1

/-- **C28**: in a process in which the shared list is still empty, the limbo list is exactly
the species of the reduced model below the upper threshold and not protected. -/
theorem C28_first_run_partial {c : Ctx} {sol : Mech} (U : Usable .drgep c sol) {rnd : ℚ → ℚ}
    {limit : PyF} {u : ℚ} (hu : c.upper = some u) (h0 : u ≠ 0) :
    ∃ N, ∀ dfuel ≥ N, ∀ fuel w r w', w.fs c.modelFile = some sol → w.limbo = [] →
      runMethod .drgep c rnd limit dfuel fuel w = (some (.ok r), w') →
      ∀ s, s ∈ r.limboList w' ↔ s ∈ r.model.names ∧ s ∉ c.safe ∧
        ∀ y ∈ Candidates c.rndMul sol.names c.targets c.matrices s, y < u := by
  obtain ⟨N, hN⟩ := drgep_limbo_own (rnd := rnd) (limit := limit) U hu h0
  refine ⟨N, fun dfuel hd fuel w r w' hw hl hrun s => ?_⟩
  obtain ⟨own, h1, h2⟩ := hN dfuel hd fuel w r w' hw hrun
  rw [h1, hl, List.nil_append]
  exact h2 s

/-- a DRGEP run with an upper threshold -/
def limboCtx : Ctx := { bsCtx (.fin 100) with upper := some (1/2) }

example : (runMethod .drgep limboCtx id (.fin 1) 20 20 bsWorld).1.map
    (Except.map (fun r => r.limboList (runMethod .drgep limboCtx id (.fin 1) 20 20 bsWorld).2)) =
      some (.ok ["C"]) := by
  decide +kernel

/-- **C28** is false of every run in a process in which the shared list is not empty: what is there
from earlier runs, of whatever model, comes first; and the list of every earlier result becomes this
one. -/
theorem C28_history_refuted {c : Ctx} {sol : Mech} (U : Usable .drgep c sol) {rnd : ℚ → ℚ}
    {limit : PyF} {u : ℚ} (hu : c.upper = some u) (h0 : u ≠ 0) :
    ∃ N, ∀ dfuel ≥ N, ∀ fuel w r w', w.fs c.modelFile = some sol →
      runMethod .drgep c rnd limit dfuel fuel w = (some (.ok r), w') →
      (∃ own, r.limboList w' = w.limbo ++ own ∧ ∀ s, s ∈ own ↔ s ∈ r.model.names ∧ s ∉ c.safe ∧
        ∀ y ∈ Candidates c.rndMul sol.names c.targets c.matrices s, y < u) ∧
      ∀ (c0 : Ctx) (sol0 : Mech) (rnd0 : ℚ → ℚ) (limit0 : PyF) (d0 f0 : Nat) (w0 : World) (r0 : RModel)
        (w1 : World), Setting c0 sol0 → w0.fs c0.modelFile = some sol0 →
        runMethod .drgep c0 rnd0 limit0 d0 f0 w0 = (some (.ok r0), w1) → w.limbo = w1.limbo →
        r0.limboList w' = r.limboList w' ∧ ∀ s ∈ r0.limboList w1, s ∈ r.limboList w' := by
  obtain ⟨N, hN⟩ := drgep_limbo_own (rnd := rnd) (limit := limit) U hu h0
  refine ⟨N, fun dfuel hd fuel w r w' hw hrun => ⟨hN dfuel hd fuel w r w' hw hrun, ?_⟩⟩
  intro c0 sol0 rnd0 limit0 d0 f0 w0 r0 w1 S0 hw0 hrun0 hl
  obtain ⟨own, h1, -⟩ := hN dfuel hd fuel w r w' hw hrun
  obtain ⟨imp0, hi0, g1, g2⟩ := runDrgep_limbo S0 hw0 hrun0
  have e0 := runDrgep_shared S0 hw0 hrun0
  have e1 := runDrgep_shared U.toSetting hw hrun
  refine ⟨?_, fun s hs => ?_⟩
  · unfold RModel.limboList; rw [e0, e1]
  · rw [h1, hl, g2, ← g1]; exact List.mem_append_left _ hs

/-- C28: the second of two identical runs in a process returns a longer limbo
list, and so does the first run's result after it. -/
example :
    ∃ c w r1 w1 r2 w2, runMethod .drgep c id (.fin 1) 20 20 w = (some (.ok r1), w1) ∧
      runMethod .drgep c id (.fin 1) 20 20 w1 = (some (.ok r2), w2) ∧
      r1.model = r2.model ∧ r1.limboList w1 = ["C"] ∧ r2.limboList w2 = ["C", "C"] ∧
      r1.limboList w2 = ["C", "C"] := by
  have h1 : runView (runMethod .drgep limboCtx id (.fin 1) 20 20 bsWorld) =
      some (.ok (["A", "C"], .fin 0)) := by decide +kernel
  have h2 : runView (runMethod .drgep limboCtx id (.fin 1) 20 20
      (runMethod .drgep limboCtx id (.fin 1) 20 20 bsWorld).2) =
      some (.ok (["A", "C"], .fin 0)) := by decide +kernel
  obtain ⟨r1, w1, e1, -⟩ := runView_ok h1
  obtain ⟨r2, w2, e2, -⟩ := runView_ok h2
  have hb : (runMethod .drgep limboCtx id (.fin 1) 20 20 bsWorld).2 = w1 := by rw [e1]
  refine ⟨limboCtx, bsWorld, r1, w1, r2, w2, e1, by rw [← hb]; exact e2, ?_⟩
  have k : (do
      let a ← (runMethod .drgep limboCtx id (.fin 1) 20 20 bsWorld).1
      let b ← (runMethod .drgep limboCtx id (.fin 1) 20 20
        (runMethod .drgep limboCtx id (.fin 1) 20 20 bsWorld).2).1
      let a ← a.toOption
      let b ← b.toOption
      let wa := (runMethod .drgep limboCtx id (.fin 1) 20 20 bsWorld).2
      let wb := (runMethod .drgep limboCtx id (.fin 1) 20 20
        (runMethod .drgep limboCtx id (.fin 1) 20 20 bsWorld).2).2
      some (decide (a.model = b.model ∧ a.limboList wa = ["C"] ∧ b.limboList wb = ["C", "C"] ∧
        a.limboList wb = ["C", "C"]))) = some true := by decide +kernel
  rw [e2, e1] at k
  simpa [Except.toOption] using k

/-- **C67**: the limbo list of a PFA reduction is empty whatever the upper threshold. -/
theorem C67_pfa_no_limbo {c : Ctx} {sol : Mech} (S : Setting c sol)
    (hu : truthy c.upper = none ∨ c.matrices ≠ []) (t : ℚ) {w : World}
    (hw : w.fs c.modelFile = some sol) :
    ∃ r w', reducePfa c t none w = (.ok r, w') ∧ r.limbo = some [] :=
  ⟨_, _, reducePfa_fresh S hu t w hw none (by simp), rfl⟩

/-- **C67**: without a sampled state an upper threshold makes PFA raise. -/
theorem C67_pfa_unbound {c : Ctx} {sol : Mech} {u : ℚ} (hu : c.upper = some u)
    (h0 : u ≠ 0) (hM : c.matrices = []) (t : ℚ) {w : World} (hw : w.fs c.modelFile = some sol) :
    (reducePfa c t none w).1 = .error .unboundLocal := by
  have htr : truthy c.upper = some u := by rw [hu]; simp [truthy, h0]
  rw [reducePfa_eq]
  rw [loadModel_ok hw, hM]
  simp only [retained, retainedLoop, Except.map, sameCount]
  rw [buildCandidate_eq]
  dsimp only
  rw [htr]
  rfl

/-! ### impossible limits -/

/-- **C68**: with a NaN limit no method returns a model. -/
theorem C68_nan_limit {m : Method} {c : Ctx} {sol : Mech} (U : Usable m c sol) (rnd : ℚ → ℚ) :
    ∃ N, ∀ dfuel ≥ N, ∀ fuel ≥ 1, ∀ w, w.fs c.modelFile = some sol →
      (runMethod m c rnd .nan dfuel fuel w).1 = some (.error .unboundLocal) := by
  have step : ∀ (reduce : ReduceFn) ex fuel w, fuel ≥ 1 →
      whileLoop reduce rnd ex .nan fuel (loopInit rnd sol c.modelFile w) =
        .left (loopInit rnd sol c.modelFile w) := by
    intro reduce ex fuel w hf
    obtain ⟨k, rfl⟩ : ∃ k, fuel = k + 1 := ⟨fuel - 1, by omega⟩
    unfold whileLoop loopStep
    rfl
  cases m with
  | drg =>
    refine ⟨0, fun dfuel _ fuel hf w hw => ?_⟩
    show (runDrg c rnd .nan fuel w).1 = _
    rw [runDrg_eq]
    rw [loadModel_ok hw]
    dsimp only
    rw [if_neg U.target]
    unfold runWith
    rw [step _ _ _ _ hf]
    rfl
  | pfa =>
    refine ⟨0, fun dfuel _ fuel hf w hw => ?_⟩
    show (runPfa c rnd .nan fuel w).1 = _
    rw [runPfa_eq]
    rw [loadModel_ok hw]
    dsimp only
    rw [if_neg U.target]
    unfold runWith
    rw [step _ _ _ _ hf]
    rfl
  | drgep =>
    obtain ⟨N, imp, h1, -, -⟩ := C16_importance (U.unit rfl).1 U.nodup U.targets (U.unit rfl).2
    refine ⟨N, fun dfuel hd fuel hf w hw => ?_⟩
    show (runDrgep c rnd .nan dfuel fuel w).1 = _
    rw [runDrgep_fst U.noclash U.target (h1 dfuel hd) rnd .nan fuel w hw]
    unfold runWith
    rw [step _ _ _ _ hf]
    rfl

/-- **C68**: with a negative limit PFA and DRGEP return no model. -/
theorem C68_negative_limit_partial {m : Method} (hm : m ≠ .drg) {c : Ctx} {sol : Mech}
    (U : Usable m c sol) (rnd : ℚ → ℚ) {limit : PyF} (hneg : limit.lt (.fin 0) = true) :
    ∃ N, ∀ dfuel ≥ N, ∀ fuel ≥ 1, ∀ w, w.fs c.modelFile = some sol →
      (runMethod m c rnd limit dfuel fuel w).1 = some (.error .unboundLocal) := by
  have hle : (PyF.fin 0).le limit = false := by
    cases limit <;> simp_all [PyF.le, PyF.lt]
  have step : ∀ (reduce : ReduceFn) ex fuel w, fuel ≥ 1 →
      whileLoop reduce rnd ex limit fuel (loopInit rnd sol c.modelFile w) =
        .left (loopInit rnd sol c.modelFile w) := by
    intro reduce ex fuel w hf
    obtain ⟨k, rfl⟩ : ∃ k, fuel = k + 1 := ⟨fuel - 1, by omega⟩
    unfold whileLoop loopStep
    have : (loopInit rnd sol c.modelFile w).errCur.le limit = false := hle
    rw [this]
    rfl
  cases m with
  | drg => exact absurd rfl hm
  | pfa =>
    refine ⟨0, fun dfuel _ fuel hf w hw => ?_⟩
    show (runPfa c rnd limit fuel w).1 = _
    rw [runPfa_eq]
    rw [loadModel_ok hw]
    dsimp only
    rw [if_neg U.target]
    unfold runWith
    rw [step _ _ _ _ hf]
    rfl
  | drgep =>
    obtain ⟨N, imp, h1, -, -⟩ := C16_importance (U.unit rfl).1 U.nodup U.targets (U.unit rfl).2
    refine ⟨N, fun dfuel hd fuel hf w hw => ?_⟩
    show (runDrgep c rnd limit dfuel fuel w).1 = _
    rw [runDrgep_fst U.noclash U.target (h1 dfuel hd) rnd limit fuel w hw]
    unfold runWith
    rw [step _ _ _ _ hf]
    rfl

/-- **C68** is false for DRG: with a negative limit it returns the candidate at a negative
threshold, whatever its error. -/
theorem C68_negative_limit_refuted {c : Ctx} {sol : Mech} (U : Usable .drg c sol) (a : Arith)
    {limit : PyF} (hneg : limit.lt (.fin 0) = true) (dfuel : Nat) {fuel : Nat} (hf : fuel ≥ 1)
    {w : World} (hw : w.fs c.modelFile = some sol) :
    ∃ r w' t, runMethod .drg c a.rnd limit dfuel fuel w = (some (.ok r), w') ∧ t < 0 ∧
      r.model = candidate c sol (KeptDrg c sol) t ∧ r.error = c.errOf r.model := by
  have hle : (PyF.fin 0).le limit = false := by
    cases limit <;> simp_all [PyF.le, PyF.lt]
  obtain ⟨k, rfl⟩ : ∃ k, fuel = k + 1 := ⟨fuel - 1, by omega⟩
  refine ⟨freshResult c sol (KeptDrg c sol) (fun _ => limboDrg c sol)
      (backStep a.rnd (loopInit a.rnd sol c.modelFile w)),
    w.set (redFile c (candidate c sol (KeptDrg c sol)
      (backStep a.rnd (loopInit a.rnd sol c.modelFile w))).nSpecies)
      (some (candidate c sol (KeptDrg c sol) (backStep a.rnd (loopInit a.rnd sol c.modelFile w)))),
    backStep a.rnd (loopInit a.rnd sol c.modelFile w), ?_, ?_, rfl, rfl⟩
  · show runDrg c a.rnd limit (k + 1) w = _
    rw [runDrg_eq]
    rw [loadModel_ok hw]
    dsimp only
    rw [if_neg U.target]
    unfold runWith whileLoop loopStep
    have h1 : (loopInit a.rnd sol c.modelFile w).errCur.le limit = false := hle
    rw [h1]
    simp only [Bool.false_eq_true, if_false]
    unfold finishDrg
    have h2 : limit.lt (loopInit a.rnd sol c.modelFile w).errCur = true := hneg
    rw [if_pos h2]
    have h3 : (loopInit a.rnd sol c.modelFile w).w = w := rfl
    rw [h3, reduceDrg_fresh U.toSetting _ w hw none (by simp)]
  · show a.rnd (a.rnd (1 / 100) - a.rnd (2 * a.rnd (1 / 100))) < 0
    cases a <;> decide +kernel

example : Usable .drg (bsCtx (.fin 100)) bsSol ∧ (PyF.fin (-1)).lt (.fin 0) = true ∧
    runView (runMethod .drg (bsCtx (.fin 100)) id (.fin (-1)) 20 20 bsWorld) =
      some (.ok (["A", "B", "C"], .fin 100)) :=
  ⟨bsCtx_usable _ _, by decide +kernel, by decide +kernel⟩

/-! ### concrete cases meeting the hypotheses of the theorems on the reductions -/

/-- error used for a run that cannot meet its limit: only the full model is good -/
def strictCtx : Ctx := { bsCtx (.fin 100) with
  errOf := fun m => if m.names.length = 4 then .fin 0 else .fin 100 }

/-- C17, C18: the settings are met, the importance coefficients are present for every species
and the reductions at 0.005, 0.012 and 0.02 differ -/
example : Setting (bsCtx (.fin 1)) bsSol ∧ bsWorld.fs (bsCtx (.fin 1)).modelFile = some bsSol ∧
    (getImportanceCoeffs id bsSol.names ["A"] [bsM] 20).toOption.map (fun imp =>
      [1/200, 3/250, 1/50].map fun t =>
        (reduceDrgep (bsCtx (.fin 1)) imp t none bsWorld).1.toOption.map (·.model.names)) =
      some [some ["A", "B", "C"], some ["A", "C"], some ["A"]] :=
  ⟨(bsCtx_usable .drg _).toSetting, rfl, by decide +kernel⟩

/-- C18: the reused model is the previous one -/
example : (reduceDrg (bsCtx (.fin 1)) (3/250) none bsWorld).1.toOption.bind (fun p =>
    (reduceDrg (bsCtx (.fin 1)) (7/500) (some p) bsWorld).1.toOption.map (·.model.names)) =
      some ["A", "C"] := by decide +kernel

/-- C24: a run that ends in `SystemExit` -/
example : (runMethod .drg strictCtx id (.fin 1) 20 20 bsWorld).1.map
    (fun r => match r with | .error e => decide (e = .systemExit) | .ok _ => false) =
      some true := by decide +kernel

/-- C27, C28, C67: a context with an upper threshold -/
example : Setting limboCtx bsSol ∧ limboCtx.matrices ≠ [] ∧ limboCtx.upper = some (1/2) ∧
    (reduceDrg limboCtx (1/50) none bsWorld).1.toOption.map (·.limbo) = some (some ["A"]) ∧
    (reducePfa limboCtx (1/50) none bsWorld).1.toOption.map (·.limbo) = some (some []) :=
  ⟨⟨(bsCtx_usable .drg (.fin 100)).nodup, (bsCtx_usable .drg (.fin 100)).targets,
    (bsCtx_usable .drg (.fin 100)).noclash⟩, by simp [limboCtx, bsCtx], rfl,
    by decide +kernel, by decide +kernel⟩

end Verif
