import Verif.Lemmas.Order
import Verif.Props.ReduceCases
/-!
# C100, C101: order and repetition of targets, retained species and sampled states; adding some
-/
namespace Verif
open Spec Relation

/-- the same request, with targets, retained species and sampled states listed in another order
or repeated -/
structure Relisted (c c' : Ctx) : Prop extends SameFrame c c' where
  targets : ∀ t, t ∈ c'.targets ↔ t ∈ c.targets
  safe : ∀ s, s ∈ c'.safe ↔ s ∈ c.safe
  matrices : ∀ M, M ∈ c'.matrices ↔ M ∈ c.matrices
  upper : c'.upper = c.upper
  rndMul : c'.rndMul = c.rndMul

section
variable {m : Method} {c c' : Ctx} {sol : Mech}

theorem Relisted.kept (h : Relisted c c') (t : ℚ) (s : String) :
    Kept m c' sol t s ↔ Kept m c sol t s := by
  cases m <;>
    simp only [Kept, KeptDrg, KeptPath, Linked, Candidates, Set.mem_setOf_eq, h.targets, h.safe,
      h.matrices, h.rndMul]

theorem ne_nil_iff_of_mem {α} {l l' : List α} (h : ∀ x, x ∈ l' ↔ x ∈ l) : l' ≠ [] ↔ l ≠ [] := by
  constructor
  · intro h1 h2
    obtain ⟨x, hx⟩ := List.exists_mem_of_ne_nil _ h1
    have := (h x).1 hx
    simp [h2] at this
  · intro h1 h2
    obtain ⟨x, hx⟩ := List.exists_mem_of_ne_nil _ h1
    have := (h x).2 hx
    simp [h2] at this

theorem Relisted.usable (h : Relisted c c') (U : Usable m c sol) : Usable m c' sol where
  nodup := U.nodup
  targets t ht := U.targets t ((h.targets t).1 ht)
  noclash n := by rw [h.path, h.file]; exact U.noclash n
  target := (ne_nil_iff_of_mem h.targets).2 U.target
  unit hm := by
    rw [h.rndMul]
    exact ⟨(U.unit hm).1, fun M hM => (U.unit hm).2 M ((h.matrices M).1 hM)⟩
  upper hm := by
    rw [h.upper]
    exact (U.upper hm).imp id (ne_nil_iff_of_mem h.matrices).2

/-- **C100**: a reduction returns the same model with the same file name and error, or fails in
the same way, whatever the order in which targets, retained species and sampled states are
given and however often they are repeated. -/
theorem C100_order (h : Relisted c c') (U : Usable m c sol) {limit : PyF} (hl : LimitOk c sol limit)
    (a : Arith) :
    ∃ N, ∀ dfuel ≥ N, ∀ fuel w w', w.fs c.modelFile = some sol → w'.fs c.modelFile = some sol →
      RunResult.view (runMethod m c' a.rnd limit dfuel fuel w') =
        RunResult.view (runMethod m c a.rnd limit dfuel fuel w) :=
  run_same_kept U (h.usable U) h.toSameFrame (fun t s _ => h.kept t s) hl a

/-- **C100**: the limbo species found by DRG are the same, possibly in another order. -/
theorem C100_limbo (h : Relisted c c') (S : Setting c sol) (t : ℚ) {w w' : World}
    (hw : w.fs c.modelFile = some sol) (hw' : w'.fs c.modelFile = some sol) :
    ∃ r r' x x' l l', reduceDrg c t none w = (.ok r, x) ∧ reduceDrg c' t none w' = (.ok r', x') ∧
      r.limbo = some l ∧ r'.limbo = some l' ∧ l.Perm l' := by
  have S' : Setting c' sol := ⟨S.nodup, fun t ht => S.targets t ((h.targets t).1 ht),
    fun n => by rw [h.path, h.file]; exact S.noclash n⟩
  rw [← h.file] at hw'
  rcases hu : truthy c.upper with _ | u
  · refine ⟨_, _, _, _, [], [], reduceDrg_fresh S t w hw none (by simp),
      reduceDrg_fresh S' t w' hw' none (by simp), ?_, ?_, .refl _⟩
    · simp only [freshResult, limboDrg]; rw [hu]
    · simp only [freshResult, limboDrg]; rw [h.upper, hu]
  · obtain ⟨l, e1, e2, e3⟩ := retained_spec u S.nodup S.targets c.matrices
    obtain ⟨l', e1', e2', e3'⟩ := retained_spec u S'.nodup S'.targets c'.matrices
    refine ⟨_, _, _, _, l, l', reduceDrg_fresh S t w hw none (by simp),
      reduceDrg_fresh S' t w' hw' none (by simp), ?_, ?_, ?_⟩
    · simp only [freshResult, limboDrg]; rw [hu]; simp only [e1]; rfl
    · simp only [freshResult, limboDrg]; rw [h.upper, hu]; simp only [e1']; rfl
    · rw [List.perm_ext_iff_of_nodup e2 e2']
      intro s
      rw [e3, e3']
      simp only [h.matrices, Linked, h.targets]

/-! ### C101 -/

/-- the same request with more targets, retained species or sampled states -/
structure Extended (c c' : Ctx) : Prop extends SameFrame c c' where
  targets : ∀ t ∈ c.targets, t ∈ c'.targets
  safe : ∀ s ∈ c.safe, s ∈ c'.safe
  matrices : ∀ M ∈ c.matrices, M ∈ c'.matrices
  rndMul : c'.rndMul = c.rndMul

theorem Extended.kept (h : Extended c c') {t : ℚ} {s : String} (hk : Kept m c sol t s) :
    Kept m c' sol t s := by
  have drg : KeptDrg c sol t s → KeptDrg c' sol t s := by
    rintro (⟨M, hM, a, ha, hr⟩ | hs)
    · exact Or.inl ⟨M, h.matrices M hM, a, h.targets a ha, hr⟩
    · exact Or.inr (h.safe s hs)
  cases m with
  | drg => exact drg hk
  | pfa => exact drg hk
  | drgep =>
    rcases hk with ⟨y, rfl | ⟨M, hM, a, ha, hp⟩, hy⟩ | hs
    · exact Or.inl ⟨0, Or.inl rfl, hy⟩
    · refine Or.inl ⟨y, Or.inr ⟨M, h.matrices M hM, a, h.targets a ha, ?_⟩, hy⟩
      rw [h.rndMul]; exact hp
    · exact Or.inr (h.safe s hs)

/-- one reduction from scratch at a threshold: `reduce_drg`, `reduce_pfa`, or `reduce_drgep` with
the coefficients of `get_importance_coeffs` -/
def reduceOnce (m : Method) (c : Ctx) (dfuel : Nat) (t : ℚ) (w : World) : Except Err RModel × World :=
  match m with
  | .drg => reduceDrg c t none w
  | .pfa => reducePfa c t none w
  | .drgep =>
    match loadModel w c.modelFile with
    | .error e => (.error e, w)
    | .ok sol =>
    match getImportanceCoeffs c.rndMul sol.names c.targets c.matrices dfuel with
    | .error e => (.error e, w)
    | .ok imp => reduceDrgep c imp t none w

theorem reduceOnce_names (U : Usable m c sol) :
    ∃ N, ∀ dfuel ≥ N, ∀ t w, w.fs c.modelFile = some sol →
      ∃ r w', reduceOnce m c dfuel t w = (.ok r, w') ∧
        r.model = candidate c sol (Kept m c sol) t ∧ r.error = c.errOf r.model := by
  cases m with
  | drg =>
    exact ⟨0, fun _ _ t w hw => ⟨_, _, reduceDrg_fresh U.toSetting t w hw none (by simp), rfl, rfl⟩⟩
  | pfa =>
    exact ⟨0, fun _ _ t w hw =>
      ⟨_, _, reducePfa_fresh U.toSetting (U.upper rfl) t w hw none (by simp), rfl, rfl⟩⟩
  | drgep =>
    obtain ⟨N, imp, h1, -, h3⟩ := C16_importance (U.unit rfl).1 U.nodup U.targets (U.unit rfl).2
    refine ⟨N, fun dfuel hd t w hw => ?_⟩
    have hi : ∀ s ∈ sol.names, (imp s).isSome := by
      intro s hs
      obtain ⟨x, hx, -⟩ := h3 s hs
      rw [hx]; rfl
    have hc : candidate c sol (KeptDrgep c imp) t = candidate c sol (Kept .drgep c sol) t := by
      classical
      unfold candidate
      congr 1
      apply List.filter_congr
      intro s hs
      obtain ⟨x, hx, hg⟩ := h3 s hs
      have := keptDrgep_iff (sol := sol) hx hg t
      exact decide_eq_decide.2 (not_congr this)
    refine ⟨freshResult c sol (KeptDrgep c imp) (fun _ => none) t,
      w.set (redFile c (candidate c sol (KeptDrgep c imp) t).nSpecies)
        (some (candidate c sol (KeptDrgep c imp) t)), ?_, hc, rfl⟩
    unfold reduceOnce
    rw [loadModel_ok hw]
    simp only [h1 dfuel hd]
    exact reduceDrgep_fresh hi t w hw none (by simp)

/-- **C101** (one threshold): with more targets, retained species or sampled states a reduction at
the same threshold keeps every species it kept before. -/
theorem C101_threshold_partial (h : Extended c c') (U : Usable m c sol) (U' : Usable m c' sol) :
    ∃ N, ∀ dfuel ≥ N, ∀ t w w', w.fs c.modelFile = some sol → w'.fs c.modelFile = some sol →
      ∃ r r' x x', reduceOnce m c dfuel t w = (.ok r, x) ∧
        reduceOnce m c' dfuel t w' = (.ok r', x') ∧ r.model.names.Sublist r'.model.names := by
  obtain ⟨N, hN⟩ := reduceOnce_names U
  obtain ⟨N', hN'⟩ := reduceOnce_names U'
  refine ⟨max N N', fun dfuel hd t w w' hw hw' => ?_⟩
  simp only [ge_iff_le, max_le_iff] at hd
  obtain ⟨r, x, h1, h2, -⟩ := hN dfuel hd.1 t w hw
  obtain ⟨r', x', h1', h2', -⟩ := hN' dfuel hd.2 t w' (by rw [h.file]; exact hw')
  refine ⟨r, r', x, x', h1, h1', ?_⟩
  rw [h2, h2', candidate_names, candidate_names]
  classical
  refine List.monotone_filter_right _ (fun s hs => ?_)
  simpa using h.kept (by simpa using hs)

end

/-! ### a case -/

/-- four species without reactions -/
def orSol : Mech where
  species := [⟨"A", 0⟩, ⟨"B", 0⟩, ⟨"C", 0⟩, ⟨"X", 0⟩]
  reactions := []
  transport := 0
  tp := 0
  name := []

/-- `A` needs `B` with 0.015 in one state and `C` with 0.025 in another -/
def orB : NMat := fun i j => if (i, j) = (0, 1) then 15/1000 else 0
def orC : NMat := fun i j => if (i, j) = (0, 2) then 25/1000 else 0

/-- without `X`, `B` is indispensable; with it, `C` is -/
def orErr (m : Mech) : PyF :=
  if "X" ∈ m.names then (if "C" ∈ m.names then .fin 0 else .fin 100)
  else (if "B" ∈ m.names then .fin 0 else .fin 100)

def orCtx (targets safe : List String) (matrices : List NMat) : Ctx where
  modelFile := "m.yaml".toList
  targets := targets
  safe := safe
  matrices := matrices
  errOf := orErr
  phase := []
  path := []
  upper := none

def orWorld : World where
  fs := fun f => if f = "m.yaml".toList then some orSol else none
  limbo := []

theorem orCtx_usable (m : Method) {targets safe : List String} {matrices : List NMat}
    (h1 : targets ≠ []) (h2 : ∀ t ∈ targets, t ∈ orSol.names)
    (h3 : ∀ M ∈ matrices, M = orB ∨ M = orC) : Usable m (orCtx targets safe matrices) orSol where
  nodup := by decide
  targets := h2
  noclash n := by
    show joinPath [] (reducedName n) ≠ "m.yaml".toList
    rw [joinPath_nil]
    apply ne_of_head
    rw [reducedName_head]
    decide
  target := h1
  unit _ := by
    refine ⟨rndOk_id, ?_⟩
    intro M hM i _ j _
    rcases h3 M hM with rfl | rfl
    · unfold orB; split_ifs <;> norm_num
    · unfold orC; split_ifs <;> norm_num
  upper _ := Or.inl rfl

theorem orCtx_limit {targets safe : List String} {matrices : List NMat} :
    LimitOk (orCtx targets safe matrices) orSol (.fin 1) :=
  ⟨by decide +kernel, by
    show (orErr (trim orSol [] ("reduced_".toList ++ "m.yaml".toList) [])).le (.fin 1) = true
    decide +kernel⟩

/-- The hypotheses of `C100_order` are met by requests that differ in order and repetition, and
the runs return. -/
example (m : Method) :
    Relisted (orCtx ["A", "X"] ["X", "A"] [orB, orC]) (orCtx ["X", "A", "X"] ["A", "X", "X"] [orC, orB, orC]) ∧
    Usable m (orCtx ["A", "X"] ["X", "A"] [orB, orC]) orSol ∧
    LimitOk (orCtx ["A", "X"] ["X", "A"] [orB, orC]) orSol (.fin 1) ∧
    runView (runMethod m (orCtx ["A", "X"] ["X", "A"] [orB, orC]) rnd64 (.fin 1) 20 20 orWorld) =
      some (.ok (["A", "C", "X"], .fin 0)) ∧
    runView (runMethod m (orCtx ["X", "A", "X"] ["A", "X", "X"] [orC, orB, orC]) rnd64 (.fin 1) 20 20 orWorld) =
      some (.ok (["A", "C", "X"], .fin 0)) := by
  refine ⟨⟨⟨rfl, rfl, rfl, rfl⟩, ?_, ?_, ?_, rfl, rfl⟩, orCtx_usable m (by simp) (by decide) (by simp),
    orCtx_limit, by cases m <;> decide +kernel, by cases m <;> decide +kernel⟩ <;> intro t <;>
    simp [orCtx] <;> tauto

/-- **C101** is false of whole runs, for each method: retaining `X` makes the run remove `B`. -/
theorem C101_run_refuted (m : Method) (a : Arith) :
    ∃ c c' sol w limit r r' w' w2', Extended c c' ∧ Usable m c sol ∧ Usable m c' sol ∧
      LimitOk c sol limit ∧ w.fs c.modelFile = some sol ∧ c'.targets = c.targets ∧
      c'.matrices = c.matrices ∧
      runMethod m c a.rnd limit 20 20 w = (some (.ok r), w') ∧
      runMethod m c' a.rnd limit 20 20 w = (some (.ok r'), w2') ∧
      ∃ s ∈ r.model.names, s ∉ r'.model.names := by
  have h : runView (runMethod m (orCtx ["A"] [] [orB, orC]) a.rnd (.fin 1) 20 20 orWorld) =
      some (.ok (["A", "B", "C"], .fin 0)) := by
    cases m <;> cases a <;> decide +kernel
  have h' : runView (runMethod m (orCtx ["A"] ["X"] [orB, orC]) a.rnd (.fin 1) 20 20 orWorld) =
      some (.ok (["A", "C", "X"], .fin 0)) := by
    cases m <;> cases a <;> decide +kernel
  obtain ⟨r, w', h1, h2⟩ := runView_ok h
  obtain ⟨r', w2', h1', h2'⟩ := runView_ok h'
  simp only [Prod.mk.injEq] at h2 h2'
  refine ⟨orCtx ["A"] [] [orB, orC], orCtx ["A"] ["X"] [orB, orC], orSol, orWorld, .fin 1, r, r', w',
    w2', ⟨⟨rfl, rfl, rfl, rfl⟩, by simp [orCtx], by simp [orCtx], by simp [orCtx], rfl⟩,
    orCtx_usable m (by simp) (by decide) (by simp), orCtx_usable m (by simp) (by decide) (by simp),
    orCtx_limit, rfl, rfl, rfl, h1, h1', "B", ?_, ?_⟩
  · rw [h2.1]; decide
  · rw [h2'.1]; decide

/-- The hypotheses of `C101_threshold_partial` are met, and more is kept. -/
example (m : Method) :
    Extended (orCtx ["A"] [] [orB]) (orCtx ["A"] ["X"] [orC, orB]) ∧
    Usable m (orCtx ["A"] [] [orB]) orSol ∧ Usable m (orCtx ["A"] ["X"] [orC, orB]) orSol ∧
    (reduceOnce m (orCtx ["A"] [] [orB]) 20 (1/100) orWorld).1.toOption.map (fun r => r.model.names) =
      some ["A", "B"] ∧
    (reduceOnce m (orCtx ["A"] ["X"] [orC, orB]) 20 (1/100) orWorld).1.toOption.map
      (fun r => r.model.names) = some ["A", "B", "C", "X"] :=
  ⟨⟨⟨rfl, rfl, rfl, rfl⟩, by simp [orCtx], by simp [orCtx], by simp [orCtx], rfl⟩,
    orCtx_usable m (by simp) (by decide) (by simp), orCtx_usable m (by simp) (by decide) (by simp),
    by cases m <;> decide +kernel, by cases m <;> decide +kernel⟩

/-- The limbo species of DRG do come in another order. -/
example :
    (reduceDrg { orCtx ["A", "X"] [] [orB] with upper := some (1/100) } (1/200) none orWorld).1.toOption.bind
      (fun r => r.limbo) = some ["A", "B", "X"] ∧
    (reduceDrg { orCtx ["X", "A"] [] [orB] with upper := some (1/100) } (1/200) none orWorld).1.toOption.bind
      (fun r => r.limbo) = some ["X", "A", "B"] := by
  decide +kernel

end Verif
