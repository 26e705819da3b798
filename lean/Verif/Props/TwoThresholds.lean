import Verif.Props.Published
import Verif.Props.FullMain
import Verif.Props.Main
/-!
# Both thresholds: a method followed by sensitivity analysis, in terms of the published coefficients (C108, C145)
-/
namespace Verif
open Spec

variable {ι π φ : Type} {K : Cantera ι π φ} {sol : Mech} {q : MainArgs ι π φ} {d : Disk} {meth : Method}

/-- A threshold at which the published coefficients select only species that are selected at `t` in arithmetic `a`: `t` itself
or, in binary64, a shade above. -/
def Surely (a : Arith) (meth : Method) (sol : Mech) (t : ℚ) : ℚ :=
  if a = .exact then t else above meth sol.names.length sol.reactions.length t

/-- A threshold at which the published coefficients select all species that are selected at `t` in arithmetic `a`. -/
def Possibly (a : Arith) (meth : Method) (sol : Mech) (t : ℚ) : ℚ :=
  if a = .exact then t else below meth sol.names.length sol.reactions.length t

/-- the context of the first stage -/
noncomputable abbrev stageCtx (K : Cantera ι π φ) (meth : Method) (rnd : ℚ → ℚ) (q : MainArgs ι π φ) (d : Disk) (sol : Mech)
    (base : List PyF) (rows : List Row) : Ctx :=
  fullCtx K meth rnd (stageArgs meth q) (applyEvs d (sample (K.sims rnd) sol q.conds q.par d).evs) sol base rows

/-- the two stages of a whole run: the first one returned the candidate at a threshold of the search, the second one removed
some limbo species from it -/
theorem fullMain_stages (P : Physical K sol) (Q : Request q.toReduceArgs sol d)
    (hm : q.method.bind methodOf = some meth) (hs : q.sensitivity = true) (a : Arith)
    (hlim : (PyF.fin 0).le q.limit = true)
    (T : ∀ d' Ms base x y z, TmpDirs (mainIn K a.rnd q d' Ms base x y z))
    (hsame : SameBehaviour K sol (trim sol [] ("reduced_".toList ++ q.modelFile) q.phase)) {base : List PyF} {rows : List Row}
    (hsm : (sample (K.sims a.rnd) sol q.conds q.par d).result = .ok (base, rows)) :
    Simulated (K.sims a.rnd) sol q.conds base rows ∧ rows ≠ [] ∧ Usable meth (stageCtx K meth a.rnd q d sol base rows) sol ∧
    ∃ N, ∀ dfuel ≥ N, ∀ fuel saFuel w w' rm evs, w.fs q.modelFile = some sol →
      fullMain K a.rnd q d dfuel fuel saFuel w = ((some (.ok rm), w'), evs) →
      ∃ r w1 j k, ∃ acc : List String, j ≤ lastStart meth a ∧
        runMethod meth (stageCtx K meth a.rnd q d sol base rows) a.rnd q.limit dfuel fuel w = (some (.ok r), w1) ∧
        (∀ s, s ∈ r.model.names ↔ s ∈ sol.names ∧
          Spec.Kept meth (stageCtx K meth a.rnd q d sol base rows) sol (finalThr a.rnd j k) s) ∧
        (∀ x ∈ acc, x ∈ saLimbo (q.targets ++ q.safe) r.model (r.limboList w1)) ∧
        ∀ s, s ∈ rm.model.names ↔ s ∈ r.model.names ∧ s ∉ acc := by
  have Q' := stage_request (meth := meth) Q
  have hsm' : (sample (K.sims a.rnd) sol (stageArgs meth q).conds (stageArgs meth q).par d).result
    = .ok (base, rows) := hsm
  obtain ⟨hsim, hrows, U⟩ := fullCtx_usable (meth := meth) P a Q' hsm'
    (applyEvs d (sample (K.sims a.rnd) sol q.conds q.par d).evs)
  have hl := limitOk_full (meth := meth) P Q' a hlim hsame hsim
    (applyEvs d (sample (K.sims a.rnd) sol q.conds q.par d).evs)
  obtain ⟨N', hN'⟩ := C19_returned U hl a
  have hc := mainIn_ctx (K := K) (q := q) (sol := sol) (meth := meth) a.rnd
    (applyEvs d (sample (K.sims a.rnd) sol q.conds q.par d).evs) base rows 0 0 0
  have U' := U
  have hl' := hl
  rw [← hc] at U' hl'
  obtain ⟨N, hN⟩ := C88_two_stages (p := mainIn K a.rnd q
    (applyEvs d (sample (K.sims a.rnd) sol q.conds q.par d).evs)
    (rows.map (fun r => matrixOf meth a.rnd (K.chem sol r))) base 0 0 0) hm hs a rfl U' hl' (T _ _ _ _ _ _)
  refine ⟨hsim, hrows, U, max N N', fun dfuel hd fuel saFuel w w' rm evs hw h => ?_⟩
  obtain ⟨base', rows', h1, h2, h3⟩ := fullMain_ok hm hw h
  rw [hsm] at h1
  cases h1
  rw [h2] at h3
  obtain ⟨-, r, w1, t, acc, g1, -, -, g4, g5, -⟩ := hN dfuel (le_trans (le_max_left _ _) hd) fuel saFuel w w' rm hw h3
  have g1' := runMethodS_ok g1
  rw [hc] at g1'
  obtain ⟨j, k, hj, -, -, -, h4, -⟩ := hN' dfuel (le_trans (le_max_right _ _) hd) fuel w r w1 hw g1'
  refine ⟨r, w1, j, k, acc, hj, g1', fun s => ?_, g4, fun s => ?_⟩
  · rw [h4, mem_candidate_names]
  · rw [g5, List.mem_filter]
    simp

/-- the published coefficients select `s` surely or possibly, at threshold `t` -/
theorem stage_kept (a : Arith) (ha : a = .exact ∨ a = .binary64) {base : List PyF} {rows : List Row}
    (hsize : 4 * sol.reactions.length + sol.names.length + 14 ≤ 2 ^ 51) (t : ℚ) (s : String) :
    (KeptPublished meth sol.names q.targets q.safe (rows.map (K.chem sol)) (Surely a meth sol t) s →
      Spec.Kept meth (stageCtx K meth a.rnd q d sol base rows) sol t s) ∧
    (Spec.Kept meth (stageCtx K meth a.rnd q d sol base rows) sol t s →
      KeptPublished meth sol.names q.targets q.safe (rows.map (K.chem sol)) (Possibly a meth sol t) s) := by
  rcases ha with rfl | rfl
  · have h := kept_exact (meth := meth) (c := stageCtx K meth id q d sol base rows) (sol := sol)
      (states := rows.map (K.chem sol)) (t := t) (s := s) (by show rows.map _ = _; rw [List.map_map]; rfl) rfl
    exact ⟨h.2, h.1⟩
  · exact kept_binary64 (meth := meth) (c := stageCtx K meth rnd64 q d sol base rows) (sol := sol)
      (states := rows.map (K.chem sol)) (t := t) (s := s) hsize (by show rows.map _ = _; rw [List.map_map]; rfl) rfl

theorem keptPath_anti {c : Ctx} {sol : Mech} {t t' : ℚ} (h : t ≤ t') {s : String} (hk : KeptPath c sol t' s) :
    KeptPath c sol t s :=
  hk.imp (fun ⟨y, hy, h'⟩ => ⟨y, hy, h.trans h'⟩) id

/-- **C108** with sensitivity analysis: the species of the model that both stages return are among those that the published
coefficients of the simulated states select at the threshold the first stage ended with. -/
theorem C108_both (P : Physical K sol) (Q : Request q.toReduceArgs sol d)
    (hm : q.method.bind methodOf = some meth) (hs : q.sensitivity = true) (a : Arith) (ha : a = .exact ∨ a = .binary64)
    (hsize : 4 * sol.reactions.length + sol.names.length + 14 ≤ 2 ^ 51) (hlim : (PyF.fin 0).le q.limit = true)
    (T : ∀ d' Ms base x y z, TmpDirs (mainIn K a.rnd q d' Ms base x y z))
    (hsame : SameBehaviour K sol (trim sol [] ("reduced_".toList ++ q.modelFile) q.phase)) :
    ∃ N, ∀ dfuel ≥ N, ∀ fuel saFuel w w' rm evs, w.fs q.modelFile = some sol →
      fullMain K a.rnd q d dfuel fuel saFuel w = ((some (.ok rm), w'), evs) →
      ∃ base rows j k, Simulated (K.sims a.rnd) sol q.conds base rows ∧ j ≤ lastStart meth a ∧
        ∀ s ∈ rm.model.names, s ∈ sol.names ∧
          KeptPublished meth sol.names q.targets q.safe (rows.map (K.chem sol))
            (Possibly a meth sol (finalThr a.rnd j k)) s := by
  rcases hsm : (sample (K.sims a.rnd) sol q.conds q.par d).result with er | ⟨base, rows⟩
  · refine ⟨0, fun dfuel _ fuel saFuel w w' r evs hw h => ?_⟩
    obtain ⟨base, rows, h1, -⟩ := fullMain_ok hm hw h
    rw [hsm] at h1; cases h1
  obtain ⟨hsim, -, -, N, hN⟩ := fullMain_stages P Q hm hs a hlim T hsame hsm
  refine ⟨N, fun dfuel hd fuel saFuel w w' rm evs hw h => ?_⟩
  obtain ⟨r, w1, j, k, acc, hj, -, h3, -, h5⟩ := hN dfuel hd fuel saFuel w w' rm evs hw h
  refine ⟨base, rows, j, k, hsim, hj, fun s hs => ?_⟩
  obtain ⟨h6, h7⟩ := (h3 s).1 ((h5 s).1 hs).1
  exact ⟨h6, (stage_kept a ha hsize _ s).2 h7⟩

/-- **C145** for DRGEP, in a process that has not run DRGEP before: if some species lies between the two thresholds, every
species that the upper threshold selects is in the returned model. -/
theorem C145_drgep_partial (P : Physical K sol) (Q : Request q.toReduceArgs sol d)
    (hm : q.method = some "DRGEP") (hs : q.sensitivity = true) (a : Arith) (ha : a = .exact ∨ a = .binary64)
    (hsize : 4 * sol.reactions.length + sol.names.length + 14 ≤ 2 ^ 51) (hlim : (PyF.fin 0).le q.limit = true)
    (T : ∀ d' Ms base x y z, TmpDirs (mainIn K a.rnd q d' Ms base x y z))
    (hsame : SameBehaviour K sol (trim sol [] ("reduced_".toList ++ q.modelFile) q.phase))
    {u : ℚ} (hu : q.upper = some u) (h0 : u ≠ 0) :
    ∃ N, ∀ dfuel ≥ N, ∀ fuel saFuel w w' rm evs, w.fs q.modelFile = some sol → w.limbo = [] →
      fullMain K a.rnd q d dfuel fuel saFuel w = ((some (.ok rm), w'), evs) →
      ∃ base rows j k, Simulated (K.sims a.rnd) sol q.conds base rows ∧ j ≤ lastStart .drgep a ∧
        (∀ s ∈ rm.model.names, s ∈ sol.names ∧
          KeptPublished .drgep sol.names q.targets q.safe (rows.map (K.chem sol))
            (Possibly a .drgep sol (finalThr a.rnd j k)) s) ∧
        ((∃ s ∈ sol.names, KeptPublished .drgep sol.names q.targets q.safe (rows.map (K.chem sol))
              (Surely a .drgep sol (finalThr a.rnd j k)) s ∧
            ¬ KeptPublished .drgep sol.names q.targets q.safe (rows.map (K.chem sol)) (Possibly a .drgep sol u) s) →
          ∀ s ∈ sol.names, KeptPublished .drgep sol.names q.targets q.safe (rows.map (K.chem sol))
            (Surely a .drgep sol u) s → s ∈ rm.model.names) := by
  have hm' : q.method.bind methodOf = some .drgep := by rw [hm]; rfl
  rcases hsm : (sample (K.sims a.rnd) sol q.conds q.par d).result with er | ⟨base, rows⟩
  · refine ⟨0, fun dfuel _ fuel saFuel w w' r evs hw _ h => ?_⟩
    obtain ⟨base, rows, h1, -⟩ := fullMain_ok hm' hw h
    rw [hsm] at h1; cases h1
  obtain ⟨hsim, -, U, N, hN⟩ := fullMain_stages P Q hm' hs a hlim T hsame hsm
  obtain ⟨N', hN'⟩ := C28_first_run_partial (rnd := a.rnd) (limit := q.limit) (u := u) U hu h0
  refine ⟨max N N', fun dfuel hd fuel saFuel w w' rm evs hw hl h => ?_⟩
  obtain ⟨r, w1, j, k, acc, hj, h2, h3, h4, h5⟩ := hN dfuel (le_trans (le_max_left _ _) hd) fuel saFuel w w' rm evs hw h
  have h6 := hN' dfuel (le_trans (le_max_right _ _) hd) fuel w r w1 hw hl h2
  have key := fun t s => stage_kept (K := K) (q := q) (d := d) (meth := .drgep) (base := base) (rows := rows) a ha hsize t s
  have hlimbo : ∀ s, s ∈ r.limboList w1 ↔ s ∈ r.model.names ∧
      ¬ Spec.Kept .drgep (stageCtx K .drgep a.rnd q d sol base rows) sol u s := by
    intro s
    rw [h6 s]
    refine and_congr_right fun _ => ?_
    show _ ↔ ¬ KeptPath _ _ _ _
    unfold KeptPath
    push Not
    exact and_comm
  refine ⟨base, rows, j, k, hsim, hj, fun s hs => ?_, ?_⟩
  · obtain ⟨h6, h7⟩ := (h3 s).1 ((h5 s).1 hs).1
    exact ⟨h6, (key _ s).2 h7⟩
  · rintro ⟨x, hx, hx1, hx2⟩ s hsn hku
    have hxk := (key _ x).1 hx1
    have hxu : ¬ Spec.Kept .drgep (stageCtx K .drgep a.rnd q d sol base rows) sol u x := fun g => hx2 ((key _ x).2 g)
    have hlt : finalThr a.rnd j k ≤ u := by
      by_contra hc
      exact hxu (keptPath_anti (le_of_lt (not_le.1 hc)) hxk)
    have hk := (key _ s).1 hku
    have hr : s ∈ r.model.names := (h3 s).2 ⟨hsn, keptPath_anti hlt hk⟩
    have hne : r.limboList w1 ≠ [] := List.ne_nil_of_mem ((hlimbo x).2 ⟨(h3 x).2 ⟨hx, hxk⟩, hxu⟩)
    refine (h5 s).2 ⟨hr, fun hacc => ?_⟩
    have := h4 s hacc
    rw [saLimbo, if_neg hne] at this
    exact ((hlimbo s).1 this).2 hk

/-- Refutes C145 for DRG: every species that sensitivity analysis removes is one that the upper threshold selects.  None of those
between the thresholds is removed. -/
theorem C145_drg_refuted (P : Physical K sol) (Q : Request q.toReduceArgs sol d)
    (hm : q.method = some "DRG") (hs : q.sensitivity = true) (a : Arith) (ha : a = .exact ∨ a = .binary64)
    (hsize : 4 * sol.reactions.length + sol.names.length + 14 ≤ 2 ^ 51) (hlim : (PyF.fin 0).le q.limit = true)
    (T : ∀ d' Ms base x y z, TmpDirs (mainIn K a.rnd q d' Ms base x y z))
    (hsame : SameBehaviour K sol (trim sol [] ("reduced_".toList ++ q.modelFile) q.phase))
    {u : ℚ} (hu : q.upper = some u) (h0 : u ≠ 0) :
    ∃ N, ∀ dfuel ≥ N, ∀ fuel saFuel w w' rm evs, w.fs q.modelFile = some sol →
      fullMain K a.rnd q d dfuel fuel saFuel w = ((some (.ok rm), w'), evs) →
      ∃ base rows j k, Simulated (K.sims a.rnd) sol q.conds base rows ∧ j ≤ lastStart .drg a ∧
        ∀ s ∈ sol.names, s ∉ rm.model.names →
          KeptPublished .drg sol.names q.targets q.safe (rows.map (K.chem sol))
            (Surely a .drg sol (finalThr a.rnd j k)) s →
          KeptPublished .drg sol.names q.targets q.safe (rows.map (K.chem sol)) (Possibly a .drg sol u) s := by
  have hm' : q.method.bind methodOf = some .drg := by rw [hm]; rfl
  rcases hsm : (sample (K.sims a.rnd) sol q.conds q.par d).result with er | ⟨base, rows⟩
  · refine ⟨0, fun dfuel _ fuel saFuel w w' r evs hw h => ?_⟩
    obtain ⟨base, rows, h1, -⟩ := fullMain_ok hm' hw h
    rw [hsm] at h1; cases h1
  obtain ⟨hsim, hrows, U, N, hN⟩ := fullMain_stages P Q hm' hs a hlim T hsame hsm
  refine ⟨N, fun dfuel hd fuel saFuel w w' rm evs hw h => ?_⟩
  obtain ⟨r, w1, j, k, acc, hj, h2, h3, h4, h5⟩ := hN dfuel hd fuel saFuel w w' rm evs hw h
  obtain ⟨t, v1, v2, g1, g2⟩ := runMethod_fresh U.toSetting hw h2
  obtain ⟨r', w'', l, k1, k2, k3, -, k5⟩ := C27_limbo_refuted U.toSetting
    (show (stageCtx K .drg a.rnd q d sol base rows).matrices ≠ [] by simpa [fullCtx] using hrows) hu h0 t g1
  have g2 : reduceDrg (stageCtx K .drg a.rnd q d sol base rows) t none v1 = (.ok r, v2) := g2
  rw [g2] at k1
  simp only [Prod.mk.injEq, Except.ok.injEq] at k1
  obtain ⟨rfl, -⟩ := k1
  have hlimbo : r.limboList w1 = l := by unfold RModel.limboList; rw [k2]; rfl
  have hne : r.limboList w1 ≠ [] := by
    rw [hlimbo]
    obtain ⟨x, hx⟩ := List.exists_mem_of_ne_nil _ U.target
    exact List.ne_nil_of_mem (k3 x hx)
  refine ⟨base, rows, j, k, hsim, hj, fun s hsn hout hk => ?_⟩
  have hr : s ∈ r.model.names := (h3 s).2 ⟨hsn, (stage_kept a ha hsize _ s).1 hk⟩
  have hacc : s ∈ acc := by
    by_contra hc
    exact hout ((h5 s).2 ⟨hr, hc⟩)
  have := h4 s hacc
  rw [saLimbo, if_neg hne, hlimbo] at this
  exact (stage_kept (meth := .drg) a ha hsize u s).2 (k5 s this)

theorem runMain_pfa {p : MainIn} (hm : p.method = some "PFA") (u : Option ℚ) (w : World) :
    runMain { p with upper := u } w = runMain p w := by
  have hm' : p.method.bind methodOf = some .pfa := by rw [hm]; rfl
  unfold runMain
  dsimp only
  rw [hm']
  rfl

/-- Refutes C145 for PFA: the upper threshold has no effect at all. -/
theorem C145_pfa_refuted (rnd : ℚ → ℚ) (hm : q.method = some "PFA") (u : Option ℚ) (dfuel fuel saFuel : Nat) (w : World) :
    fullMain K rnd { q with upper := u } d dfuel fuel saFuel w = fullMain K rnd q d dfuel fuel saFuel w := by
  have hp := fun d' Ms base => runMain_pfa (p := mainIn K rnd q d' Ms base dfuel fuel saFuel) hm u
  have hp' : ∀ d' Ms base, runMain (mainIn K rnd { q with upper := u } d' Ms base dfuel fuel saFuel) =
      runMain (mainIn K rnd q d' Ms base dfuel fuel saFuel) := fun d' Ms base => funext (hp d' Ms base)
  unfold fullMain
  simp only [hp']

theorem runDrgepS_upper {c : Ctx} {sim : Mech → Except Err PyF} {rnd : ℚ → ℚ} {limit : PyF} {dfuel fuel : Nat}
    {w w1 : World} {r : RModel} (h : runDrgepS c sim rnd limit dfuel fuel w = (some (.ok r), w1))
    (hl : ∀ imp sol, w.fs c.modelFile = some sol →
      getImportanceCoeffs c.rndMul sol.names c.targets c.matrices dfuel = .ok imp → limboDrgep c imp r = []) :
    runDrgepS { c with upper := none } sim rnd limit dfuel fuel w = (some (.ok r), w1) := by
  unfold runDrgepS at h ⊢
  dsimp only
  unfold loadModel at h ⊢
  dsimp only at h ⊢
  rcases hw : w.fs c.modelFile with _ | sol <;> rw [hw] at h
  · simp at h
  dsimp only at h ⊢
  by_cases ht : c.targets = []
  · rw [if_pos ht] at h; simp at h
  rw [if_neg ht] at h
  rw [if_neg ht]
  rcases hi : getImportanceCoeffs c.rndMul sol.names c.targets c.matrices dfuel with e | imp <;> rw [hi] at h
  · simp at h
  have hnil := hl imp sol hw hi
  dsimp only at h ⊢
  have he : reduceDrgepS { c with upper := none } sim imp = reduceDrgepS c sim imp := rfl
  rw [he]
  generalize runWith (reduceDrgepS c sim imp) (finishOther (reduceDrgepS c sim imp) rnd limit c.path)
    rnd (rnd (1 / 1000000)) limit fuel (loopInit rnd sol c.modelFile w) = x at h ⊢
  rcases x with ⟨_ | e | r0, w0⟩
  · exact h
  · exact h
  · dsimp only at h ⊢
    have hm : r.model = r0.model := by
      have := congrArg (fun x => x.1) h
      simp only [Option.some.injEq, Except.ok.injEq] at this
      rw [← this]
      unfold appendLimbo
      cases r0.limbo <;> rfl
    have hnil' : limboDrgep c imp r0 = [] := by
      unfold limboDrgep at hnil ⊢
      rw [← hm]
      exact hnil
    have hnil'' : limboDrgep { c with upper := none } imp r0 = [] := rfl
    rw [hnil'] at h
    rw [hnil'']
    exact h

theorem runMain_upper {p : MainIn} (hm : p.method.bind methodOf = some .drgep) {w w1 : World} {r : RModel}
    (h : runMethodS .drgep (p.ctx .drgep) p.sim p.rnd p.limit p.dfuel p.fuel w = (some (.ok r), w1))
    (hl : ∀ imp sol, w.fs p.modelFile = some sol →
      getImportanceCoeffs p.rndMul sol.names p.targets p.matrices p.dfuel = .ok imp →
      limboDrgep (p.ctx .drgep) imp r = []) :
    runMain { p with upper := none } w = runMain p w := by
  have h' : runMethodS .drgep (({ p with upper := none } : MainIn).ctx .drgep) p.sim p.rnd p.limit p.dfuel p.fuel w
    = (some (.ok r), w1) := runDrgepS_upper (c := p.ctx .drgep) h hl
  unfold runMain
  dsimp only
  rw [hm]
  dsimp only
  rw [h', h]
  rfl

/-- Refutes C145 for DRGEP when no species lies between the thresholds: the list of candidates is empty, which sensitivity
analysis takes for no list given, and the run is the one without an upper threshold. -/
theorem C145_none_between_refuted (P : Physical K sol) (Q : Request q.toReduceArgs sol d)
    (hm : q.method = some "DRGEP") (hs : q.sensitivity = true) (a : Arith) (ha : a = .exact ∨ a = .binary64)
    (hsize : 4 * sol.reactions.length + sol.names.length + 14 ≤ 2 ^ 51) (hlim : (PyF.fin 0).le q.limit = true)
    (T : ∀ d' Ms base x y z, TmpDirs (mainIn K a.rnd q d' Ms base x y z))
    (hsame : SameBehaviour K sol (trim sol [] ("reduced_".toList ++ q.modelFile) q.phase))
    {u : ℚ} (hu : q.upper = some u) (h0 : u ≠ 0) :
    ∃ N, ∀ dfuel ≥ N, ∀ fuel saFuel w w' rm evs, w.fs q.modelFile = some sol → w.limbo = [] →
      fullMain K a.rnd q d dfuel fuel saFuel w = ((some (.ok rm), w'), evs) →
      ∃ base rows j k, Simulated (K.sims a.rnd) sol q.conds base rows ∧ j ≤ lastStart .drgep a ∧
        ((∀ s ∈ sol.names, KeptPublished .drgep sol.names q.targets q.safe (rows.map (K.chem sol))
              (Possibly a .drgep sol (finalThr a.rnd j k)) s →
            KeptPublished .drgep sol.names q.targets q.safe (rows.map (K.chem sol)) (Surely a .drgep sol u) s) →
          fullMain K a.rnd { q with upper := none } d dfuel fuel saFuel w = ((some (.ok rm), w'), evs)) := by
  have hm' : q.method.bind methodOf = some .drgep := by rw [hm]; rfl
  rcases hsm : (sample (K.sims a.rnd) sol q.conds q.par d).result with er | ⟨base, rows⟩
  · refine ⟨0, fun dfuel _ fuel saFuel w w' r evs hw _ h => ?_⟩
    obtain ⟨base, rows, h1, -⟩ := fullMain_ok hm' hw h
    rw [hsm] at h1; cases h1
  obtain ⟨hsim, -, U, N, hN⟩ := fullMain_stages P Q hm' hs a hlim T hsame hsm
  obtain ⟨N', hN'⟩ := C28_first_run_partial (rnd := a.rnd) (limit := q.limit) (u := u) U hu h0
  refine ⟨max N N', fun dfuel hd fuel saFuel w w' rm evs hw hl h => ?_⟩
  obtain ⟨r, w1, j, k, acc, hj, h2, h3, h4, h5⟩ := hN dfuel (le_trans (le_max_left _ _) hd) fuel saFuel w w' rm evs hw h
  have h6 := hN' dfuel (le_trans (le_max_right _ _) hd) fuel w r w1 hw hl h2
  refine ⟨base, rows, j, k, hsim, hj, fun hnone => ?_⟩
  have hempty : r.limboList w1 = [] := by
    rw [List.eq_nil_iff_forall_not_mem]
    intro s hsl
    obtain ⟨g1, g2, g3⟩ := (h6 s).1 hsl
    obtain ⟨g4, g5⟩ := (h3 s).1 g1
    have g6 := (stage_kept (K := K) (q := q) (d := d) (meth := .drgep) (base := base) (rows := rows) a ha hsize u s).1
      (hnone s g4 ((stage_kept (K := K) (q := q) (d := d) (meth := .drgep) (base := base) (rows := rows) a ha hsize _ s).2 g5))
    rcases g6 with ⟨y, hy, hle⟩ | g6
    · exact absurd (g3 y hy) (not_lt.2 hle)
    · exact g2 g6
  obtain ⟨imp, i1, i2, -⟩ := runDrgep_limbo U.toSetting hw h2
  rw [hempty, hl] at i2
  have i3 : limboDrgep (stageCtx K .drgep a.rnd q d sol base rows) imp r = [] := by simpa using i2.symm
  obtain ⟨base', rows', e1, e2, e3⟩ := fullMain_ok hm' hw h
  rw [hsm] at e1
  cases e1
  rw [e2] at e3
  set p := mainIn K a.rnd q (applyEvs d (sample (K.sims a.rnd) sol q.conds q.par d).evs)
    (rows.map (fun r => matrixOf .drgep a.rnd (K.chem sol r))) base dfuel fuel saFuel with hp
  have hc : p.ctx .drgep = stageCtx K .drgep a.rnd q d sol base rows :=
    mainIn_ctx (meth := .drgep) a.rnd _ base rows dfuel fuel saFuel
  have hS : ∃ r' w1', runMethodS .drgep (p.ctx .drgep) p.sim p.rnd p.limit p.dfuel p.fuel w = (some (.ok r'), w1') := by
    have e4 := e3
    unfold runMain at e4
    split at e4
    · cases e4
    split at e4
    · cases e4
    have hpm : p.method.bind methodOf = some .drgep := hm'
    rw [hpm] at e4
    dsimp only at e4
    split at e4
    · rename_i r' w1' he
      exact ⟨r', w1', he⟩
    · rename_i hne
      exact absurd e4 (hne _ _)
  obtain ⟨r', w1', hS⟩ := hS
  have hS' := runMethodS_ok hS
  rw [hc] at hS'
  have := h2.symm.trans hS'
  simp only [Prod.mk.injEq, Option.some.injEq, Except.ok.injEq] at this
  obtain ⟨rfl, rfl⟩ := this
  have key := runMain_upper (p := p) hm' hS (by
    intro imp' sol' hw' hi
    rw [show w.fs p.modelFile = w.fs q.modelFile from rfl, hw] at hw'
    cases hw'
    obtain rfl : imp = imp' := by
      rw [show getImportanceCoeffs p.rndMul sol.names p.targets p.matrices p.dfuel =
        getImportanceCoeffs (stageCtx K .drgep a.rnd q d sol base rows).rndMul sol.names
          (stageCtx K .drgep a.rnd q d sol base rows).targets (stageCtx K .drgep a.rnd q d sol base rows).matrices dfuel by
            rw [← hc]; rfl, i1] at hi
      cases hi; rfl
    rw [hc]; exact i3)
  rw [← h]
  unfold fullMain
  dsimp only
  rw [hm']
  dsimp only
  have hload : loadModel w q.modelFile = .ok sol := by unfold loadModel; rw [hw]
  rw [hload]
  dsimp only
  rw [hsm]
  dsimp only
  have hp' : mainIn K a.rnd { q with upper := none } (applyEvs d (sample (K.sims a.rnd) sol q.conds q.par d).evs)
    (rows.map (fun r => matrixOf .drgep a.rnd (K.chem sol r))) base dfuel fuel saFuel = { p with upper := none } := rfl
  rw [hp', key]

/-- the run of `Props/FullMain.lean` with an upper threshold -/
def upperMain (method : String) (u : ℚ) : MainArgs Unit Unit Unit :=
  { e2eMain method with upper := some u }

theorem upperMain_tmp (s : String) (u : ℚ) (rnd : ℚ → ℚ) (d : Disk) (Ms : List NMat) (base : List PyF) (x y z : Nat) :
    TmpDirs (mainIn e2eK rnd (upperMain s u) d Ms base x y z) :=
  e2eMain_tmp s rnd d Ms base x y z

theorem upperMain_request (s : String) (u : ℚ) : Request (upperMain s u).toReduceArgs e2eSol (fun _ => none) :=
  ⟨e2e_request.nodup, e2e_request.targets, e2e_request.target, e2e_request.noclash, e2e_request.cond, e2e_request.par,
    e2e_request.freshIgn, e2e_request.freshPsr, e2e_request.freshFlame⟩

/-- in every state the published DRGEP coefficient of `D` for `A` is 19/20 -/
theorem e2e_kept {rows : List Row} (h : rows ≠ []) : KeptPublished .drgep e2eSol.names ["A"] [] (rows.map (e2eK.chem e2eSol))
    (19 / 20) "D" := by
  obtain ⟨r, hr⟩ := List.exists_mem_of_ne_nil _ h
  have hv : (published .drgep (e2eK.chem e2eSol r)).toN 0 3 = 19 / 20 := by
    change (published .drgep (e2eK.chem e2eSol [])).toN 0 3 = 19 / 20
    decide +kernel
  refine .inl ⟨id (1 * (published .drgep (e2eK.chem e2eSol r)).toN 0 3), .inr ⟨_, List.mem_map_of_mem (List.mem_map_of_mem hr),
    "A", by simp, .step (b := "A") (i := 0) (j := 3) (.nil (by decide)) (by decide) (by decide) ?_⟩, ?_⟩
  · show (published .drgep (e2eK.chem e2eSol r)).toN 0 3 ≠ 0
    rw [hv]; norm_num
  · simp [hv]

/-- Refutes C145 for DRGEP when no species lies between the thresholds: the list of candidates is empty, which sensitivity
analysis takes for no list given.  It removes a species with a coefficient of 19/20, far above the upper threshold of 1/50.  With
an upper threshold of 1/2 the same run keeps it. -/
theorem C145_empty_refuted : ∃ rm w' evs, fullMain e2eK id (upperMain "DRGEP" (1 / 50)) (fun _ => none) 50 20 20 e2eWorld =
      ((some (.ok rm), w'), evs) ∧ "D" ∉ rm.model.names ∧
    (∀ rows ≠ [], KeptPublished .drgep e2eSol.names ["A"] [] (rows.map (e2eK.chem e2eSol)) (19 / 20) "D") ∧
    ∃ rm' w'' evs', fullMain e2eK id (upperMain "DRGEP" (1 / 2)) (fun _ => none) 50 20 20 e2eWorld =
      ((some (.ok rm'), w''), evs') ∧ "D" ∈ rm'.model.names := by
  have h1 : runView (fullMain e2eK id (upperMain "DRGEP" (1 / 50)) (fun _ => none) 50 20 20 e2eWorld).1 =
    some (.ok (["A", "B"], .fin 1)) := by decide +kernel
  have h2 : runView (fullMain e2eK id (upperMain "DRGEP" (1 / 2)) (fun _ => none) 50 20 20 e2eWorld).1 =
    some (.ok (["A", "B", "D"], .fin 1)) := by decide +kernel
  obtain ⟨rm, w', g1, g2⟩ := runView_ok h1
  obtain ⟨rm', w'', g3, g4⟩ := runView_ok h2
  exact ⟨rm, w', _, Prod.ext g1 rfl, by rw [(Prod.mk.inj g2).1]; decide, fun rows h => e2e_kept h, rm', w'', _, Prod.ext g3 rfl,
    by rw [(Prod.mk.inj g4).1]; decide⟩

/-- the hypotheses of the theorems hold here, for any positive upper threshold -/
example : ∃ N, ∀ dfuel ≥ N, ∀ fuel saFuel w w' rm evs, w.fs (upperMain "DRGEP" (1 / 2)).modelFile = some e2eSol → w.limbo = [] →
    fullMain e2eK rnd64 (upperMain "DRGEP" (1 / 2)) (fun _ => none) dfuel fuel saFuel w = ((some (.ok rm), w'), evs) →
    ∃ base rows j k, Simulated (e2eK.sims rnd64) e2eSol (upperMain "DRGEP" (1 / 2)).conds base rows ∧
      j ≤ lastStart .drgep .binary64 ∧
      (∀ s ∈ rm.model.names, s ∈ e2eSol.names ∧
        KeptPublished .drgep e2eSol.names ["A"] [] (rows.map (e2eK.chem e2eSol))
          (Possibly .binary64 .drgep e2eSol (finalThr rnd64 j k)) s) ∧
      ((∃ s ∈ e2eSol.names, KeptPublished .drgep e2eSol.names ["A"] [] (rows.map (e2eK.chem e2eSol))
            (Surely .binary64 .drgep e2eSol (finalThr rnd64 j k)) s ∧
          ¬ KeptPublished .drgep e2eSol.names ["A"] [] (rows.map (e2eK.chem e2eSol)) (Possibly .binary64 .drgep e2eSol (1 / 2)) s) →
        ∀ s ∈ e2eSol.names, KeptPublished .drgep e2eSol.names ["A"] [] (rows.map (e2eK.chem e2eSol))
          (Surely .binary64 .drgep e2eSol (1 / 2)) s → s ∈ rm.model.names) :=
  C145_drgep_partial (q := upperMain "DRGEP" (1 / 2)) e2e_physical (upperMain_request _ _) rfl rfl .binary64 (.inr rfl) (by decide) (by decide)
    (upperMain_tmp _ _ _) e2e_same rfl (by norm_num)

/-- DRG hands over `A` and `D`, which the upper threshold selects; `B` and `C`, which it does not select, are not tried.  The run
loses `D` and even the target. -/
example : runView (fullMain e2eK id (upperMain "DRG" (1 / 2)) (fun _ => none) 50 20 20 e2eWorld).1 =
    some (.ok (["B"], .fin 1)) := by decide +kernel

/-- the hypotheses of `C145_drg_refuted` and `C108_both` hold here -/
example := C145_drg_refuted (q := upperMain "DRG" (1 / 2)) e2e_physical (upperMain_request _ _) rfl rfl .binary64 (.inr rfl)
  (by decide) (by decide) (upperMain_tmp _ _ _) e2e_same rfl (by norm_num)
example := C108_both (q := upperMain "PFA" (1 / 2)) (meth := .pfa) e2e_physical (upperMain_request _ _) rfl rfl .exact (.inl rfl)
  (by decide) (by decide) (upperMain_tmp _ _ _) e2e_same

/-- the hypotheses of `C145_none_between_refuted` hold here; no species lies between the thresholds in the run of
`C145_empty_refuted`, which ends as without an upper threshold -/
example := C145_none_between_refuted (q := upperMain "DRGEP" (1 / 50)) e2e_physical (upperMain_request _ _) rfl rfl .exact (.inl rfl)
  (by decide) (by decide) (upperMain_tmp _ _ _) e2e_same rfl (by norm_num)
example : runView (fullMain e2eK id { upperMain "DRGEP" (1 / 50) with upper := none } (fun _ => none) 50 20 20 e2eWorld).1 =
    some (.ok (["A", "B"], .fin 1)) := by decide +kernel

end Verif
