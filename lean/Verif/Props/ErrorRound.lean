import Verif.Lemmas.ErrorRound
import Verif.Lemmas.ErrorStep
import Verif.Props.EndToEnd
/-!
# C117: rounding in the error of a candidate
-/
namespace Verif
open Spec

/-- **C117**: the computed error is the greatest percentage by which a metric deviates, to 15
digits; it is infinite only if that percentage is huge. -/
theorem C117_close {R : ℚ → PyF} (hR : RoundsF R) {os ts : List ℚ} (hl : os.length = ts.length)
    (hne : os ≠ []) (ho : ∀ o ∈ os, 1 / 2 ^ 100 ≤ o ∧ o ≤ 2 ^ 100) (ht : ∀ t ∈ ts, t ≠ 0) :
    ∃ e, IsGreatest {x | ∃ p ∈ os.zip ts, x = 100 * (|p.1 - p.2| / p.1)} e ∧
      ((∃ e', calculateErrorR R (os.map .fin) (ts.map .fin) = .ok (.fin e') ∧
          |e' - e| ≤ e / 2 ^ 51 + 1 / 2 ^ 140) ∨
        (calculateErrorR R (os.map .fin) (ts.map .fin) = .ok .inf ∧ 2 ^ 140 ≤ e)) := by
  have hpos : ∀ o ∈ os, o ≠ 0 := fun o h => (lt_of_lt_of_le (by positivity) (ho o h).1).ne'
  obtain ⟨e, h1, h2⟩ := calculateError_fin hl hne hpos ht
  refine ⟨e, h2, ?_⟩
  rcases calculateErrorR_near hR (orig := os.map .fin) (test := ts.map .fin) (by
      intro x hx
      obtain ⟨o, h, rfl⟩ := List.mem_map.1 hx
      exact ⟨o, rfl, ho o h⟩) with ⟨e1, h3, -⟩ | ⟨x, x', h3, h4, h5⟩
  · rw [h1] at h3; cases h3
  · rw [h1] at h3
    cases h3
    cases h5 with
    | fin h0 h => exact .inl ⟨_, h4, h⟩
    | over h => exact .inr ⟨h4, h⟩

example : calculateErrorR rndInf [.fin 3, .fin 8] [.fin 4, .fin 9] =
    .ok (.fin (2345624805922133 / 2 ^ 46)) ∧ (2345624805922133 / 2 ^ 46 : ℚ) < 100 / 3 := by decide +kernel

variable {ι π φ : Type} {K : Cantera ι π φ} {sol : Mech} {q : ReduceArgs ι π φ} {d : Disk}
  {meth : Method} {R : ℚ → PyF}

/-- **C117**: when no candidate has an error within rounding of the limit, rounding in the error
measure changes nothing but the last digits of the reported error: same model, same files, same
exceptions. -/
theorem C117_decisions (hR : RoundsF R) (rnd rndThr : ℚ → ℚ) (Q : Request q sol d) {L : ℚ}
    (hL : q.limit = .fin L) (hL0 : 0 ≤ L) (hL1 : L ≤ 2 ^ 100)
    (h : ∀ base rows, (sample (K.sims rnd) sol q.conds q.par d).result = .ok (base, rows) →
      (∀ x ∈ base, Moderate x) ∧ ∀ removed, Decided L (evalError (K.sims rnd) q
        (applyEvs d (sample (K.sims rnd) sol q.conds q.par d).evs) base
        (trim sol removed ("reduced_".toList ++ q.modelFile) q.phase)))
    (dfuel fuel : Nat) {w : World} (hw : w.fs q.modelFile = some sol) :
    SameRun (fullRun K meth rnd rndThr q d dfuel fuel w).1 (fullRunR R K meth rnd rndThr q d dfuel fuel w).1 ∧
      (fullRunR R K meth rnd rndThr q d dfuel fuel w).2 = (fullRun K meth rnd rndThr q d dfuel fuel w).2 := by
  have hload : loadModel w q.modelFile = .ok sol := by unfold loadModel; rw [hw]
  unfold fullRun fullRunR
  rw [hload]
  dsimp only
  rw [if_neg Q.target, if_neg Q.target]
  rcases hs : (sample (K.sims rnd) sol q.conds q.par d).result with e | ⟨base, rows⟩
  · exact ⟨.raised e w, rfl⟩
  dsimp only
  obtain ⟨hb, hd⟩ := h base rows hs
  refine ⟨?_, rfl⟩
  have key := runMethodS_errs (c := fullCtx K meth rnd q
      (applyEvs d (sample (K.sims rnd) sol q.conds q.par d).evs) sol base rows) (sol := sol)
    (sim := evalSim (K.sims rnd) q (applyEvs d (sample (K.sims rnd) sol q.conds q.par d).evs) base)
    (sim' := evalSimR R (K.sims rnd) q (applyEvs d (sample (K.sims rnd) sol q.conds q.par d).evs) base)
    (E := fun x x' => NearError x x' ∧ Decided L x ∨ x = .fin 0 ∧ x' = .fin 0)
    meth ⟨Q.nodup, Q.targets, Q.noclash⟩ (fun l => by
      have hd := hd l
      show RelSim _ (evalSim _ _ _ _ (trim sol l ("reduced_".toList ++ q.modelFile) q.phase))
        (evalSimR _ _ _ _ _ (trim sol l ("reduced_".toList ++ q.modelFile) q.phase))
      unfold evalError simError evalSim at hd
      unfold evalSim evalSimR
      generalize sampleMetrics (K.sims rnd) (trim sol l ("reduced_".toList ++ q.modelFile) q.phase) q.conds
        q.par false _ = x at hd ⊢
      rcases x with e | t
      · exact .error e
      · dsimp only at hd ⊢
        rcases calculateErrorR_near hR (test := t) hb with ⟨e, h1, h2⟩ | ⟨x, x', h1, h2, h3⟩ <;>
          rw [h1] at hd ⊢ <;> rw [h2]
        · exact .error e
        · exact .ok (.inl ⟨h3, hd⟩)) rndThr (limit := q.limit)
    ⟨.inr ⟨rfl, rfl⟩, by
      rintro x x' (⟨h1, h2⟩ | ⟨rfl, rfl⟩)
      · rw [hL]; exact h1.decide hL0 hL1 h2
      · exact ⟨rfl, rfl⟩⟩ dfuel fuel hw
  have zero : NearError (.fin 0) (.fin 0) := .fin le_rfl (by norm_num)
  generalize runMethodS meth _ (evalSim _ _ _ _) rndThr q.limit dfuel fuel w = a at key ⊢
  generalize runMethodS meth _ (evalSimR _ _ _ _ _) rndThr q.limit dfuel fuel w = b at key ⊢
  cases key with
  | running w => exact .running w
  | raised e w => exact .raised e w
  | returned w h =>
    refine .returned w ⟨h.model, h.filename, h.limbo, ?_⟩
    rcases h.error with h1 | ⟨h1, h2⟩
    · exact h1.1
    · rw [h1, h2]; exact zero

/-- a run that returned has sampled the starting model and run the loop -/
theorem fullRunR_ok {rnd rndThr : ℚ → ℚ} {dfuel fuel : Nat} {w w' : World} {r : RModel} {evs : List Ev}
    (hw : w.fs q.modelFile = some sol)
    (h : fullRunR R K meth rnd rndThr q d dfuel fuel w = ((some (.ok r), w'), evs)) :
    ∃ base rows, (sample (K.sims rnd) sol q.conds q.par d).result = .ok (base, rows) ∧
      evs = (sample (K.sims rnd) sol q.conds q.par d).evs ∧
      runMethod meth ((fullCtx K meth rnd q (applyEvs d evs) sol base rows).total
        (evalSimR R (K.sims rnd) q (applyEvs d evs) base)) rndThr q.limit dfuel fuel w
        = (some (.ok r), w') := by
  have hload : loadModel w q.modelFile = .ok sol := by unfold loadModel; rw [hw]
  unfold fullRunR at h
  rw [hload] at h
  dsimp only at h
  by_cases ht : q.targets = []
  · rw [if_pos ht] at h; cases h
  rw [if_neg ht] at h
  rcases hs : (sample (K.sims rnd) sol q.conds q.par d).result with e | ⟨base, rows⟩ <;> rw [hs] at h
  · cases h
  · simp only [Prod.mk.injEq] at h
    obtain ⟨h1, h2⟩ := h
    refine ⟨base, rows, rfl, h2.symm, ?_⟩
    rw [← h2]
    exact runMethodS_ok h1

/-- the computed error of a model that behaves like the starting one is zero -/
theorem simErrorR_same (hR : RoundsF R) (P : Physical K sol) (b : Arith) (Q : Request q sol d)
    {base : List PyF} {rows : List Row} (hs : Simulated (K.sims b.rnd) sol q.conds base rows)
    {m : Mech} (hm : SameBehaviour K sol m) (d' : Disk) :
    simError (evalSimR R (K.sims b.rnd) q d' base) m = .fin 0 := by
  obtain ⟨h, os, hos, hne, hpos⟩ := metrics_sameBehaviour P b Q hs hm d'
  unfold simError evalSimR
  rw [h, hos]
  dsimp only
  unfold calculateErrorR
  rw [broadcast_eq rfl]
  dsimp only
  have hz : (List.map (relDevR R) ((os.map PyF.fin).zip (os.map PyF.fin))) =
      (os.map (fun _ => (0 : ℚ))).map PyF.fin := by
    rw [zip_map_fin, List.map_map, List.map_map]
    apply List.ext_getElem (by simp)
    intro i h1 h2
    have h3 : i < os.length := by simpa using h1
    simp only [List.getElem_map, List.getElem_zip, Function.comp]
    have : os[i] ≠ 0 := (hpos _ (List.getElem_mem h3)).ne'
    simp [relDevR, PyF.sub, PyF.neg, PyF.add, PyF.rd, hR.zero, PyF.abs, PyF.div, this]
  have hany : (os.map PyF.fin).any (fun t => t.eq (.fin 0)) = false := by
    rw [List.any_eq_false]
    intro x hx
    obtain ⟨t, h1, rfl⟩ := List.mem_map.1 hx
    simp [PyF.eq, (hpos t h1).ne']
  rw [hz, hany]
  rcases os with _ | ⟨a, l⟩
  · exact absurd rfl hne
  · rw [List.map_cons, List.map_cons]
    unfold npMax
    dsimp only
    rw [foldl_nmax_fin]
    have : (l.map (fun _ => (0 : ℚ))).foldl max 0 = 0 := by
      clear * -
      induction l with
      | nil => rfl
      | cons a l ih => simpa using ih
    rw [this]
    simp [PyF.mul, PyF.rd, hR.zero]

/-- a computed error bounds the exact one -/
theorem exact_of_computed {rnd : ℚ → ℚ} (hR : RoundsF R) {d' : Disk} {base : List PyF}
    (hb : ∀ x ∈ base, Moderate x) {m : Mech} {e : ℚ}
    (h : simError (evalSimR R (K.sims rnd) q d' base) m = .fin e) :
    ∃ e0, evalError (K.sims rnd) q d' base m = .fin e0 ∧ |e - e0| ≤ e0 / 2 ^ 51 + 1 / 2 ^ 140 := by
  unfold simError evalSimR at h
  rw [evalError_eq]
  generalize sampleMetrics (K.sims rnd) m q.conds q.par false d' = y at h ⊢
  rcases y with e1 | t
  · cases h
  · dsimp only at h ⊢
    rcases calculateErrorR_near hR (test := t) hb with ⟨e1, h1, h2⟩ | ⟨x, x', h1, h2, h3⟩ <;>
      rw [h2] at h
    · cases h
    · dsimp only at h
      subst h
      rw [h1]
      cases h3 with
      | fin h0 h => exact ⟨_, rfl, h⟩

/-- **C117**: when a run that computes errors with rounding returns a model and reports an error
below 99 percent, the model reproduces the starting model under every condition within the reported
error and a few units in its last place. -/
theorem C117_reported (hR : RoundsF R) (P : Physical K sol) (Q : Request q sol d) (b a : Arith)
    (hlim : (PyF.fin 0).le q.limit = true)
    (hsame : SameBehaviour K sol (trim sol [] ("reduced_".toList ++ q.modelFile) q.phase))
    (hord : ∀ base rows, (sample (K.sims b.rnd) sol q.conds q.par d).result = .ok (base, rows) →
      ∀ x ∈ base, Moderate x) :
    ∃ N, ∀ dfuel ≥ N, ∀ fuel w w' r evs e, w.fs q.modelFile = some sol →
      fullRunR R K meth b.rnd a.rnd q d dfuel fuel w = ((some (.ok r), w'), evs) →
      r.error = .fin e → e < 99 → Reproduces K q.conds sol r.model (e + e / 2 ^ 50 + 1 / 2 ^ 130) := by
  rcases hs : (sample (K.sims b.rnd) sol q.conds q.par d).result with er | ⟨base, rows⟩
  · refine ⟨0, fun dfuel _ fuel w w' r evs e hw h => ?_⟩
    obtain ⟨base, rows, h1, -⟩ := fullRunR_ok hw h
    rw [hs] at h1; cases h1
  · obtain ⟨hsim, -, U⟩ := fullCtx_usable (meth := meth) P b Q hs
      (applyEvs d (sample (K.sims b.rnd) sol q.conds q.par d).evs)
    generalize hev : (sample (K.sims b.rnd) sol q.conds q.par d).evs = ev at U
    have U' : Usable meth ((fullCtx K meth b.rnd q (applyEvs d ev) sol base rows).total
        (evalSimR R (K.sims b.rnd) q (applyEvs d ev) base)) sol :=
      ⟨⟨U.nodup, U.targets, U.noclash⟩, U.target, U.unit, U.upper⟩
    have hl : LimitOk ((fullCtx K meth b.rnd q (applyEvs d ev) sol base rows).total
        (evalSimR R (K.sims b.rnd) q (applyEvs d ev) base)) sol q.limit := by
      refine ⟨hlim, ?_⟩
      show (simError (evalSimR R (K.sims b.rnd) q _ base)
        (trim sol [] ("reduced_".toList ++ q.modelFile) q.phase)).le q.limit = true
      rw [simErrorR_same hR P b Q hsim hsame]
      exact hlim
    obtain ⟨N, hN⟩ := C19_returned U' hl a
    refine ⟨N, fun dfuel hd fuel w w' r evs e hw h he h100 => ?_⟩
    obtain ⟨base', rows', h1, h2, h3⟩ := fullRunR_ok hw h
    rw [hs] at h1
    cases h1
    rw [h2, hev] at h3
    obtain ⟨-, -, -, -, -, -, -, h4⟩ := hN dfuel hd fuel w r w' hw h3
    rw [he] at h4
    obtain ⟨e0, g1, g2⟩ := exact_of_computed (m := r.model) hR (hord base rows hs) h4.symm
    obtain ⟨b1, b2⟩ := abs_le.1 g2
    refine Spec.Reproduces.mono P (reproduces_of_error P Q.par hsim g1 ?_) ?_
    · norm_num at b1; linarith
    · norm_num at b1 b2 ⊢; linarith

/-- **C117**: with exact thresholds and a limit below 99 percent, every returned model reproduces
the starting model under every condition within the limit and a few units in its last place. -/
theorem C117_within_limit (hR : RoundsF R) (P : Physical K sol) (Q : Request q sol d) (b : Arith) {L : ℚ}
    (hL : q.limit = .fin L) (hL0 : 0 ≤ L) (hL1 : L < 99)
    (hsame : SameBehaviour K sol (trim sol [] ("reduced_".toList ++ q.modelFile) q.phase))
    (hord : ∀ base rows, (sample (K.sims b.rnd) sol q.conds q.par d).result = .ok (base, rows) →
      ∀ x ∈ base, Moderate x) :
    ∃ N, ∀ dfuel ≥ N, ∀ fuel w w' r evs, w.fs q.modelFile = some sol →
      fullRunR R K meth b.rnd id q d dfuel fuel w = ((some (.ok r), w'), evs) →
      Reproduces K q.conds sol r.model (L + L / 2 ^ 50 + 1 / 2 ^ 130) := by
  have hlim : (PyF.fin 0).le q.limit = true := by rw [hL]; simpa [PyF.le] using hL0
  rcases hs : (sample (K.sims b.rnd) sol q.conds q.par d).result with er | ⟨base, rows⟩
  · refine ⟨0, fun dfuel _ fuel w w' r evs hw h => ?_⟩
    obtain ⟨base, rows, h1, -⟩ := fullRunR_ok hw h
    rw [hs] at h1; cases h1
  · obtain ⟨hsim, -, U⟩ := fullCtx_usable (meth := meth) P b Q hs
      (applyEvs d (sample (K.sims b.rnd) sol q.conds q.par d).evs)
    generalize hev : (sample (K.sims b.rnd) sol q.conds q.par d).evs = ev at U
    have U' : Usable meth ((fullCtx K meth b.rnd q (applyEvs d ev) sol base rows).total
        (evalSimR R (K.sims b.rnd) q (applyEvs d ev) base)) sol :=
      ⟨⟨U.nodup, U.targets, U.noclash⟩, U.target, U.unit, U.upper⟩
    have hl : LimitOk ((fullCtx K meth b.rnd q (applyEvs d ev) sol base rows).total
        (evalSimR R (K.sims b.rnd) q (applyEvs d ev) base)) sol q.limit := by
      refine ⟨hlim, ?_⟩
      show (simError (evalSimR R (K.sims b.rnd) q _ base)
        (trim sol [] ("reduced_".toList ++ q.modelFile) q.phase)).le q.limit = true
      rw [simErrorR_same hR P b Q hsim hsame]
      exact hlim
    obtain ⟨N, hN⟩ := C19_within_limit_partial U' hl
    obtain ⟨N', hN'⟩ := C117_reported (meth := meth) hR P Q b .exact hlim hsame hord
    refine ⟨max N N', fun dfuel hd fuel w w' r evs hw h => ?_⟩
    obtain ⟨base', rows', h1, h2, h3⟩ := fullRunR_ok hw h
    rw [hs] at h1
    cases h1
    rw [h2, hev] at h3
    obtain ⟨g1, g2, -⟩ := hN dfuel (le_of_max_le_left hd) fuel w r w' hw h3
    rcases hr : r.error with e | _ | _ | _ <;> rw [hr, hL] at g1 <;> simp [PyF.le] at g1
    · have := hN' dfuel (le_of_max_le_right hd) fuel w w' r evs e hw h hr (by linarith)
      refine Spec.Reproduces.mono P this ?_
      norm_num
      linarith
    · exfalso
      rw [hr] at g2
      have g3 : PyF.ninf = simError (evalSimR R (K.sims b.rnd) q (applyEvs d ev) base) r.model := g2
      unfold simError evalSimR at g3
      generalize sampleMetrics (K.sims b.rnd) r.model q.conds q.par false _ = y at g3
      rcases y with e1 | t
      · cases g3
      · dsimp only at g3
        rcases calculateErrorR_near hR (test := t) (hord base rows hs) with ⟨e1, h1, h2⟩ | ⟨x, x', h1, h2, h3⟩ <;>
          rw [h2] at g3
        · cases g3
        · dsimp only at g3
          subst g3
          cases h3

/-! ### concrete runs -/

theorem e2e_error_names {m m' : Mech} (h : m.names = m'.names) (d : Disk) (base : List PyF) :
    evalError (e2eK.sims id) e2eArgs d base m = evalError (e2eK.sims id) e2eArgs d base m' := by
  have h1 : (e2eK.sims id).ign.metric m = (e2eK.sims id).ign.metric m' := by
    simp only [Cantera.sims, Cantera.ignSims, e2eK, h]
  have h2 : (e2eK.sims id).psr.metric m = (e2eK.sims id).psr.metric m' := by
    simp only [Cantera.sims, Cantera.psrSims, e2eK, h]
  have h3 : (e2eK.sims id).flame.metric m = (e2eK.sims id).flame.metric m' := by
    simp only [Cantera.sims, Cantera.flameSims, e2eK, h]
  unfold evalError simError evalSim sampleMetrics metricsPart
  simp only [h1, h2, h3]

def decidedB (L : ℚ) : PyF → Bool
  | .fin e => decide (L / 2 ^ 50 + 1 / 2 ^ 130 < |e - L|)
  | _ => true

theorem decided_of_B {L : ℚ} {x : PyF} (h : decidedB L x = true) : Decided L x := by
  rintro e rfl
  simpa [decidedB] using h

/-- the errors of all candidates of the example are away from the limit -/
theorem e2e_decided (removed : List String) : Decided 5 (evalError (e2eK.sims id) e2eArgs
    (applyEvs (fun _ => none) (sample (e2eK.sims id) e2eSol e2eArgs.conds e2eArgs.par (fun _ => none)).evs)
    [.fin 100, .fin 1, .fin 1000, .fin 1600, .fin 1]
    (trim e2eSol removed ("reduced_".toList ++ e2eArgs.modelFile) e2eArgs.phase)) := by
  have hn : (trim e2eSol removed ("reduced_".toList ++ e2eArgs.modelFile) e2eArgs.phase).names =
      (trim e2eSol (e2eSol.names.filter (removed.contains ·)) ("reduced_".toList ++ e2eArgs.modelFile)
        e2eArgs.phase).names := by
    rw [trim_names, trim_names]
    apply List.filter_congr
    intro s hs
    simp [hs]
  rw [e2e_error_names hn]
  have : ∀ a b c d : Bool, decidedB 5 (evalError (e2eK.sims id) e2eArgs
      (applyEvs (fun _ => none) (sample (e2eK.sims id) e2eSol e2eArgs.conds e2eArgs.par (fun _ => none)).evs)
      [.fin 100, .fin 1, .fin 1000, .fin 1600, .fin 1]
      (trim e2eSol ((if a then ["A"] else []) ++ (if b then ["B"] else []) ++ (if c then ["C"] else []) ++
        (if d then ["D"] else [])) ("reduced_".toList ++ e2eArgs.modelFile) e2eArgs.phase)) = true := by
    decide +kernel
  have hf : e2eSol.names.filter (removed.contains ·) =
      (if removed.contains "A" then ["A"] else []) ++ (if removed.contains "B" then ["B"] else []) ++
      (if removed.contains "C" then ["C"] else []) ++ (if removed.contains "D" then ["D"] else []) := by
    show List.filter _ ["A", "B", "C", "D"] = _
    simp only [List.filter_cons, List.filter_nil]
    cases removed.contains "A" <;> cases removed.contains "B" <;> cases removed.contains "C" <;>
      cases removed.contains "D" <;> rfl
  rw [hf]
  exact decided_of_B (this _ _ _ _)

theorem e2e_sampled : (sample (e2eK.sims id) e2eSol e2eArgs.conds e2eArgs.par (fun _ => none)).result.map
    (·.1) = .ok [.fin 100, .fin 1, .fin 1000, .fin 1600, .fin 1] := by decide +kernel

theorem e2e_ordinary : ∀ x ∈ ([.fin 100, .fin 1, .fin 1000, .fin 1600, .fin 1] : List PyF), Moderate x := by
  intro x hx
  simp only [List.mem_cons, List.not_mem_nil, or_false] at hx
  rcases hx with rfl | rfl | rfl | rfl | rfl <;> exact ⟨_, rfl, by norm_num, by norm_num⟩

theorem e2e_base {base : List PyF} {rows : List Row}
    (h : (sample (e2eK.sims id) e2eSol e2eArgs.conds e2eArgs.par (fun _ => none)).result = .ok (base, rows)) :
    base = [.fin 100, .fin 1, .fin 1000, .fin 1600, .fin 1] := by
  have := e2e_sampled
  rw [h] at this
  simpa [Except.map] using this

/-- the hypotheses of `C117_decisions` hold for the example run -/
example : SameRun (fullRun e2eK meth id id e2eArgs (fun _ => none) 50 20 e2eWorld).1
    (fullRunR rndInf e2eK meth id id e2eArgs (fun _ => none) 50 20 e2eWorld).1 :=
  (C117_decisions roundsF_rndInf id id e2e_request (L := 5) rfl (by norm_num) (by norm_num)
    (fun base rows h => by rw [e2e_base h]; exact ⟨e2e_ordinary, e2e_decided⟩) 50 20 rfl).1

/-- ... and those of `C117_within_limit` -/
example : runView (fullRunR rndInf e2eK .drg id id e2eArgs (fun _ => none) 50 20 e2eWorld).1 =
    some (.ok (["A", "B", "D"], .fin 1)) := by decide +kernel

/-! ### an error within rounding of the limit -/

/-- ignition takes 3 units of time, 4 without `C` -/
def tieReactor (names : List String) : Reactor where
  init := ⟨.fin 0, .fin 1000, .fin 1, names.map (fun _ => .fin 0)⟩
  step := fun k => some ⟨.fin ((if names.contains "B" then (if names.contains "C" then 3 else 4)
    else 50) + k), .fin 2000, .fin 1, names.map (fun _ => .fin 0)⟩
  settled := fun k => k = 1

def tieK : Cantera Unit Unit Unit := { e2eK with reactor := fun m _ => .ok (tieReactor m.names) }

/-- a limit just below 100/3 percent -/
def tieArgs : ReduceArgs Unit Unit Unit := { e2eArgs with limit := .fin (2345624805922133 / 2 ^ 46) }

/-- **C117** is false without a distance to the limit: the delay changes by 100/3 percent when `C`
is removed, which is more than the limit; in exact arithmetic `C` is kept, but the computed error
equals the limit, and the model without `C` is returned. -/
theorem C117_tie_refuted :
    ∃ (K : Cantera Unit Unit Unit) (q : ReduceArgs Unit Unit Unit) (sol : Mech) (L : ℚ),
      q.limit = .fin L ∧ L < 99 ∧ Request q sol (fun _ => none) ∧
      ∃ r r' w w' evs evs', fullRun K .drg id id q (fun _ => none) 50 20 e2eWorld = ((some (.ok r), w), evs) ∧
        fullRunR rndInf K .drg id id q (fun _ => none) 50 20 e2eWorld = ((some (.ok r'), w'), evs') ∧
        r.model.names = ["A", "B", "C", "D"] ∧ r'.model.names = ["A", "B", "D"] ∧
        r'.error = .fin L ∧ ¬ Reproduces K q.conds sol r'.model L := by
  have h1 : runView (fullRun tieK .drg id id tieArgs (fun _ => none) 50 20 e2eWorld).1 =
    some (.ok (["A", "B", "C", "D"], .fin 0)) := by decide +kernel
  have h2 : runView (fullRunR rndInf tieK .drg id id tieArgs (fun _ => none) 50 20 e2eWorld).1 =
    some (.ok (["A", "B", "D"], .fin (2345624805922133 / 2 ^ 46))) := by decide +kernel
  rcases ha : fullRun tieK .drg id id tieArgs (fun _ => none) 50 20 e2eWorld with ⟨a, evs⟩
  rcases hb : fullRunR rndInf tieK .drg id id tieArgs (fun _ => none) 50 20 e2eWorld with ⟨b, evs'⟩
  rw [ha] at h1
  rw [hb] at h2
  obtain ⟨r, w, rfl, h3⟩ := runView_ok h1
  obtain ⟨r', w', rfl, h4⟩ := runView_ok h2
  simp only [Prod.mk.injEq] at h3 h4
  refine ⟨tieK, tieArgs, e2eSol, _, rfl, by norm_num, ?_, r, r', w, w', evs, evs', ha, hb, h3.1, h4.1, h4.2, ?_⟩
  · have Q := e2e_request
    exact ⟨Q.nodup, Q.targets, Q.target, Q.noclash, Q.cond, Q.par, Q.freshIgn, Q.freshPsr, Q.freshFlame⟩
  · intro H
    obtain ⟨R, R', k, k', p, p', g1, g2, g3, g4, o, t, g5, g6, g7⟩ := H.ign () (by simp [tieArgs, e2eArgs])
    have g2' : Except.ok (tieReactor r'.model.names) = Except.ok (ε := Err) R' := g2
    rw [h4.1] at g2'
    cases g2'
    cases g1
    have first : ∀ names k p, Ignites (tieReactor names) (.fin 1400) k p → k = 0 := by
      rintro names k p ⟨-, -, h⟩
      by_contra hk
      obtain ⟨x, h1, h2⟩ := h 0 (by omega)
      cases h1
      exact absurd (show (PyF.fin 1400).le (.fin 2000) = false from h2) (by decide +kernel)
    have hot : (tieK.ignProps ()).temperature.add (.fin 400) = .fin 1400 := by decide +kernel
    rw [hot] at g3 g4
    cases first _ _ _ g3
    cases first _ _ _ g4
    cases g3.1
    cases g4.1
    have e1 : PyF.fin o = .fin 3 := g5.symm.trans (by decide +kernel)
    have e2 : PyF.fin t = .fin 4 := g6.symm.trans (by decide +kernel)
    cases e1
    cases e2
    norm_num at g7

end Verif
