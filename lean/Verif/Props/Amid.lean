import Verif.Lemmas.Amid
import Verif.Props.FullMain
import Verif.Props.Main
import Verif.Props.Rerun
import Verif.Props.CondOrder
/-!
# C149: reductions in one working directory with different directories for results
-/
namespace Verif
open Spec

variable {ι π φ : Type} {K : Cantera ι π φ} {sol sol' : Mech} {q q' : MainArgs ι π φ} {d : Disk} {meth meth' : Method}

/-- if nothing changes the saved samples meanwhile, this is `main` -/
theorem fullMainAmid_same (rnd : ℚ → ℚ) (mid : Disk) (dfuel fuel saFuel : Nat) {w : World}
    (h : ∀ sol, w.fs q.modelFile = some sol → ∀ k, Asked q.conds k →
      Agree k mid (applyEvs d (sample (K.sims rnd) sol q.conds q.par d).evs)) :
    fullMainAmid K rnd q d mid dfuel fuel saFuel w = fullMain K rnd q d dfuel fuel saFuel w := by
  have hK : Kinds (K.sims rnd) := ⟨rfl, rfl, rfl⟩
  unfold fullMainAmid fullMain
  split_ifs with h1 h2
  · rfl
  · rfl
  · rcases q.method.bind methodOf with _ | m
    · rfl
    · dsimp only
      rcases hw : w.fs q.modelFile with _ | sol
      · simp [loadModel, hw]
      · have : loadModel w q.modelFile = .ok sol := by unfold loadModel; rw [hw]
        rw [this]
        dsimp only
        rcases (sample (K.sims rnd) sol q.conds q.par d).result with e | ⟨base, rows⟩
        · rfl
        · dsimp only
          have hi : (fun m => sampleMetrics (K.sims rnd) m q.conds q.par true mid) = fun m =>
              sampleMetrics (K.sims rnd) m q.conds q.par true (applyEvs d (sample (K.sims rnd) sol q.conds q.par d).evs) :=
            funext fun m => sampleMetrics_asked hK true (h sol hw)
          unfold mainAmid
          rw [hi]
          rfl

/-- a run writes saved samples of the phenomena it was asked for -/
theorem fullMain_asked (rnd : ℚ → ℚ) (dfuel fuel saFuel : Nat) (w : World) :
    ∀ e ∈ (fullMain K rnd q d dfuel fuel saFuel w).2, Asked q.conds e.file.kind := by
  have hK : Kinds (K.sims rnd) := ⟨rfl, rfl, rfl⟩
  intro e he
  unfold fullMain at he
  split_ifs at he with h1 h2
  · cases he
  · cases he
  · split at he
    · cases he
    · split at he
      · cases he
      · dsimp only at he
        split at he <;> exact sample_files hK e he

/-- **C149** (partial): two runs without a phenomenon in common do not disturb each other, wherever the writes of one fall
in the course of the other: the second returns what it returns alone, and so does the first. -/
theorem C149_apart_partial (ha : ∀ k, ¬ (Asked q.conds k ∧ Asked q'.conds k)) (rnd : ℚ → ℚ) (d' : Disk)
    (x y z x' y' z' : Nat) (w w' : World) (n n' : Nat) :
    fullMain K rnd q' (applyEvs d ((fullMain K rnd q d x y z w).2.take n)) x' y' z' w' = fullMain K rnd q' d x' y' z' w' ∧
    fullMainAmid K rnd q d (applyEvs (applyEvs d (fullMain K rnd q d x y z w).2)
      ((fullMain K rnd q' d' x' y' z' w').2.take n')) x y z w = fullMain K rnd q d x y z w := by
  have hK : Kinds (K.sims rnd) := ⟨rfl, rfl, rfl⟩
  constructor
  · have hag : ∀ k, Asked q'.conds k → Agree k (applyEvs d ((fullMain K rnd q d x y z w).2.take n)) d :=
      agree_apart (c := q'.conds) (c' := q.conds) (fun k h => ha k h.symm)
        (fun e he => fullMain_asked rnd x y z w e (List.mem_of_mem_take he)) d
    generalize applyEvs d ((fullMain K rnd q d x y z w).2.take n) = d1 at hag
    have hs : ∀ sol, sample (K.sims rnd) sol q'.conds q'.par d1 = sample (K.sims rnd) sol q'.conds q'.par d :=
      fun sol => sample_asked hK hag
    have hmain : ∀ (evs : List Ev) Ms base, mainIn K rnd q' (applyEvs d1 evs) Ms base x' y' z' =
        mainIn K rnd q' (applyEvs d evs) Ms base x' y' z' := by
      intro evs Ms base
      unfold mainIn
      congr 1
      funext m
      exact sampleMetrics_asked hK true fun k hk o => applyEvs_congr evs (hag k hk o)
    have h0 := hmain [] [] []
    simp only [applyEvs, List.foldl_nil] at h0
    unfold fullMain
    simp only [hs, hmain, h0]
  · by_cases hr : (q.method.bind methodOf).isSome = true ∧ q.targets ≠ []
    · refine fullMainAmid_same rnd _ x y z fun sol hw k hk => ?_
      have he : (fullMain K rnd q d x y z w).2 = (sample (K.sims rnd) sol q.conds q.par d).evs := by
        obtain ⟨m, hm⟩ := Option.isSome_iff_exists.1 hr.1
        have hne : q.method ≠ none ∧ q.method ≠ some "" := by
          constructor <;> intro h <;> rw [h] at hm <;> cases hm
        have : loadModel w q.modelFile = .ok sol := by unfold loadModel; rw [hw]
        unfold fullMain
        rw [if_neg (by simp [hr.2]), if_neg (by simp [hne]), hm]
        dsimp only
        rw [this]
        dsimp only
        rcases (sample (K.sims rnd) sol q.conds q.par d).result with e | ⟨base, rows⟩ <;> rfl
      rw [he]
      exact agree_apart ha (fun e h => fullMain_asked rnd x' y' z' w' e (List.mem_of_mem_take h)) _ k hk
    · unfold fullMainAmid fullMain
      rcases hm : q.method.bind methodOf with _ | m
      · rfl
      · have ht : q.targets = [] := by
          by_contra ht; exact hr ⟨by rw [hm]; rfl, ht⟩
        simp [ht]

/-- **C149** (partial): without sensitivity analysis nothing written after sampling matters. -/
theorem C149_method_partial (hs : q.sensitivity = false) (rnd : ℚ → ℚ) (mid : Disk) (dfuel fuel saFuel : Nat) (w : World) :
    fullMainAmid K rnd q d mid dfuel fuel saFuel w = fullMain K rnd q d dfuel fuel saFuel w := by
  unfold fullMainAmid fullMain
  split_ifs with h1 h2
  · rfl
  · rfl
  · rcases hm : q.method.bind methodOf with _ | m
    · rfl
    · dsimp only
      rcases loadModel w q.modelFile with e | sol
      · rfl
      · dsimp only
        rcases (sample (K.sims rnd) sol q.conds q.par d).result with e | ⟨base, rows⟩
        · rfl
        · have ht : q.targets ≠ [] := by
            intro ht; rw [hm, ht] at h1; simp at h1
          dsimp only
          rw [runMain_method (p := mainAmid _ _ _ _ _ _ _ _ _ _) (m := m) hm hs ht,
            runMain_method (p := mainIn _ _ _ _ _ _ _ _ _) (m := m) hm hs ht]
          rfl

/-- Refutes C149: a run that starts when another one has sampled takes over its samples, in whatever directory the other
leaves its results, if its model has as many species and its conditions have as many cases of each phenomenon.  It
simulates its own starting model under none of its conditions and compares every candidate with the metrics of the other model. -/
theorem C149_samples_refuted (P : Physical K sol) (b : Arith) (hp : ParOk q.par) {base : List PyF} {rows : List Row}
    (hA : (sample (K.sims b.rnd) sol q.conds q.par d).result = .ok (base, rows))
    (hm : q'.method.bind methodOf = some meth') (ht : q'.targets ≠ []) (hn : sol'.nSpecies = sol.nSpecies)
    (h1 : q'.conds.ign.length = q.conds.ign.length) (h2 : q'.conds.psr.length = q.conds.psr.length)
    (h3 : q'.conds.flame.length = q.conds.flame.length) (dfuel fuel saFuel : Nat) {w : World}
    (hw : w.fs q'.modelFile = some sol') :
    let d1 := applyEvs d (sample (K.sims b.rnd) sol q.conds q.par d).evs
    fullMain K b.rnd q' d1 dfuel fuel saFuel w = (runMain (mainIn K b.rnd q' d1
      (rows.map fun r => matrixOf meth' b.rnd (K.chem sol' r)) base dfuel fuel saFuel) w, []) := by
  obtain ⟨k1, k2, -⟩ := C36_stale_refuted (simsOk (b := b) P) hp hA sol' hn q'.conds h1 h2 h3 q'.par
  have hne : q'.method ≠ none ∧ q'.method ≠ some "" := by
    constructor <;> intro h <;> rw [h] at hm <;> cases hm
  have hl : loadModel w q'.modelFile = .ok sol' := by unfold loadModel; rw [hw]
  dsimp only
  unfold fullMain
  rw [if_neg (by simp [ht]), if_neg (by simp [hne]), hm]
  dsimp only
  rw [hl]
  dsimp only
  rw [k1, k2]
  rfl

/-- a run with changed saved samples whose method returned: its stages -/
theorem amid_stages (P : Physical K sol) (Q : Request q.toReduceArgs sol d)
    (hm : q.method.bind methodOf = some meth) (hs : q.sensitivity = true) (a : Arith)
    (hlim : (PyF.fin 0).le q.limit = true)
    (T : ∀ d' Ms base x y z, TmpDirs (mainIn K a.rnd q d' Ms base x y z))
    (hsame : SameBehaviour K sol (trim sol [] ("reduced_".toList ++ q.modelFile) q.phase)) (mid : Disk)
    {base : List PyF} {rows : List Row} (hsm : (sample (K.sims a.rnd) sol q.conds q.par d).result = .ok (base, rows)) :
    ∃ N, ∀ dfuel ≥ N, ∀ fuel saFuel w w' rm evs, w.fs q.modelFile = some sol →
      fullMainAmid K a.rnd q d mid dfuel fuel saFuel w = ((some (.ok rm), w'), evs) →
      ∃ r w1, ∃ acc : List String,
        (fullMain K a.rnd { q with sensitivity := false } d dfuel fuel saFuel w).1 = (some (.ok r), w1) ∧
        rm.model.names = r.model.names.filter (fun s => !(acc.contains s)) ∧
        ((acc = [] ∧ rm.model = r.model ∧ rm.error = r.error) ∨
          (acc ≠ [] ∧ q.limit.lt rm.error = false ∧ ∃ initial metrics,
            sampleMetrics (K.sims a.rnd) r.model q.conds q.par true mid = .ok initial ∧
            sampleMetrics (K.sims a.rnd) rm.model q.conds q.par false d = .ok metrics ∧
            calculateError initial metrics = .ok rm.error)) := by
  have Q' := stage_request (meth := meth) Q
  have hsm' : (sample (K.sims a.rnd) sol (stageArgs meth q).conds (stageArgs meth q).par d).result
    = .ok (base, rows) := hsm
  obtain ⟨hsim, hrows, U⟩ := fullCtx_usable (meth := meth) P a Q' hsm'
    (applyEvs d (sample (K.sims a.rnd) sol q.conds q.par d).evs)
  have hl := limitOk_full (meth := meth) P Q' a hlim hsame hsim
    (applyEvs d (sample (K.sims a.rnd) sol q.conds q.par d).evs)
  have hc := mainIn_ctx (K := K) (q := q) (sol := sol) (meth := meth) a.rnd
    (applyEvs d (sample (K.sims a.rnd) sol q.conds q.par d).evs) base rows 0 0 0
  rw [← hc] at U hl
  obtain ⟨N, hN⟩ := C88_two_stages (p := mainAmid K a.rnd q
    (applyEvs d (sample (K.sims a.rnd) sol q.conds q.par d).evs) mid
    (rows.map (fun r => matrixOf meth a.rnd (K.chem sol r))) base 0 0 0) hm hs a rfl U hl (T _ _ _ _ _ _)
  refine ⟨N, fun dfuel hd fuel saFuel w w' rm evs hw h => ?_⟩
  have hne : q.method ≠ none ∧ q.method ≠ some "" := by
    constructor <;> intro h <;> rw [h] at hm <;> cases hm
  have ht : q.targets ≠ [] := Q.target
  have hload : loadModel w q.modelFile = .ok sol := by unfold loadModel; rw [hw]
  unfold fullMainAmid at h
  rw [if_neg (by simp [ht]), if_neg (by simp [hne]), hm] at h
  dsimp only at h
  rw [hload] at h
  dsimp only at h
  rw [hsm] at h
  simp only [Prod.mk.injEq] at h
  obtain ⟨-, r, w1, t, acc, g1, -, -, -, g5, g6⟩ := hN dfuel hd fuel saFuel w w' rm hw h.1
  refine ⟨r, w1, acc, ?_, g5, g6⟩
  unfold fullMain
  dsimp only
  rw [if_neg (by simp [ht]), if_neg (by simp [hne]), hm]
  dsimp only
  rw [hload]
  dsimp only
  rw [hsm]
  dsimp only
  rw [runMain_method (p := mainIn _ _ { q with sensitivity := false } _ _ _ _ _ _) (m := meth) hm rfl ht]
  exact g1

/-- the metrics file of one phenomenon after another run sampled it: with as many cases its metrics are taken over, with
another number of cases they are not -/
theorem metricsPart_other {κ} {T : Sims κ} {m : Mech} {p : Par} (hT : Shaped T m) (hp : ParOk p) {cases cases' : List κ}
    {r : List PyF × List Row} (h : (samplePart T m cases p d).result = .ok r) {d' : Disk}
    (hd : Agree T.kind d' (applyEvs d (samplePart T m cases p d).evs)) (m' : Mech) (init : Nat → List PyF) (p' : Par) :
    (cases'.length = cases.length → metricsPart T init m' cases' p' true d' = .ok r.1) ∧
    (0 < T.mets → (cases' ≠ [] → cases ≠ [] ∧ cases'.length ≠ cases.length) →
      metricsPart T init m' cases' p' true d' = metricsPart T init m' cases' p' false d') := by
  by_cases hc : cases = []
  · subst hc
    simp [samplePart] at h
    subst h
    refine ⟨fun hl => ?_, fun _ hl => ?_⟩
    · have : cases' = [] := by simpa using hl
      subst this; simp [metricsPart]
    · have : cases' = [] := by by_contra hne; exact (hl hne).1 rfl
      subst this; simp [metricsPart]
  · have hs := samplePart_saved hT hp hc (ms := r.1) (rows := r.2) h
    rw [← readCache_congr T m _ hd] at hs
    obtain ⟨out, a, e1, e2, e3, e4⟩ := readCache_hit hs
    constructor
    · intro hl
      have hc' : cases' ≠ [] := by
        intro hc'; subst hc'; exact hc (List.length_eq_zero_iff.1 hl.symm)
      unfold metricsPart
      rw [if_neg hc', e1]
      dsimp only
      rw [e2]
      simp [Except.map, e3, e4, hl]
    · intro hm hl
      unfold metricsPart
      by_cases hc' : cases' = []
      · rw [if_pos hc', if_pos hc']
      · rw [if_neg hc', if_neg hc', e1]
        dsimp only
        rw [e2]
        have : ¬ T.mets * cases.length = T.mets * cases'.length := fun h =>
          (hl hc').2 (Nat.eq_of_mul_eq_mul_left hm h).symm
        simp [Except.map, e3, e4, this]

/-- Refutes C149: if another run samples its own model for as many cases of each phenomenon while the method is at work,
sensitivity analysis accepts species whose removal is within the limit of the metrics of the other model, and reports the
difference from these. -/
theorem C149_baseline_refuted (P : Physical K sol) (P' : Physical K sol') (Q : Request q.toReduceArgs sol d)
    (hm : q.method.bind methodOf = some meth) (hs : q.sensitivity = true) (a : Arith)
    (hlim : (PyF.fin 0).le q.limit = true)
    (T : ∀ d' Ms base x y z, TmpDirs (mainIn K a.rnd q d' Ms base x y z))
    (hsame : SameBehaviour K sol (trim sol [] ("reduced_".toList ++ q.modelFile) q.phase))
    {base base' : List PyF} {rows rows' : List Row} (hp' : ParOk q'.par)
    (hA : (sample (K.sims a.rnd) sol q.conds q.par d).result = .ok (base, rows)) (d1 : Disk)
    (hB : (sample (K.sims a.rnd) sol' q'.conds q'.par d1).result = .ok (base', rows'))
    (h1 : q.conds.ign.length = q'.conds.ign.length) (h2 : q.conds.psr.length = q'.conds.psr.length)
    (h3 : q.conds.flame.length = q'.conds.flame.length) :
    ∃ N, ∀ dfuel ≥ N, ∀ fuel saFuel w w' rm evs, w.fs q.modelFile = some sol →
      fullMainAmid K a.rnd q d (applyEvs d1 (sample (K.sims a.rnd) sol' q'.conds q'.par d1).evs)
        dfuel fuel saFuel w = ((some (.ok rm), w'), evs) →
      ∃ r w1, (fullMain K a.rnd { q with sensitivity := false } d dfuel fuel saFuel w).1 = (some (.ok r), w1) ∧
        ((rm.model = r.model ∧ rm.error = r.error) ∨
          (q.limit.lt rm.error = false ∧ ∃ metrics, sampleMetrics (K.sims a.rnd) rm.model q.conds q.par false d = .ok metrics ∧
            calculateError base' metrics = .ok rm.error)) := by
  obtain ⟨N, hN⟩ := amid_stages P Q hm hs a hlim T hsame
    (applyEvs d1 (sample (K.sims a.rnd) sol' q'.conds q'.par d1).evs) hA
  refine ⟨N, fun dfuel hd fuel saFuel w w' rm evs hw h => ?_⟩
  obtain ⟨r, w1, acc, g1, -, g3⟩ := hN dfuel hd fuel saFuel w w' rm evs hw h
  refine ⟨r, w1, g1, ?_⟩
  rcases g3 with ⟨-, g3⟩ | ⟨-, g3, initial, metrics, g4, g5, g6⟩
  · exact .inl g3
  · refine .inr ⟨g3, metrics, g5, ?_⟩
    have hS := simsOk (b := a) P'
    obtain ⟨x, y, f, rows, e1, e2, e3, e4, he, -⟩ := sample_ok hS.toKinds hB
    obtain ⟨i1, i2, i3⟩ := sample_agree hS.toKinds hB
    unfold sampleMetrics at g4
    rw [(metricsPart_other hS.ignShape hp' e1 i1 _ _ _).1 h1, (metricsPart_other hS.psrShape hp' e2 i2 _ _ _).1 h2,
      (metricsPart_other hS.flameShape hp' e3 i3 _ _ _).1 h3] at g4
    cases he
    cases g4
    exact g6

/-- Refutes C149: if another run samples other numbers of cases while the method is at work, sensitivity analysis no longer
compares with the starting model at all, but with the model that the method has already reduced: the limit is granted a second
time. -/
theorem C149_twice_refuted (P : Physical K sol) (P' : Physical K sol') (Q : Request q.toReduceArgs sol d)
    (hm : q.method.bind methodOf = some meth) (hs : q.sensitivity = true) (a : Arith)
    (hlim : (PyF.fin 0).le q.limit = true)
    (T : ∀ d' Ms base x y z, TmpDirs (mainIn K a.rnd q d' Ms base x y z))
    (hsame : SameBehaviour K sol (trim sol [] ("reduced_".toList ++ q.modelFile) q.phase))
    {base base' : List PyF} {rows rows' : List Row} (hp' : ParOk q'.par)
    (hA : (sample (K.sims a.rnd) sol q.conds q.par d).result = .ok (base, rows)) (d1 : Disk)
    (hB : (sample (K.sims a.rnd) sol' q'.conds q'.par d1).result = .ok (base', rows'))
    (h1 : q.conds.ign ≠ [] → q'.conds.ign ≠ [] ∧ q.conds.ign.length ≠ q'.conds.ign.length)
    (h2 : q.conds.psr ≠ [] → q'.conds.psr ≠ [] ∧ q.conds.psr.length ≠ q'.conds.psr.length)
    (h3 : q.conds.flame ≠ [] → q'.conds.flame ≠ [] ∧ q.conds.flame.length ≠ q'.conds.flame.length) :
    ∃ N, ∀ dfuel ≥ N, ∀ fuel saFuel w w' rm evs, w.fs q.modelFile = some sol →
      fullMainAmid K a.rnd q d (applyEvs d1 (sample (K.sims a.rnd) sol' q'.conds q'.par d1).evs)
        dfuel fuel saFuel w = ((some (.ok rm), w'), evs) →
      ∃ r w1, (fullMain K a.rnd { q with sensitivity := false } d dfuel fuel saFuel w).1 = (some (.ok r), w1) ∧
        ((rm.model = r.model ∧ rm.error = r.error) ∨
          (q.limit.lt rm.error = false ∧ ∃ reduced metrics,
            sampleMetrics (K.sims a.rnd) r.model q.conds q.par false d = .ok reduced ∧
            sampleMetrics (K.sims a.rnd) rm.model q.conds q.par false d = .ok metrics ∧
            calculateError reduced metrics = .ok rm.error)) := by
  obtain ⟨N, hN⟩ := amid_stages P Q hm hs a hlim T hsame
    (applyEvs d1 (sample (K.sims a.rnd) sol' q'.conds q'.par d1).evs) hA
  refine ⟨N, fun dfuel hd fuel saFuel w w' rm evs hw h => ?_⟩
  obtain ⟨r, w1, acc, g1, -, g3⟩ := hN dfuel hd fuel saFuel w w' rm evs hw h
  refine ⟨r, w1, g1, ?_⟩
  rcases g3 with ⟨-, g3⟩ | ⟨-, g3, initial, metrics, g4, g5, g6⟩
  · exact .inl g3
  · refine .inr ⟨g3, initial, metrics, ?_, g5, g6⟩
    have hS := simsOk (b := a) P'
    obtain ⟨x, y, f, rows, e1, e2, e3, e4, -, -⟩ := sample_ok hS.toKinds hB
    obtain ⟨i1, i2, i3⟩ := sample_agree hS.toKinds hB
    rw [← g4]
    unfold sampleMetrics
    rw [(metricsPart_other hS.ignShape hp' e1 i1 _ _ _).2 (by show 0 < 1; omega) h1,
      (metricsPart_other hS.psrShape hp' e2 i2 _ _ _).2 (by show 0 < 3; omega) h2,
      (metricsPart_other hS.flameShape hp' e3 i3 _ _ _).2 (by show 0 < 1; omega) h3]
    rfl

/-! ### two reductions that use different directories for results -/

/-- a reduction with reactor conditions, followed by sensitivity analysis -/
def amidArgs (file : String) (psr : List Bool) (path : String) : MainArgs Unit Bool Unit where
  toReduceArgs := { coArgs psr 1 with modelFile := file.toList, path := path.toList }
  method := some "DRG"
  sensitivity := true
  sensitivityType := "initial"
  tmpDir := "/tmp/a".toList
  evalDir := fun _ => "/tmp/b".toList

/-- another model, without `C` and `D` -/
def amidOther : Mech := trim e2eSol ["C", "D"] "n.yaml".toList []

def amidWorld : World := ⟨fun f => if f = "m.yaml".toList then some e2eSol else if f = "n.yaml".toList then some amidOther else none, []⟩

theorem amid_physical : Physical coK amidOther where
  ignStart := by
    intro x R h
    cases h
    exact ⟨1000, rfl, rfl⟩
  ignTime := by
    intro x R k p h hp
    cases h
    cases hp
    refine ⟨99 + k, by positivity, ?_⟩
    show PyF.fin ((if amidOther.names.contains "B" then (if amidOther.names.contains "C" then 100 else 99)
      else 50) + (k : ℚ)) = _
    rw [if_pos (by decide), if_neg (by decide)]
  ignWidth := by
    intro x R h
    cases h
    refine ⟨rfl, ?_⟩
    intro k p hp
    cases hp
    rfl
  psr := by
    intro x r h
    cases h
    exact ⟨⟨1, by norm_num, rfl⟩, ⟨if x then 2080 else 1010, by split_ifs <;> norm_num, rfl⟩,
      ⟨1600, by norm_num, rfl⟩, rfl, rfl, rfl⟩
  flame := by
    intro x f h
    cases h
    refine ⟨⟨1, by norm_num, rfl⟩, by simp [e2eFlame], ?_⟩
    intro p hp
    simp only [e2eFlame, List.mem_cons, List.not_mem_nil, or_false] at hp
    rcases hp with rfl | rfl <;> rfl

theorem amid_request : Request (amidArgs "m.yaml" [false, true] "").toReduceArgs e2eSol (fun _ => none) :=
  have h := co_request (psr := [false, true]) (by simp) (n := 1) (by norm_num)
  ⟨h.nodup, h.targets, h.target, h.noclash, h.cond, h.par, h.freshIgn, h.freshPsr, h.freshFlame⟩

theorem amid_same : SameBehaviour coK e2eSol (trim e2eSol [] ("reduced_".toList ++ "m.yaml".toList) []) :=
  have h : (trim e2eSol [] ("reduced_".toList ++ "m.yaml".toList) []).names = e2eSol.names := by decide +kernel
  ⟨fun _ => by simp only [coK, h], fun _ => by simp only [coK, h], fun _ => by simp only [coK, h]⟩

theorem amid_tmp (d : Disk) (Ms : List NMat) (base : List PyF) (x y z : Nat) :
    TmpDirs (mainIn coK id (amidArgs "m.yaml" [false, true] "") d Ms base x y z) := by
  intro n e
  have h := e2eMain_tmp "DRG" id d Ms base x y z n e
  exact ⟨h.tmp_ne, h.tmp_last, h.eval_ne, h.eval_last, h.model_tmp, h.model_eval, h.apart⟩

/-- the saved samples after the first run -/
def amidSaved : Disk := applyEvs (fun _ => none) (fullMain coK id (amidArgs "m.yaml" [false, true] "") (fun _ => none) 50 20 20 amidWorld).2

/-- the saved samples when another run has sampled in between -/
def amidMid (psr : List Bool) : Disk := applyEvs amidSaved (fullMain coK id (amidArgs "n.yaml" psr "out") amidSaved 50 20 20 amidWorld).2

/-- The hypotheses of `C149_baseline_refuted` and `C149_twice_refuted` are met. -/
example : ∃ base rows base' rows' base'' rows'',
    (sample (coK.sims Arith.exact.rnd) e2eSol (amidArgs "m.yaml" [false, true] "").conds (amidArgs "m.yaml" [false, true] "").par
      (fun _ => none)).result = .ok (base, rows) ∧
    (sample (coK.sims Arith.exact.rnd) amidOther (amidArgs "n.yaml" [false, true] "out").conds
      (amidArgs "n.yaml" [false, true] "out").par amidSaved).result = .ok (base', rows') ∧
    (sample (coK.sims Arith.exact.rnd) amidOther (amidArgs "n.yaml" [false, true, true] "out").conds
      (amidArgs "n.yaml" [false, true, true] "out").par amidSaved).result = .ok (base'', rows'') ∧
    Physical coK e2eSol ∧ Physical coK amidOther ∧
    Request (amidArgs "m.yaml" [false, true] "").toReduceArgs e2eSol (fun _ => none) ∧
    ParOk (amidArgs "n.yaml" [false, true] "out").par ∧
    SameBehaviour coK e2eSol (trim e2eSol [] ("reduced_".toList ++ "m.yaml".toList) []) ∧
    ∀ d Ms base x y z, TmpDirs (mainIn coK Arith.exact.rnd (amidArgs "m.yaml" [false, true] "") d Ms base x y z) := by
  have ok : ∀ {x : Except Err (List PyF × List Row)}, x.toOption.isSome = true → ∃ b r, x = .ok (b, r) := by
    rintro (e | ⟨b, r⟩) h
    · cases h
    · exact ⟨b, r, rfl⟩
  obtain ⟨b, r, h⟩ := ok (x := (sample (coK.sims Arith.exact.rnd) e2eSol (amidArgs "m.yaml" [false, true] "").conds
    (amidArgs "m.yaml" [false, true] "").par (fun _ => none)).result) (by decide +kernel)
  obtain ⟨b', r', h'⟩ := ok (x := (sample (coK.sims Arith.exact.rnd) amidOther (amidArgs "n.yaml" [false, true] "out").conds
    (amidArgs "n.yaml" [false, true] "out").par amidSaved).result) (by decide +kernel)
  obtain ⟨b'', r'', h''⟩ := ok (x := (sample (coK.sims Arith.exact.rnd) amidOther
    (amidArgs "n.yaml" [false, true, true] "out").conds (amidArgs "n.yaml" [false, true, true] "out").par amidSaved).result)
    (by decide +kernel)
  exact ⟨b, r, b', r', b'', r'', h, h', h'', co_physical, amid_physical, amid_request, amid_request.par, amid_same, amid_tmp⟩

/-- Alone, the run removes `C` and `D` and reports an error of four percent.  If another run samples in between, it reports no
error at all: the metrics are those of another model, or those of the model that has already lost `C`. -/
example : runView (fullMain coK id (amidArgs "m.yaml" [false, true] "") (fun _ => none) 50 20 20 amidWorld).1 =
      some (.ok (["A", "B"], .fin 4)) ∧
    runView (fullMainAmid coK id (amidArgs "m.yaml" [false, true] "") (fun _ => none) (amidMid [false, true]) 50 20 20 amidWorld).1 =
      some (.ok (["A", "B"], .fin 0)) ∧
    runView (fullMainAmid coK id (amidArgs "m.yaml" [false, true] "") (fun _ => none) (amidMid [false, true, true]) 50 20 20
      amidWorld).1 = some (.ok (["A", "B"], .fin 0)) := by
  decide +kernel

/-- `C149_samples_refuted`: a run with other conditions returns another model after the first run has sampled, though
its results go to another directory. -/
example : runView (fullMain coK id (amidArgs "m.yaml" [true, false] "out") (fun _ => none) 50 20 20 amidWorld).1 =
      some (.ok (["A", "B"], .fin 4)) ∧
    runView (fullMain coK id (amidArgs "m.yaml" [true, false] "out") amidSaved 50 20 20 amidWorld).1 =
      some (.ok (["A", "B", "C", "D"], .fin 100)) := by
  decide +kernel

/-- `C149_apart_partial`: reactors and flames -/
example (k : Kind) : ¬ (Asked (amidArgs "m.yaml" [false, true] "").conds k ∧
    Asked ({ amidArgs "m.yaml" [] "out" with conds := ⟨[], [], [()]⟩ } : MainArgs Unit Bool Unit).conds k) := by
  cases k <;> simp [Asked, amidArgs, coArgs]

end Verif
