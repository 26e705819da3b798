import Verif.Lemmas.RaiseAt
import Verif.Props.Rerun
/-!
# Candidates that cannot be simulated (C95)
-/
namespace Verif
open Spec

/-- **C95** is false: the first candidate whose simulation raises ends the run with that exception,
in exact and in binary64 arithmetic, however many candidates within the limit were found before
(`k` of them); the file of that candidate stays behind. -/
theorem C95_survives_refuted {m : Method} {c : Ctx} {sol : Mech} {sim : Mech → Except Err PyF}
    (U : Usable m (c.total sim) sol) {limit : PyF} (hl : LimitOk (c.total sim) sol limit) (a : Arith) :
    ∃ N, ∀ dfuel ≥ N, ∀ j k e w, w.fs c.modelFile = some sol → j ≤ lastStart m a →
      (∀ i < j, Exceeds (c.total sim) sol (Kept m c sol) limit (startThr a.rnd i)) →
      (∀ i < k, Meets (c.total sim) sol (Kept m c sol) limit (gridThr a.rnd j i)) →
      sim (candidate c sol (Kept m c sol) (gridThr a.rnd j k)) = .error e →
      ∃ w1, w1.fs (redFile c (candidate c sol (Kept m c sol) (gridThr a.rnd j k)).nSpecies) =
          some (candidate c sol (Kept m c sol) (gridThr a.rnd j k)) ∧
        ∀ fuel ≥ j + 1 + k, runMethodS m c sim a.rnd limit dfuel fuel w = (some (.error e), w1) :=
  runMethodS_raises U hl a

/-- **C95** is false of whole runs as well: after the starting model was sampled, the first
candidate whose simulation raises ends the run. -/
theorem C95_whole_refuted {ι π φ : Type} {K : Cantera ι π φ} {sol : Mech} {q : ReduceArgs ι π φ}
    {d : Disk} {meth : Method} (P : Physical K sol) (Q : Request q sol d) (b a : Arith)
    (hlim : (PyF.fin 0).le q.limit = true)
    (hsame : SameBehaviour K sol (trim sol [] ("reduced_".toList ++ q.modelFile) q.phase))
    {base : List PyF} {rows : List Row}
    (hs : (sample (K.sims b.rnd) sol q.conds q.par d).result = .ok (base, rows)) :
    let evs := (sample (K.sims b.rnd) sol q.conds q.par d).evs
    let c := fullCtx K meth b.rnd q (applyEvs d evs) sol base rows
    ∃ N, ∀ dfuel ≥ N, ∀ j k e t w, w.fs q.modelFile = some sol → j ≤ lastStart meth a →
      (∀ i < j, Exceeds c sol (Kept meth c sol) q.limit (startThr a.rnd i)) →
      (∀ i < k, Meets c sol (Kept meth c sol) q.limit (gridThr a.rnd j i)) →
      t = candidate c sol (Kept meth c sol) (gridThr a.rnd j k) →
      sampleMetrics (K.sims b.rnd) t q.conds q.par false (applyEvs d evs) = .error e →
      ∃ w1, w1.fs (joinPath q.path (reducedName t.nSpecies)) = some t ∧
        ∀ fuel ≥ j + 1 + k, fullRun K meth b.rnd a.rnd q d dfuel fuel w = ((some (.error e), w1), evs) := by
  intro evs c
  obtain ⟨hsim, hrows, U⟩ := fullCtx_usable (meth := meth) P b Q hs (applyEvs d evs)
  have hl := limitOk_full (meth := meth) P Q b hlim hsame hsim (applyEvs d evs)
  obtain ⟨N, hN⟩ := runMethodS_raises (c := c) (sim := evalSim (K.sims b.rnd) q (applyEvs d evs) base)
    U hl a
  refine ⟨N, fun dfuel hd j k e t w hw hj h1 h2 ht h3 => ?_⟩
  obtain ⟨w1, g1, g2⟩ := hN dfuel hd j k e w hw hj h1 h2 (by
    rw [← ht]
    unfold evalSim
    rw [h3])
  refine ⟨w1, by rw [ht]; exact g1, fun fuel hf => ?_⟩
  have hload : loadModel w q.modelFile = .ok sol := by unfold loadModel; rw [hw]
  unfold fullRun
  rw [hload]
  dsimp only
  rw [if_neg Q.target, hs]
  dsimp only
  rw [g2 fuel hf]

/-- **C95** (partial): a model is returned only if its simulation did not raise, with the error
that gave; and then the run went as if every candidate had an error. -/
theorem C95_returned_partial {m : Method} {c : Ctx} {sim : Mech → Except Err PyF} {rnd : ℚ → ℚ}
    {limit : PyF} {dfuel fuel : Nat} {w w' : World} {r : RModel}
    (h : runMethodS m c sim rnd limit dfuel fuel w = (some (.ok r), w')) :
    sim r.model = .ok r.error ∧ ∃ err : Mech → PyF, (∀ t x, sim t = .ok x → err t = x) ∧
      runMethodS m c (fun t => .ok (err t)) rnd limit dfuel fuel w = (some (.ok r), w') := by
  refine ⟨runMethodS_simulated h, simError sim, fun t x ht => by unfold simError; rw [ht], ?_⟩
  have := runMethodS_ok h
  cases m <;> exact this

/-- **C95** (partial): whatever raises, every file other than the numbered `reduced_*.yaml` is as
before. -/
theorem C95_files_partial (m : Method) (c : Ctx) (sim : Mech → Except Err PyF) (rnd : ℚ → ℚ)
    (limit : PyF) (dfuel fuel : Nat) (w : World) (f : Text)
    (hf : ∀ n, f ≠ joinPath c.path (reducedName n)) :
    (runMethodS m c sim rnd limit dfuel fuel w).2.fs f = w.fs f := by
  rcases runMethod_rel m c sim rnd limit dfuel fuel w with h | ⟨e, w', h, -, h1, -⟩
  · rw [h]; exact C21_other_files_untouched m (c.total sim) rnd limit dfuel fuel w f hf
  · rw [h]; exact h1 f hf

/-! ### a concrete run: `{A, C}` meets the limit, simulating `{A}` raises -/

def rsSim (m : Mech) : Except Err PyF :=
  if m.names = ["A"] then .error .runtimeError else .ok (bsErr (.fin 100) m)

example (m : Method) : runView (runMethodS m (bsCtx (.fin 0)) rsSim rnd64 (.fin 1) 20 20 bsWorld) =
    some (.error .runtimeError) := by
  cases m <;> decide +kernel

/-- the setting is the one C95 asks for -/
example (m : Method) : Usable m ((bsCtx (.fin 0)).total rsSim) bsSol ∧
    LimitOk ((bsCtx (.fin 0)).total rsSim) bsSol (.fin 1) ∧
    bsWorld.fs (bsCtx (.fin 0)).modelFile = some bsSol := by
  have U := bsCtx_usable m (.fin 100)
  refine ⟨⟨⟨U.nodup, U.targets, U.noclash⟩, U.target, U.unit, U.upper⟩, ⟨rfl, ?_⟩, rfl⟩
  show (simError rsSim (trim bsSol [] ("reduced_".toList ++ "m.yaml".toList) [])).le (.fin 1) = true
  decide +kernel

/-- if it did not raise but gave a large error, the model before it would be returned -/
example (m : Method) : runView (runMethodS m (bsCtx (.fin 0)) (fun t => .ok (bsErr (.fin 100) t)) id
    (.fin 1) 20 20 bsWorld) = some (.ok (["A", "C"], .fin 0)) := by
  cases m <;> decide +kernel

end Verif
