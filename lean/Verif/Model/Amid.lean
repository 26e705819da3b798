import Verif.Model.FullMain
/-!
# Runs at the same time in one working directory

The saved samples (`sampling.py:13-20`) lie in the working directory, not in the directory for results.  Here the
saved samples may change between the two times a run of `main` reads them: when a graph-based method samples the
starting model, and when sensitivity analysis asks for the metrics.
-/
namespace Verif

variable {ι π φ : Type}

/-- the stages after sampling; `mid` is what the saved samples hold when sensitivity analysis begins -/
def mainAmid (K : Cantera ι π φ) (rnd : ℚ → ℚ) (q : MainArgs ι π φ) (d mid : Disk) (matrices : List NMat)
    (base : List PyF) (dfuel fuel saFuel : Nat) : MainIn :=
  { mainIn K rnd q d matrices base dfuel fuel saFuel with
    initial := fun m => sampleMetrics (K.sims rnd) m q.conds q.par true mid }

/-- `pymars.py:152-290`: `main` (see `fullMain`) while other programs change the saved samples: `mid` is what they hold
when sensitivity analysis begins after a method (`sensitivity_analysis.py:166-176`).  Without a method
sensitivity analysis begins at once. -/
def fullMainAmid (K : Cantera ι π φ) (rnd : ℚ → ℚ) (q : MainArgs ι π φ) (d mid : Disk)
    (dfuel fuel saFuel : Nat) (w : World) : RunResult × List Ev :=
  if (q.method.bind methodOf).isSome && q.targets = [] then ((some (.error .assertionError), w), [])
  else if (q.method = none || q.method = some "") && !q.sensitivity then
    ((some (.error .valueError), w), [])
  else match q.method.bind methodOf with
    | none => (runMain (mainIn K rnd q d [] [] dfuel fuel saFuel) w, [])
    | some m =>
      match loadModel w q.modelFile with
      | .error e => ((some (.error e), w), [])
      | .ok sol =>
        let s := sample (K.sims rnd) sol q.conds q.par d
        match s.result with
        | .error e => ((some (.error e), w), s.evs)
        | .ok (base, rows) =>
            (runMain (mainAmid K rnd q (applyEvs d s.evs) mid
              (rows.map (fun r => matrixOf m rnd (K.chem sol r))) base dfuel fuel saFuel) w, s.evs)

end Verif
