import Verif.Model.EndToEnd
import Verif.Model.Main
/-!
# `main` with nothing left to an oracle except Cantera (`pymars.py:152-290`)
-/
namespace Verif

variable {ι π φ : Type}

/-- arguments of `main` (`pymars.py:152-168`); the directories are what `TemporaryDirectory`
returns -/
structure MainArgs (ι π φ : Type) extends ReduceArgs ι π φ where
  method : Option String
  sensitivity : Bool
  sensitivityType : String
  tmpDir : Text
  evalDir : Nat → Text

/-- the stages of `main` with the matrices and metrics of the sampled starting model; `d` are the
saved samples, `rnd` the arithmetic of everything -/
def mainIn (K : Cantera ι π φ) (rnd : ℚ → ℚ) (q : MainArgs ι π φ) (d : Disk) (matrices : List NMat)
    (base : List PyF) (dfuel fuel saFuel : Nat) : MainIn where
  modelFile := q.modelFile
  limit := q.limit
  method := q.method
  targets := q.targets
  safe := q.safe
  phase := q.phase
  sensitivity := q.sensitivity
  upper := q.upper
  sensitivityType := q.sensitivityType
  path := q.path
  matrices := matrices
  sim := evalSim (K.sims rnd) q.toReduceArgs d base
  initial := fun m => sampleMetrics (K.sims rnd) m q.conds q.par true d
  metrics := fun m => sampleMetrics (K.sims rnd) m q.conds q.par false d
  tmpDir := q.tmpDir
  evalDir := q.evalDir
  rnd := rnd
  dfuel := dfuel
  fuel := fuel
  saFuel := saFuel

/-- `pymars.py:152-290`: `main`.  A graph-based method samples the starting model first
(`drg.py:295-311` and its copies); sensitivity analysis reads the metrics it left
(`sensitivity_analysis.py:166-176`).  Result, file system, and the writes to the saved samples. -/
def fullMain (K : Cantera ι π φ) (rnd : ℚ → ℚ) (q : MainArgs ι π φ) (d : Disk)
    (dfuel fuel saFuel : Nat) (w : World) : RunResult × List Ev :=
  if (q.method.bind methodOf).isSome && q.targets = [] then ((some (.error .assertionError), w), [])
  else if (q.method = none || q.method = some "") && !q.sensitivity then
    ((some (.error .valueError), w), [])
  else match q.method.bind methodOf with
    | none => (runMain (mainIn K rnd q d [] [] dfuel fuel saFuel) w, [])
    | some m =>
      match loadModel w q.modelFile with
      | .error e => ((some (.error e), w), [])
      | .ok sol =>
        let s := sample (K.sims rnd) sol q.conds q.par d
        match s.result with
        | .error e => ((some (.error e), w), s.evs)
        | .ok (base, rows) =>
            (runMain (mainIn K rnd q (applyEvs d s.evs)
              (rows.map (fun r => matrixOf m rnd (K.chem sol r))) base dfuel fuel saFuel) w, s.evs)

end Verif
