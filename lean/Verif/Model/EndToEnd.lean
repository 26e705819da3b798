import Verif.Model.Reduce
import Verif.Model.MatrixRound
import Verif.Model.Simulation
/-!
# A whole reduction: sampling, matrices, reduction loop, error of the candidates

`run_drg`, `run_drgep` and `run_pfa` (`drg.py:241-405`, `drgep.py:375-545`, `pfa.py:267-431`)
with nothing left to an oracle except Cantera itself: how a case evolves with a given model, and
the stoichiometric coefficients and net rates at a given state.
-/
namespace Verif

/-- Cantera as pyMARS uses it.  For a model and a case, setting up raises, or gives the reactor
trajectory, the outcome of the flame solver (`none`: `CanteraError`), or the outcome of tracing
the response curve; for a model and a sampled state, the chemistry there.  `fuel` bounds the time
integrations (an integration that never ends is not modelled: `outOfFuel`), `floor` is
`min_flame_speed`. -/
structure Cantera (ι π φ : Type) where
  ignProps : ι → IgnProps
  reactor : Mech → ι → Except Err Reactor
  fuel : Nat
  psr : Mech → π → Except Err (Except Err PsrPoints)
  psrPressure : π → PyF
  flame : Mech → φ → Except Err (Option FlameSol)
  floor : Option PyF
  chem : (m : Mech) → Row → Chem m.names.length m.reactions.length

variable {ι π φ : Type}

/-- `sampling.py:75-102, 105-122`: the ignition workers with `setup_case`
(`simulation.py:202-238`).  The data file left behind (C74) is not part of this model. -/
def Cantera.ignSims (K : Cantera ι π φ) (rnd : ℚ → ℚ) : Sims ι where
  kind := .ign
  rows := 20
  mets := 1
  run := fun m x =>
    match K.reactor m x with
    | .error e => .error e
    | .ok R => match ignSampleWorker rnd (K.ignProps x) R K.fuel with
      | none => .error .outOfFuel
      | some r => r.1
  metric := fun m x =>
    match K.reactor m x with
    | .error e => .error e
    | .ok R => (ignWorker (K.ignProps x) R K.fuel).getD (.error .outOfFuel)

/-- `sampling.py:165-186, 189-206`: the reactor workers -/
def Cantera.psrSims (K : Cantera ι π φ) : Sims π where
  kind := .psr
  rows := 3
  mets := 3
  run := fun m x =>
    match K.psr m x with
    | .error e => .error e
    | .ok t => psrProcess (K.psrPressure x) t
  metric := fun m x =>
    match K.psr m x with
    | .error e => .error e
    | .ok t => psrCalculate t

/-- `sampling.py:125-142, 145-162`: the flame workers -/
def Cantera.flameSims (K : Cantera ι π φ) (rnd : ℚ → ℚ) : Sims φ where
  kind := .flame
  rows := 20
  mets := 1
  run := fun m x =>
    match K.flame m x with
    | .error e => .error e
    | .ok s => (flameProcess rnd K.floor s).map (fun r => ([r.1], r.2))
  metric := fun m x =>
    match K.flame m x with
    | .error e => .error e
    | .ok s => .ok [flameCalculate K.floor s]

/-- all workers -/
def Cantera.sims (K : Cantera ι π φ) (rnd : ℚ → ℚ) : AllSims ι π φ :=
  ⟨K.ignSims rnd, K.psrSims, K.flameSims rnd⟩

/-- the matrix of a method (`drg.py:309-311`, `drgep.py:442-444`, `pfa.py:335-337`) -/
def matrixOf {n m : Nat} (meth : Method) (rnd : ℚ → ℚ) (c : Chem n m) : NMat :=
  match meth with
  | .drg => (drgMatrixR rnd c).toN
  | .drgep => (drgepMatrixR rnd c).toN
  | .pfa => (pfaMatrixR rnd c).toN

/-- the arguments of a reduction -/
structure ReduceArgs (ι π φ : Type) where
  modelFile : Text
  limit : PyF
  targets : List String
  safe : List String
  upper : Option ℚ
  phase : Text
  path : Text
  conds : Conds ι π φ
  par : Par

/-- `drg.py:206-221` and its copies: simulate a candidate and compare with the metrics of the
starting model -/
def evalSim (S : AllSims ι π φ) (q : ReduceArgs ι π φ) (d : Disk) (base : List PyF) (m : Mech) :
    Except Err PyF :=
  match sampleMetrics S m q.conds q.par false d with
  | .error e => .error e
  | .ok t => calculateError base t

/-- the error of a candidate, undefined if simulating it raises -/
def evalError (S : AllSims ι π φ) (q : ReduceArgs ι π φ) (d : Disk) (base : List PyF) : Mech → PyF :=
  simError (evalSim S q d base)

/-- what the loop works with once the starting model was sampled (`drg.py:295-311`); candidates are
simulated with `evalSim`, whose exceptions end the run (see `fullRun`) -/
def fullCtx (K : Cantera ι π φ) (meth : Method) (rnd : ℚ → ℚ) (q : ReduceArgs ι π φ) (d : Disk)
    (sol : Mech) (base : List PyF) (rows : List Row) : Ctx where
  modelFile := q.modelFile
  targets := q.targets
  safe := q.safe
  matrices := rows.map (fun r => matrixOf meth rnd (K.chem sol r))
  errOf := evalError (K.sims rnd) q d base
  phase := q.phase
  path := q.path
  upper := q.upper
  rndMul := rnd

/-- `drg.py:241-405`, `drgep.py:375-545`, `pfa.py:267-431`: a whole run.  `d` are the saved
samples, `rnd` rounds data, matrices and path products, `rndThr` the thresholds (both are binary64
in the code; they are separate so that statements can be made about exact thresholds).  Result,
file system, and the writes to the saved samples. -/
def fullRun (K : Cantera ι π φ) (meth : Method) (rnd rndThr : ℚ → ℚ) (q : ReduceArgs ι π φ)
    (d : Disk) (dfuel fuel : Nat) (w : World) : RunResult × List Ev :=
  match loadModel w q.modelFile with
  | .error e => ((some (.error e), w), [])
  | .ok sol =>
  if q.targets = [] then ((some (.error .assertionError), w), [])
  else
    let s := sample (K.sims rnd) sol q.conds q.par d
    match s.result with
    | .error e => ((some (.error e), w), s.evs)
    | .ok (base, rows) =>
        (runMethodS meth (fullCtx K meth rnd q (applyEvs d s.evs) sol base rows)
          (evalSim (K.sims rnd) q (applyEvs d s.evs) base) rndThr q.limit dfuel fuel w, s.evs)

end Verif
