import Verif.Model.EndToEnd
import Verif.Model.MatrixFloat
/-!
# The error of a candidate in floating-point arithmetic

`calculate_error` (`sampling.py:284-305`) with a rounding `R` after each of its three operations,
and whole runs that use it.  `Model/Sampling` has the same function in exact arithmetic.
-/
namespace Verif

/-- `np.abs(metrics_original - metrics_test) / metrics_original` (`sampling.py:300`), element by
element; `np.abs` is exact -/
def relDevR (R : ℚ → PyF) (p : PyF × PyF) : PyF :=
  ((((p.1.sub p.2).rd R).abs).div p.1).rd R

/-- `sampling.py:284-305`: `calculate_error` -/
def calculateErrorR (R : ℚ → PyF) (orig test : List PyF) : Except Err PyF :=
  match broadcast orig test with
  | .error e => .error e
  | .ok ps =>
  match npMax (ps.map (relDevR R)) with
  | .error e => .error e
  | .ok m =>
  if test.any (fun t => t.eq (.fin 0)) then .ok (.fin 100) else .ok (((PyF.fin 100).mul m).rd R)

variable {ι π φ : Type}

/-- `drg.py:206-221` and its copies (see `evalSim`) -/
def evalSimR (R : ℚ → PyF) (S : AllSims ι π φ) (q : ReduceArgs ι π φ) (d : Disk) (base : List PyF)
    (m : Mech) : Except Err PyF :=
  match sampleMetrics S m q.conds q.par false d with
  | .error e => .error e
  | .ok t => calculateErrorR R base t

/-- `drg.py:241-405`, `drgep.py:375-545`, `pfa.py:267-431`: a whole run (see `fullRun`) -/
def fullRunR (R : ℚ → PyF) (K : Cantera ι π φ) (meth : Method) (rnd rndThr : ℚ → ℚ)
    (q : ReduceArgs ι π φ) (d : Disk) (dfuel fuel : Nat) (w : World) : RunResult × List Ev :=
  match loadModel w q.modelFile with
  | .error e => ((some (.error e), w), [])
  | .ok sol =>
  if q.targets = [] then ((some (.error .assertionError), w), [])
  else
    let s := sample (K.sims rnd) sol q.conds q.par d
    match s.result with
    | .error e => ((some (.error e), w), s.evs)
    | .ok (base, rows) =>
        (runMethodS meth (fullCtx K meth rnd q (applyEvs d s.evs) sol base rows)
          (evalSimR R (K.sims rnd) q (applyEvs d s.evs) base) rndThr q.limit dfuel fuel w, s.evs)

end Verif
