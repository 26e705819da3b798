import Verif.Model.Psr
import Verif.Model.Simulation
/-!
# Stirred-reactor cases: the traced curve as the simulation sees it

`simulation.py:673-694` calls the solver of `psr_solver.py` with its default arguments, on the gas
reset to the inlet state.  Rounding is left out: numbers are rational, as every float is.
-/
namespace Verif

/-- `psr_solver.py:134-143`: the default arguments; `simulation.py:691` passes
`stop_at_extinction=True`. -/
def psrDefaults : PsrArgs ℚ :=
  { stop := true, ds0 := 1 / 10, dsMin := 1 / 1000, dsMax := 2 / 5, tauStart := 1,
    tauSecond := 1 / 2, maxSteps := 6000 }

/-- `psr_solver.py:331-332`: a sampled point as the tuple of floats that is returned -/
def PsrPt.toPoint {n} (p : PsrPt ℚ n) : PsrPoint :=
  ⟨.fin p.tau, .fin p.T, (List.ofFn p.Y).map (fun y : ℚ => PyF.fin y)⟩

/-- `psr_solver.py:334-341`: `result["points"]` -/
def PsrCurve.toPoints {n} (c : PsrCurve ℚ n) : PsrPoints :=
  ⟨c.extinction.toPoint, c.near.toPoint, c.logMid.toPoint⟩

/-- `simulation.py:689-691`: the trace of a case.  `g` is the gas of the model at the inlet state,
`equil` its equilibrium composition and temperature. -/
def psrTrace {n} (E : PsrEnv ℚ) (g : PsrGas ℚ n) (equil : Option (List ℚ)) : Except Err PsrPoints :=
  (traceCurve E g equil psrDefaults).map PsrCurve.toPoints

end Verif
