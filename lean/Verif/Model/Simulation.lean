import Verif.Model.Sampling
import Mathlib.Data.Rat.Floor
/-!
# `simulation.py`: the three kinds of simulation

Cantera is an oracle.  An ignition simulation is a reactor trajectory: for each step either the
new state or a failure of the integrator (`cantera.CanteraError`, a subclass of `RuntimeError`).
The residual of the steady-state test depends on the states reached so far only, so the test is a
function of the step number.  A flame is the outcome of the solver, a stirred reactor the outcome
of `trace_extinction_curve`.  Logging and printing are left out.
-/
namespace Verif

/-- a recorded state (`simulation.py:273-277`) -/
structure Point where
  time : PyF
  T : PyF
  P : PyF
  Y : List PyF
deriving DecidableEq

/-- `[temperature, pressure, *mass_fractions]` -/
def Point.row (p : Point) : Row := p.T :: p.P :: p.Y

/-! ### `simulation.py:94-137`: profile sampling -/

/-- `np.arange(start, stop, step)` with floats: the length is the rounded quotient rounded up,
the values are `start + i * ((start + step) - start)` -/
def npArange (rnd : ℚ → ℚ) (start stop step : ℚ) : List ℚ :=
  let len := (⌈rnd (rnd (stop - start) / step)⌉).toNat
  let next := rnd (start + step)
  let delta := rnd (next - start)
  (List.range len).map (fun i : Nat =>
    if i = 0 then start else if i = 1 then next else rnd (start + rnd (i * delta)))

/-- `simulation.py:117-118`: the fractions of the temperature rise -/
def deltas (rnd : ℚ → ℚ) (n : Nat) : List ℚ :=
  let delta := rnd (1 / n)
  npArange rnd delta (rnd (1 + delta)) delta

/-- rounding of the finite values -/
def PyF.rounded (rnd : ℚ → ℚ) : PyF → PyF
  | .fin q => .fin (rnd q)
  | x => x

/-- `temperature_initial + (deltas[idx] * temperature_diff)` (`simulation.py:121-122, 130-132`) -/
def level (rnd : ℚ → ℚ) (T0 Tend : PyF) (d : ℚ) : PyF :=
  (T0.add (((PyF.fin d).mul ((Tend.sub T0).rounded rnd)).rounded rnd)).rounded rnd

/-- `simulation.py:126-135`: the loop over the points; returns the rows filled -/
def profileLoop (levels : List PyF) : Nat → List Point → List Row
  | _, [] => []
  | idx, p :: ps =>
      match levels[idx]? with
      | none => []
      | some l => if l.le p.T then p.row :: profileLoop levels (idx + 1) ps
          else profileLoop levels idx ps

/-- `simulation.py:94-137`: `_sample_profile`; rows never reached stay zero. -/
def sampleProfile (rnd : ℚ → ℚ) (n : Nat) (pts : List Point) : Except Err (List Row) :=
  if n = 0 then .error .zeroDivision
  else match pts with
  | [] => .error .indexError
  | p0 :: ps =>
      let levels := (deltas rnd n).map (level rnd p0.T ((p0 :: ps).getLast (by simp)).T)
      let taken := profileLoop levels 0 pts
      .ok (taken ++ List.replicate (levels.length - taken.length)
        (List.replicate (2 + p0.Y.length) (.fin 0)))

/-! ### `simulation.py:168-457`: autoignition -/

/-- the reactor network: its initial state, the state after step `k` (`none` when the integrator
fails there), and whether the residual after step `k` is below the threshold
(`simulation.py:329-337`) -/
structure Reactor where
  init : Point
  step : Nat → Option Point
  settled : Nat → Bool

/-- the fields of `InputIgnition` read here -/
structure IgnProps where
  temperature : PyF
  endTime : PyF
  maxSteps : Int

/-- `simulation.py:190-193`: the step limit -/
def IgnProps.steps (p : IgnProps) : Int := if p.maxSteps = 0 then 10000 else p.maxSteps

/-- `if self.time_end` (`simulation.py:198-200, 290, 388`) -/
def IgnProps.timed (p : IgnProps) : Bool := decide (p.endTime ≠ .fin 0)

/-- the temperature that counts as ignition -/
def IgnProps.hot (p : IgnProps) : PyF := p.temperature.add (.fin 400)

/-- local variables of `run_case`: the delay once ignition was seen, and the recorded states -/
structure Rec where
  delay : Option PyF
  points : List Point

/-- `simulation.py:296-304, 319-327`: record the state and look for ignition; the flag tells
whether to leave the loop at ignition -/
def Rec.note (hot : PyF) (r : Rec) (p : Point) : Rec × Bool :=
  match r.delay with
  | none => if hot.le p.T then (⟨some p.time, r.points ++ [p]⟩, true) else (⟨none, r.points ++ [p]⟩, false)
  | some d => (⟨some d, r.points ++ [p]⟩, false)

/-- `simulation.py:290-304`: integration to an end time; `none` when the fuel is not enough -/
def timedLoop (R : Reactor) (hot tend : PyF) (stop : Bool) :
    Nat → Nat → Point → Rec → Option (Except Err Rec)
  | 0, _, _, _ => none
  | fuel + 1, k, cur, r =>
      if cur.time.lt tend then
        match R.step k with
        | none => some (.error .runtimeError)
        | some p =>
            let x := r.note hot p
            if x.2 && stop then some (.ok x.1)
            else timedLoop R hot tend stop fuel (k + 1) p x.1
      else some (.ok r)

/-- `simulation.py:313-337`: integration to steady state; `left` steps remain, `k` is the step
number.  Returns the number of the last step made. -/
def steadyLoop (R : Reactor) (hot : PyF) (stop : Bool) :
    Nat → Nat → Option Nat → Rec → Except Err (Option Nat × Rec)
  | 0, _, last, r => .ok (last, r)
  | left + 1, k, _, r =>
      match R.step k with
      | none => .error .runtimeError
      | some p =>
          let x := r.note hot p
          if x.2 && stop then .ok (some k, x.1)
          else if R.settled k then .ok (some k, x.1)
          else steadyLoop R hot stop left (k + 1) (some k) x.1

/-- `simulation.py:306-347`: integration to steady state, with the test on the step number -/
def steadyPart (R : Reactor) (hot : PyF) (stop : Bool) (maxSteps : Int) : Except Err Rec :=
  match steadyLoop R hot stop maxSteps.toNat 0 none ⟨none, [R.init]⟩ with
  | .error e => .error e
  | .ok (none, _) => .error .unboundLocal
  | .ok (some s, r) => if (s : Int) = maxSteps - 1 then .error .runtimeError else .ok r

/-- what `run_case` does: its result and the data file it wrote -/
structure IgnRun where
  result : Except Err PyF
  file : Option (List Point)

/-- `simulation.py:240-366`: `run_case` (not restarting). -/
def ignRunCase (p : IgnProps) (R : Reactor) (stop : Bool) (fuel : Nat) : Option IgnRun :=
  let r := if p.timed then timedLoop R p.hot p.endTime stop fuel 0 R.init ⟨none, [R.init]⟩
    else some (steadyPart R p.hot stop p.steps)
  match r with
  | none => none
  | some (.error e) => some ⟨.error e, none⟩
  | some (.ok r) =>
      match r.delay with
      | none => some ⟨.error .runtimeError, some r.points⟩
      | some d => some ⟨.ok d, some r.points⟩

/-- `simulation.py:388-394`: metric-only integration to an end time -/
def calcTimed (R : Reactor) (hot tend : PyF) : Nat → Nat → Point → Option PyF
  | 0, _, _ => none
  | fuel + 1, k, cur =>
      if cur.time.lt tend then
        match R.step k with
        | none => some (.fin 0)
        | some p => if hot.le p.T then some p.time else calcTimed R hot tend fuel (k + 1) p
      else some (.fin 0)

/-- `simulation.py:401-405`: metric-only integration for at most `left` more steps -/
def calcSteps (R : Reactor) (hot : PyF) : Nat → Nat → PyF
  | 0, _ => .fin 0
  | left + 1, k =>
      match R.step k with
      | none => .fin 0
      | some p => if hot.le p.T then p.time else calcSteps R hot left (k + 1)

/-- `simulation.py:368-418`: `calculate`.  With a negative step limit the name `step` is unbound
at `simulation.py:406`. -/
def ignCalculate (p : IgnProps) (R : Reactor) (fuel : Nat) : Option (Except Err PyF) :=
  if p.timed then (calcTimed R p.hot p.endTime fuel 0 R.init).map .ok
  else if p.steps ≤ 0 then some (.error .unboundLocal)
  else some (.ok (calcSteps R p.hot p.steps.toNat 0))

/-- `simulation.py:446-450`: the first time at which the temperature is 400 K above the first -/
def delayOf (hot : PyF) : List Point → PyF
  | [] => .fin 0
  | p :: ps => if hot.le p.T then p.time else delayOf hot ps

/-- `simulation.py:420-457`: `process_results` on the data file. -/
def ignProcess (rnd : ℚ → ℚ) (file : Option (List Point)) : Except Err (PyF × List Row) :=
  match file with
  | none => .error .fileNotFound
  | some [] => .error .indexError
  | some (p0 :: ps) =>
      match sampleProfile rnd 20 (p0 :: ps) with
      | .error e => .error e
      | .ok rows => .ok (delayOf (p0.T.add (.fin 400)) (p0 :: ps), rows)

/-- `sampling.py:75-102`: `ignition_sample_worker`: result and the data file left behind. -/
def ignSampleWorker (rnd : ℚ → ℚ) (p : IgnProps) (R : Reactor) (fuel : Nat) :
    Option (Except Err (List PyF × List Row) × Option (List Point)) :=
  match ignRunCase p R false fuel with
  | none => none
  | some ⟨.error e, f⟩ => some (.error e, f)
  | some ⟨.ok _, f⟩ =>
      match ignProcess rnd f with
      | .error e => some (.error e, f)
      | .ok (d, rows) => some (.ok ([d], rows), none)

/-- `sampling.py:105-122`: `ignition_worker`. -/
def ignWorker (p : IgnProps) (R : Reactor) (fuel : Nat) : Option (Except Err (List PyF)) :=
  (ignCalculate p R fuel).map (Except.map (fun d => [d]))

/-! ### `simulation.py:460-627`: laminar flames -/

/-- outcome of the flame solver: `none` when it raises `CanteraError`; otherwise the speed at the
inlet and the profile -/
structure FlameSol where
  speed : PyF
  points : List Point

/-- `simulation.py:487-495`: the floor in use, 0.05 unless given -/
def flameFloor (given : Option PyF) : PyF := given.getD (.fin float005)

/-- `simulation.py:525-545`: `_flame_detected`. -/
def flameDetected (given : Option PyF) (s : Option FlameSol) : Option PyF :=
  match s with
  | none => none
  | some f => if f.speed.le (flameFloor given) then none else some f.speed

/-- `simulation.py:547-571`: `run_case`. -/
def flameRunCase (given : Option PyF) (s : Option FlameSol) : Except Err PyF :=
  match flameDetected given s with
  | none => .error .runtimeError
  | some v => .ok v

/-- `simulation.py:573-596`: `calculate`. -/
def flameCalculate (given : Option PyF) (s : Option FlameSol) : PyF :=
  (flameDetected given s).getD (.fin 0)

/-- `simulation.py:598-627`: `process_results`; `flame.P` is the same at every point. -/
def flameProcess (rnd : ℚ → ℚ) (given : Option PyF) (s : Option FlameSol) :
    Except Err (PyF × List Row) :=
  match flameRunCase given s, s with
  | .error e, _ => .error e
  | .ok v, some f => (sampleProfile rnd 20 f.points).map (fun rows => (v, rows))
  | .ok _, none => .error .runtimeError

/-! ### `simulation.py:630-791`: stirred reactors -/

/-- one sampled point: residence time, temperature and composition -/
structure PsrPoint where
  tau : PyF
  T : PyF
  Y : List PyF
deriving DecidableEq

/-- the entries of `result["points"]` -/
structure PsrPoints where
  extinction : PsrPoint
  near : PsrPoint
  logMid : PsrPoint

/-- `simulation.py:673-694`: `_detect`: `CanteraError` and `RuntimeError` mean no curve, other
exceptions pass. -/
def psrDetect (trace : Except Err PsrPoints) : Except Err (Option PsrPoints) :=
  match trace with
  | .ok r => .ok (some r)
  | .error .runtimeError => .ok none
  | .error e => .error e

/-- `simulation.py:696-706`: `_metrics`. -/
def psrMetrics (r : PsrPoints) : List PyF := [r.extinction.tau, r.logMid.T, r.near.T]

/-- `simulation.py:708-731`: `run_case`. -/
def psrRunCase (trace : Except Err PsrPoints) : Except Err (List PyF) :=
  match psrDetect trace with
  | .error e => .error e
  | .ok none => .error .runtimeError
  | .ok (some r) => .ok (psrMetrics r)

/-- `simulation.py:733-758`: `calculate`. -/
def psrCalculate (trace : Except Err PsrPoints) : Except Err (List PyF) :=
  match psrDetect trace with
  | .error e => .error e
  | .ok none => .ok (List.replicate 3 (.fin 0))
  | .ok (some r) => .ok (psrMetrics r)

/-- `simulation.py:760-791`: `process_results`; `p` is the inlet pressure in Pa. -/
def psrProcess (p : PyF) (trace : Except Err PsrPoints) : Except Err (List PyF × List Row) :=
  match psrRunCase trace, trace with
  | .error e, _ => .error e
  | .ok ms, .ok r => .ok (ms, [r.extinction, r.logMid, r.near].map (fun x => x.T :: p :: x.Y))
  | .ok _, .error e => .error e

end Verif
