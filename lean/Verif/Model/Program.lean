import Verif.Model.FullMain
import Verif.Model.Argparse
/-!
# The program: from the command line to the files it leaves (`__main__.py:8-15`, `pymars.py:293-407`)

Left to oracles: Cantera, reading YAML, converting Chemkin files, names of temporary directories,
number of processors and completion order of the worker pools.
-/
namespace Verif

/-- what the process finds around it -/
structure Shell where
  yaml : String → Except Err InputDict
  conv : String → Except Err Unit
  cpus : Nat
  order : Kind → Nat → List Nat
  tmpDir : Text
  evalDir : Nat → Text

/-- a number of an accepted condition; the parsers let nothing else through where it matters
(`sampling.py:747-750`) -/
def Val.toNum : Val → PyF
  | .num x => x
  | .bool b => .fin (if b then 1 else 0)
  | _ => .nan

/-- fields read by the ignition simulation (`simulation.py:190-200`).  A step limit that is no
integer raises in `range` (`simulation.py:313, 401`), which is not modelled: it is rounded down. -/
def ignPropsOf (x : IgnInput) : IgnProps where
  temperature := x.temperature.toNum
  endTime := if x.endTime.truthy then x.endTime.toNum else .fin 0
  maxSteps := if x.maxSteps.truthy then
    (match x.maxSteps.toNum with | .fin q => ⌊q⌋ | _ => 0) else 0

/-- Cantera with the conditions of an input file (`simulation.py:783`: one atmosphere is
101325 Pa; the product is not rounded) and the given `min-flame-speed` -/
def Cantera.inputs (K : Cantera IgnInput Cond FlameInput) (floor : Option PyF) :
    Cantera IgnInput Cond FlameInput :=
  { K with
    ignProps := ignPropsOf
    psrPressure := fun c => c.pressure.toNum.mul (.fin 101325)
    floor := floor }

/-- a finite upper threshold (`.inf` and `.nan` are not modelled) -/
def finiteUpper : Option PyF → Option ℚ
  | some (.fin u) => some u
  | _ => none

/-- `pymars.py:389-405`: the call of `main`.  Targets and retained species are lists (text given
instead of a list is treated as the list of its characters, see C76). -/
def mainArgs (sh : Shell) (inp : ReductionInputs) (path : String) (threads : Int) :
    MainArgs IgnInput Cond FlameInput where
  modelFile := inp.model.toList
  limit := inp.error
  targets := inp.targets.iter
  safe := inp.safe.iter
  upper := finiteUpper inp.upper
  phase := inp.phase.toList
  path := path.toList
  conds := ⟨inp.ignition, inp.psr, inp.flame⟩
  par := ⟨threads, sh.cpus, sh.order⟩
  method := some inp.method
  sensitivity := inp.sensitivity
  sensitivityType := inp.sensitivityType
  tmpDir := sh.tmpDir
  evalDir := sh.evalDir

/-- species names of a model file (`pymars.py:100-103`, `sampling.py:732, 834, 926`) -/
def fileNames (w : World) (model _phase : String) : Except Err (List String) :=
  (loadModel w model.toList).map Mech.names

/-- how the process ends: it did nothing, it converted a model, or it ran a reduction with the
given outcome (`none`: out of fuel), files and writes to the saved samples; the value returned by
`main` is dropped -/
inductive ProgEnd where
  | nothing
  | failed (e : Err)
  | converted (model : String) (thermo transport : Option String) (path : String)
  | reduced (outcome : Option (Except Err Unit)) (w : World) (evs : List Ev)

/-- the command `pymars`, started with `args` in a directory with files `w` and saved samples `d` -/
def program (K : Cantera IgnInput Cond FlameInput) (rnd : ℚ → ℚ) (sh : Shell) (args : List String)
    (d : Disk) (dfuel fuel saFuel : Nat) (w : World) : ProgEnd :=
  match mainEntry sh.yaml (fileNames w) sh.conv none args with
  | .error e => .failed e
  | .ok none => .nothing
  | .ok (some (.convert m th tr p)) => .converted m th tr p
  | .ok (some (.reduce inp path threads)) =>
      match fullMain (K.inputs inp.minFlameSpeed) rnd (mainArgs sh inp path threads) d dfuel fuel
          saFuel w with
      | ((r, w'), evs) => .reduced (r.map (fun x => x.map (fun _ => ()))) w' evs

end Verif
