import Verif.Model.Program
import Verif.Model.ParseDyn
/-!
# The program, from the document in the input file

`program` of `Model/Program` with the composed document of `Model/Yaml` in place of the typed
dictionary: `yaml.safe_load` and the checks of `parse_inputs` see whatever stands there.  Runs with
accepted values that have not the documented types are left open (`none`).
-/
namespace Verif

/-- an amount of a composition -/
def toScalar : PyV → Scalar
  | .sc (.num x) => .num x
  | .sc (.bool b) => .bool b
  | .sc (.str s) => .str s
  | _ => .other

/-- the entries of a composition; keys are texts -/
def toEntries : List (PyS × PyV) → Option (List (String × Scalar))
  | [] => some []
  | (k, v) :: rest => k.str?.bind fun s => (toEntries rest).map fun l => (s, toScalar v) :: l

/-- a value of a condition -/
def toVal : PyV → Option Val
  | .sc (.num x) => some (.num x)
  | .sc (.bool b) => some (.bool b)
  | .sc (.str s) => some (.str s)
  | .sc .none => some .null
  | .sc .date => none
  | .list l => some (.list l.isEmpty)
  | .dict d => (toEntries d).map .dict

/-- a text -/
def toStr : PyV → Option String
  | .sc k => k.str?
  | _ => none

/-- a list of texts -/
def toTexts : List PyV → Option (List String)
  | [] => some []
  | v :: l => (toStr v).bind fun s => (toTexts l).map fun ss => s :: ss

/-- names of species -/
def toNames : PyV → Option Names
  | .list l => (toTexts l).map .list
  | .sc (.str s) => some (.str s)
  | _ => none

/-- a number that may be missing -/
def toOption : PyV → Option (Option PyF)
  | .sc .none => some none
  | .sc (.num x) => some (some x)
  | _ => none

/-- a number -/
def toNumber : PyV → Option PyF
  | .sc (.num x) => some x
  | _ => none

/-- a truth value -/
def toBool : PyV → Option Bool
  | .sc (.bool b) => some b
  | _ => none

/-- the common fields of a condition (`sampling.py:23-72`) -/
def toCondition (k : CondDyn) : Option Cond :=
  (toVal k.temperature).bind fun t => (toVal k.pressure).bind fun p => (toVal k.equiv).bind fun e =>
  (toVal k.fuel).bind fun f => (toVal k.oxidizer).bind fun o => (toVal k.reactants).bind fun r =>
  (toVal k.compType).map fun m => ⟨t, p, e, f, o, r, m⟩

/-- `InputIgnition` (`sampling.py:23-36`) -/
def toIgnition (k : CondDyn) : Option IgnInput :=
  match k.extra with
  | [x, y, z] => (toCondition k).bind fun c => (toVal x).bind fun kind => (toVal y).bind fun e =>
      (toVal z).map fun s => { toCond := c, kind := kind, endTime := e, maxSteps := s }
  | _ => none

/-- `InputLaminarFlame` (`sampling.py:55-72`) -/
def toFlame (k : CondDyn) : Option FlameInput :=
  match k.extra with
  | [x] => (toCondition k).bind fun c => (toVal x).map fun wd => { toCond := c, width := wd }
  | _ => none

/-- all conditions of a kind -/
def toAll {α : Type} (f : CondDyn → Option α) : List CondDyn → Option (List α)
  | [] => some []
  | k :: l => (f k).bind fun x => (toAll f l).map fun xs => x :: xs

/-- `ReductionInputs` (`pymars.py:29-46`), if every value has the documented type -/
def toInputs (R : InputsDyn) : Option ReductionInputs :=
  (toStr R.model).bind fun model => (toNumber R.error).bind fun error => (toAll toIgnition R.ignition).bind fun ign =>
  (toAll toCondition R.psr).bind fun psr => (toAll toFlame R.flame).bind fun flame => (toStr R.method).bind fun method =>
  (toNames R.targets).bind fun targets => (toNames R.safe).bind fun safe => (toBool R.sensitivity).bind fun sa =>
  (toOption R.upper).bind fun upper => (toStr R.sensitivityType).bind fun stype => (toStr R.phase).bind fun phase =>
  (toOption R.minFlameSpeed).map fun mfs =>
    { model := model, error := error, ignition := ign, psr := psr, flame := flame, method := method,
      targets := targets, safe := safe, sensitivity := sa, upper := upper, sensitivityType := stype,
      phase := phase, minFlameSpeed := mfs }

/-- `ct.Solution(model, phase).species_names` (`pymars.py:100-103`); what it makes of anything but
texts is not looked at (`toInputs`) -/
def loadDyn (w : World) (model phase : PyV) : Except Err (List String) :=
  match toStr model, toStr phase with
  | some m, some p => fileNames w m p
  | _, _ => .error .typeError

/-- `pymars.py:349-405`, `__main__.py:8-15`: the command, with the document found in the input file;
`sh.yaml` is not used -/
def programDoc (K : Cantera IgnInput Cond FlameInput) (rnd : ℚ → ℚ) (sh : Shell)
    (doc : String → Except Err YNode) (args : List String) (d : Disk) (dfuel fuel saFuel : Nat) (w : World) :
    Option ProgEnd :=
  if args = [] then some (.failed .systemExit)
  else match parseArgs args with
  | .error e => some (.failed e)
  | .ok a =>
    if a.version then some (.failed .systemExit)
    else if a.convert then
      some (if givenText a.model then .converted (a.model.getD "") a.thermo a.transport a.path else .failed .systemExit)
    else if !givenText a.input then some (.failed .systemExit)
    else match doc (a.input.getD "") >>= readInputs (loadDyn w) with
    | .error e => some (.failed e)
    | .ok R => (toInputs R).map fun inp =>
        let ext := (splitext inp.model.toList).2
        if ext = ".yaml".toList ∨ ext = ".yml".toList then
          match fullMain (K.inputs inp.minFlameSpeed) rnd (mainArgs sh inp a.path a.threads) d dfuel fuel saFuel w with
          | ((r, w'), evs) => .reduced (r.map (fun x => x.map (fun _ => ()))) w' evs
        else match sh.conv inp.model with
          | .error e => .failed e
          | .ok _ => .failed .attributeError

end Verif
