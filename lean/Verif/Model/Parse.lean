import Verif.Model.Sampling
/-!
# Parsing of inputs: `sampling.py:714-1001`, `simulation.py:55-92`, `pymars.py:49-149`

A condition is the dictionary read from YAML.  Values are modelled dynamically: comparing text,
a list or nothing with a number raises `TypeError`.  Keys are strings (YAML could also give other
scalars).  The species names of the model (`ct.Solution(...).species_names`) are a parameter of
the condition parsers; loading is an oracle in `parseInputs`.  Messages are left out.
-/
namespace Verif

/-- an amount inside a composition; `other` stands for nothing, lists and dictionaries -/
inductive Scalar where
  | num (x : PyF)
  | bool (b : Bool)
  | str (s : String)
  | other
deriving DecidableEq

/-- a value of a condition; of a list only its emptiness matters -/
inductive Val where
  | num (x : PyF)
  | bool (b : Bool)
  | str (s : String)
  | null
  | list (empty : Bool)
  | dict (d : List (String × Scalar))
deriving DecidableEq

/-- one condition -/
abbrev Case := List (String × Val)

/-- `case.get(key, default)` -/
def Case.get (c : Case) (key : String) (default : Val) : Val := (c.lookup key).getD default

/-- python truth value -/
def Val.truthy : Val → Bool
  | .num x => !(x.eq (.fin 0))
  | .bool b => b
  | .str s => s ≠ ""
  | .null => false
  | .list e => !e
  | .dict d => d ≠ []

/-- `v > 0` -/
def Val.gt0 : Val → Except Err Bool
  | .num x => .ok ((PyF.fin 0).lt x)
  | .bool b => .ok b
  | _ => .error .typeError

/-- `v > 0` for an amount -/
def Scalar.gt0 : Scalar → Except Err Bool
  | .num x => .ok ((PyF.fin 0).lt x)
  | .bool b => .ok b
  | _ => .error .typeError

/-- `assert b` -/
def pyAssert (b : Bool) : Except Err Unit := if b then .ok () else .error .assertionError

/-- `assert v > 0` -/
def assertPositive (v : Val) : Except Err Unit := v.gt0 >>= pyAssert

/-- `if b: x` -/
def pyWhen (b : Bool) (x : Except Err Unit) : Except Err Unit := if b then x else .ok ()

/-- the loop over the entries of a composition (`sampling.py:766-770` and its copies) -/
def checkEntries (names : List String) : List (String × Scalar) → Except Err Unit
  | [] => .ok ()
  | (k, v) :: rest =>
      v.gt0 >>= pyAssert >>= fun _ => pyAssert (names.contains k) >>= fun _ => checkEntries names rest

/-- the loop when the value may not be a dictionary: indexing a list or text by its entries and
iterating over a number raise.  (For a list of integers the exception may be `IndexError`; the
two are not distinguished.) -/
def checkAmounts (names : List String) (v : Val) : Except Err Unit :=
  match v with
  | .dict d => checkEntries names d
  | .list true => .ok ()
  | .str "" => .ok ()
  | _ => .error .typeError

/-- temperature, pressure and composition of a case -/
structure Cond where
  temperature : Val
  pressure : Val
  equiv : Val
  fuel : Val
  oxidizer : Val
  reactants : Val
  compType : Val
deriving DecidableEq

/-- values of a case with the defaults of `case.get` -/
def condOf (c : Case) : Cond where
  temperature := c.get "temperature" (.num (.fin 0))
  pressure := c.get "pressure" (.num (.fin 0))
  equiv := c.get "equivalence-ratio" (.num (.fin 0))
  fuel := c.get "fuel" (.list true)
  oxidizer := c.get "oxidizer" (.list true)
  reactants := c.get "reactants" (.list true)
  compType := c.get "composition-type" (.str "mole")

/-- `sampling.py:762-779` and its copies: equivalence ratio, fuel and oxidizer -/
def checkMixture (names : List String) (k : Cond) : Except Err Unit := do
  assertPositive k.equiv
  pyAssert k.fuel.truthy
  checkAmounts names k.fuel
  pyAssert k.oxidizer.truthy
  checkAmounts names k.oxidizer

/-- `sampling.py:752-796`, `847-891`, `942-986`: the composition part, the same text three times -/
def checkComposition (names : List String) (k : Cond) : Except Err Unit := do
  let mix := k.equiv.truthy || k.fuel.truthy || k.oxidizer.truthy
  pyAssert (decide (mix.toNat + k.reactants.truthy.toNat = 1))
  pyWhen mix (checkMixture names k)
  pyWhen k.reactants.truthy (checkAmounts names k.reactants)
  pyAssert (k.compType = .str "mole" || k.compType = .str "mass")
  pyAssert (!(k.compType = .str "mass" && k.equiv.truthy))

/-- `InputIgnition` (`sampling.py:23-37`) -/
structure IgnInput extends Cond where
  kind : Val
  endTime : Val
  maxSteps : Val
deriving DecidableEq

/-- `InputLaminarFlame` (`sampling.py:57-72`) -/
structure FlameInput extends Cond where
  width : Val
deriving DecidableEq

/-- one iteration of `parse_ignition_inputs` (`sampling.py:735-811`) -/
def parseIgnition (names : List String) (c : Case) : Except Err IgnInput := do
  let kind := c.get "kind" (.str "")
  let k := condOf c
  pyAssert (kind = .str "constant volume" || kind = .str "constant pressure")
  assertPositive k.temperature
  assertPositive k.pressure
  checkComposition names k
  return { k with kind := kind, endTime := c.get "end-time" (.num (.fin 0)),
                  maxSteps := c.get "max-steps" (.num (.fin 10000)) }

/-- one iteration of `parse_psr_inputs` (`sampling.py:837-903`) -/
def parsePsr (names : List String) (c : Case) : Except Err Cond := do
  let k := condOf c
  assertPositive k.temperature
  assertPositive k.pressure
  checkComposition names k
  return k

/-- one iteration of `parse_flame_inputs` (`sampling.py:929-999`) -/
def parseFlame (names : List String) (c : Case) : Except Err FlameInput := do
  let k := condOf c
  assertPositive k.temperature
  assertPositive k.pressure
  let width := c.get "width" (.num (.fin float01))
  assertPositive width
  checkComposition names k
  return { k with width := width }

/-- the loop over the cases; the first exception ends it -/
def parseCases {β} (parse : Case → Except Err β) : List Case → Except Err (List β)
  | [] => .ok []
  | c :: cs => do
      let x ← parse c
      let xs ← parseCases parse cs
      return x :: xs

/-! ### `simulation.py:55-92`: setting up the gas -/

/-- how the composition is set -/
inductive GasSet where
  | equivalence (phi fuel oxidizer : Val)
  | moles (x : Val)
  | masses (y : Val)
deriving DecidableEq

/-- `simulation.py:73-90`: `_setup_gas`; temperature and pressure (times one atmosphere) are set
before and, with reactants, again. -/
def setupGas (k : Cond) : GasSet :=
  if k.equiv.truthy then .equivalence k.equiv k.fuel k.oxidizer
  else if k.compType = .str "mole" then .moles k.reactants
  else .masses k.reactants

/-! ### `pymars.py:49-149` -/

/-- a field with species names: a list, or a single text, over which python iterates by character
and in which `in` searches for a substring -/
inductive Names where
  | list (l : List String)
  | str (s : String)
deriving DecidableEq

/-- `for sp in names` -/
def Names.iter : Names → List String
  | .list l => l
  | .str s => s.toList.map (fun c => String.ofList [c])

/-- `sp in names` -/
def Names.has : Names → String → Bool
  | .list l, sp => l.contains sp
  | .str s, sp => decide (sp.toList <:+: s.toList)

/-- truth value -/
def Names.truthy : Names → Bool
  | .list l => l ≠ []
  | .str s => s ≠ ""

/-- `names.append(sp)` -/
def Names.append : Names → String → Except Err Names
  | .list l, sp => .ok (.list (l ++ [sp]))
  | .str _, _ => .error .attributeError

/-- `list(case.fuel)`.  (A non-empty list or text does not get past the condition parsers.) -/
def Val.keys : Val → Except Err (List String)
  | .dict d => .ok (d.map (·.1))
  | .list true => .ok []
  | .str "" => .ok []
  | _ => .error .typeError

/-- fields of the input dictionary; a missing `retained-species` gives a new empty list -/
structure InputDict where
  model : String
  error : PyF
  method : String
  sensitivity : Bool
  targets : Names
  upper : Option PyF
  sensitivityType : String
  retained : Option Names
  phase : String
  minFlameSpeed : Option PyF
  ignition : List Case
  psr : List Case
  flame : List Case
deriving DecidableEq

/-- `ReductionInputs` (`pymars.py:29-46`) -/
structure ReductionInputs where
  model : String
  error : PyF
  ignition : List IgnInput
  psr : List Cond
  flame : List FlameInput
  method : String
  targets : Names
  safe : Names
  sensitivity : Bool
  upper : Option PyF
  sensitivityType : String
  phase : String
  minFlameSpeed : Option PyF
deriving DecidableEq

/-- `list(case.fuel) + list(case.oxidizer) + list(case.reactants)` -/
def Cond.species (k : Cond) : Except Err (List String) := do
  let f ← k.fuel.keys
  let o ← k.oxidizer.keys
  let r ← k.reactants.keys
  return f ++ o ++ r

/-- `pymars.py:131-133`: the inner loop for one case -/
def retainNames (targets : Names) : List String → Names → Except Err Names
  | [], safe => .ok safe
  | sp :: rest, safe =>
      if !(targets.has sp) && !(safe.has sp) then
        safe.append sp >>= fun s => retainNames targets rest s
      else retainNames targets rest safe

/-- `pymars.py:130-133`: species of the conditions are retained -/
def retainSpecies (targets : Names) : List Cond → Names → Except Err Names
  | [], safe => .ok safe
  | k :: rest, safe =>
      k.species >>= fun l => retainNames targets l safe >>= fun s => retainSpecies targets rest s

/-- `pymars.py:49-149`: `parse_inputs`.  `load` gives the species names of model and phase or
the exception (`ValueError` is raised again as `ValueError`).  The second result is the dictionary
afterwards: a given list of retained species is extended in place. -/
def parseInputs (load : String → String → Except Err (List String)) (d : InputDict) :
    Except Err (ReductionInputs × InputDict) := do
  pyAssert (d.model ≠ "")
  pyAssert (!(d.error.eq (.fin 0)))
  pyAssert (d.method ≠ "" || d.sensitivity)
  pyWhen (d.method ≠ "") (do
    pyAssert (["DRG", "DRGEP", "PFA"].contains d.method)
    pyAssert d.targets.truthy)
  let upper := match d.upper with
    | some u => if u.eq (.fin 0) && d.sensitivity then some (.fin float01) else some u
    | none => if d.sensitivity then some (.fin float01) else none
  let safe0 := d.retained.getD (.list [])
  let names ← load d.model d.phase
  pyAssert (d.targets.iter.all names.contains)
  pyAssert (safe0.iter.all names.contains)
  pyAssert (d.ignition ≠ [] || d.psr ≠ [] || d.flame ≠ [])
  let ign ← parseCases (parseIgnition names) d.ignition
  let psr ← parseCases (parsePsr names) d.psr
  let flame ← parseCases (parseFlame names) d.flame
  let safe ← retainSpecies d.targets
    (ign.map (·.toCond) ++ psr ++ flame.map (·.toCond)) safe0
  return ({ model := d.model, error := d.error, ignition := ign, psr := psr, flame := flame,
            method := d.method, targets := d.targets, safe := safe, sensitivity := d.sensitivity,
            upper := upper, sensitivityType := d.sensitivityType, phase := d.phase,
            minFlameSpeed := d.minFlameSpeed },
          { d with retained := d.retained.map (fun _ => safe) })

end Verif
