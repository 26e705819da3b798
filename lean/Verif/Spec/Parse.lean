import Verif.Model.Parse
/-!
# What a well formed condition is (`docs` and messages of `sampling.py:714-1001`)
-/
namespace Verif.Spec
open Verif

/-- a positive number (`True` counts as one) -/
def Positive (v : Val) : Prop := (∃ x, v = .num x ∧ (PyF.fin 0).lt x = true) ∨ v = .bool true

/-- a positive amount -/
def PositiveAmount (v : Scalar) : Prop :=
  (∃ x, v = .num x ∧ (PyF.fin 0).lt x = true) ∨ v = .bool true

/-- a non-empty composition of species of the model with positive amounts -/
def Composition (names : List String) (v : Val) : Prop :=
  ∃ d, v = .dict d ∧ d ≠ [] ∧ ∀ e ∈ d, e.1 ∈ names ∧ PositiveAmount e.2

/-- not given: missing, nothing, zero or empty -/
def NotGiven : Val → Prop
  | .num x => x = .fin 0
  | .bool b => b = false
  | .str s => s = ""
  | .null => True
  | .list empty => empty = true
  | .dict d => d = []

/-- exactly one of the two ways of giving a composition is used, and it is used correctly -/
def CompositionGiven (names : List String) (k : Cond) : Prop :=
  (Positive k.equiv ∧ Composition names k.fuel ∧ Composition names k.oxidizer ∧
      NotGiven k.reactants ∧ k.compType = .str "mole") ∨
  (Composition names k.reactants ∧ NotGiven k.equiv ∧ NotGiven k.fuel ∧ NotGiven k.oxidizer ∧
      (k.compType = .str "mole" ∨ k.compType = .str "mass"))

/-- a well formed reactor condition -/
def CondOk (names : List String) (k : Cond) : Prop :=
  Positive k.temperature ∧ Positive k.pressure ∧ CompositionGiven names k

/-- the value stored under a key, or the documented default -/
def Holds (c : Case) (key : String) (default v : Val) : Prop :=
  (∃ pre post, c = pre ++ (key, v) :: post ∧ ∀ e ∈ pre, e.1 ≠ key) ∨
  ((∀ e ∈ c, e.1 ≠ key) ∧ v = default)

/-- `k` holds the values of the case -/
structure Given (c : Case) (k : Cond) : Prop where
  temperature : Holds c "temperature" (.num (.fin 0)) k.temperature
  pressure : Holds c "pressure" (.num (.fin 0)) k.pressure
  equiv : Holds c "equivalence-ratio" (.num (.fin 0)) k.equiv
  fuel : Holds c "fuel" (.list true) k.fuel
  oxidizer : Holds c "oxidizer" (.list true) k.oxidizer
  reactants : Holds c "reactants" (.list true) k.reactants
  compType : Holds c "composition-type" (.str "mole") k.compType

/-- the record is the well formed autoignition condition described by the case -/
def IgnitionOk (names : List String) (c : Case) (r : IgnInput) : Prop :=
  Given c r.toCond ∧ CondOk names r.toCond ∧
  Holds c "kind" (.str "") r.kind ∧
  (r.kind = .str "constant volume" ∨ r.kind = .str "constant pressure") ∧
  Holds c "end-time" (.num (.fin 0)) r.endTime ∧
  Holds c "max-steps" (.num (.fin 10000)) r.maxSteps

/-- the record is the well formed reactor condition described by the case -/
def PsrOk (names : List String) (c : Case) (r : Cond) : Prop := Given c r ∧ CondOk names r

/-- the record is the well formed flame condition described by the case -/
def FlameOk (names : List String) (c : Case) (r : FlameInput) : Prop :=
  Given c r.toCond ∧ CondOk names r.toCond ∧
  Holds c "width" (.num (.fin float01)) r.width ∧ Positive r.width

/-- a number or a truth value -/
def Numeric : Val → Prop
  | .num _ => True
  | .bool _ => True
  | _ => False

/-- a dictionary of numbers, or nothing given -/
def Amounts (v : Val) : Prop :=
  NotGiven v ∨ ∃ d, v = .dict d ∧ ∀ e ∈ d, (∃ x, e.2 = .num x) ∨ ∃ b, e.2 = .bool b

/-- every value has the type it should have -/
structure Typed (k : Cond) : Prop where
  temperature : Numeric k.temperature
  pressure : Numeric k.pressure
  equiv : Numeric k.equiv
  fuel : Amounts k.fuel
  oxidizer : Amounts k.oxidizer
  reactants : Amounts k.reactants

end Verif.Spec

namespace Verif.Spec
open Verif

/-- a condition of the input names the species as fuel, oxidizer or reactant -/
def Needs (d : InputDict) (sp : String) : Prop :=
  ∃ c ∈ d.ignition ++ d.psr ++ d.flame, ∃ key ∈ ["fuel", "oxidizer", "reactants"],
    ∃ entries, Holds c key (.list true) (.dict entries) ∧ ∃ x, (sp, x) ∈ entries

end Verif.Spec
