import Verif.Model.ParseDyn
/-!
# When the values read from a file are those of a typed dictionary
-/
namespace Verif.Spec
open Verif

/-- an amount inside a composition -/
def IsScalar (v : PyV) : Scalar → Prop
  | .num x => v = .sc (.num x)
  | .bool b => v = .sc (.bool b)
  | .str s => v = .sc (.str s)
  | .other => v = .sc .none ∨ v = .sc .date ∨ (∃ l, v = .list l) ∨ ∃ d, v = .dict d

/-- a value of a condition -/
def IsVal (v : PyV) : Val → Prop
  | .num x => v = .sc (.num x)
  | .bool b => v = .sc (.bool b)
  | .str s => v = .sc (.str s)
  | .null => v = .sc .none
  | .list e => ∃ l, v = .list l ∧ l.isEmpty = e
  | .dict d => ∃ l, v = .dict l ∧ List.Forall₂ (fun p q => p.1 = .str q.1 ∧ IsScalar p.2 q.2) l d

/-- a condition -/
def IsCase (v : PyV) (c : Case) : Prop :=
  ∃ l, v = .dict l ∧ List.Forall₂ (fun p q => p.1 = PyS.str q.1 ∧ IsVal p.2 q.2) l c

/-- names of species: a list of texts, or a text -/
def IsNames (v : PyV) : Names → Prop
  | .list l => v = .list (l.map pyStr)
  | .str s => v = pyStr s

/-- a number that may be missing -/
def IsOption (v : PyV) : Option PyF → Prop
  | none => v = .sc .none
  | some x => v = .sc (.num x)

/-- a list of conditions; also an empty dictionary, the default -/
def IsCases (v : PyV) (cs : List Case) : Prop :=
  (∃ l, v = .list l ∧ List.Forall₂ IsCase l cs) ∨ (v = .dict [] ∧ cs = [])

/-- a dictionary with the values of the documented types -/
structure Represents (v : PyV) (I : InputDict) : Prop where
  model : v.get "model" (pyStr "") = .ok (pyStr I.model)
  error : v.get "error" (pyNum 0) = .ok (.sc (.num I.error))
  method : v.get "method" (pyStr "") = .ok (pyStr I.method)
  sensitivity : v.get "sensitivity-analysis" (.sc (.bool false)) = .ok (.sc (.bool I.sensitivity))
  targets : ∃ x, v.get "targets" (.list []) = .ok x ∧ IsNames x I.targets
  upper : ∃ x, v.get "upper-threshold" (.sc .none) = .ok x ∧ IsOption x I.upper
  sensitivityType : v.get "sensitivity-type" (pyStr "initial") = .ok (pyStr I.sensitivityType)
  retained : ∃ x, v.get "retained-species" (.list []) = .ok x ∧ IsNames x (I.retained.getD (.list []))
  phase : v.get "phase-name" (pyStr "") = .ok (pyStr I.phase)
  minFlameSpeed : ∃ x, v.get "min-flame-speed" (.sc .none) = .ok x ∧ IsOption x I.minFlameSpeed
  ignition : ∃ x, v.get "autoignition-conditions" (.dict []) = .ok x ∧ IsCases x I.ignition
  psr : ∃ x, v.get "psr-conditions" (.dict []) = .ok x ∧ IsCases x I.psr
  flame : ∃ x, v.get "laminar-flame-conditions" (.dict []) = .ok x ∧ IsCases x I.flame

/-- the common fields of a checked condition -/
structure IsCond (k : CondDyn) (c : Cond) : Prop where
  temperature : IsVal k.temperature c.temperature
  pressure : IsVal k.pressure c.pressure
  equiv : IsVal k.equiv c.equiv
  fuel : IsVal k.fuel c.fuel
  oxidizer : IsVal k.oxidizer c.oxidizer
  reactants : IsVal k.reactants c.reactants
  compType : IsVal k.compType c.compType

/-- a checked autoignition condition -/
def IsIgn (k : CondDyn) (c : IgnInput) : Prop :=
  IsCond k c.toCond ∧ ∃ x y z, k.extra = [x, y, z] ∧ IsVal x c.kind ∧ IsVal y c.endTime ∧ IsVal z c.maxSteps

/-- a checked flame -/
def IsFlame (k : CondDyn) (c : FlameInput) : Prop :=
  IsCond k c.toCond ∧ ∃ x, k.extra = [x] ∧ IsVal x c.width

/-- the checked inputs -/
structure IsInputs (R : InputsDyn) (r : ReductionInputs) : Prop where
  model : R.model = pyStr r.model
  error : R.error = .sc (.num r.error)
  ignition : List.Forall₂ IsIgn R.ignition r.ignition
  psr : List.Forall₂ IsCond R.psr r.psr
  flame : List.Forall₂ IsFlame R.flame r.flame
  method : R.method = pyStr r.method
  targets : IsNames R.targets r.targets
  safe : IsNames R.safe r.safe
  sensitivity : R.sensitivity = .sc (.bool r.sensitivity)
  upper : IsOption R.upper r.upper
  sensitivityType : R.sensitivityType = pyStr r.sensitivityType
  phase : R.phase = pyStr r.phase
  minFlameSpeed : IsOption R.minFlameSpeed r.minFlameSpeed

/-- related values or the same exception -/
def RelE {α β : Type} (R : α → β → Prop) : Except Err α → Except Err β → Prop
  | .ok a, .ok b => R a b
  | .error e, .error e' => e = e'
  | _, _ => False

end Verif.Spec
