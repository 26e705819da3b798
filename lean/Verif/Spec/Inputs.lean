import Verif.Spec.Parse
/-!
# What a well formed input file is (`docs/usage.rst:155-260`)
-/
namespace Verif.Spec
open Verif

/-- the names given under `targets` and `retained-species` are lists -/
structure Lists (d : InputDict) (targets retained : List String) : Prop where
  targets : d.targets = .list targets
  retained : d.retained = some (.list retained) ∨ d.retained = none ∧ retained = []

/-- what the documentation asks of an input file, except for the type of sensitivity analysis, for
a model with the given species -/
structure WellFormed (names : List String) (d : InputDict) (targets retained : List String) : Prop where
  model : d.model ≠ ""
  error : d.error ≠ .fin 0
  task : (d.method = "" ∧ d.sensitivity = true) ∨
    ((d.method = "DRG" ∨ d.method = "DRGEP" ∨ d.method = "PFA") ∧ ∃ t, t ∈ targets)
  known : ∀ s, s ∈ targets ∨ s ∈ retained → s ∈ names
  conditions : ∃ c, c ∈ d.ignition ∨ c ∈ d.psr ∨ c ∈ d.flame
  ignition : ∀ c ∈ d.ignition, ∃ r, IgnitionOk names c r
  psr : ∀ c ∈ d.psr, ∃ r, PsrOk names c r
  flame : ∀ c ∈ d.flame, ∃ r, FlameOk names c r

/-- a part of a mixture that is not given is left out or empty, rather than a key without a value -/
def NoBareKeys (d : InputDict) : Prop :=
  ∀ c ∈ d.ignition ++ d.psr ++ d.flame, ∀ key ∈ ["fuel", "oxidizer", "reactants"],
    ∀ v, Holds c key (.list true) v → (∃ e, v = .dict e) ∨ v = .list true ∨ v = .str ""

/-- every value of every condition has the type it should have -/
def WellTyped (d : InputDict) : Prop :=
  (∀ c ∈ d.ignition ++ d.psr ++ d.flame, ∀ k, Given c k → Typed k) ∧
  ∀ c ∈ d.flame, ∀ w, Holds c "width" (.num (.fin float01)) w → Numeric w

/-- the upper threshold used: the one given, or 0.1 when none (or zero) is given and sensitivity
analysis is to follow -/
def UpperFor (d : InputDict) (u : Option PyF) : Prop :=
  (d.sensitivity = true ∧ (d.upper = none ∨ d.upper = some (.fin 0)) ∧ u = some (.fin float01)) ∨
  (¬(d.sensitivity = true ∧ (d.upper = none ∨ d.upper = some (.fin 0))) ∧ u = d.upper)

/-- what is passed on to the reduction -/
structure PassedOn (names : List String) (d : InputDict) (r : ReductionInputs) : Prop where
  model : r.model = d.model
  error : r.error = d.error
  method : r.method = d.method
  targets : r.targets = d.targets
  sensitivity : r.sensitivity = d.sensitivity
  upper : UpperFor d r.upper
  sensitivityType : r.sensitivityType = d.sensitivityType
  phase : r.phase = d.phase
  minFlameSpeed : r.minFlameSpeed = d.minFlameSpeed
  ignition : List.Forall₂ (IgnitionOk names) d.ignition r.ignition
  psr : List.Forall₂ (PsrOk names) d.psr r.psr
  flame : List.Forall₂ (FlameOk names) d.flame r.flame

end Verif.Spec
