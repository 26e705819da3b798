import Verif.Spec.Trim
/-!
# When cantera loads a model

`reduce_model.py:72-78` builds the trimmed model; `simulation.py:64` and
`sampling.py:573-926` load its file again.  Cantera refuses a model (`Kinetics::addReaction`,
`Reaction::checkSpecies`, `Kinetics::checkDuplicates`) if a reaction refers to a species that is
not there, be it by a reaction order, if two reactions clash without being declared duplicates, or
if a declared duplicate has no partner.  `Reaction.rate` is the part of a reaction that `trim`
copies without looking; `Attrs` gives the attributes cantera finds there.
-/
namespace Verif.Spec
open Verif

/-- attributes of a reaction that `reduce_model.py:44-67` never reads: explicit reaction orders,
the `duplicate` flag, reversibility and the type of the rate -/
structure Attrs where
  orders : List (String × ℚ)
  dup : Bool
  reversible : Bool
  kind : Nat
deriving DecidableEq

/-- stoichiometric coefficient in a composition -/
def coef (l : List (String × ℚ)) (s : String) : ℚ := (l.lookup s).getD 0

/-- efficiency of `s` as collider -/
def efficiency (tb : ThirdBody) (s : String) : ℚ := (tb.effs.lookup s).getD tb.defaultEff

/-- the two reactions convert the same species in the same proportions -/
def SameWay (r r' : Reaction) : Prop :=
  ∃ c : ℚ, 0 < c ∧ ∀ s, coef r'.reactants s = c * coef r.reactants s ∧
    coef r'.products s = c * coef r.products s

/-- one is the other read backwards -/
def Backwards (r r' : Reaction) : Prop :=
  ∃ c : ℚ, 0 < c ∧ ∀ s, coef r'.reactants s = c * coef r.products s ∧
    coef r'.products s = c * coef r.reactants s

/-- cantera takes the two reactions for the same one in a model with species `N`: same type, same
conversion (or the reverse one, if either is reversible) and, if both have third bodies, a species
that acts as collider in both -/
def Clash (at' : Nat → Attrs) (N : List String) (r r' : Reaction) : Prop :=
  (at' r.rate).kind = (at' r'.rate).kind ∧
  (SameWay r r' ∨ Backwards r r' ∧
    ((at' r.rate).reversible = true ∨ (at' r'.rate).reversible = true)) ∧
  ∀ tb tb', r.thirdBody = some tb → r'.thirdBody = some tb' →
    ∃ s ∈ N, efficiency tb s * efficiency tb' s ≠ 0

/-- the model can be loaded -/
structure Loadable (at' : Nat → Attrs) (m : Mech) : Prop where
  nodup : m.names.Nodup
  closed : Closed m
  orders : ∀ r ∈ m.reactions, ∀ s q, (s, q) ∈ (at' r.rate).orders → s ∈ m.names
  declared : ∀ r ∈ m.reactions, ∀ r' ∈ m.reactions.erase r, Clash at' m.names r r' →
    (at' r.rate).dup = true ∧ (at' r'.rate).dup = true
  partner : ∀ r ∈ m.reactions, (at' r.rate).dup = true →
    ∃ r' ∈ m.reactions.erase r, Clash at' m.names r r'

end Verif.Spec
