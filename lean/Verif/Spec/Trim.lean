import Verif.Model.Trim
/-!
# What trimming should do (independent of how `trim` computes it)
-/
namespace Verif.Spec
open Verif

/-- The reaction uses `s` as a reactant or product. -/
def Mentions (r : Reaction) (s : String) : Prop :=
  (∃ c, (s, c) ∈ r.reactants) ∨ (∃ c, (s, c) ∈ r.products)

/-- The reaction lists an efficiency for `s`. -/
def HasEff (r : Reaction) (s : String) : Prop :=
  ∃ tb, r.thirdBody = some tb ∧ ∃ q, (s, q) ∈ tb.effs

/-- `s` is the only collider of the reaction: nothing else acts as third body. -/
def SoleCollider (r : Reaction) (s : String) : Prop :=
  ∃ tb, r.thirdBody = some tb ∧ tb.defaultEff = 0 ∧ ∃ q, tb.effs = [(s, q)]

/-- The species `s` is in the model and not excluded. -/
def Stays (m : Mech) (excl : List String) (s : String) : Prop :=
  (∃ sp ∈ m.species, sp.name = s) ∧ s ∉ excl

/-- The reaction does not need a removed species. -/
def Survives (m : Mech) (excl : List String) (r : Reaction) : Prop :=
  (∀ s, Mentions r s → Stays m excl s) ∧ ∀ s, SoleCollider r s → s ∉ excl

/-- `r'` is `r` with the efficiencies of species that do not stay dropped. -/
def SameButEff (m : Mech) (excl : List String) (r r' : Reaction) : Prop :=
  r'.reactants = r.reactants ∧ r'.products = r.products ∧ r'.rate = r.rate ∧
  (r.thirdBody = none → r'.thirdBody = none) ∧
  ∀ tb, r.thirdBody = some tb → ∃ tb', r'.thirdBody = some tb' ∧
    tb'.defaultEff = tb.defaultEff ∧ tb'.effs.Sublist tb.effs ∧
    ∀ e, tb'.effs.count e = open Classical in if Stays m excl e.1 then tb.effs.count e else 0

/-- Every species a reaction refers to is in the model. -/
def Closed (m : Mech) : Prop :=
  ∀ r ∈ m.reactions, ∀ s, Mentions r s ∨ HasEff r s → ∃ sp ∈ m.species, sp.name = s

/-- The case in which staged trimming differs: after removing `a`, the efficiencies of a
zero-default third body shrink to one entry, whose species is in `b`. -/
def CollapsesTo (m : Mech) (a b : List String) (r : Reaction) : Prop :=
  ∃ tb, r.thirdBody = some tb ∧ tb.defaultEff = 0 ∧
    ∃ e, tb.effs.filter (fun e => open Classical in decide (Stays m a e.1)) = [e] ∧
      e.1 ∈ b

end Verif.Spec
