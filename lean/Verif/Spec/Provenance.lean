import Verif.Spec.Kinetics
import Verif.Model.Program
/-!
# Parts of a model, and what a model conserves
-/
namespace Verif.Spec
open Verif

/-- `r'` is `r`, except that efficiencies of species that are not in `m` may be missing. -/
structure Lesser (m : Mech) (r r' : Reaction) : Prop where
  reactants : r'.reactants = r.reactants
  products : r'.products = r.products
  rate : r'.rate = r.rate
  none_iff : r.thirdBody = none ↔ r'.thirdBody = none
  third : ∀ tb tb', r.thirdBody = some tb → r'.thirdBody = some tb' →
    tb'.defaultEff = tb.defaultEff ∧ tb'.effs.Sublist tb.effs ∧
      ∀ e ∈ tb.effs, e.1 ∈ m.names → e ∈ tb'.effs

/-- `m` is part of `sol`: it has some of its species, with their data, and some of its
reactions, among them every reaction without a third body whose species are there. -/
structure PartOf (sol m : Mech) : Prop where
  species : m.species.Sublist sol.species
  reactions : ∃ l : List Reaction, l.Sublist sol.reactions ∧ List.Forall₂ (Lesser m) l m.reactions
  whole : ∀ r ∈ sol.reactions, r.thirdBody = none → (∀ s, Mentions r s → s ∈ m.names) → r ∈ m.reactions
  transport : m.transport = sol.transport
  tp : m.tp = sol.tp
  thermo : m.thermo = sol.thermo ∨ m.thermo = idealGas

/-- Every file is as before or holds a model with the property. -/
def OnlyWrites (I : Mech → Prop) (w w' : World) : Prop :=
  ∀ f m, w'.fs f = some m → w.fs f = some m ∨ I m

/-- The amount of a quantity in one side of a reaction. -/
def amount (q : String → ℚ) (l : List (String × ℚ)) : ℚ := (l.map fun e => e.2 * q e.1).sum

/-- Every reaction of the model has as much of the quantity (atoms of an element, charge,
mass) on the left as on the right. -/
def Conserves (q : String → ℚ) (m : Mech) : Prop :=
  ∀ r ∈ m.reactions, amount q r.reactants = amount q r.products

/-- The amount of a quantity in a mixture of the species of the model. -/
noncomputable def total (q : String → ℚ) (m : Mech) (c : String → ℝ) : ℝ :=
  (m.species.map fun sp => (q sp.name : ℝ) * c sp.name).sum

end Verif.Spec
