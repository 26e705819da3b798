import Mathlib.Data.Real.Basic
import Mathlib.Algebra.BigOperators.Group.List.Basic
import Mathlib.Analysis.Calculus.Deriv.Basic
import Verif.Spec.Trim
/-!
# Rates of reaction, as Cantera defines them

pyMARS computes no rates; it hands the trimmed model to Cantera.  What a model *means* is
the right-hand side of its rate equations.  The rate of a reaction depends on its rate data,
on its reactants and products (coefficient, thermodynamic data and concentration of each)
and, if it has a third body, on the concentration `[M]`, the sum over the species of the
model of efficiency times concentration.  How it depends on them, at the temperature at
hand, is left open (`Law`): mass action, falloff, reversible, anything.
-/
namespace Verif.Spec
open Verif

/-- A participant of a reaction: coefficient, thermodynamic data, concentration. -/
abbrev Part := ℚ × Option Nat × ℝ

/-- A law of rates: from rate data, reactants, products and `[M]`. -/
abbrev Law := Nat → List Part → List Part → Option ℝ → ℝ

/-- The thermodynamic data of a species of the model. -/
def thermoOf (m : Mech) (s : String) : Option Nat :=
  (m.species.find? (fun sp => sp.name == s)).map (·.data)

/-- The participants of one side of a reaction. -/
def parts (m : Mech) (c : String → ℝ) (l : List (String × ℚ)) : List Part :=
  l.map fun e => (e.2, thermoOf m e.1, c e.1)

/-- The efficiency of a species: the listed one, or the default. -/
def effOf (tb : ThirdBody) (s : String) : ℚ :=
  (tb.effs.lookup s).getD tb.defaultEff

/-- The third-body concentration `[M]` in the model. -/
noncomputable def bathOf (m : Mech) (c : String → ℝ) (tb : ThirdBody) : ℝ :=
  (m.species.map fun sp => (effOf tb sp.name : ℝ) * c sp.name).sum

/-- The rate of progress of a reaction in the model at the concentrations `c`. -/
noncomputable def progress (K : Law) (m : Mech) (c : String → ℝ) (r : Reaction) : ℝ :=
  K r.rate (parts m c r.reactants) (parts m c r.products) (r.thirdBody.map (bathOf m c))

/-- What one turn of a reaction adds to a species. -/
def gain (r : Reaction) (s : String) : ℚ :=
  ((r.products.filter (fun e => e.1 == s)).map (·.2)).sum -
    ((r.reactants.filter (fun e => e.1 == s)).map (·.2)).sum

/-- The net rate of production of a species by some reactions of a model. -/
noncomputable def productionBy (K : Law) (m : Mech) (c : String → ℝ) (rs : List Reaction)
    (s : String) : ℝ :=
  (rs.map fun r => (gain r s : ℝ) * progress K m c r).sum

/-- The net rate of production of a species: the right-hand side of the rate equations. -/
noncomputable def production (K : Law) (m : Mech) (c : String → ℝ) (s : String) : ℝ :=
  productionBy K m c m.reactions s

/-- At `c`, none of the named species is present. -/
def Absent (c : String → ℝ) (excl : List String) : Prop := ∀ s ∈ excl, c s = 0

/-- The concentrations `c` follow the rate equations of the model.  The law may change with
time, as it does with the temperature. -/
def Follows (K : ℝ → Law) (m : Mech) (c : ℝ → String → ℝ) : Prop :=
  ∀ t s, HasDerivAt (fun t => c t s) (production (K t) m (c t) s) t

/-- A removed species is among the given participants. -/
def Touches (excl : List String) (l : List (String × ℚ)) : Prop :=
  ∃ s ∈ excl, ∃ q, (s, q) ∈ l

/-- The reaction makes a removed species out of species that stay. -/
def Leaks (excl : List String) (r : Reaction) : Prop :=
  ¬ Touches excl r.reactants ∧ Touches excl r.products ∧
    ∀ s, SoleCollider r s → s ∉ excl

/-- The coefficients of the reactions are positive. -/
def PositiveCoeffs (m : Mech) : Prop :=
  ∀ r ∈ m.reactions, (∀ e ∈ r.reactants, 0 < e.2) ∧ ∀ e ∈ r.products, 0 < e.2

/-- Mass action at the temperature at hand, with rate constants from the rate data and the
thermodynamic data: the products of the concentrations (to their coefficients), forward
less backward, times `[M]` if there is a third body. -/
noncomputable def massAction (kf kr : Nat → List (Option Nat) → List (Option Nat) → ℝ)
    (pw : ℝ → ℚ → ℝ) : Law := fun k a b M =>
  (kf k (a.map (·.2.1)) (b.map (·.2.1)) * (a.map fun e => pw e.2.2 e.1).prod -
    kr k (a.map (·.2.1)) (b.map (·.2.1)) * (b.map fun e => pw e.2.2 e.1).prod) * M.getD 1

end Verif.Spec
