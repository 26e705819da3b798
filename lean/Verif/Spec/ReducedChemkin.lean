import Verif.Model.Solution
/-!
# Reduced models as Chemkin files
-/
namespace Verif.Spec

/-- a reaction remains after species have been removed: all its reactants and products remain, and
so does the one species that it names as its collision partner, if it names one -/
def Remains (kept excl : List Text) (r : Rxn ℚ) : Prop :=
  (∀ kv ∈ r.reactants ++ r.products, kv.1 ∈ kept) ∧
  ∀ tb e, r.third = some tb → tb.dflt = 0 → tb.effs = [e] → e.1 ∉ excl

/-- the efficiencies of a reaction for the species in a list -/
def efficiencies (names : List Text) (r : Rxn ℚ) : List (Text × ℚ) :=
  (r.third.elim [] Collider.effs).filter fun kv => decide (kv.1 ∈ names)

/-- the line of efficiencies as Chemkin expects it; none if there are no efficiencies -/
def efficiencyText (rp : ℚ → Text) (l : List (Text × ℚ)) : Text :=
  if l = [] then []
  else List.intercalate [' ', ' '] (l.map fun kv => kv.1 ++ ['/'] ++ rp kv.2 ++ ['/']) ++ ['\n']

end Verif.Spec
