import Verif.Spec.Dijkstra
import Mathlib.Algebra.Order.Field.Rat
/-!
# Walks that stay away from a node

Used to say when the path search of `drgep.py` ends and what it returns if the weights may be
larger than one.
-/
namespace Verif.Spec
open Verif
variable {α : Type}

/-- `p` is the product of the weights along a walk from `a` to `u` none of whose steps enters
`src` -/
inductive AwayWalk (g : WGraph α ℚ) (src a : α) : α → ℚ → Prop
  | nil : AwayWalk g src a a 1
  | snoc {v u : α} {p w : ℚ} : AwayWalk g src a v p → (u, some w) ∈ g.adj v → u ≠ src →
      AwayWalk g src a u (p * w)

/-- No closed walk that can be reached from `src`, and that does not pass through `src`, has a
product of weights above one. -/
def NoGain (g : WGraph α ℚ) (src : α) : Prop :=
  ∀ v x p, v ≠ src → AwayWalk g src src v x → AwayWalk g src v v p → p ≤ 1

end Verif.Spec
