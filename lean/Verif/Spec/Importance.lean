import Verif.Model.Graph
import Mathlib.Order.Bounds.Basic
namespace Verif.Spec
open Verif

/-- `x` is the product of the coefficients along a path from `a` to `b` that uses non-zero
coefficients only, each multiplication being rounded by `rnd`. -/
inductive PathProduct (rnd : ℚ → ℚ) (M : NMat) (names : List String) : String → ℚ → String → Prop
  | nil {a : String} : a ∈ names → PathProduct rnd M names a 1 a
  | step {a b c : String} {x : ℚ} {i j : Nat} : PathProduct rnd M names a x b →
      names[i]? = some b → names[j]? = some c → M i j ≠ 0 →
      PathProduct rnd M names a (rnd (x * M i j)) c

/-- everything an importance coefficient is the maximum of: zero, and the path products
from any target in any sampled state -/
def Candidates (rnd : ℚ → ℚ) (names targets : List String) (matrices : List NMat) (sp : String) : Set ℚ :=
  {y | y = 0 ∨ ∃ M ∈ matrices, ∃ t ∈ targets, PathProduct rnd M names t y sp}

/-- direct interaction coefficients lie in `[0,1]` -/
def UnitMatrix (M : NMat) (n : Nat) : Prop := ∀ i < n, ∀ j < n, 0 ≤ M i j ∧ M i j ≤ 1

end Verif.Spec
