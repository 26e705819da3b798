import Verif.Model.Graph
import Mathlib.Logic.Relation
namespace Verif.Spec
open Verif

/-- `b` directly supports `a` at threshold `thr`: the coefficient from `a` to `b` is
non-zero and at least the threshold. -/
def StrongEdge (M : NMat) (names : List String) (thr : ℚ) (a b : String) : Prop :=
  ∃ i j, names[i]? = some a ∧ names[j]? = some b ∧ thr ≤ M i j ∧ M i j ≠ 0

/-- `s` is linked to some target by a path of strong edges (possibly of length 0). -/
def Linked (M : NMat) (names targets : List String) (thr : ℚ) (s : String) : Prop :=
  ∃ t ∈ targets, Relation.ReflTransGen (StrongEdge M names thr) t s

end Verif.Spec
