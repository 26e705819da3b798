import Verif.Model.Trim
/-!
# Phases of a model file
-/
namespace Verif.Spec

/-- the model is the phase that a name stands for in a file with these phases: the first of that
name, or the first of all if no name is given -/
def IsPhase (phase : Text) (l : List Mech) (sol : Mech) : Prop :=
  ∃ l1 l2, l = l1 ++ sol :: l2 ∧
    (phase = [] → l1 = []) ∧ (phase ≠ [] → sol.name = phase ∧ ∀ m ∈ l1, m.name ≠ phase)

end Verif.Spec
