import Verif.Spec.Program
import Verif.Spec.ParseAgree
import Verif.Spec.Yaml
/-!
# What an input file says
-/
namespace Verif.Spec
open Verif

/-- a dictionary of the documented types that has the values of the document, or the exception of reading it -/
inductive Says : Except Err YNode → Except Err InputDict → Prop
  | unread {e : Err} : Says (.error e) (.error e)
  | invalid {y : YNode} {e : Err} : construct y = .error e → Says (.ok y) (.error e)
  | values {y : YNode} {v : PyV} {D : InputDict} : construct y = .ok v → Represents v D → Says (.ok y) (.ok D)

/-- the document lists this name under a heading -/
def ListsUnder (y : YNode) (key : String) (s : YScalar) : Prop :=
  ∃ xs, Heading y key (.seq xs) ∧ YNode.scalar s ∈ xs

/-- a condition of the document has this name in a part of its composition -/
def Mixes (y : YNode) (s : YScalar) : Prop :=
  ∃ c, Condition y c ∧ ∃ part ∈ ["fuel", "oxidizer", "reactants"], ∃ es, Heading c part (.map es) ∧ ∃ x, (s, x) ∈ es

/-- the document asks for this species to be kept: as a target, as a species to retain, or as part of a mixture -/
def AsksFor (y : YNode) (s : YScalar) : Prop :=
  ListsUnder y "targets" s ∨ ListsUnder y "retained-species" s ∨ Mixes y s

end Verif.Spec
