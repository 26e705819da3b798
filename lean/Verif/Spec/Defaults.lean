import Verif.Spec.Yaml
import Verif.Model.ParseDyn
/-!
# Entries that state what holds anyway
-/
namespace Verif.Spec
open Verif

/-- what is meant when one of the headings is left out -/
def topDefaults : List (String × PyV) :=
  [("sensitivity-analysis", .sc (.bool false)), ("sensitivity-type", .sc (.str "initial")), ("targets", .list []),
   ("retained-species", .list []), ("phase-name", .sc (.str "")), ("upper-threshold", .sc .none), ("min-flame-speed", .sc .none),
   ("autoignition-conditions", .list []), ("psr-conditions", .list []), ("laminar-flame-conditions", .list [])]

/-- what is meant when one of the entries of a condition is left out -/
def caseDefaults : List (String × PyV) :=
  [("composition-type", .sc (.str "mole")), ("max-steps", .sc (.num (.fin 10000))), ("end-time", .sc (.num (.fin 0))),
   ("width", .sc (.num (.fin float01))), ("equivalence-ratio", .sc (.num (.fin 0))), ("fuel", .list []), ("oxidizer", .list []),
   ("reactants", .list [])]

/-- an entry with this heading and this value, which the other entries do not have -/
def States (key : String) (v : PyV) (e : YScalar × YNode) (others : List (YScalar × YNode)) : Prop :=
  LooksText e.1 ∧ e.1.text = key.toList ∧ construct e.2 = .ok v ∧ ∀ e' ∈ others, e'.1.text ≠ key.toList

/-- the first document states, in one more entry, what holds for the second anyway -/
inductive Restates : YNode → YNode → Prop
  | heading {key : String} {v : PyV} {e : YScalar × YNode} {l1 l2 : List (YScalar × YNode)} :
      (key, v) ∈ topDefaults → States key v e (l1 ++ l2) → Restates (.map (l1 ++ e :: l2)) (.map (l1 ++ l2))
  /-- an entry of a condition -/
  | condition {key : String} {v : PyV} {e : YScalar × YNode} {l1 l2 m1 m2 : List (YScalar × YNode)} {h : YScalar} {cs1 cs2 : List YNode} :
      LooksText h → (∃ key ∈ condHeads, h.text = key.toList) → (key, v) ∈ caseDefaults → States key v e (l1 ++ l2) →
      Restates (.map (m1 ++ (h, .seq (cs1 ++ .map (l1 ++ e :: l2) :: cs2)) :: m2))
        (.map (m1 ++ (h, .seq (cs1 ++ .map (l1 ++ l2) :: cs2)) :: m2))
  /-- the upper threshold of sensitivity analysis -/
  | upper {e : YScalar × YNode} {l1 l2 : List (YScalar × YNode)} {x : YNode} {v : PyV} :
      Heading (.map (l1 ++ l2)) "sensitivity-analysis" x → construct x = .ok v → v.truthy = true →
      States "upper-threshold" (.sc (.num (.fin float01))) e (l1 ++ l2) → Restates (.map (l1 ++ e :: l2)) (.map (l1 ++ l2))
  /-- the least speed of a flame -/
  | floor {e : YScalar × YNode} {l1 l2 : List (YScalar × YNode)} :
      States "min-flame-speed" (.sc (.num (.fin float005))) e (l1 ++ l2) → Restates (.map (l1 ++ e :: l2)) (.map (l1 ++ l2))

end Verif.Spec
