import Verif.Spec.Yaml
import Verif.Model.WrongType
/-!
# Inputs with a value of another type
-/
namespace Verif.Spec
open Verif

/-- the options that are not checked -/
def freeKeys : List String := ["error", "upper-threshold", "sensitivity-analysis", "sensitivity-type", "min-flame-speed"]

/-- the inputs with another value for one of these options; asking for sensitivity analysis without upper threshold sets
this to 0.1 -/
def withOption (R : InputsDyn) (key : String) (v : PyV) : InputsDyn :=
  if key = "error" then { R with error := v }
  else if key = "upper-threshold" then { R with upper := v }
  else if key = "sensitivity-analysis" then
    { R with sensitivity := v, upper := if R.upper.truthy then R.upper else pyNum float01 }
  else if key = "sensitivity-type" then { R with sensitivityType := v }
  else if key = "min-flame-speed" then { R with minFlameSpeed := v }
  else R

/-- a number above zero, or the word for true -/
def PositiveValue (v : PyV) : Prop := (∃ x, v = .sc (.num x) ∧ (PyF.fin 0).lt x = true) ∨ v = .sc (.bool true)

end Verif.Spec
