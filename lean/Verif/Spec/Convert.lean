import Verif.Model.Convert
import Verif.Spec.Program
/-!
# What a conversion may do
-/
namespace Verif.Spec

/-- `ck2yaml` changes no file but the one named as its output -/
def OneOutput (C : Converters) : Prop :=
  ∀ args fs f, ("--output=".toList ++ f) ∉ args → (C.ck2yaml args fs).2 f = fs f

/-- last component of a path -/
def LastPart (p name : Text) : Prop := '/' ∉ name ∧ (p = name ∨ ∃ dir, p = dir ++ '/' :: name)

/-- reactions for which no Chemkin text is written: a falloff function other than Troe and SRI that
has parameters, Troe with three parameters, and P-log or Chebyshev rates with a third body -/
def NoText (r : Rxn ℚ) : Prop :=
  (∃ sub chem lo hi cs, r.rate = .falloff sub chem lo hi cs ∧ cs ≠ [] ∧
    sub ∉ ["Troe".toList, "SRI".toList]) ∨
  (∃ chem lo hi a b c, r.rate = .falloff "Troe".toList chem lo hi [a, b, c]) ∨
  (r.third ≠ none ∧ ((∃ rates, r.rate = .plog rates) ∨ ∃ t p m d, r.rate = .cheb t p m d))

/-- a name ending in `.yaml`, `.yml` or `.cti` -/
def CanteraName (base ext : Text) : Prop :=
  (∃ c ∈ base, c ≠ '.') ∧ ext ∈ ["yaml".toList, "yml".toList, "cti".toList]

end Verif.Spec
