import Verif.Model.Sampling
/-!
# Phenomena asked for
-/
namespace Verif.Spec
open Verif

/-- the conditions contain cases of a phenomenon -/
def Asked {ι π φ : Type} (c : Conds ι π φ) : Kind → Prop
  | .ign => c.ign ≠ []
  | .psr => c.psr ≠ []
  | .flame => c.flame ≠ []

end Verif.Spec
