import Verif.Spec.ConcurrentMain
/-!
# A directory for results that is missing
-/
namespace Verif.Spec
open Verif

/-- the directory for results has a name, no file is below it, and the temporary directories are
elsewhere -/
structure Missing (p : MainIn) (fs : Fs) : Prop where
  name : p.path ≠ [] ∧ p.path.getLast? ≠ some '/'
  empty : ∀ f, Under p.path f → fs f = none
  tmp : ∀ f, InTmp p f → ¬ Under p.path f

end Verif.Spec
