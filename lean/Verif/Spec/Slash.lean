import Verif.Spec.ConcurrentMain
import Verif.Model.Directory
/-!
# Names of species in file names
-/
namespace Verif.Spec
open Verif

/-- the temporary directories of an analysis have names, no file below them but not in them can be
written, and there is none -/
structure FreshDirs (c : SACtx) (gone : Text → Bool) (fs : Fs) : Prop where
  tmp : c.tmpDir ≠ [] ∧ c.tmpDir.getLast? ≠ some '/'
  eval : ∀ n, c.evalDir n ≠ [] ∧ (c.evalDir n).getLast? ≠ some '/'
  missing : ∀ f, gone f = true ↔ deeper c.tmpDir f = true ∨ ∃ n, deeper (c.evalDir n) f = true
  nothing : ∀ f, gone f = true → fs f = none

/-- files can be written in the temporary directories and in the directory for results -/
structure CanWrite (c : SACtx) (gone : Text → Bool) : Prop where
  tmp : ∀ rest : Text, '/' ∉ rest → gone (c.tmpDir ++ '/' :: rest) = false
  eval : ∀ n, ∀ rest : Text, '/' ∉ rest → gone (c.evalDir n ++ '/' :: rest) = false
  own : ∀ f, OwnFile c.path f → gone f = false

end Verif.Spec
