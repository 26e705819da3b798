import Verif.Spec.Concurrent
import Verif.Spec.SA
import Verif.Model.ConcurrentMain
/-!
# The files of a whole reduction
-/
namespace Verif.Spec
open Verif

/-- a file in a temporary directory of the run -/
def InTmp (p : MainIn) (f : Text) : Prop := Under p.tmpDir f ∨ ∃ n, Under (p.evalDir n) f

/-- the files that a run may write or remove: `reduced_<number>.yaml` in its directory, and what
is in its temporary directories -/
def MainOwn (p : MainIn) (f : Text) : Prop := OwnFile p.path f ∨ InTmp p f

/-- the temporary directories have names -/
structure TmpNames (p : MainIn) : Prop where
  tmp : p.tmpDir ≠ [] ∧ p.tmpDir.getLast? ≠ some '/'
  eval : ∀ n, p.evalDir n ≠ [] ∧ (p.evalDir n).getLast? ≠ some '/'

/-- nothing that one run reads or writes is written by the other: the directories for results
differ, the temporary directories are apart from each other and from those for results, and the
model file is none of the files of the other run -/
structure Apart (p p' : MainIn) : Prop where
  dir : DirName p.path
  dir' : DirName p'.path
  ne : p.path ≠ p'.path
  tmp : ∀ f, InTmp p f → ¬ MainOwn p' f
  tmp' : ∀ f, InTmp p' f → ¬ MainOwn p f
  model : ¬ MainOwn p' p.modelFile
  model' : ¬ MainOwn p p'.modelFile

end Verif.Spec
