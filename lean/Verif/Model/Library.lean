import Verif.Model.Program
/-!
# Calls of `main` from a python program: `pymars.py:152-290`
-/
namespace Verif

/-- the arguments of `main` (`pymars.py:152-168`); `none` when an argument is left out.  Not
modelled: `upper_threshold` that is not a finite number. -/
structure LibraryCall where
  modelFile : String
  errorLimit : PyF
  conds : Conds IgnInput Cond FlameInput
  method : Option String
  targets : Option (List String)
  safe : Option (List String)
  phase : Option String
  sensitivity : Option Bool
  upper : Option ℚ
  sensitivityType : Option String
  path : Option String
  threads : Option Int
  minFlameSpeed : Option PyF

/-- the arguments with the defaults of the signature (`pymars.py:152-168`) -/
def LibraryCall.args (c : LibraryCall) (sh : Shell) : MainArgs IgnInput Cond FlameInput where
  modelFile := c.modelFile.toList
  limit := c.errorLimit
  targets := c.targets.getD []
  safe := c.safe.getD []
  upper := c.upper
  phase := (c.phase.getD "").toList
  path := (c.path.getD "").toList
  conds := c.conds
  par := ⟨c.threads.getD 1, sh.cpus, sh.order⟩
  method := c.method
  sensitivity := c.sensitivity.getD false
  sensitivityType := c.sensitivityType.getD "greedy"
  tmpDir := sh.tmpDir
  evalDir := sh.evalDir

/-- `main` called from a program -/
def libraryRun (K : Cantera IgnInput Cond FlameInput) (rnd : ℚ → ℚ) (sh : Shell) (c : LibraryCall) (d : Disk)
    (dfuel fuel saFuel : Nat) (w : World) : RunResult × List Ev :=
  fullMain (K.inputs c.minFlameSpeed) rnd (c.args sh) d dfuel fuel saFuel w

end Verif
