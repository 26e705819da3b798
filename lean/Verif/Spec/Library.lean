import Verif.Model.Library
/-!
# Input files and calls that say the same
-/
namespace Verif.Spec
open Verif

/-- the input file and the options of the command say what the arguments of the call say; what the call leaves out they leave out,
and the conditions of the call are those read from the file -/
structure SaysSame (c : LibraryCall) (dct : InputDict) (path : String) (threads : Int) (names : List String) : Prop where
  model : dct.model = c.modelFile
  error : dct.error = c.errorLimit
  method : dct.method = c.method.getD ""
  targets : dct.targets = .list (c.targets.getD [])
  retained : dct.retained = c.safe.map .list
  phase : dct.phase = c.phase.getD ""
  sensitivity : dct.sensitivity = c.sensitivity.getD false
  upper : dct.upper = c.upper.map .fin
  type : dct.sensitivityType = c.sensitivityType.getD "initial"
  path : path = c.path.getD ""
  threads : threads = c.threads.getD 1
  floor : dct.minFlameSpeed = c.minFlameSpeed
  ignition : parseCases (parseIgnition names) dct.ignition = .ok c.conds.ign
  psr : parseCases (parsePsr names) dct.psr = .ok c.conds.psr
  flame : parseCases (parseFlame names) dct.flame = .ok c.conds.flame

/-- every species of the mixtures is a target or a species to retain -/
def MixturesKept (c : LibraryCall) : Prop :=
  ∀ k ∈ c.conds.ign.map (·.toCond) ++ c.conds.psr ++ c.conds.flame.map (·.toCond), ∃ l, k.species = .ok l ∧
    ∀ sp ∈ l, sp ∈ c.targets.getD [] ∨ sp ∈ c.safe.getD []

/-- removing any species that need not be kept leaves the error within the limit, as measured
against the metrics that sensitivity analysis starts from -/
def RemovableAtWill (K : Cantera IgnInput Cond FlameInput) (rnd : ℚ → ℚ) (sh : Shell) (c : LibraryCall) (d : Disk) (sol : Mech) :
    Prop :=
  ∃ i, sampleMetrics ((K.inputs c.minFlameSpeed).sims rnd) sol c.conds ⟨c.threads.getD 1, sh.cpus, sh.order⟩ true d = .ok i ∧
    ∀ (m : Mech) (l : List String), (∀ x ∈ l, x ∈ sol.names ∧ x ∉ c.targets.getD [] ∧ x ∉ c.safe.getD []) →
      m.names = sol.names.filter (fun x => !(l.contains x)) → ∃ t e,
      sampleMetrics ((K.inputs c.minFlameSpeed).sims rnd) m c.conds ⟨c.threads.getD 1, sh.cpus, sh.order⟩ false d = .ok t ∧
      calculateError i t = .ok e ∧ c.errorLimit.lt e = false

end Verif.Spec
