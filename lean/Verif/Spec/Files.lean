import Verif.Spec.Reduce
import Verif.Spec.Trim
/-!
# What a run does to the numbered files `reduced_<n>.yaml` of the output directory
-/
namespace Verif.Spec
open Verif

/-- A start without any condition on where the model file is.  The model is closed, as is every model
that could be loaded; the rest is as for `Usable`. -/
structure AnyStart (m : Method) (c : Ctx) (sol : Mech) : Prop where
  nodup : sol.names.Nodup
  targets : ∀ t ∈ c.targets, t ∈ sol.names
  target : c.targets ≠ []
  unit : m = .drgep → RndOk c.rndMul ∧ ∀ M ∈ c.matrices, UnitMatrix M sol.names.length
  upper : m = .pfa → truthy c.upper = none ∨ c.matrices ≠ []
  closed : Closed sol

/-- A start whose model file may itself be a numbered file of the output directory, if its number is
the number of its species, as for every file a reduction has written. -/
structure StartAgain (m : Method) (c : Ctx) (sol : Mech) : Prop extends AnyStart m c sol where
  named : ∀ n, joinPath c.path (reducedName n) = c.modelFile → n = sol.nSpecies

/-- the numbered file of a model with `n` species -/
def numbered (c : Ctx) (n : Nat) : Text := joinPath c.path (reducedName n)

/-- number of species of the candidate at `t` -/
noncomputable def candSize (m : Method) (c : Ctx) (sol : Mech) (t : ℚ) : Nat :=
  (candidate c sol (Kept m c sol) t).nSpecies

/-- A run that rejects `j` starting thresholds, accepts `k + 1` thresholds above the next one and
then stops: the thresholds whose candidates it looks at before its final reduction. -/
def Tried (rnd : ℚ → ℚ) (j k : Nat) (t : ℚ) : Prop :=
  (∃ i < j, t = startThr rnd i) ∨ ∃ i ≤ k + 1, t = gridThr rnd j i

/-- Every species that is kept at `t` because the user asked for it would be kept anyway.  DRGEP
counts such species, DRG and PFA do not. -/
def NoExtra (m : Method) (c : Ctx) (sol : Mech) (t : ℚ) : Prop :=
  m = .drgep ∨ ∀ s ∈ c.safe, s ∈ sol.names → ∃ M ∈ c.matrices, Linked M sol.names c.targets t s

/-- how a run that returns a model went: see `Tried` -/
structure Went (m : Method) (c : Ctx) (sol : Mech) (limit : PyF) (rnd : ℚ → ℚ) (j k : Nat) : Prop where
  rejected : ∀ i < j, Exceeds c sol (Kept m c sol) limit (startThr rnd i)
  accepted : ∀ i ≤ k, Meets c sol (Kept m c sol) limit (gridThr rnd j i)
  stop : Exceeds c sol (Kept m c sol) limit (gridThr rnd j (k + 1))

end Verif.Spec
