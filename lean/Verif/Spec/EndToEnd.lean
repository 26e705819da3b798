import Verif.Model.EndToEnd
import Verif.Spec.Simulation
import Verif.Spec.Sampling
/-!
# What a whole reduction promises, in terms of Cantera only
-/
namespace Verif.Spec
open Verif

variable {ι π φ : Type}

/-- two numbers that agree within `L` percent of the first -/
def NearPct (L : ℚ) (a b : PyF) : Prop :=
  ∃ o t : ℚ, a = .fin o ∧ b = .fin t ∧ |o - t| ≤ L / 100 * o

/-- a positive number -/
def Pos (a : PyF) : Prop := ∃ q : ℚ, 0 < q ∧ a = .fin q

/-- the reduced model behaves like the starting one under every condition, within `L` percent:
both ignite, with delays that agree; both burn in the stirred reactor, with the same extinction
time and temperatures; both carry a flame, with the same speed. -/
structure Reproduces (K : Cantera ι π φ) (c : Conds ι π φ) (sol red : Mech) (L : ℚ) : Prop where
  ign : ∀ x ∈ c.ign, ∃ R R' k k' p p', K.reactor sol x = .ok R ∧ K.reactor red x = .ok R' ∧
    Ignites R ((K.ignProps x).temperature.add (.fin 400)) k p ∧
    Ignites R' ((K.ignProps x).temperature.add (.fin 400)) k' p' ∧ NearPct L p.time p'.time
  psr : ∀ x ∈ c.psr, ∃ r r', K.psr sol x = .ok (.ok r) ∧ K.psr red x = .ok (.ok r') ∧
    NearPct L r.extinction.tau r'.extinction.tau ∧ NearPct L r.logMid.T r'.logMid.T ∧
    NearPct L r.near.T r'.near.T
  flame : ∀ x ∈ c.flame, ∃ f f', K.flame sol x = .ok (some f) ∧ K.flame red x = .ok (some f') ∧
    f'.speed.le (K.floor.getD (.fin float005)) = false ∧ NearPct L f.speed f'.speed

/-- what is assumed of Cantera for the starting model: the reactor starts at the temperature of
the case, time goes forward, speeds, residence times and temperatures are positive numbers, a
composition has one entry per species, a flame has grid points -/
structure Physical (K : Cantera ι π φ) (sol : Mech) : Prop where
  ignStart : ∀ x R, K.reactor sol x = .ok R → ∃ T : ℚ,
    (K.ignProps x).temperature = .fin T ∧ R.init.T = .fin T
  ignTime : ∀ x R k p, K.reactor sol x = .ok R → R.step k = some p → Pos p.time
  ignWidth : ∀ x R, K.reactor sol x = .ok R → R.init.Y.length = sol.nSpecies ∧
    ∀ k p, R.step k = some p → p.Y.length = sol.nSpecies
  psr : ∀ x r, K.psr sol x = .ok (.ok r) → Pos r.extinction.tau ∧ Pos r.logMid.T ∧ Pos r.near.T ∧
    r.extinction.Y.length = sol.nSpecies ∧ r.logMid.Y.length = sol.nSpecies ∧
    r.near.Y.length = sol.nSpecies
  flame : ∀ x f, K.flame sol x = .ok (some f) → Pos f.speed ∧ f.points ≠ [] ∧
    ∀ p ∈ f.points, p.Y.length = sol.nSpecies

/-- no simulation, of whatever model, gives a time, temperature or speed that is not a number -/
structure Numerical (K : Cantera ι π φ) : Prop where
  ign : ∀ m x R k p, K.reactor m x = .ok R → R.step k = some p → ∃ t, p.time = .fin t
  psr : ∀ m x r, K.psr m x = .ok (.ok r) → (∃ t, r.extinction.tau = .fin t) ∧
    (∃ t, r.logMid.T = .fin t) ∧ ∃ t, r.near.T = .fin t
  flame : ∀ m x f, K.flame m x = .ok (some f) → ∃ v, f.speed = .fin v

/-- two models that Cantera cannot tell apart in simulations -/
structure SameBehaviour (K : Cantera ι π φ) (m m' : Mech) : Prop where
  reactor : ∀ x, K.reactor m' x = K.reactor m x
  psr : ∀ x, K.psr m' x = K.psr m x
  flame : ∀ x, K.flame m' x = K.flame m x

/-- times, temperatures and pressures of a reactor, without the composition -/
def bareReactor (R : Reactor) : Reactor where
  init := { R.init with Y := [] }
  step := fun k => (R.step k).map (fun p => { p with Y := [] })
  settled := R.settled

/-- temperatures and residence times, without the composition -/
def barePsr (r : PsrPoints) : PsrPoints :=
  ⟨{ r.extinction with Y := [] }, { r.near with Y := [] }, { r.logMid with Y := [] }⟩

/-- two models with the same temperatures, times and speeds in every simulation -/
structure Alike (K : Cantera ι π φ) (m m' : Mech) : Prop where
  reactor : ∀ x, (K.reactor m' x).map bareReactor = (K.reactor m x).map bareReactor
  psr : ∀ x, (K.psr m' x).map (·.map barePsr) = (K.psr m x).map (·.map barePsr)
  flame : ∀ x, (K.flame m' x).map (·.map (·.speed)) = (K.flame m x).map (·.map (·.speed))

/-- a request that can be met: distinct species names, targets among them, at least one target and
one condition, usable processes, a model file not called `reduced_<n>.yaml` in the output
directory, and no saved samples that could be taken for those of the request -/
structure Request (q : ReduceArgs ι π φ) (sol : Mech) (d : Disk) : Prop where
  nodup : sol.names.Nodup
  targets : ∀ t ∈ q.targets, t ∈ sol.names
  target : q.targets ≠ []
  noclash : ∀ n, joinPath q.path (reducedName n) ≠ q.modelFile
  cond : q.conds.ign ≠ [] ∨ q.conds.psr ≠ [] ∨ q.conds.flame ≠ []
  par : ParOk q.par
  freshIgn : q.conds.ign ≠ [] → Unusable .ign 20 1 sol q.conds.ign.length d
  freshPsr : q.conds.psr ≠ [] → Unusable .psr 3 3 sol q.conds.psr.length d
  freshFlame : q.conds.flame ≠ [] → Unusable .flame 20 1 sol q.conds.flame.length d

end Verif.Spec
