import Verif.Spec.Program
import Verif.Spec.Simulation
import Verif.Spec.Reduce
/-!
# The states that the conditions of an input file describe
-/
namespace Verif.Spec
open Verif

/-- the number that a value of the input file stands for -/
inductive Means : Val → ℚ → Prop
  | num (q : ℚ) : Means (.num (.fin q)) q
  | yes : Means (.bool true) 1
  | no : Means (.bool false) 0

/-- the number of steps allowed: the value given, or 10000 -/
inductive StepLimit (v : Val) : ℤ → Prop
  | given {L : ℤ} : Means v L → L ≠ 0 → StepLimit v L
  | default : NotGiven v → StepLimit v 10000

/-- the states recorded for an autoignition case: those up to the end time if one is given, and
otherwise those up to the first small residual, which must come before the last step allowed -/
inductive Trajectory (R : Reactor) (endTime maxSteps : Val) : List Point → Prop
  | timed {t : ℚ} {n : Nat} : Means endTime t → t ≠ 0 → Ended R (.fin t) n →
      Trajectory R endTime maxSteps (recorded R n)
  | steady {L : ℤ} {n : Nat} : NotGiven endTime → StepLimit maxSteps L → Settles R n →
      (n : ℤ) + 1 < L → (∀ j ≤ n, ∃ p, R.step j = some p) →
      Trajectory R endTime maxSteps (recorded R (n + 1))

/-- `rows` are the states of twenty points of a profile: for each twentieth of the temperature rise,
up to a relative error `tol` of the levels (for temperatures that are not below one kelvin), the first point after the one before that reaches it;
rows for which no point is left are zero -/
def Sampled (tol : ℚ) (pts : List Point) (rows : List Row) : Prop :=
  ∃ first last levels is, pts.head? = some first ∧ pts.getLast? = some last ∧
    levels.length = 20 ∧
    (∀ a b : ℚ, first.T = .fin a → last.T = .fin b → 1 ≤ |a| + |b| → ∀ k : Nat, k < 20 → ∃ l : ℚ, levels[k]? = some (.fin l) ∧
      |l - (a + ((k : ℚ) + 1) / 20 * (b - a))| ≤ tol * (|a| + |b|)) ∧
    Picks levels pts is ∧
    rows = rowsAt pts is ++ List.replicate (20 - is.length) (List.replicate (2 + first.Y.length) (.fin 0))

/-- relative error of the levels -/
def levelTol : Arith → ℚ
  | .exact => 0
  | _ => 1 / 10 ^ 14

variable (K : Cantera IgnInput Cond FlameInput) (sol : Mech) (tol : ℚ) (floor : Option PyF)

/-- metric and states of an autoignition case -/
def IgnData (case : Case) (r : List PyF × List Row) : Prop :=
  ∃ x R pts T k p, IgnitionOk sol.names case x ∧ K.reactor sol x = .ok R ∧ Means x.temperature T ∧
    Ignites R (.fin (T + 400)) k p ∧ r.1 = [p.time] ∧
    Trajectory R x.endTime x.maxSteps pts ∧ p ∈ pts ∧ Sampled tol pts r.2

/-- metrics and states of a stirred reactor -/
def PsrData (case : Case) (r : List PyF × List Row) : Prop :=
  ∃ x c, PsrOk sol.names case x ∧ K.psr sol x = .ok (.ok c) ∧
    r.1 = [c.extinction.tau, c.logMid.T, c.near.T] ∧
    ∀ p, Means x.pressure p →
      r.2 = [c.extinction, c.logMid, c.near].map (fun s => s.T :: .fin (p * 101325) :: s.Y)

/-- metric and states of a flame -/
def FlameData (case : Case) (r : List PyF × List Row) : Prop :=
  ∃ x f, FlameOk sol.names case x ∧ K.flame sol x = .ok (some f) ∧ r.1 = [f.speed] ∧
    f.speed.le (floor.getD (.fin float005)) = false ∧ Sampled tol f.points r.2

/-- the metrics and states of all conditions of an input file -/
def Table (inp : InputDict) (metrics : List PyF) (rows : List Row) : Prop :=
  ∃ a b f, List.Forall₂ (IgnData K sol tol) inp.ignition a ∧ List.Forall₂ (PsrData K sol) inp.psr b ∧
    List.Forall₂ (FlameData K sol tol floor) inp.flame f ∧
    metrics = ((a ++ b ++ f).map (·.1)).flatten ∧ rows = ((a ++ b ++ f).map (·.2)).flatten

/-- end times are numbers or not given, step limits integers or not given -/
def Readable (inp : InputDict) : Prop :=
  ∀ c ∈ inp.ignition,
    (∀ v, Holds c "end-time" (.num (.fin 0)) v → NotGiven v ∨ ∃ t, Means v t) ∧
    ∀ v, Holds c "max-steps" (.num (.fin 10000)) v → NotGiven v ∨ ∃ L : ℤ, Means v L

end Verif.Spec
