import Verif.Model.Simulation
/-!
# Specification of the simulations
-/
namespace Verif.Spec
open Verif

/-- where the search for the point of row `k` begins, given the points of the rows -/
def searchFrom (is : List Nat) : Nat → Nat
  | 0 => 0
  | k + 1 => (is[k]?).getD 0 + 1

/-- `is` are the points of the filled rows: the point of row `k` is the first one after that of
row `k - 1` at or above level `k`, and when there is no row `k` there is no such point -/
structure Picks (levels : List PyF) (pts : List Point) (is : List Nat) : Prop where
  enough : is.length ≤ levels.length
  hit : ∀ k i, is[k]? = some i → searchFrom is k ≤ i ∧
    ∃ p l, pts[i]? = some p ∧ levels[k]? = some l ∧ l.le p.T = true
  first : ∀ k l, levels[k]? = some l → k ≤ is.length → ∀ j p, pts[j]? = some p →
    searchFrom is k ≤ j → (∀ i, is[k]? = some i → j < i) → l.le p.T = false

/-- the states of the points: temperature, pressure, mass fractions -/
def rowsAt (pts : List Point) (is : List Nat) : List Row :=
  is.filterMap (fun i => (pts[i]?).map (fun p : Point => p.T :: p.P :: p.Y))

/-- step `k` is the first one that reaches the temperature `hot`; it reaches state `p` -/
def Ignites (R : Reactor) (hot : PyF) (k : Nat) (p : Point) : Prop :=
  R.step k = some p ∧ hot.le p.T = true ∧
  ∀ j < k, ∃ q, R.step j = some q ∧ hot.le q.T = false

/-- none of the first `n` steps ignites -/
def Cold (R : Reactor) (hot : PyF) (n : Nat) : Prop :=
  ∀ j < n, ∀ q, R.step j = some q → hot.le q.T = false

/-- `k` is the first step with a small residual -/
def Settles (R : Reactor) (k : Nat) : Prop := R.settled k = true ∧ ∀ j < k, R.settled j = false

/-- time before step `k` -/
def timeBefore (R : Reactor) : Nat → Option PyF
  | 0 => some R.init.time
  | k + 1 => (R.step k).map (·.time)

/-- step `n` is begun before the end time -/
def Begun (R : Reactor) (tend : PyF) (n : Nat) : Prop :=
  ∀ j ≤ n, ∃ t, timeBefore R j = some t ∧ t.lt tend = true

/-- the end time is reached after exactly `n` steps -/
def Ended (R : Reactor) (tend : PyF) (n : Nat) : Prop :=
  (∀ j < n, ∃ t, timeBefore R j = some t ∧ t.lt tend = true) ∧
  ∃ t, timeBefore R n = some t ∧ t.lt tend = false

/-- initial state and the states after the first `k` steps -/
def recorded (R : Reactor) (k : Nat) : List Point :=
  R.init :: (List.range k).filterMap R.step

end Verif.Spec
