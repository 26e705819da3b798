import Verif.Spec.SA
import Verif.Spec.ErrorRound
import Verif.Model.SARound
/-!
# Sensitivity analysis up to rounding
-/
namespace Verif.Spec
open Verif

/-- the arithmetic of an analysis is exact -/
structure Exact (c : SACtx) : Prop where
  errOf : c.errOf = calculateError
  dist : ∀ e cur, c.dist e cur = (e.sub cur).abs

/-- every candidate that can be simulated has an error that is a number of ordinary size, up to
about `10^30` percent -/
def OrdinaryErrors (c : SACtx) (sol : Mech) (initial : List PyF) (species : List String) : Prop :=
  ∀ l : List String, l ≠ [] → (∀ x ∈ l, x ∈ species) →
    ∀ x, saErr c initial (l.foldl (without c) sol) = .ok x → ∃ e : ℚ, x = .fin e ∧ e ≤ 2 ^ 100

/-- what rounding can do to the order of the distances of two errors from a third -/
def slack (a b e : ℚ) : ℚ := (a + b + 2 * e) / 2 ^ 50 + 1 / 2 ^ 130

/-- entry `i` is nearest to `e`, up to rounding -/
def AlmostNearest (errs : List PyF) (e : ℚ) (i : Nat) : Prop :=
  ∃ a, errs[i]? = some (.fin a) ∧ ∀ b, .fin b ∈ errs → |a - e| ≤ |b - e| + slack a b e

/-- an error not above the limit, up to rounding -/
def AtMost (L e : ℚ) : Prop := e ≤ L + e / 2 ^ 51 + 1 / 2 ^ 140

/-- an error above the limit, up to rounding -/
def Above (L e : ℚ) : Prop := L < e + e / 2 ^ 51 + 1 / 2 ^ 140

/-- the course of an analysis (see `Course`) in which choices and decisions are right up to
rounding.  All errors are exact. -/
inductive NearCourse (c : SACtx) (initial : List PyF) (L : ℚ) :
    Mech → Mech → ℚ → List String → List String → Mech → ℚ → List String → Prop where
  | done {base m e} : NearCourse c initial L base m e [] [] m e []
  | reject {base m e limbo errs i sp e'} (hi : Induced c initial base limbo errs)
      (hn : AlmostNearest errs e i) (hs : limbo[i]? = some sp)
      (he : saErr c initial (without c m sp) = .ok (.fin e')) (hl : Above L e') :
      NearCourse c initial L base m e limbo [] m e (limbo.eraseIdx i)
  | accept {base m e limbo errs i sp e' acc mf ef rest} (hi : Induced c initial base limbo errs)
      (hn : AlmostNearest errs e i) (hs : limbo[i]? = some sp)
      (he : saErr c initial (without c m sp) = .ok (.fin e')) (hl : AtMost L e')
      (hg : c.greedy = true → ∃ s ∈ limbo.eraseIdx i, ∃ x,
        saErr c initial (without c (without c m sp) s) = .ok (.fin x) ∧ AtMost L x)
      (next : NearCourse c initial L (if c.greedy then without c m sp else base) (without c m sp) e'
        (limbo.eraseIdx i) acc mf ef rest) :
      NearCourse c initial L base m e limbo (sp :: acc) mf ef rest
  | last {base m e limbo errs i sp e'} (hi : Induced c initial base limbo errs)
      (hn : AlmostNearest errs e i) (hs : limbo[i]? = some sp)
      (he : saErr c initial (without c m sp) = .ok (.fin e')) (hl : AtMost L e')
      (hg : c.greedy = true)
      (hx : ∀ s ∈ limbo.eraseIdx i, ∃ x,
        saErr c initial (without c (without c m sp) s) = .ok (.fin x) ∧ Above L x) :
      NearCourse c initial L base m e limbo [sp] (without c m sp) e' (limbo.eraseIdx i)

/-- candidate `i` is nearest to `e` by more than rounding can undo, apart from later candidates
that simulate exactly alike -/
def ClearChoice (c : SACtx) (initial : List PyF) (base : Mech) (e : ℚ) (limbo : List String)
    (i : Nat) : Prop :=
  ∃ sp a, limbo[i]? = some sp ∧ saErr c initial (without c base sp) = .ok (.fin a) ∧
    ∀ j s, j ≠ i → limbo[j]? = some s →
      (i < j ∧ c.metrics (without c base s) = c.metrics (without c base sp)) ∨
      ∃ b, saErr c initial (without c base s) = .ok (.fin b) ∧ |a - e| + slack a b e < |b - e|

/-- no choice and no comparison with the limit is within rounding of going the other way, from the
current model `m` with error `e` and candidates `limbo` on -/
inductive ClearCourse (c : SACtx) (initial : List PyF) (L : ℚ) : Mech → Mech → ℚ → List String → Prop where
  | done {base m e} : ClearCourse c initial L base m e []
  | step {base m e limbo} (i : Nat) (sp : String) (hs : limbo[i]? = some sp)
      (hc : ClearChoice c initial base e limbo i)
      (hd : ∀ x, saErr c initial (without c m sp) = .ok x → Decided L x)
      (hr : c.greedy = true → ∀ e', saErr c initial (without c m sp) = .ok (.fin e') → e' ≤ L →
        ∀ s ∈ limbo.eraseIdx i, ∀ x, saErr c initial (without c (without c m sp) s) = .ok x →
          Decided L x)
      (next : ∀ e', saErr c initial (without c m sp) = .ok (.fin e') → e' ≤ L →
        ClearCourse c initial L (if c.greedy then without c m sp else base) (without c m sp) e'
          (limbo.eraseIdx i)) :
      ClearCourse c initial L base m e limbo

/-- the same exception, or results as in `SameModel` -/
inductive SameResult : Except Err RModel → Except Err RModel → Prop
  | raised (e : Err) : SameResult (.error e) (.error e)
  | returned {r r' : RModel} (h : SameModel r r') : SameResult (.ok r) (.ok r')

end Verif.Spec
