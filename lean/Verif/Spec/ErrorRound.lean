import Verif.Spec.EndToEnd
import Verif.Model.ErrorRound
/-!
# Floating-point errors of candidates: how close, and when it matters
-/
namespace Verif.Spec
open Verif

/-- a rounding like that of binary64: relative error at most `2^(-53)` plus something tiny for
results that underflow; only huge results become infinite -/
structure RoundsF (R : ℚ → PyF) : Prop where
  zero : R 0 = .fin 0
  near : ∀ q, (∃ r, R q = .fin r ∧ |r - q| ≤ |q| / 2 ^ 53 + 1 / 2 ^ 250) ∨
    (R q = .inf ∧ 2 ^ 250 ≤ q) ∨ (R q = .ninf ∧ q ≤ -2 ^ 250)

/-- a metric of the starting model of ordinary size, about `10^(-30)` to `10^30` -/
def Moderate (x : PyF) : Prop := ∃ o : ℚ, x = .fin o ∧ 1 / 2 ^ 100 ≤ o ∧ o ≤ 2 ^ 100

/-- an exact error, and one computed with rounding: both undefined, both infinite, two numbers that
agree to 15 digits, or a huge number and an infinity -/
inductive NearError : PyF → PyF → Prop
  | nan : NearError .nan .nan
  | inf : NearError .inf .inf
  | fin {e e' : ℚ} (h0 : 0 ≤ e) (h : |e' - e| ≤ e / 2 ^ 51 + 1 / 2 ^ 140) : NearError (.fin e) (.fin e')
  | over {e : ℚ} (h : 2 ^ 140 ≤ e) : NearError (.fin e) .inf

/-- an error that is not within rounding of the limit -/
def Decided (L : ℚ) (x : PyF) : Prop := ∀ e : ℚ, x = .fin e → L / 2 ^ 50 + 1 / 2 ^ 130 < |e - L|

/-- two results of a reduction that differ in the reported error only, and there by rounding -/
structure SameModel (r r' : RModel) : Prop where
  model : r'.model = r.model
  filename : r'.filename = r.filename
  limbo : r'.limbo = r.limbo
  error : NearError r.error r'.error

/-- two runs with the same files, and the same exception or models as in `SameModel` -/
inductive SameRun : RunResult → RunResult → Prop
  | running (w : World) : SameRun (none, w) (none, w)
  | raised (e : Err) (w : World) : SameRun (some (.error e), w) (some (.error e), w)
  | returned {r r' : RModel} (w : World) (h : SameModel r r') : SameRun (some (.ok r), w) (some (.ok r'), w)

end Verif.Spec
