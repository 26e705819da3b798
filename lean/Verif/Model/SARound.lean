import Verif.Model.SA
import Verif.Model.ErrorRound
/-!
# Sensitivity analysis in floating-point arithmetic

`Model/SA` with a rounding `R` after each operation of `calculate_error` (`Model/ErrorRound`) and
after the subtraction in `np.abs(species_errors - current_model.error)`.  The comparisons with the
limit and between the distances are exact, as in floating-point arithmetic.
-/
namespace Verif

/-- one entry of `np.abs(species_errors - current_model.error)` (`sensitivity_analysis.py:205`) -/
def distR (R : ℚ → PyF) (e cur : PyF) : PyF := ((e.sub cur).rd R).abs

/-- `run_sa` on a machine that rounds with `R` -/
def SACtx.rounded (R : ℚ → PyF) (c : SACtx) : SACtx :=
  { c with errOf := calculateErrorR R, dist := distR R }

end Verif
