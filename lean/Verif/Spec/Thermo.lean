import Mathlib.Analysis.SpecialFunctions.Log.Basic
import Verif.Spec.Ck
import Verif.Spec.Format

/-!
# Reading thermo entries, and the values they stand for

A reader of the fixed columns of a Chemkin thermo entry, and the NASA polynomials in seven
coefficients per temperature range.
-/

namespace Verif.Spec

/-- the columns of coefficient `i` (from 0) of an entry: five on the second line, five on the
third, four on the fourth -/
def thermoField (l2 l3 l4 : Text) (i : Nat) : Text :=
  if i < 5 then cols l2 (15 * i) 15
  else if i < 10 then cols l3 (15 * (i - 5)) 15
  else cols l4 (15 * (i - 10)) 15

/-- numbers in fixed-width fields -/
def readFields : List Text → Option (List ℚ)
  | [] => some []
  | t :: ts => (readField t).bind fun v => (readFields ts).map fun vs => v :: vs

/-- the middle temperature and the fourteen coefficients of an entry -/
def readThermo (t : Text) : Option (ℚ × List ℚ) :=
  match lines t with
  | l1 :: l2 :: l3 :: l4 :: _ =>
      (readField (cols l1 65 8)).bind fun tmid =>
        (readFields ((List.range 14).map (thermoField l2 l3 l4))).map fun cs => (tmid, cs)
  | _ => none

/-- what the seven coefficients are multiplied with in `cp / R` -/
noncomputable def cpBasis (T : ℝ) : List ℝ := [1, T, T ^ 2, T ^ 3, T ^ 4, 0, 0]

/-- the same for `h / (R T)` -/
noncomputable def hBasis (T : ℝ) : List ℝ := [1, T / 2, T ^ 2 / 3, T ^ 3 / 4, T ^ 4 / 5, 1 / T, 0]

/-- the same for `s / R` -/
noncomputable def sBasis (T : ℝ) : List ℝ := [Real.log T, T, T ^ 2 / 2, T ^ 3 / 3, T ^ 4 / 4, 0, 1]

/-- a value, as a sum of terms -/
noncomputable def nasaSum (basis : List ℝ) (c : List ℚ) : ℝ :=
  (List.zipWith (fun (f : ℝ) (a : ℚ) => f * (a : ℝ)) basis c).sum

/-- the size of the terms of a value -/
noncomputable def nasaSize (basis : List ℝ) (c : List ℚ) : ℝ :=
  (List.zipWith (fun (f : ℝ) (a : ℚ) => |f * (a : ℝ)|) basis c).sum

/-- the coefficients that hold at `T`: the first seven above the middle temperature, the others
up to it -/
noncomputable def nasaRange (tmid : ℚ) (cs : List ℚ) (T : ℝ) : List ℚ :=
  if T ≤ tmid then cs.drop 7 else cs.take 7

end Verif.Spec
