import Mathlib.Analysis.SpecialFunctions.Pow.Real
import Verif.Model.CkRound
import Verif.Spec.Ck
/-!
# Rates in a Chemkin file, with conversions in floating-point arithmetic
-/
namespace Verif.Spec
open Verif

/-- an arithmetic like binary64 with a library power function: relative error `2^(-53)`, tiny
absolute error in underflow, signs kept; powers of `1000` accurate to a few units in the last place -/
structure CkAccurate (a : CkArith) : Prop where
  rnd : ∀ q, |a.rnd q - q| ≤ |q| / 2 ^ 53 + 1 / 2 ^ 250
  sign : ∀ q, 0 ≤ q → 0 ≤ a.rnd q
  pw : ∀ x : ℚ, |x| ≤ 20 → |(a.pw x : ℝ) - (1000 : ℝ) ^ (x : ℝ)| ≤ (1000 : ℝ) ^ (x : ℝ) / 2 ^ 50

/-- Three words that read as a rate: the factor times `1000^x` to almost five digits, the exponent to
three decimals, the energy in calories to within `tolE`. -/
def RateReads (ws : List Text) (k : ArrRate ℚ) (x : ℚ) (tolE : ℚ) : Prop :=
  ∃ wa wb we v, ws = [wa, wb, we] ∧ readNum wa = some v ∧
    |(v : ℝ) - k.A * (1000 : ℝ) ^ (x : ℝ)| ≤ |(k.A : ℝ)| * (1000 : ℝ) ^ (x : ℝ) / 19999 + 1 / 2 ^ 240 ∧
    Reads wb k.b (1 / 2000) ∧ Reads we (k.E / 4184) tolE

/-- tolerance of energies printed with two decimals -/
def tolFix (k : ArrRate ℚ) : ℚ := 1 / 200 + |k.E / 4184| / 2 ^ 53 + 1 / 2 ^ 240

/-- tolerance of energies printed with four digits -/
def tolExp (k : ArrRate ℚ) : ℚ := |k.E / 4184| / 1999 + 1 / 2 ^ 240

/-- The words after the equation: the rate in the units mol, cm, s, cal; `n` is the sum of the
reactants' coefficients, not necessarily an integer. -/
def MainReads (r : Rxn ℚ) (n : ℚ) (ws : List Text) : Prop :=
  match r.rate with
  | .simple _ k => RateReads ws k (if r.third.isSome then n else n - 1) (tolFix k)
  | .falloff _ chem lo hi _ =>
      let k := if chem then lo else hi
      RateReads ws k (n - 1) (tolExp k)
  | .plog rates => ∃ p k rest, rates = (p, k) :: rest ∧ RateReads ws k (n - 1) (tolFix k)
  | .cheb _ _ _ _ => ws = ["1.0e0".toList, "0.0".toList, "0.0".toList]

/-- The other auxiliary lines; Chebyshev rates as in `AuxLines` (no conversion but that of the
pressures). -/
def AuxReads (r : Rxn ℚ) (n : ℚ) (ls : List Text) : Prop :=
  match r.rate with
  | .falloff sub chem lo hi cs =>
      let k := if chem then hi else lo
      ∃ l ps, ls = l :: ps ∧
        (∃ ws, words l = [(if chem then "HIGH" else "LOW").toList, "/".toList] ++ ws ++ ["/".toList] ∧
          RateReads ws k (if chem then n - 2 else n) (tolExp k)) ∧
        (cs = [] → ps = []) ∧
        (cs ≠ [] → ∃ l', ps = [l'] ∧
          ((sub = "Troe".toList ∧ words l' = ["TROE".toList, "/".toList] ++ (cs.take 4).map pyRepr ++
              ["/".toList] ∧ 4 ≤ cs.length) ∨
            (sub = "SRI".toList ∧ words l' = ["SRI".toList, "/".toList] ++ (cs.take 5).map pyRepr ++
              ["/".toList] ∧ 5 ≤ cs.length)))
  | .plog rates =>
      List.Forall₂ (fun l pk => ∃ ws,
        words l = ["PLOG".toList, "/".toList, pyRepr (pk.1 / 101325)] ++ ws ++ ["/".toList] ∧
        RateReads ws pk.2 (n - 1) (tolFix pk.2)) ls rates
  | _ => AuxLines pyRepr r 0 ls

end Verif.Spec
