import Verif.Model.Format
/-!
# Python's `repr` of a float

`soln2ck.py` puts third-body efficiencies (lines 342-349), falloff parameters (130-141), P-log
pressures (386) and Chebyshev ranges (395-399) into f-strings without a format, which is the
shortest decimal that reads as the same binary64 number.  NaN, infinities and the sign of negative
zero are not modelled, and exponents are not bounded above.
-/
namespace Verif

/-- `k` as digits (less one), mantissa and decimal exponent; a power of ten has one digit -/
def reprNorm (d k : Nat) (e : Int) : Nat × Nat × Int :=
  if k = 10 ^ (d + 1) then (0, 1, e + 1) else (d, k, e)

/-- `repr` of a float (CPython, `float_repr` and `_Py_dg_dtoa` in mode 0), for `q > 0`: of the two
decimals with `d + 1` digits next to `q`, the nearest one that reads as `q` -/
def reprTry (q : ℚ) (d : Nat) : Option (Nat × Nat × Int) :=
  let e := Int.log 10 q
  let u : ℚ := 10 ^ (e - (d : Int))
  let lo := ⌊q / u⌋.toNat
  let n := roundQ (q / u)
  let o := if n = lo then lo + 1 else lo
  if rnd754 (n * u) = q then some (reprNorm d n e)
  else if rnd754 (o * u) = q then some (reprNorm d o e)
  else none

/-- the shortest decimal; seventeen digits are always enough, so that the last case never arises -/
def reprParts (q : ℚ) : Nat × Nat × Int := ((List.range 17).findSome? (reprTry q)).getD (0, 0, 0)

/-- `d + 1` digits `m` with decimal exponent `e` as `repr` lays them out: plain from `1e-4` up to
`1e16`, with an exponent otherwise -/
def reprLayout (d m : Nat) (e : Int) : Text :=
  let ds := padDigits (d + 1) m
  if -4 ≤ e ∧ e < 16 then
    if e < 0 then '0' :: '.' :: (List.replicate (-e - 1).toNat '0' ++ ds)
    else if (d : Int) ≤ e then ds ++ List.replicate (e - d).toNat '0' ++ ['.', '0']
    else ds.take (e.toNat + 1) ++ '.' :: ds.drop (e.toNat + 1)
  else ds.take 1 ++ (if d = 0 then [] else '.' :: ds.drop 1) ++ 'e' :: expText e

/-- `repr(x)` for the float `x` nearest to `q` (soln2ck.py 130-141, 348, 386, 395-399) -/
def pyRepr (q : ℚ) : Text :=
  let x := rnd754 q
  if x = 0 then "0.0".toList
  else
    let p := reprParts |x|
    signText x ++ reprLayout p.1 p.2.1 p.2.2

end Verif
