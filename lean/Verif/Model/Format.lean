import Mathlib.Data.Int.Log
import Mathlib.Data.Rat.Floor
import Verif.Model.Num
import Verif.Model.Path
/-!
# Python's number formatting

The formats `soln2ck.py` uses: `.3f`, `.4e`, `15.8e`, `<18` and so on, applied to the exact value
of a number.  Negative zero, NaN and infinities are not modelled.
-/
namespace Verif

/-- a decimal digit -/
def digitCh (d : Nat) : Char := Char.ofNat (48 + d)

/-- the last `k` decimal digits -/
def padDigits : Nat → Nat → Text
  | 0, _ => []
  | k + 1, n => padDigits k (n / 10) ++ [digitCh (n % 10)]

/-- number of decimal digits -/
def numDigits (n : Nat) : Nat := Nat.log 10 n + 1

/-- `str(n)` -/
def natText (n : Nat) : Text := padDigits (numDigits n) n

/-- `str(i)` -/
def intText (i : Int) : Text := if i < 0 then '-' :: natText i.natAbs else natText i.natAbs

/-- nearest integer, ties to even -/
def roundQ (q : ℚ) : Nat := roundHalfEven q.num.natAbs q.den

/-- the sign shown -/
def signText (q : ℚ) : Text := if q < 0 then ['-'] else []

/-- `f"{q:.df}"` for `d > 0` -/
def fmtFix (d : Nat) (q : ℚ) : Text :=
  let m := roundQ (|q| * 10 ^ d)
  signText q ++ natText (m / 10 ^ d) ++ '.' :: padDigits d (m % 10 ^ d)

/-- mantissa (with `d + 1` digits) and exponent shown by `f"{q:.de}"` -/
def sciParts (d : Nat) (q : ℚ) : Nat × Int :=
  if q = 0 then (0, 0)
  else
    let e := Int.log 10 |q|
    let m := roundQ (|q| / 10 ^ (e - (d : Int)))
    if m = 10 ^ (d + 1) then (10 ^ d, e + 1) else (m, e)

/-- the exponent, with a sign and at least two digits -/
def expText (e : Int) : Text :=
  (if e < 0 then '-' else '+') ::
    (if e.natAbs < 100 then padDigits 2 e.natAbs else natText e.natAbs)

/-- `f"{q:.de}"` for `d > 0` -/
def fmtExp (d : Nat) (q : ℚ) : Text :=
  let p := sciParts d q
  signText q ++ digitCh (p.1 / 10 ^ d) :: '.' :: padDigits d (p.1 % 10 ^ d) ++
    'e' :: expText p.2

/-- `f"{t:>w}"` -/
def padLeft (w : Nat) (t : Text) : Text := List.replicate (w - t.length) ' ' ++ t

/-- `f"{t:<w}"` -/
def padRight (w : Nat) (t : Text) : Text := t ++ List.replicate (w - t.length) ' '

/-- `sep.join(ts)` -/
def joinText (sep : Text) : List Text → Text
  | [] => []
  | [t] => t
  | t :: ts => t ++ sep ++ joinText sep ts

/-- `int(q)` -/
def truncQ (q : ℚ) : Int := if q < 0 then -⌊-q⌋ else ⌊q⌋

end Verif
