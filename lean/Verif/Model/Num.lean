import Mathlib.Algebra.Order.Field.Rat
import Mathlib.Data.Nat.Log
/-!
# Python numbers

`PyF` is a python float up to rounding: a rational, an infinity or NaN, with the IEEE
comparison rules.  Arithmetic on `PyF` is exact (rounding of metrics is not modelled; the
sign of zero is not modelled).  `rnd64` rounds a rational to binary64 as if exponents had no lower
end, `rnd754` with the subnormal numbers that take the place of normal ones below `2^(-1022)`.
-/
namespace Verif

inductive PyF where
  | fin (q : ℚ)
  | inf
  | ninf
  | nan
deriving DecidableEq

namespace PyF

/-- `a < b`: false whenever a NaN is involved -/
def lt : PyF → PyF → Bool
  | fin a, fin b => decide (a < b)
  | fin _, inf => true
  | ninf, fin _ => true
  | ninf, inf => true
  | _, _ => false

/-- `a <= b`: false whenever a NaN is involved -/
def le : PyF → PyF → Bool
  | fin a, fin b => decide (a ≤ b)
  | fin _, inf => true
  | ninf, fin _ => true
  | ninf, inf => true
  | inf, inf => true
  | ninf, ninf => true
  | _, _ => false

/-- `a == b`: false whenever a NaN is involved -/
def eq : PyF → PyF → Bool
  | fin a, fin b => decide (a = b)
  | inf, inf => true
  | ninf, ninf => true
  | _, _ => false

def neg : PyF → PyF
  | fin a => fin (-a)
  | inf => ninf
  | ninf => inf
  | nan => nan

def add : PyF → PyF → PyF
  | fin a, fin b => fin (a + b)
  | nan, _ => nan
  | _, nan => nan
  | inf, ninf => nan
  | ninf, inf => nan
  | inf, _ => inf
  | _, inf => inf
  | ninf, _ => ninf
  | _, ninf => ninf

def sub (a b : PyF) : PyF := add a (neg b)

def abs : PyF → PyF
  | fin a => fin |a|
  | inf => inf
  | ninf => inf
  | nan => nan

/-- sign as an integer; NaN has none -/
def sgn : PyF → Int
  | fin a => if a < 0 then -1 else if a = 0 then 0 else 1
  | inf => 1
  | ninf => -1
  | nan => 0

def ofSign (s : Int) : PyF := if s = 0 then nan else if s < 0 then ninf else inf

/-- numpy multiplication -/
def mul : PyF → PyF → PyF
  | fin a, fin b => fin (a * b)
  | nan, _ => nan
  | _, nan => nan
  | a, b => ofSign (a.sgn * b.sgn)

/-- numpy division (no exception on zero): `x/0` is infinite with the sign of `x`, `0/0` is
NaN.  The zero in the denominator is taken as `+0`. -/
def div : PyF → PyF → PyF
  | nan, _ => nan
  | _, nan => nan
  | fin a, fin b => if b = 0 then ofSign (fin a).sgn else fin (a / b)
  | fin _, _ => fin 0
  | a, fin b => ofSign (a.sgn * (if b < 0 then -1 else 1))
  | _, _ => nan

/-- two-argument numpy maximum: NaN propagates -/
def nmax (a b : PyF) : PyF :=
  if a = nan then nan else if b = nan then nan else if lt a b then b else a

end PyF

/-- round half to even of `n / d` -/
def roundHalfEven (n d : Nat) : Nat :=
  let q := n / d
  let r := n % d
  if 2 * r < d then q else if d < 2 * r then q + 1 else if q % 2 = 0 then q else q + 1

/-- `n / d` (positive) scaled by `2^(-e)`, as a fraction -/
def scale2 (n d : Nat) (e : Int) : Nat × Nat :=
  if e ≥ 0 then (n, d * 2 ^ e.toNat) else (n * 2 ^ (-e).toNat, d)

/-- exponent `e` with `2^52 ≤ (n/d) / 2^e < 2^53` -/
def exp64 (n d : Nat) : Int :=
  let e0 : Int := (Nat.log2 n : Int) - (Nat.log2 d : Int) - 52
  let s := scale2 n d e0
  if s.1 < 2 ^ 52 * s.2 then e0 - 1 else e0

/-- binary64 rounding (nearest, ties to even) of a non-negative rational; subnormals and
overflow are not modelled -/
def rndPos (n d : Nat) : ℚ :=
  if n = 0 then 0
  else
    let e := exp64 n d
    let s := scale2 n d e
    let m := roundHalfEven s.1 s.2
    if e ≥ 0 then (m : ℚ) * (2 : ℚ) ^ e.toNat else (m : ℚ) / (2 : ℚ) ^ (-e).toNat

/-- binary64 rounding of a rational -/
def rnd64 (q : ℚ) : ℚ :=
  if q.num < 0 then - rndPos q.num.natAbs q.den else rndPos q.num.natAbs q.den

/-- rounding to a multiple of `2^(-e)` (nearest, ties to even) -/
def rndGrid (e : Nat) (q : ℚ) : ℚ :=
  if q.num < 0 then - ((roundHalfEven (q.num.natAbs * 2 ^ e) q.den : Nat) / 2 ^ e : ℚ)
  else (roundHalfEven (q.num.natAbs * 2 ^ e) q.den : Nat) / 2 ^ e

/-- rounding to 53 bits where the smallest normal number is `2^(-e)`; below it numbers are multiples
of `2^(-e-52)` (gradual underflow) -/
def rndGradual (e : Nat) (q : ℚ) : ℚ := if |q| < 1 / 2 ^ e then rndGrid (e + 52) q else rnd64 q

/-- binary64 rounding of a rational, with gradual underflow; overflow is not modelled -/
def rnd754 : ℚ → ℚ := rndGradual 1022

end Verif
