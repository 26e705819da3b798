import Verif.Spec.Accuracy
/-!
# Rates that binary64 holds without loss, although they may be subnormal
-/
namespace Verif.Spec
open Verif

/-- a multiple of the smallest positive binary64 number, as every binary64 number is -/
def OnGrid (x : ℚ) : Prop := ∃ k : ℤ, x = k / 2 ^ 1074

/-- zero, or in the normal range by a factor of two -/
def Normal (x : ℚ) : Prop := x = 0 ∨ 1 / 2 ^ 1021 ≤ |x|

/-- each rate of change is either a whole multiple of a rate of progress, which may be as small as
binary64 numbers can be, or is in the normal range -/
def NoUnderflow {n m : Nat} (c : Chem n m) : Prop := ∀ a r,
  (∃ z : ℤ, z.natAbs < 2 ^ 53 ∧ c.prod a r - c.reac a r = z ∧ OnGrid (c.rop r)) ∨
  (Normal (c.prod a r - c.reac a r) ∧ Normal (rate c a r))

/-- shares of production and consumption are not below `2^(-500)` (about `10^(-150)`), unless zero -/
def Shares {n m : Nat} (c : Chem n m) : Prop := ∀ a b,
  (pro1 c a b = 0 ∨ 1 / 2 ^ 500 ≤ pro1 c a b) ∧ (con1 c a b = 0 ∨ 1 / 2 ^ 500 ≤ con1 c a b)

/-- states at which underflow does not change what a method keeps -/
def Resolved {n m : Nat} (meth : Method) (c : Chem n m) : Prop :=
  NoUnderflow c ∧ (meth = .pfa → Shares c ∧ 2 * m + 5 ≤ 2 ^ 51)

end Verif.Spec
