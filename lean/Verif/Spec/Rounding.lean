import Mathlib.Algebra.Order.Field.Rat
/-!
# Rounding operators
-/
namespace Verif.Spec

/-- rounding operators considered: monotone, idempotent, fixing zero and one (the identity
and binary64 rounding are two of them) -/
structure RndOk (rnd : ℚ → ℚ) : Prop where
  mono : ∀ a b, a ≤ b → rnd a ≤ rnd b
  idem : ∀ a, rnd (rnd a) = rnd a
  zero : rnd 0 = 0
  one : rnd 1 = 1

end Verif.Spec
