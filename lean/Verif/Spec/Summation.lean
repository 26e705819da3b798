import Mathlib.Algebra.Order.Field.Rat
import Mathlib.Data.List.Perm.Basic
/-!
# Ways of adding a list of numbers with rounding
-/
namespace Verif.Spec

/-- `Sums rnd l s`: some order of adding the terms of `l`, two partial sums at a time, with one
rounding per addition, gives `s` -/
inductive Sums (rnd : ℚ → ℚ) : List ℚ → ℚ → Prop
  | nil : Sums rnd [] 0
  | single (x : ℚ) : Sums rnd [x] x
  | add {l l' : List ℚ} {s t : ℚ} : l ≠ [] → l' ≠ [] → Sums rnd l s → Sums rnd l' t →
      Sums rnd (l ++ l') (rnd (s + t))
  | perm {l l' : List ℚ} {s : ℚ} : l.Perm l' → Sums rnd l s → Sums rnd l' s

/-- a summation routine: on representable terms it returns the result of some order of additions -/
def Summation (rnd : ℚ → ℚ) (sum : List ℚ → ℚ) : Prop :=
  ∀ l, (∀ x ∈ l, rnd x = x) → Sums rnd l (sum l)

end Verif.Spec
