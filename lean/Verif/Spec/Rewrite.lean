import Mathlib.Data.Fin.Tuple.Basic
import Verif.Spec.Matrix
/-!
# The same chemistry written down in another way
-/
namespace Verif.Spec
open Verif Finset

/-- `c'` describes the chemistry of `c` in other words: each reaction `r'` of `c'` is the part
`part r' ≥ 0` of reaction `of r'` of `c`, and the parts of each reaction add up to all of it.
This covers reactions listed in another order, written right to left, multiplied by a number, split
into duplicates, merged, and reactions that do not proceed. -/
structure Rewritten {n m m' : Nat} (c : Chem n m) (c' : Chem n m') (of : Fin m' → Fin m)
    (part : Fin m' → ℚ) : Prop where
  nonneg : ∀ r', 0 ≤ part r'
  whole : ∀ r, (∃ A, rate c A r ≠ 0) → (∑ r' with of r' = r, part r') = 1
  rates : ∀ A r', rate c' A r' = part r' * rate c A (of r')
  species : ∀ B r', (∃ A, rate c' A r' ≠ 0) → (Involves c' B r' ↔ Involves c B (of r'))

/-- the reactions in `S` written from right to left -/
def turned {n m : Nat} (c : Chem n m) (S : Fin m → Bool) : Chem n m where
  prod A r := if S r then c.reac A r else c.prod A r
  reac A r := if S r then c.prod A r else c.reac A r
  rop r := if S r then -c.rop r else c.rop r

/-- the reversible reaction `r0` replaced by two irreversible ones with rates `f` and `g`: the forward
direction in its place and the backward direction at the end -/
def asPair {n m : Nat} (c : Chem n m) (r0 : Fin m) (f g : ℚ) : Chem n (m + 1) where
  prod A := Fin.snoc (α := fun _ => ℚ) (c.prod A) (c.reac A r0)
  reac A := Fin.snoc (α := fun _ => ℚ) (c.reac A) (c.prod A r0)
  rop := Fin.snoc (α := fun _ => ℚ) (Function.update c.rop r0 f) g

end Verif.Spec
