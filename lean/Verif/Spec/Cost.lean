import Verif.Model.Matrix
/-!
# A model with two ways from each species to the next

Isomerisations `T → V0`, `Vk → Vk+1`, `Vk → Uk` and `Uk → Vk+1` for `k < n`, at steady rates: of each
`Vk` slightly less than one half reacts to `Vk+1` directly and the rest by way of `Uk`.
Species `0` is `T`, species `2k+1` is `Vk` and species `2k+2` is `Uk`.
-/
namespace Verif.Spec
open Verif

/-- how far the two shares are from one half (times two) -/
def tilt (k : Nat) : ℚ := 1 / 2 ^ (k + 2)

/-- share of the direct reaction -/
def direct (k : Nat) : ℚ := (1 - tilt k) / 2

/-- share of the detour -/
def detour (k : Nat) : ℚ := (1 + tilt k) / 2

/-- reactant of a reaction -/
def isoFrom (r : Nat) : Nat :=
  if r = 0 then 0 else if (r - 1) % 3 = 2 then 2 * ((r - 1) / 3) + 2 else 2 * ((r - 1) / 3) + 1

/-- product of a reaction -/
def isoTo (r : Nat) : Nat :=
  if r = 0 then 1 else if (r - 1) % 3 = 1 then 2 * ((r - 1) / 3) + 2 else 2 * ((r - 1) / 3) + 3

/-- rate of a reaction -/
def isoRate (r : Nat) : ℚ :=
  if r = 0 then 1 else if (r - 1) % 3 = 0 then direct ((r - 1) / 3) else detour ((r - 1) / 3)

/-- the model and its rates, with `n` branchings -/
def isoChem (n : Nat) : Chem (2 * n + 2) (3 * n + 1) where
  prod := fun s r => if s.val = isoTo r then 1 else 0
  reac := fun s r => if s.val = isoFrom r then 1 else 0
  rop := fun r => isoRate r

end Verif.Spec
