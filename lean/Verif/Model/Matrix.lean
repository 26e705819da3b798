import Mathlib.Algebra.Order.Field.Rat
import Mathlib.Algebra.Order.AbsoluteValue.Basic
/-!
# Interaction-coefficient matrices of DRG, DRGEP and PFA

The state enters only through `solution.net_rates_of_progress`; together with the
stoichiometry it is given by `Chem`.  Arithmetic is exact.
-/
namespace Verif

/-- What the matrix functions read from the Cantera object after `solution.TPY = ...`:
`product_stoich_coeffs`, `reactant_stoich_coeffs` (species × reactions) and
`net_rates_of_progress`. -/
structure Chem (n m : Nat) where
  prod : Fin n → Fin m → ℚ
  reac : Fin n → Fin m → ℚ
  rop : Fin m → ℚ

/-- A square numpy array indexed by species. -/
abbrev Mat (n : Nat) := Fin n → Fin n → ℚ

namespace Chem
variable {n m : Nat} (c : Chem n m)

/-- `drg.py:33`, `drgep.py:180`, `pfa.py:33`. -/
def netStoich (a : Fin n) (r : Fin m) : ℚ := c.prod a r - c.reac a r

/-- `drg.py:34-41`, `drgep.py:181-188`, `pfa.py:34-41`. -/
def flag (b : Fin n) (r : Fin m) : Bool := c.prod b r != 0 || c.reac b r != 0

/-- `drg.py:44`, `drgep.py:191`, `pfa.py:44`: indices of reactions with non-zero rate. -/
def valid : List (Fin m) := (List.finRange m).filter (fun r => c.rop r != 0)

/-- indices `np.where(flags[sp_b, valid_reactions])[0]` mapped back to reactions
(`drg.py:55`). -/
def validWith (b : Fin n) : List (Fin m) := c.valid.filter (fun r => c.flag b r)

end Chem

/-- `np.sum(..., axis=1)` over selected columns. -/
def sumOver {m : Nat} (l : List (Fin m)) (f : Fin m → ℚ) : ℚ := (l.map f).sum

/-- `np.fill_diagonal(adjacency_matrix, 0.0)` (`drg.py:68`, `drgep.py:218`, `pfa.py:92`). -/
def fillDiagonal {n : Nat} (M : Mat n) : Mat n := fun a b => if a = b then 0 else M a b

/-- `np.where(denominator != 0, numerator / denominator, 0)`. -/
def whereDiv {n : Nat} (num : Mat n) (den : Fin n → ℚ) : Mat n :=
  fun a b => if den a != 0 then num a b / den a else 0

/-- `drg.py:14-70`: `create_drg_matrix`. -/
def drgMatrix {n m : Nat} (c : Chem n m) : Mat n :=
  if c.valid.isEmpty then fillDiagonal (fun _ _ => 0)
  else
    let base (a : Fin n) (r : Fin m) : ℚ := |c.netStoich a r * c.rop r|
    let den (a : Fin n) : ℚ := sumOver c.valid (base a)
    let num : Mat n := fun a b => 0 + sumOver (c.validWith b) (base a)
    fillDiagonal (whereDiv num den)

/-- `drgep.py:161-220`: `create_drgep_matrix`. -/
def drgepMatrix {n m : Nat} (c : Chem n m) : Mat n :=
  if c.valid.isEmpty then fillDiagonal (fun _ _ => 0)
  else
    let base (a : Fin n) (r : Fin m) : ℚ := c.netStoich a r * c.rop r
    let dest (a : Fin n) : ℚ := sumOver c.valid (fun r => max 0 (-base a r))
    let prod (a : Fin n) : ℚ := sumOver c.valid (fun r => max 0 (base a r))
    let den (a : Fin n) : ℚ := max (prod a) (dest a)
    let num : Mat n := fun a b => |0 + sumOver (c.validWith b) (base a)|
    fillDiagonal (whereDiv num den)

/-- The arrays that the loop at `pfa.py:75-85` mutates: `r_pro_AB1`, `r_con_AB1` (through
the views `pro1`, `pro2`, `con1`, `con2`) and the accumulators `r_pro_AB2`, `r_con_AB2`. -/
structure PfaState (n : Nat) where
  pro1 : Mat n
  con1 : Mat n
  pro2 : Mat n
  con2 : Mat n

/-- assignment of one array element in place -/
def setEntry {n : Nat} (M : Mat n) (i j : Fin n) (v : ℚ) : Mat n :=
  fun a b => if a = i ∧ b = j then v else M a b

/-- `np.outer(u, v)` -/
def outer {n : Nat} (u v : Fin n → ℚ) : Mat n := fun a b => u a * v b

/-- `pfa.py:76-85`: one iteration for intermediate species `sp_m`.  `pro1` is a view of
column `sp_m` and `pro2` a view of row `sp_m` of the same array, so `pro1[sp_m] = 0` and
`pro2[sp_m] = 0` both store to the diagonal element. -/
def pfaStep {n : Nat} (s : PfaState n) (k : Fin n) : PfaState n :=
  let P := setEntry (setEntry s.pro1 k k 0) k k 0
  let C := setEntry (setEntry s.con1 k k 0) k k 0
  { pro1 := P
    con1 := C
    pro2 := fun a b => s.pro2 a b + outer (fun i => P i k) (fun j => P k j) a b
    con2 := fun a b => s.con2 a b + outer (fun i => C i k) (fun j => C k j) a b }

/-- `pfa.py:14-94`: `create_pfa_matrix`. -/
def pfaMatrix {n m : Nat} (c : Chem n m) : Mat n :=
  if c.valid.isEmpty then fillDiagonal (fun _ _ => 0)
  else
    let base (a : Fin n) (r : Fin m) : ℚ := c.netStoich a r * c.rop r
    let prodA (a : Fin n) : ℚ := sumOver c.valid (fun r => max (base a r) 0)
    let consA (a : Fin n) : ℚ := sumOver c.valid (fun r => max (-base a r) 0)
    let prodAB : Mat n := fun a b => 0 + sumOver (c.validWith b) (fun r => max (base a r) 0)
    let consAB : Mat n := fun a b => 0 + sumOver (c.validWith b) (fun r => max (-base a r) 0)
    let den (a : Fin n) : ℚ := max (prodA a) (consA a)
    let s := (List.finRange n).foldl pfaStep
      { pro1 := whereDiv prodAB den, con1 := whereDiv consAB den,
        pro2 := fun _ _ => 0, con2 := fun _ _ => 0 }
    fillDiagonal (fun a b => s.pro1 a b + s.con1 a b + s.pro2 a b + s.con2 a b)

end Verif
