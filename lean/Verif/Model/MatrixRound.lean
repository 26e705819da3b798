import Verif.Model.Matrix
import Verif.Model.Graph
/-!
# Interaction-coefficient matrices in rounded arithmetic

The same functions as in `Model/Matrix`, with a rounding operator `rnd` applied after every
addition, subtraction, multiplication and division (changes of sign, absolute values and
maxima are exact in floating point).  Underflow is modelled by the choice of
`rnd` (`rnd754`); overflow is not modelled.

`base_rates` is the result of indexing columns with an integer array and so is stored by
columns; `np.sum(..., axis=1)` of such an array adds the columns one after the other, which
is what `sumOverR` does.  (It starts from the first column instead of zero; adding zero is
exact.)
-/
namespace Verif

/-- `np.sum(..., axis=1)` over selected columns, in order (`drg.py:51,54-56`,
`drgep.py:197-198,203-205`, `pfa.py:50-51,55-64`). -/
def sumOverR {m : Nat} (rnd : ℚ → ℚ) (l : List (Fin m)) (f : Fin m → ℚ) : ℚ :=
  l.foldl (fun s r => rnd (s + f r)) 0

/-- `net_stoich[:, valid_reactions] * solution.net_rates_of_progress[valid_reactions]`
(`drg.py:33,47-50`, `drgep.py:180,193-195`, `pfa.py:33,46-49`). -/
def baseR {n m : Nat} (rnd : ℚ → ℚ) (c : Chem n m) (a : Fin n) (r : Fin m) : ℚ :=
  rnd (rnd (c.prod a r - c.reac a r) * c.rop r)

/-- `np.where(denominator != 0, numerator / denominator, 0)` (`drg.py:61-62`,
`drgep.py:211-212`, `pfa.py:68-71`). -/
def whereDivR {n : Nat} (rnd : ℚ → ℚ) (num : Mat n) (den : Fin n → ℚ) : Mat n :=
  fun a b => if den a != 0 then rnd (num a b / den a) else 0

/-- `drg.py:14-70`: `create_drg_matrix`. -/
def drgMatrixR {n m : Nat} (rnd : ℚ → ℚ) (c : Chem n m) : Mat n :=
  if c.valid.isEmpty then fillDiagonal (fun _ _ => 0)
  else
    let den (a : Fin n) : ℚ := sumOverR rnd c.valid (fun r => |baseR rnd c a r|)
    let num : Mat n := fun a b => rnd (0 + sumOverR rnd (c.validWith b) (fun r => |baseR rnd c a r|))
    fillDiagonal (whereDivR rnd num den)

/-- `drgep.py:161-220`: `create_drgep_matrix`. -/
def drgepMatrixR {n m : Nat} (rnd : ℚ → ℚ) (c : Chem n m) : Mat n :=
  if c.valid.isEmpty then fillDiagonal (fun _ _ => 0)
  else
    let dest (a : Fin n) : ℚ := sumOverR rnd c.valid (fun r => max 0 (-baseR rnd c a r))
    let prod (a : Fin n) : ℚ := sumOverR rnd c.valid (fun r => max 0 (baseR rnd c a r))
    let den (a : Fin n) : ℚ := max (prod a) (dest a)
    let num : Mat n := fun a b => |rnd (0 + sumOverR rnd (c.validWith b) (baseR rnd c a))|
    fillDiagonal (whereDivR rnd num den)

/-- `pfa.py:76-85`: one iteration for intermediate species `sp_m`; see `pfaStep`. -/
def pfaStepR {n : Nat} (rnd : ℚ → ℚ) (s : PfaState n) (k : Fin n) : PfaState n :=
  let P := setEntry (setEntry s.pro1 k k 0) k k 0
  let C := setEntry (setEntry s.con1 k k 0) k k 0
  { pro1 := P
    con1 := C
    pro2 := fun a b => rnd (s.pro2 a b + rnd (outer (fun i => P i k) (fun j => P k j) a b))
    con2 := fun a b => rnd (s.con2 a b + rnd (outer (fun i => C i k) (fun j => C k j) a b)) }

/-- `pfa.py:14-94`: `create_pfa_matrix`. -/
def pfaMatrixR {n m : Nat} (rnd : ℚ → ℚ) (c : Chem n m) : Mat n :=
  if c.valid.isEmpty then fillDiagonal (fun _ _ => 0)
  else
    let prodA (a : Fin n) : ℚ := sumOverR rnd c.valid (fun r => max (baseR rnd c a r) 0)
    let consA (a : Fin n) : ℚ := sumOverR rnd c.valid (fun r => max (-baseR rnd c a r) 0)
    let prodAB : Mat n := fun a b =>
      rnd (0 + sumOverR rnd (c.validWith b) (fun r => max (baseR rnd c a r) 0))
    let consAB : Mat n := fun a b =>
      rnd (0 + sumOverR rnd (c.validWith b) (fun r => max (-baseR rnd c a r) 0))
    let den (a : Fin n) : ℚ := max (prodA a) (consA a)
    let s := (List.finRange n).foldl (pfaStepR rnd)
      { pro1 := whereDivR rnd prodAB den, con1 := whereDivR rnd consAB den,
        pro2 := fun _ _ => 0, con2 := fun _ _ => 0 }
    fillDiagonal (fun a b => rnd (rnd (rnd (s.pro1 a b + s.con1 a b) + s.pro2 a b) + s.con2 a b))

/-- a matrix as the graph functions index it -/
def Mat.toN {n : Nat} (M : Mat n) : NMat := fun i j =>
  if hi : i < n then (if hj : j < n then M ⟨i, hi⟩ ⟨j, hj⟩ else 0) else 0

end Verif
