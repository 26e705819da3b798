import Verif.Model.MatrixRound
import Verif.Model.Reduce
import Mathlib.Data.Fin.VecNotation
/-!
# Interaction-coefficient matrices with a free order of additions

`np.sum(..., axis=1)` does not promise an order of additions: arrays stored by columns are added
column by column (`Model/MatrixRound`), contiguous rows are added in blocks ("partial pairwise
summation").  Here the two kinds of sums, over all reactions with a rate (`tot`) and over those that
involve a species (`part`), are arbitrary functions of the list of terms.
-/
namespace Verif

/-- terms added one after the other, starting from zero: `np.sum(..., axis=1)` of an array stored
by columns (`drg.py:51,54-56`, `drgep.py:197-198,203-205`, `pfa.py:50-51,55-64`). -/
def seqSum (rnd : ℚ → ℚ) (l : List ℚ) : ℚ := l.foldl (fun s x => rnd (s + x)) 0

/-- eight running sums, each taking every eighth term, as long as eight terms are left; used by
`np.sum` on contiguous rows (`drg.py:51,54-56`, `drgep.py:197-198,203-205`, `pfa.py:50-51,55-64`). -/
def laneSums (rnd : ℚ → ℚ) (r : Fin 8 → ℚ) : List ℚ → (Fin 8 → ℚ) × List ℚ
  | x0 :: x1 :: x2 :: x3 :: x4 :: x5 :: x6 :: x7 :: l =>
      laneSums rnd (fun j => rnd (r j + ![x0, x1, x2, x3, x4, x5, x6, x7] j)) l
  | l => (r, l)

/-- a block of at most 128 terms in `np.sum` on contiguous rows: fewer than eight terms are added in
order, otherwise eight running sums are formed, added as a tree, and the terms left over are added
in order (`drg.py:51,54-56`, `drgep.py:197-198,203-205`, `pfa.py:50-51,55-64`). -/
def blockSum (rnd : ℚ → ℚ) : List ℚ → ℚ
  | x0 :: x1 :: x2 :: x3 :: x4 :: x5 :: x6 :: x7 :: l =>
      let p := laneSums rnd ![x0, x1, x2, x3, x4, x5, x6, x7] l
      let r := p.1
      let t := rnd (rnd (rnd (r 0 + r 1) + rnd (r 2 + r 3)) + rnd (rnd (r 4 + r 5) + rnd (r 6 + r 7)))
      p.2.foldl (fun s x => rnd (s + x)) t
  | l => seqSum rnd l

/-- `np.sum(..., axis=1)` on contiguous rows: more than 128 terms are split in halves, the first of
which is rounded down to a multiple of eight (`drg.py:51,54-56`, `drgep.py:197-198,203-205`,
`pfa.py:50-51,55-64`).  The first argument bounds the depth of splitting; the length of the list is
always enough. -/
def pairSumAux (rnd : ℚ → ℚ) : Nat → List ℚ → ℚ
  | 0, l => blockSum rnd l
  | k + 1, l =>
      if l.length ≤ 128 then blockSum rnd l
      else
        let h := l.length / 2 - (l.length / 2) % 8
        rnd (pairSumAux rnd k (l.take h) + pairSumAux rnd k (l.drop h))

/-- `np.sum(..., axis=1)` on contiguous rows, see `pairSumAux`
(`drg.py:51,54-56`, `drgep.py:197-198,203-205`, `pfa.py:50-51,55-64`). -/
def pairSum (rnd : ℚ → ℚ) (l : List ℚ) : ℚ := pairSumAux rnd l.length l

/-- `drg.py:14-70`: `create_drg_matrix`; see `drgMatrixR`. -/
def drgMatrixS {n m : Nat} (rnd : ℚ → ℚ) (tot part : List ℚ → ℚ) (c : Chem n m) : Mat n :=
  if c.valid.isEmpty then fillDiagonal (fun _ _ => 0)
  else
    let den (a : Fin n) : ℚ := tot (c.valid.map (fun r => |baseR rnd c a r|))
    let num : Mat n := fun a b => rnd (0 + part ((c.validWith b).map (fun r => |baseR rnd c a r|)))
    fillDiagonal (whereDivR rnd num den)

/-- `drgep.py:161-220`: `create_drgep_matrix`; see `drgepMatrixR`. -/
def drgepMatrixS {n m : Nat} (rnd : ℚ → ℚ) (tot part : List ℚ → ℚ) (c : Chem n m) : Mat n :=
  if c.valid.isEmpty then fillDiagonal (fun _ _ => 0)
  else
    let dest (a : Fin n) : ℚ := tot (c.valid.map (fun r => max 0 (-baseR rnd c a r)))
    let prod (a : Fin n) : ℚ := tot (c.valid.map (fun r => max 0 (baseR rnd c a r)))
    let den (a : Fin n) : ℚ := max (prod a) (dest a)
    let num : Mat n := fun a b => |rnd (0 + part ((c.validWith b).map (baseR rnd c a)))|
    fillDiagonal (whereDivR rnd num den)

/-- `pfa.py:14-94`: `create_pfa_matrix`; see `pfaMatrixR`.  The sum over intermediate species is a
loop in the source (`pfa.py:76-85`), so its order is fixed. -/
def pfaMatrixS {n m : Nat} (rnd : ℚ → ℚ) (tot part : List ℚ → ℚ) (c : Chem n m) : Mat n :=
  if c.valid.isEmpty then fillDiagonal (fun _ _ => 0)
  else
    let prodA (a : Fin n) : ℚ := tot (c.valid.map (fun r => max (baseR rnd c a r) 0))
    let consA (a : Fin n) : ℚ := tot (c.valid.map (fun r => max (-baseR rnd c a r) 0))
    let prodAB : Mat n := fun a b =>
      rnd (0 + part ((c.validWith b).map (fun r => max (baseR rnd c a r) 0)))
    let consAB : Mat n := fun a b =>
      rnd (0 + part ((c.validWith b).map (fun r => max (-baseR rnd c a r) 0)))
    let den (a : Fin n) : ℚ := max (prodA a) (consA a)
    let s := (List.finRange n).foldl (pfaStepR rnd)
      { pro1 := whereDivR rnd prodAB den, con1 := whereDivR rnd consAB den,
        pro2 := fun _ _ => 0, con2 := fun _ _ => 0 }
    fillDiagonal (fun a b => rnd (rnd (rnd (s.pro1 a b + s.con1 a b) + s.pro2 a b) + s.con2 a b))

/-- the matrix of a method (`drg.py:14-70`, `drgep.py:161-220`, `pfa.py:14-94`), as the graph
functions index it -/
def matrixOfS {n m : Nat} (meth : Method) (rnd : ℚ → ℚ) (tot part : List ℚ → ℚ) (c : Chem n m) :
    NMat :=
  match meth with
  | .drg => (drgMatrixS rnd tot part c).toN
  | .drgep => (drgepMatrixS rnd tot part c).toN
  | .pfa => (pfaMatrixS rnd tot part c).toN

end Verif
