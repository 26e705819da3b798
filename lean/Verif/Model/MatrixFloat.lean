import Verif.Model.Reduce
import Verif.Model.MatrixRound
/-!
# Interaction-coefficient matrices with infinities and undefined numbers

The functions of `Model/MatrixRound` on all floating-point numbers: net rates of progress may be
infinite or NaN, and `R` rounds a finite result, to an infinity if it is too large.  Stoichiometric
coefficients are finite.  The second half follows such a matrix through the graph searches
(`drg.py:97-122`, `drgep.py:17-283`, `pfa.py:121-146`).
-/
namespace Verif

/-- what the matrix functions read from Cantera (see `Chem`), with floating-point rates -/
structure ChemF (n m : Nat) where
  prod : Fin n → Fin m → ℚ
  reac : Fin n → Fin m → ℚ
  rop : Fin m → PyF

/-- a square array of floating-point numbers -/
abbrev MatF (n : Nat) := Fin n → Fin n → PyF

/-- rounding of a result -/
def PyF.rd (R : ℚ → PyF) : PyF → PyF
  | .fin q => R q
  | x => x

/-- binary64: results from `2^1024` on become infinite -/
def rndInf (q : ℚ) : PyF :=
  if |rnd754 q| < 2 ^ 1024 then .fin (rnd754 q) else if q < 0 then .ninf else .inf

namespace ChemF
variable {n m : Nat} (c : ChemF n m)

/-- `drg.py:34-41` and its copies -/
def flag (b : Fin n) (r : Fin m) : Bool := c.prod b r != 0 || c.reac b r != 0

/-- `drg.py:44` and its copies: NaN is different from zero -/
def valid : List (Fin m) := (List.finRange m).filter (fun r => !((c.rop r).eq (.fin 0)))

/-- `drg.py:55` and its copies -/
def validWith (b : Fin n) : List (Fin m) := c.valid.filter (fun r => c.flag b r)

/-- `drg.py:33,47-48`, `drgep.py:180,193-195`, `pfa.py:33,46-49`: every entry of a row of
coefficients is multiplied, also the zeros -/
def base (R : ℚ → PyF) (a : Fin n) (r : Fin m) : PyF :=
  (((PyF.fin (c.prod a r - c.reac a r)).rd R).mul (c.rop r)).rd R

end ChemF

/-- `np.sum(..., axis=1)` over selected columns, in order -/
def sumOverF {m : Nat} (R : ℚ → PyF) (l : List (Fin m)) (f : Fin m → PyF) : PyF :=
  l.foldl (fun s r => (s.add (f r)).rd R) (.fin 0)

/-- `np.where(denominator != 0, numerator / denominator, 0)` -/
def whereDivF {n : Nat} (R : ℚ → PyF) (num : MatF n) (den : Fin n → PyF) : MatF n :=
  fun a b => if (den a).eq (.fin 0) then .fin 0 else ((num a b).div (den a)).rd R

/-- `np.fill_diagonal(adjacency_matrix, 0.0)` -/
def fillDiagonalF {n : Nat} (M : MatF n) : MatF n := fun a b => if a = b then .fin 0 else M a b

/-- total in the denominator of DRG (`drg.py:50`) -/
def drgTotalF {n m : Nat} (R : ℚ → PyF) (c : ChemF n m) (a : Fin n) : PyF :=
  sumOverF R c.valid (fun r => (c.base R a r).abs)

/-- `drg.py:14-70`: `create_drg_matrix` -/
def drgMatrixF {n m : Nat} (R : ℚ → PyF) (c : ChemF n m) : MatF n :=
  if c.valid.isEmpty then fillDiagonalF (fun _ _ => .fin 0)
  else
    let num : MatF n := fun a b =>
      ((PyF.fin 0).add (sumOverF R (c.validWith b) (fun r => (c.base R a r).abs))).rd R
    fillDiagonalF (whereDivF R num (drgTotalF R c))

/-- total in the denominator of DRGEP (`drgep.py:197-199`) and PFA (`pfa.py:50-51,67`) -/
def netTotalF {n m : Nat} (R : ℚ → PyF) (c : ChemF n m) (a : Fin n) : PyF :=
  (sumOverF R c.valid (fun r => (PyF.fin 0).nmax (c.base R a r))).nmax
    (sumOverF R c.valid (fun r => (PyF.fin 0).nmax (c.base R a r).neg))

/-- `drgep.py:161-220`: `create_drgep_matrix` -/
def drgepMatrixF {n m : Nat} (R : ℚ → PyF) (c : ChemF n m) : MatF n :=
  if c.valid.isEmpty then fillDiagonalF (fun _ _ => .fin 0)
  else
    let num : MatF n := fun a b =>
      (((PyF.fin 0).add (sumOverF R (c.validWith b) (c.base R a))).rd R).abs
    fillDiagonalF (whereDivF R num (netTotalF R c))

/-- arrays mutated by the loop of PFA, see `PfaState` -/
structure PfaStateF (n : Nat) where
  pro1 : MatF n
  con1 : MatF n
  pro2 : MatF n
  con2 : MatF n

/-- assignment of one array element in place -/
def setEntryF {n : Nat} (M : MatF n) (i j : Fin n) (v : PyF) : MatF n :=
  fun a b => if a = i ∧ b = j then v else M a b

/-- `pfa.py:76-85`: one iteration, see `pfaStep` -/
def pfaStepF {n : Nat} (R : ℚ → PyF) (s : PfaStateF n) (k : Fin n) : PfaStateF n :=
  let P := setEntryF (setEntryF s.pro1 k k (.fin 0)) k k (.fin 0)
  let C := setEntryF (setEntryF s.con1 k k (.fin 0)) k k (.fin 0)
  { pro1 := P
    con1 := C
    pro2 := fun a b => ((s.pro2 a b).add (((P a k).mul (P k b)).rd R)).rd R
    con2 := fun a b => ((s.con2 a b).add (((C a k).mul (C k b)).rd R)).rd R }

/-- `pfa.py:14-94`: `create_pfa_matrix` -/
def pfaMatrixF {n m : Nat} (R : ℚ → PyF) (c : ChemF n m) : MatF n :=
  if c.valid.isEmpty then fillDiagonalF (fun _ _ => .fin 0)
  else
    let prodAB : MatF n := fun a b =>
      ((PyF.fin 0).add (sumOverF R (c.validWith b) (fun r => (PyF.fin 0).nmax (c.base R a r)))).rd R
    let consAB : MatF n := fun a b =>
      ((PyF.fin 0).add
        (sumOverF R (c.validWith b) (fun r => (PyF.fin 0).nmax (c.base R a r).neg))).rd R
    let s := (List.finRange n).foldl (pfaStepF R)
      { pro1 := whereDivF R prodAB (netTotalF R c), con1 := whereDivF R consAB (netTotalF R c),
        pro2 := fun _ _ => .fin 0, con2 := fun _ _ => .fin 0 }
    fillDiagonalF (fun a b =>
      (((((s.pro1 a b).add (s.con1 a b)).rd R).add (s.pro2 a b)).rd R |>.add (s.con2 a b)).rd R)

/-- the matrix of a method -/
def matrixF {n m : Nat} (meth : Method) (R : ℚ → PyF) (c : ChemF n m) : MatF n :=
  match meth with
  | .drg => drgMatrixF R c
  | .drgep => drgepMatrixF R c
  | .pfa => pfaMatrixF R c

/-- a matrix as the graph functions index it -/
abbrev NMatF := Nat → Nat → PyF

def MatF.toN {n : Nat} (M : MatF n) : NMatF := fun i j =>
  if hi : i < n then (if hj : j < n then M ⟨i, hi⟩ ⟨j, hj⟩ else .fin 0) else .fin 0

/-! ### graph searches -/

/-- `drg.py:117-119`, `pfa.py:141-143`: `np.where(matrix >= threshold, matrix, 0.0)`; edges are the
non-zero entries -/
def thresholdGraphF (M : NMatF) (names : List String) (thr : ℚ) : Digraph String where
  nodes := names
  succ := fun s =>
    match names.idxOf? s with
    | none => []
    | some i =>
        ((List.range names.length).filter
          (fun j => !((if (PyF.fin thr).le (M i j) then M i j else .fin 0).eq (.fin 0)))).filterMap
            (fun j => names[j]?)

/-- `drg.py:97-122`, `pfa.py:121-146` -/
def trimDrgF (M : NMatF) (names targets : List String) (thr : ℚ) : Except Err (List String) :=
  graphSearch (thresholdGraphF M names thr) targets

/-- `drgep.py:273-275`: `networkx.DiGraph(matrix)`; an undefined entry is not zero, so it is an
edge -/
def matrixGraphF (M : NMatF) (names : List String) : WGraph String PyF where
  nodes := names
  adj := fun s =>
    match names.idxOf? s with
    | none => []
    | some i =>
        ((List.range names.length).filter (fun j => !((M i j).eq (.fin 0)))).filterMap
          (fun j => (names[j]?).map (fun u => (u, some (M i j))))

section
variable {α : Type} [DecidableEq α]

/-- `heappop`.  With undefined numbers the heap is not ordered and which entry is popped depends on
the layout of the heap: it is a parameter. -/
abbrev Pop (α : Type) := List (Entry α PyF) → Option (Entry α PyF × List (Entry α PyF))

/-- dictionary assignment -/
def setKeyF (f : α → Option PyF) (k : α) (v : PyF) : α → Option PyF :=
  fun x => if x = k then some v else f x

/-- `drgep.py:74-99`, without cutoff -/
def relaxEdgeF (R : ℚ → PyF) (dv : PyF) (s : DijState α PyF) (e : α × Option PyF) :
    DijState α PyF :=
  match e.2 with
  | none => s
  | some w =>
      let vu := (dv.mul w).rd R
      let push : DijState α PyF :=
        { s with seen := setKeyF s.seen e.1 vu
                 fringe := (vu, s.cnt, e.1) :: s.fringe
                 cnt := s.cnt + 1 }
      match s.seen e.1 with
      | none => push
      | some y => if y.lt vu then push else s

/-- `drgep.py:66`: `v in dist and d < dist[v]` -/
def alreadySearchedF (dist : α → Option PyF) (v : α) (d : PyF) : Bool :=
  match dist v with
  | none => false
  | some x => d.lt x

/-- `drgep.py:65-99`: one iteration of `while fringe`; `none` when the heap is empty -/
def dijStepF (pop : Pop α) (g : WGraph α PyF) (R : ℚ → PyF) (src : α) (s : DijState α PyF) :
    Option (DijState α PyF) :=
  match pop s.fringe with
  | none => none
  | some ((d, _, v), rest) =>
      let s1 : DijState α PyF := { s with fringe := rest }
      if alreadySearchedF s.dist v d then some s1
      else
        let d' := if v = src then .fin 1 else d
        some ((g.adj v).foldl (relaxEdgeF R d') { s1 with dist := setKeyF s.dist v d' })

/-- the loop, for at most `fuel` passes -/
def dijLoopF (pop : Pop α) (g : WGraph α PyF) (R : ℚ → PyF) (src : α) :
    Nat → DijState α PyF → Option (α → Option PyF)
  | 0, _ => none
  | k + 1, s =>
      match dijStepF pop g R src s with
      | none => some s.dist
      | some t => dijLoopF pop g R src k t

/-- `drgep.py:60-64` -/
def dijInitF (src : α) : DijState α PyF where
  dist := fun _ => none
  seen := fun x => if x = src then some (.fin 0) else none
  fringe := [(.fin 0, 0, src)]
  cnt := 1

end

/-- `drgep.py:108-158` -/
def ssDijkstraF (pop : Pop String) (R : ℚ → PyF) (g : WGraph String PyF) (src : String) (fuel : Nat) :
    Except Err (String → Option PyF) :=
  if src ∈ g.nodes then
    match dijLoopF pop g R src fuel (dijInitF src) with
    | some d => .ok d
    | none => .error .outOfFuel
  else .error .keyError

/-- python `max(a, b)`: the second argument only if it compares greater -/
def pyMax2 (a b : PyF) : PyF := if a.lt b then b else a

/-- `drgep.py:245-248` -/
def mergeMaxF (overall coeffs : String → Option PyF) : String → Option PyF := fun sp =>
  match coeffs sp with
  | none => overall sp
  | some c => some (pyMax2 ((overall sp).getD (.fin 0)) c)

/-- `drgep.py:239-250` -/
def searchLoopF (pop : Pop String) (R : ℚ → PyF) (g : WGraph String PyF) (fuel : Nat) :
    List String → (String → Option PyF) → Except Err (String → Option PyF)
  | [], overall => .ok overall
  | t :: ts, overall =>
      match ssDijkstraF pop R g t fuel with
      | .error e => .error e
      | .ok coeffs => searchLoopF pop R g fuel ts (mergeMaxF overall (setKeyF coeffs t (.fin 1)))

/-- `drgep.py:278-281` -/
def maxIntoF (coeffs imp : String → Option PyF) : String → Option PyF := fun sp =>
  (imp sp).map (fun v => pyMax2 ((coeffs sp).getD (.fin 0)) v)

/-- `drgep.py:272-280` -/
def importanceLoopF (pop : Pop String) (R : ℚ → PyF) (names targets : List String) (fuel : Nat) :
    List NMatF → (String → Option PyF) → Except Err (String → Option PyF)
  | [], imp => .ok imp
  | M :: Ms, imp =>
      match searchLoopF pop R (matrixGraphF M names) fuel targets (fun _ => none) with
      | .error e => .error e
      | .ok coeffs => importanceLoopF pop R names targets fuel Ms (maxIntoF coeffs imp)

/-- `drgep.py:253-283`: `get_importance_coeffs` -/
def importanceF (pop : Pop String) (R : ℚ → PyF) (names targets : List String)
    (matrices : List NMatF) (fuel : Nat) : Except Err (String → Option PyF) :=
  importanceLoopF pop R names targets fuel matrices
    (fun sp => if sp ∈ names then some (.fin 0) else none)

end Verif
