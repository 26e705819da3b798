import Mathlib.Algebra.Order.Field.Rat
import Mathlib.Data.List.Dedup
/-!
# Graph search of DRG and PFA (`drg.py:73-122`, `pfa.py:97-146`)
-/
namespace Verif

/-- Exceptions that the modelled code can raise. -/
inductive Err where
  | keyError | assertionError | valueError | attributeError | unboundLocal
  | systemExit | runtimeError | notImplemented | fileNotFound | typeError | indexError
  | systemError | zeroDivision | outOfFuel
deriving DecidableEq, Repr

/-- A `networkx.DiGraph` reduced to its nodes and adjacency lists. -/
structure Digraph (α : Type) where
  nodes : List α
  succ : α → List α

/-- State of networkx's iterative depth-first search (`networkx.dfs_preorder_nodes`, called
at `drg.py:91` and `pfa.py:115`): the discovered nodes in order of discovery, which are
both the `visited` set and the nodes yielded so far, and the stack of child iterators. -/
structure DfsState (α : Type) where
  visited : List α
  stack : List (List α)

/-- One step of the DFS loop: resume the iterator on top of the stack. The depth limit
(number of nodes) of networkx can never be reached and is not modelled. -/
def dfsStep {α} [DecidableEq α] (succ : α → List α) (s : DfsState α) : DfsState α :=
  match s.stack with
  | [] => s
  | [] :: rest => { s with stack := rest }
  | (c :: cs) :: rest =>
      if c ∈ s.visited then { s with stack := cs :: rest }
      else { visited := s.visited ++ [c], stack := succ c :: cs :: rest }

/-- The DFS loop: run until the stack is empty; `none` when out of fuel. -/
def dfsLoop {α} [DecidableEq α] (succ : α → List α) : Nat → DfsState α → Option (List α)
  | 0, s => if s.stack = [] then some s.visited else none
  | k + 1, s => if s.stack = [] then some s.visited else dfsLoop succ k (dfsStep succ s)

/-- A number of steps that is always enough (proved in C10): each node is expanded once. -/
def dfsFuel {α} (g : Digraph α) : Nat :=
  (g.nodes.map (fun v => (g.succ v).length + 2)).sum

/-- `networkx.dfs_preorder_nodes(graph, source)`; `KeyError` when the source is not a node. -/
def dfsPreorder {α} [DecidableEq α] (g : Digraph α) (source : α) : Except Err (List α) :=
  if source ∈ g.nodes then
    match dfsLoop g.succ (dfsFuel g) { visited := [source], stack := [g.succ source] } with
    | some l => .ok l
    | none => .error .outOfFuel
  else .error .keyError

/-- the loop at `drg.py:89-91` -/
def graphSearchLoop {α} [DecidableEq α] (g : Digraph α) : List α → List α → Except Err (List α)
  | acc, [] => .ok acc
  | acc, t :: ts =>
      match dfsPreorder g t with
      | .ok l => graphSearchLoop g (acc ++ l) ts
      | .error e => .error e

/-- `drg.py:73-94`, `pfa.py:97-118`: `graph_search`.  `list(set(...))` has unspecified
order; the model removes repetitions and keeps some order. -/
def graphSearch {α} [DecidableEq α] (g : Digraph α) (targets : List α) : Except Err (List α) :=
  (graphSearchLoop g [] targets).map List.dedup

/-- A numpy array indexed by natural numbers; only indices below the number of species are
ever read. -/
abbrev NMat := Nat → Nat → ℚ

/-- `drg.py:117-119`, `pfa.py:141-143`: `networkx.DiGraph(np.where(matrix >= threshold,
matrix, 0.0))` relabelled by species names.  Edges are the non-zero entries. -/
def thresholdGraph (M : NMat) (names : List String) (thr : ℚ) : Digraph String where
  nodes := names
  succ := fun s =>
    match names.idxOf? s with
    | none => []
    | some i =>
        ((List.range names.length).filter
          (fun j => (if M i j ≥ thr then M i j else 0) != 0)).filterMap (fun j => names[j]?)

/-- `drg.py:97-122` `trim_drg` and the identical `pfa.py:121-146` `trim_pfa`. -/
def trimDrg (M : NMat) (names targets : List String) (thr : ℚ) : Except Err (List String) :=
  graphSearch (thresholdGraph M names thr) targets

end Verif
