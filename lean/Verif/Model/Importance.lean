import Verif.Model.Dijkstra
import Verif.Model.Graph
/-!
# DRGEP importance coefficients (`drgep.py:108-158, 223-283`)

Dictionaries keyed by species names are functions into `Option`.  Every multiplication of
path values is followed by the rounding operator `rnd` (identity = exact arithmetic).
-/
namespace Verif

/-- `drgep.py:273-275`: `networkx.DiGraph(matrix)` relabelled by species names; edges are
the non-zero entries with the entry as `weight`. -/
def matrixGraph (M : NMat) (names : List String) : WGraph String ℚ where
  nodes := names
  adj := fun s =>
    match names.idxOf? s with
    | none => []
    | some i =>
        ((List.range names.length).filter (fun j => M i j != 0)).filterMap
          (fun j => (names[j]?).map (fun u => (u, some (M i j))))

/-- `drgep.py:108-158`: `ss_dijkstra_path_length_modified(graph, source)` for a graph that is
not a multigraph.  A source that is not a node raises `KeyError` at `drgep.py:74`. -/
def ssDijkstra (rnd : ℚ → ℚ) (g : WGraph String ℚ) (src : String) (fuel : Nat) :
    Except Err (String → Option ℚ) :=
  if src ∈ g.nodes then
    match modDijkstra g 0 1 (fun a b => rnd (a * b)) src none none fuel with
    | some d => .ok d
    | none => .error .outOfFuel
  else .error .keyError

/-- `drgep.py:245-248`: for every key of `coefficients` take the maximum. -/
def mergeMax (overall coeffs : String → Option ℚ) : String → Option ℚ := fun sp =>
  match coeffs sp with
  | none => overall sp
  | some c => some (max ((overall sp).getD 0) c)

/-- `drgep.py:239-250`: the loop over targets. -/
def searchLoop (rnd : ℚ → ℚ) (g : WGraph String ℚ) (fuel : Nat) :
    List String → (String → Option ℚ) → Except Err (String → Option ℚ)
  | [], overall => .ok overall
  | t :: ts, overall =>
      match ssDijkstra rnd g t fuel with
      | .error e => .error e
      | .ok coeffs => searchLoop rnd g fuel ts (mergeMax overall (setKey coeffs t 1))

/-- `drgep.py:223-250`: `graph_search_drgep`. -/
def graphSearchDrgep (rnd : ℚ → ℚ) (g : WGraph String ℚ) (targets : List String) (fuel : Nat) :
    Except Err (String → Option ℚ) :=
  searchLoop rnd g fuel targets (fun _ => none)

/-- `drgep.py:278-281`: the dictionary comprehension. -/
def maxInto (coeffs imp : String → Option ℚ) : String → Option ℚ := fun sp =>
  (imp sp).map (fun v => max ((coeffs sp).getD 0) v)

/-- `drgep.py:272-280`: the loop over matrices. -/
def importanceLoop (rnd : ℚ → ℚ) (names targets : List String) (fuel : Nat) :
    List NMat → (String → Option ℚ) → Except Err (String → Option ℚ)
  | [], imp => .ok imp
  | M :: Ms, imp =>
      match graphSearchDrgep rnd (matrixGraph M names) targets fuel with
      | .error e => .error e
      | .ok coeffs => importanceLoop rnd names targets fuel Ms (maxInto coeffs imp)

/-- `drgep.py:253-283`: `get_importance_coeffs`. -/
def getImportanceCoeffs (rnd : ℚ → ℚ) (names targets : List String) (matrices : List NMat) (fuel : Nat) :
    Except Err (String → Option ℚ) :=
  importanceLoop rnd names targets fuel matrices (fun sp => if sp ∈ names then some 0 else none)

end Verif
