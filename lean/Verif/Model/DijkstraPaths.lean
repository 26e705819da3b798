import Verif.Model.Dijkstra
import Verif.Model.Graph
/-!
# `drgep.py:17-105`: the optional outputs `paths` and `pred` of the modified Dijkstra search

The two dictionaries are supplied by the caller and filled in as the search runs; `none` is
Python's `None`.  Looking up a missing key raises `KeyError`.
-/
namespace Verif
variable {α K : Type} [DecidableEq α] [LinearOrder K]

/-- Variables of `mod_dijkstra` with the two dictionaries of the caller (`drgep.py:17-18`). -/
structure DijX (α K : Type) where
  base : DijState α K
  paths : Option (α → Option (List α))
  pred : Option (α → Option (List α))

/-- assignment in a dictionary of lists -/
def setList (f : α → Option (List α)) (k : α) (v : List α) : α → Option (List α) :=
  fun x => if x = k then some v else f x

/-- `drgep.py:93-94`: `paths[u] = paths[v] + [u]` -/
def notePath (paths : Option (α → Option (List α))) (v u : α) :
    Except Err (Option (α → Option (List α))) :=
  match paths with
  | none => .ok none
  | some ps =>
      match ps v with
      | none => .error .keyError
      | some l => .ok (some (setList ps u (l ++ [u])))

/-- `drgep.py:98-99`: `pred[u].append(v)` -/
def appendPred (pred : Option (α → Option (List α))) (v u : α) :
    Except Err (Option (α → Option (List α))) :=
  match pred with
  | none => .ok none
  | some pr =>
      match pr u with
      | none => .error .keyError
      | some l => .ok (some (setList pr u (l ++ [v])))

/-- `drgep.py:91-96`: a better path to `u` through `v` -/
def pushX (vu : K) (v u : α) (s : DijX α K) : Except Err (DijX α K) :=
  match notePath s.paths v u with
  | .error e => .error e
  | .ok ps => .ok
      { base := { s.base with seen := setKey s.base.seen u vu
                              fringe := (vu, s.base.cnt, u) :: s.base.fringe
                              cnt := s.base.cnt + 1 }
        paths := ps
        pred := s.pred.map (fun pr => setList pr u [v]) }

/-- `drgep.py:74-99`: one iteration of the loop over the edges of `v`, with `dv = dist[v]`. -/
def relaxEdgeX (mul : K → K → K) (cutoff : Option K) (v : α) (dv : K) (s : DijX α K)
    (e : α × Option K) : Except Err (DijX α K) :=
  match e.2 with
  | none => .ok s
  | some w =>
      let vu := mul dv w
      match cutoff with
      | some c => if vu < c then .ok s else .ok s
      | none =>
          match s.base.seen e.1 with
          | none => pushX vu v e.1 s
          | some y =>
              if vu > y then pushX vu v e.1 s
              else if vu = y then
                match appendPred s.pred v e.1 with
                | .error x => .error x
                | .ok pr => .ok { s with pred := pr }
              else .ok s

/-- the loop over the edges of `v` -/
def relaxAllX (mul : K → K → K) (cutoff : Option K) (v : α) (dv : K) :
    List (α × Option K) → DijX α K → Except Err (DijX α K)
  | [], s => .ok s
  | e :: es, s =>
      match relaxEdgeX mul cutoff v dv s e with
      | .error x => .error x
      | .ok t => relaxAllX mul cutoff v dv es t

/-- Result of one pass through the `while fringe` body. -/
inductive DijStepX (α K : Type) where
  | done (s : DijX α K)
  | cont (s : DijX α K)

/-- `drgep.py:65-99`: one iteration of `while fringe`. -/
def dijStepX (g : WGraph α K) (one : K) (mul : K → K → K) (src : α) (cutoff : Option K)
    (target : Option α) (s : DijX α K) : Except Err (DijStepX α K) :=
  match popMin s.base.fringe with
  | none => .ok (.done s)
  | some ((d, _, v), rest) =>
      if alreadySearched s.base.dist v d then
        .ok (.cont { s with base := { s.base with fringe := rest } })
      else
        let d' := if v = src then one else d
        let s2 : DijX α K :=
          { s with base := { s.base with fringe := rest, dist := setKey s.base.dist v d' } }
        if target = some v then .ok (.done s2)
        else match relaxAllX mul cutoff v d' (g.adj v) s2 with
          | .error x => .error x
          | .ok t => .ok (.cont t)

/-- The `while` loop with fuel: `none` = still running. -/
def dijLoopX (g : WGraph α K) (one : K) (mul : K → K → K) (src : α) (cutoff : Option K)
    (target : Option α) : Nat → DijX α K → Option (Except Err (DijX α K))
  | 0, _ => none
  | k + 1, s =>
      match dijStepX g one mul src cutoff target s with
      | .error x => some (.error x)
      | .ok (.done t) => some (.ok t)
      | .ok (.cont t) => dijLoopX g one mul src cutoff target k t

/-- `drgep.py:17-105`: `mod_dijkstra` with the dictionaries `paths` and `pred`; the final
variables, from which the return value is picked at `drgep.py:101-105`. -/
def modDijkstraX (g : WGraph α K) (zero one : K) (mul : K → K → K) (src : α)
    (pred paths : Option (α → Option (List α))) (cutoff : Option K) (target : Option α)
    (fuel : Nat) : Option (Except Err (DijX α K)) :=
  dijLoopX g one mul src cutoff target fuel ⟨dijInit zero src, paths, pred⟩

/-- what is returned: `(dist, paths)`, `(pred, dist)` or `dist` (`drgep.py:101-105`) -/
inductive DijOut (α K : Type) where
  | withPaths (dist : α → Option K) (paths : α → Option (List α))
  | withPred (pred : α → Option (List α)) (dist : α → Option K)
  | distOnly (dist : α → Option K)

/-- `drgep.py:101-105` -/
def DijX.out (s : DijX α K) : DijOut α K :=
  match s.paths, s.pred with
  | some ps, _ => .withPaths s.base.dist ps
  | none, some pr => .withPred pr s.base.dist
  | none, none => .distOnly s.base.dist

/-- the dictionary `{source: [source]}` / `{source: []}` -/
def singleKey (src : α) (l : List α) : α → Option (List α) := fun x => if x = src then some l else none

end Verif
