import Mathlib.Order.Basic
import Mathlib.Order.Defs.LinearOrder
import Mathlib.Data.List.Basic
/-!
# `drgep.py:17-158`: the modified Dijkstra search

Weights live in an arbitrary linear order `K`; multiplication is a parameter `mul`, so
that exact and rounded multiplication are both covered.  The parameters `pred` and `paths`
(never passed by pyMARS itself) are modelled separately.
-/
namespace Verif

/-- A weighted digraph as seen by `mod_dijkstra`: `G.succ` with the result of `get_weight`
for each edge (`none` = edge hidden). -/
structure WGraph (α K : Type) where
  nodes : List α
  adj : α → List (α × Option K)

/-- A heap entry `(distance, counter, node)` (`drgep.py:64,92`). -/
abbrev Entry (α K : Type) := K × Nat × α

/-- Variables of `mod_dijkstra`: the dictionaries `dist` and `seen`, the heap `fringe` and
the next value of the counter `c` (`drgep.py:60-64`). -/
structure DijState (α K : Type) where
  dist : α → Option K
  seen : α → Option K
  fringe : List (Entry α K)
  cnt : Nat

variable {α K : Type} [DecidableEq α] [LinearOrder K]

/-- lexicographic order of heap tuples; counters are distinct, so nodes are never compared -/
def entryLt (a b : Entry α K) : Bool :=
  decide (a.1 < b.1) || (decide (a.1 = b.1) && decide (a.2.1 < b.2.1))

/-- `heappop`: remove the smallest entry.  The heap is a list in arbitrary order. -/
def popMin : List (Entry α K) → Option (Entry α K × List (Entry α K))
  | [] => none
  | e :: es =>
      match popMin es with
      | none => some (e, [])
      | some (x, rest) => if entryLt x e then some (x, e :: rest) else some (e, x :: rest)

/-- dictionary assignment -/
def setKey (f : α → Option K) (k : α) (v : K) : α → Option K :=
  fun x => if x = k then some v else f x

/-- `drgep.py:74-99`: one iteration of the `for u, e in G_succ[v].items()` loop, with
`dv = dist[v]`.  Note that the test against `seen` is an `elif` of
`if cutoff is not None`, so it is never reached when a cutoff is given. -/
def relaxEdge (mul : K → K → K) (cutoff : Option K) (dv : K) (s : DijState α K)
    (e : α × Option K) : DijState α K :=
  match e.2 with
  | none => s
  | some w =>
      let vu := mul dv w
      match cutoff with
      | some c => if vu < c then s else s
      | none =>
          let push : DijState α K :=
            { s with seen := setKey s.seen e.1 vu
                     fringe := (vu, s.cnt, e.1) :: s.fringe
                     cnt := s.cnt + 1 }
          match s.seen e.1 with
          | none => push
          | some y => if vu > y then push else s

/-- `drgep.py:66`: `v in dist and d < dist[v]` -/
def alreadySearched (dist : α → Option K) (v : α) (d : K) : Bool :=
  match dist v with
  | none => false
  | some x => decide (d < x)

/-- Result of one pass through the `while fringe` body. -/
inductive DijStep (α K : Type) where
  /-- loop left: the heap is empty or the target was reached -/
  | done (s : DijState α K)
  | cont (s : DijState α K)

/-- `drgep.py:65-99`: one iteration of `while fringe`. -/
def dijStep (g : WGraph α K) (one : K) (mul : K → K → K) (src : α) (cutoff : Option K)
    (target : Option α) (s : DijState α K) : DijStep α K :=
  match popMin s.fringe with
  | none => .done s
  | some ((d, _, v), rest) =>
      let s1 : DijState α K := { s with fringe := rest }
      if alreadySearched s.dist v d then .cont s1
      else
        let d' := if v = src then one else d
        let s2 : DijState α K := { s1 with dist := setKey s.dist v d' }
        if target = some v then .done s2
        else .cont ((g.adj v).foldl (relaxEdge mul cutoff d') s2)

/-- `drgep.py:60-64`: state before the loop. -/
def dijInit (zero : K) (src : α) : DijState α K where
  dist := fun _ => none
  seen := fun x => if x = src then some zero else none
  fringe := [(zero, 0, src)]
  cnt := 1

/-- The `while` loop with fuel: `none` = still running. -/
def dijLoop (g : WGraph α K) (one : K) (mul : K → K → K) (src : α) (cutoff : Option K)
    (target : Option α) : Nat → DijState α K → Option (α → Option K)
  | 0, _ => none
  | k + 1, s =>
      match dijStep g one mul src cutoff target s with
      | .done t => some t.dist
      | .cont t => dijLoop g one mul src cutoff target k t

/-- `drgep.py:17-105`: `mod_dijkstra` returning `dist`, run for at most `fuel` iterations. -/
def modDijkstra (g : WGraph α K) (zero one : K) (mul : K → K → K) (src : α)
    (cutoff : Option K) (target : Option α) (fuel : Nat) : Option (α → Option K) :=
  dijLoop g one mul src cutoff target fuel (dijInit zero src)

end Verif
