import Verif.Model.Dijkstra
import Mathlib.Order.Bounds.Basic
/-!
# Best path values

`WalkVal g one mul src v x`: some walk from `src` to `v` has value `x`, where the value of
a walk is obtained by multiplying `one` by the weights in order.
-/
namespace Verif.Spec
open Verif
variable {α K : Type}

inductive WalkVal (g : WGraph α K) (one : K) (mul : K → K → K) (src : α) : α → K → Prop
  | start : WalkVal g one mul src src one
  | step {v u : α} {x w : K} : WalkVal g one mul src v x → (u, some w) ∈ g.adj v →
      WalkVal g one mul src u (mul x w)

/-- What the search needs from the graph and the multiplication: it is finite, and
multiplying the (non-negative) value of a walk by the weight of a next edge is monotone,
stays non-negative and never increases it (true of exact and of correctly rounded
multiplication by weights in `[0,1]`). -/
structure Shrinking [LinearOrder K] (g : WGraph α K) (zero one : K) (mul : K → K → K) : Prop where
  closed : ∀ v ∈ g.nodes, ∀ e ∈ g.adj v, e.1 ∈ g.nodes
  one_nonneg : zero ≤ one
  shrink : ∀ v ∈ g.nodes, ∀ u w, (u, some w) ∈ g.adj v → ∀ src a, WalkVal g one mul src v a →
    zero ≤ a → zero ≤ mul a w ∧ mul a w ≤ a
  mono : ∀ v ∈ g.nodes, ∀ u w, (u, some w) ∈ g.adj v → ∀ src a b, WalkVal g one mul src v a →
    WalkVal g one mul src v b → zero ≤ a → a ≤ b → mul a w ≤ mul b w

/-- `ws` are the weights along a walk from `a` to `b` -/
inductive Walk (g : WGraph α K) : α → List K → α → Prop
  | nil (a : α) : Walk g a [] a
  | snoc {a v u : α} {ws : List K} {w : K} : Walk g a ws v → (u, some w) ∈ g.adj v →
      Walk g a (ws ++ [w]) u

/-- `p` lists the nodes of a path from `src` to `v`, in order, and `x` is its value -/
inductive NodePath (g : WGraph α K) (one : K) (mul : K → K → K) (src : α) :
    List α → α → K → Prop
  | start : NodePath g one mul src [src] src one
  | step {p : List α} {v u : α} {x w : K} : NodePath g one mul src p v x →
      (u, some w) ∈ g.adj v → NodePath g one mul src (p ++ [u]) u (mul x w)

end Verif.Spec
