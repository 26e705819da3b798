import Verif.Lemmas.Graph
import Verif.Spec.Graph
/-!
# C10, C11: graph search and threshold trimming
-/
namespace Verif
open Relation

/-- **C10.** On every finite directed graph the search terminates without error and
returns, without repetition, exactly the nodes reachable from at least one target. -/
theorem C10_graph_search {α : Type} [DecidableEq α] (g : Digraph α)
    (hg : ∀ a ∈ g.nodes, ∀ b ∈ g.succ a, b ∈ g.nodes)
    (targets : List α) (ht : ∀ t ∈ targets, t ∈ g.nodes) :
    ∃ l, graphSearch g targets = .ok l ∧ l.Nodup ∧
      ∀ v, v ∈ l ↔ ∃ t ∈ targets, ReflTransGen (fun a b => b ∈ g.succ a) t v :=
  graphSearch_spec hg targets ht

/-- **C10.** A target that is not a node raises `KeyError`. -/
theorem C10_graph_search_missing {α : Type} [DecidableEq α] (g : Digraph α)
    (hg : ∀ a ∈ g.nodes, ∀ b ∈ g.succ a, b ∈ g.nodes)
    (targets : List α) (ht : ∃ t ∈ targets, t ∉ g.nodes) :
    graphSearch g targets = .error .keyError :=
  graphSearch_error hg targets ht

/-- a graph with a cycle, a self loop and an unreachable node -/
def exGraph : Digraph Nat where
  nodes := [0, 1, 2, 3]
  succ := fun | 0 => [1] | 1 => [0, 1, 2] | 3 => [0] | _ => []

example : (∀ a ∈ exGraph.nodes, ∀ b ∈ exGraph.succ a, b ∈ exGraph.nodes) ∧
    (∀ t ∈ [0, 0, 2], t ∈ exGraph.nodes) ∧ graphSearch exGraph [0, 0, 2] = .ok [0, 1, 2] := by
  refine ⟨by decide, by decide, by rfl⟩

/-- **C11.** `trim_drg` / `trim_pfa` return exactly the species linked to a target by a
path of strong edges, without repetition. -/
theorem C11_trim_paths (M : NMat) (names targets : List String) (thr : ℚ)
    (hn : names.Nodup) (ht : ∀ t ∈ targets, t ∈ names) :
    ∃ l, trimDrg M names targets thr = .ok l ∧ l.Nodup ∧
      ∀ s, s ∈ l ↔ Spec.Linked M names targets thr s := by
  obtain ⟨l, h1, h2, h3⟩ := graphSearch_spec (thresholdGraph_ok M names thr) targets ht
  refine ⟨l, h1, h2, fun s => ?_⟩
  rw [h3]
  have : (thresholdGraph M names thr).Edge = Spec.StrongEdge M names thr := by
    funext a b; exact propext (thresholdGraph_edge M names hn thr a b)
  rw [this]; rfl

/-- **C11.** A target that is not a species raises an error. -/
theorem C11_trim_missing_target (M : NMat) (names targets : List String) (thr : ℚ)
    (ht : ∃ t ∈ targets, t ∉ names) : trimDrg M names targets thr = .error .keyError :=
  graphSearch_error (thresholdGraph_ok M names thr) targets ht

/-- **C11.** All targets are kept, everything kept is a species of the model. -/
theorem C11_targets_kept (M : NMat) (names targets : List String) (thr : ℚ)
    (hn : names.Nodup) {l : List String} (hl : trimDrg M names targets thr = .ok l) :
    (∀ t ∈ targets, t ∈ l) ∧ ∀ s ∈ l, s ∈ names := by
  have ht : ∀ t ∈ targets, t ∈ names := by
    by_contra h; push Not at h
    rw [C11_trim_missing_target M names targets thr h] at hl; cases hl
  obtain ⟨l', h1, -, h3⟩ := C11_trim_paths M names targets thr hn ht
  obtain rfl : l = l' := by rw [h1] at hl; cases hl; rfl
  refine ⟨fun t h => (h3 t).2 ⟨t, h, ReflTransGen.refl⟩, fun s hs => ?_⟩
  obtain ⟨t, h, hr⟩ := (h3 s).1 hs
  cases hr with
  | refl => exact ht _ h
  | tail _ h2 => obtain ⟨i, j, -, hj, -⟩ := h2; exact List.mem_of_getElem? hj

/-- **C11.** Raising the threshold never adds a species, adding targets never removes one. -/
theorem C11_trim_monotone (M : NMat) (names targets targets' : List String) (thr thr' : ℚ)
    (hn : names.Nodup) (hthr : thr ≤ thr') (hsub : ∀ t ∈ targets', t ∈ targets)
    {l l' : List String} (hl : trimDrg M names targets thr = .ok l)
    (hl' : trimDrg M names targets' thr' = .ok l') : ∀ s ∈ l', s ∈ l := by
  have key : ∀ (ts : List String) (x : ℚ) (k : List String), trimDrg M names ts x = .ok k →
      ∀ s, s ∈ k ↔ Spec.Linked M names ts x s := by
    intro ts x k hk
    have ht : ∀ t ∈ ts, t ∈ names := by
      by_contra h; push Not at h
      rw [C11_trim_missing_target M names ts x h] at hk; cases hk
    obtain ⟨k', h1, -, h3⟩ := C11_trim_paths M names ts x hn ht
    obtain rfl : k = k' := by rw [h1] at hk; cases hk; rfl
    exact h3
  intro s hs
  rw [key _ _ _ hl]
  obtain ⟨t, h, hr⟩ := (key _ _ _ hl' s).1 hs
  refine ⟨t, hsub t h, ReflTransGen.mono (p := Spec.StrongEdge M names thr) ?_ t s hr⟩
  rintro a b ⟨i, j, h1, h2, h3, h4⟩
  exact ⟨i, j, h1, h2, hthr.trans h3, h4⟩

/-- example matrix: A → B strong, B → C weak -/
def exNMat : NMat := fun i j =>
  if i = 0 ∧ j = 1 then 1/2 else if i = 1 ∧ j = 2 then 1/10 else 0

example : ["A", "B", "C"].Nodup ∧ (∀ t ∈ ["A"], t ∈ ["A", "B", "C"]) ∧
    trimDrg exNMat ["A", "B", "C"] ["A"] (1/10) = .ok ["A", "B", "C"] ∧
    trimDrg exNMat ["A", "B", "C"] ["A"] (1/5) = .ok ["A", "B"] ∧
    trimDrg exNMat ["A", "B", "C"] ["A"] (-1) = .ok ["A", "B", "C"] ∧
    trimDrg exNMat ["A", "B", "C"] ["D"] (1/5) = .error .keyError := by
  refine ⟨by decide, by decide, ?_, ?_, ?_, ?_⟩ <;> decide +kernel

end Verif
