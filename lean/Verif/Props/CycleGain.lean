import Verif.Lemmas.CycleGain
import Verif.Props.Dijkstra
/-!
# C113: when the path search ends, and what it returns, for weights of any size
-/
namespace Verif
open Spec
variable {α : Type} [DecidableEq α]

/-- **C113**: with positive weights of any size, the search ends exactly when no closed walk
that the source reaches, and that does not pass through the source, has a product of weights
above one. -/
theorem C113_ends_iff {g : WGraph α ℚ} {src : α} (hw : ∀ v u w, (u, some w) ∈ g.adj v → 0 < w)
    (hcl : ∀ v ∈ g.nodes, ∀ e ∈ g.adj v, e.1 ∈ g.nodes) (hs : src ∈ g.nodes) :
    (∃ fuel dist, modDijkstra g 0 1 (· * ·) src none none fuel = some dist) ↔ NoGain g src := by
  refine ⟨?_, modDijkstra_ends_nogain hw hcl hs⟩
  rintro ⟨fuel, dist, h⟩ v x p hv hx hp
  -- the greatest value of `v` cannot be improved by going round once more
  obtain ⟨y, hy, hxy⟩ := modDijkstra_bounds hw h v x hx
  obtain ⟨z, hz, hle⟩ := modDijkstra_bounds hw h v _ ((modDijkstra_away h v y hy).trans hp)
  rw [hy] at hz
  obtain rfl := Option.some.inj hz
  have hy0 : 0 < y := (hx.pos hw).trans_le hxy
  by_contra hlt
  have := mul_lt_mul_of_pos_left (not_le.1 hlt) hy0
  linarith

/-- **C113**: whenever the search ends, whatever the weights, every node it names carries the
greatest product over the walks from the source that do not come back to the source, and every
node such a walk reaches is named. -/
theorem C113_values {g : WGraph α ℚ} {src : α} (hw : ∀ v u w, (u, some w) ∈ g.adj v → 0 < w)
    {fuel : Nat} {dist : α → Option ℚ}
    (h : modDijkstra g 0 1 (· * ·) src none none fuel = some dist) :
    (∀ v x, dist v = some x ↔ IsGreatest {p | AwayWalk g src src v p} x) ∧
    (∀ v, dist v = none ↔ ∀ p, ¬ AwayWalk g src src v p) := by
  refine ⟨fun v x => ⟨fun hx => ⟨modDijkstra_away h v x hx, ?_⟩, ?_⟩, fun v => ⟨?_, ?_⟩⟩
  · intro p hp
    obtain ⟨y, hy, hle⟩ := modDijkstra_bounds hw h v p hp
    rw [hx] at hy
    obtain rfl := Option.some.inj hy
    exact hle
  · rintro ⟨h1, h2⟩
    obtain ⟨y, hy, hle⟩ := modDijkstra_bounds hw h v x h1
    rw [hy, le_antisymm (h2 (modDijkstra_away h v y hy)) hle]
  · intro hn p hp
    obtain ⟨y, hy, _⟩ := modDijkstra_bounds hw h v p hp
    rw [hn] at hy; cases hy
  · intro hn
    rcases hd : dist v with _ | x
    · rfl
    · exact absurd (modDijkstra_away h v x hd) (hn x)

/-- **C113**: so one closed walk above one, of any length, anywhere the source reaches, is enough
for the search to run for ever. -/
theorem C113_never_ends {g : WGraph α ℚ} {src v : α} {x p : ℚ}
    (hw : ∀ v u w, (u, some w) ∈ g.adj v → 0 < w)
    (hcl : ∀ v ∈ g.nodes, ∀ e ∈ g.adj v, e.1 ∈ g.nodes) (hs : src ∈ g.nodes) (hv : v ≠ src)
    (hx : AwayWalk g src src v x) (hp : AwayWalk g src v v p) (h1 : 1 < p) (fuel : Nat) :
    modDijkstra g 0 1 (· * ·) src none none fuel = none := by
  rcases h : modDijkstra g 0 1 (· * ·) src none none fuel with _ | dist
  · rfl
  · exact absurd ((C113_ends_iff hw hcl hs).1 ⟨fuel, dist, h⟩ v x p hv hx hp) (not_le.2 h1)

/-- non-vacuity: a cycle of three nodes with one weight above one ends or not according to the
product (3/2 · 3/4 · 4/5 < 1 < 3/2 · 3/4 · 9/10) -/
def triGraph (r : ℚ) : WGraph Nat ℚ where
  nodes := [0, 1, 2, 3]
  adj := fun v => match v with
    | 0 => [(1, some (1/2))]
    | 1 => [(2, some (3/2))]
    | 2 => [(3, some (3/4)), (0, some 5)]
    | 3 => [(1, some r)]
    | _ => []

theorem triGraph_pos (r : ℚ) (hr : 0 < r) : ∀ v u w, (u, some w) ∈ (triGraph r).adj v → 0 < w := by
  intro v u w h
  match v with
  | 0 => simp [triGraph] at h; rw [h.2]; norm_num
  | 1 => simp [triGraph] at h; rw [h.2]; norm_num
  | 2 => simp [triGraph] at h; rcases h with h | h <;> rw [h.2] <;> norm_num
  | 3 => simp [triGraph] at h; rw [h.2]; exact hr
  | (n + 4) => simp [triGraph] at h

theorem triGraph_closed (r : ℚ) :
    ∀ v ∈ (triGraph r).nodes, ∀ e ∈ (triGraph r).adj v, e.1 ∈ (triGraph r).nodes := by
  intro v hv e he
  simp only [triGraph, List.mem_cons, List.not_mem_nil, or_false] at hv
  rcases hv with rfl | rfl | rfl | rfl <;> simp [triGraph] at he ⊢
  · simp [he]
  · simp [he]
  · rcases he with he | he <;> simp [he]
  · simp [he]

example : modDijkstra (triGraph (9/10)) 0 1 (· * ·) 0 none none = fun _ => none :=
  funext fun fuel => C113_never_ends (v := 1) (triGraph_pos _ (by norm_num)) (triGraph_closed _)
    (by simp [triGraph]) (by decide)
    (x := 1 * (1/2)) (.snoc .nil (by simp [triGraph]) (by decide))
    (p := 1 * (3/2) * (3/4) * (9/10))
    (.snoc (.snoc (.snoc .nil (u := 2) (by simp [triGraph]) (by decide))
      (u := 3) (by simp [triGraph]) (by decide)) (by simp [triGraph]) (by decide))
    (by norm_num) fuel

example : ((modDijkstra (triGraph (4/5)) 0 1 (· * ·) 0 none none 20).map
    (fun d => (d 0, d 1, d 2, d 3))) = some (some 1, some (1/2), some (3/4), some (9/16)) := by
  decide +kernel

/-- ... and the graph that ends has no closed walk above one, although one of its weights is
above one and a walk through the source gains -/
example : NoGain (triGraph (4/5)) 0 := by
  have hd : (modDijkstra (triGraph (4/5)) 0 1 (· * ·) 0 none none 20).isSome := by decide +kernel
  obtain ⟨d, hd⟩ := Option.isSome_iff_exists.1 hd
  exact (C113_ends_iff (triGraph_pos _ (by norm_num)) (triGraph_closed _)
    (by simp [triGraph])).1 ⟨20, d, hd⟩

end Verif
