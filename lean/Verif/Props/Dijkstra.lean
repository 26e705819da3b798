import Verif.Lemmas.Dijkstra
import Verif.Spec.Rounding
import Mathlib.Algebra.Order.Ring.Rat
import Mathlib.Algebra.BigOperators.Group.List.Basic
import Mathlib.Algebra.Order.Field.Basic
import Mathlib.Tactic.Linarith
import Mathlib.Tactic.NormNum
import Mathlib.Tactic.Positivity
/-!
# C12–C15: the modified Dijkstra search
-/
namespace Verif
open Spec
variable {α K : Type} [DecidableEq α] [LinearOrder K]

/-- **C12**: without cutoff and target the search terminates, and the value it returns for
a node is the greatest value of any walk from the source; nodes without a value are exactly
the unreachable ones.  Holds for every finite graph and every multiplication that is
monotone and never increases a value (weights at most one). -/
theorem C12_dijkstra_optimal {g : WGraph α K} {zero one : K} {mul : K → K → K} {src : α}
    (H : Shrinking g zero one mul) (hs : src ∈ g.nodes) :
    ∃ N dist, (∀ fuel ≥ N, modDijkstra g zero one mul src none none fuel = some dist) ∧
      (∀ v x, dist v = some x ↔ IsGreatest {y | WalkVal g one mul src v y} x) ∧
      (∀ v, dist v = none ↔ ∀ y, ¬ WalkVal g one mul src v y) := by
  obtain ⟨N, dist, h1, h2, h3⟩ := modDijkstra_spec H hs none
  have h3 : ∀ a y, WalkVal g one mul src a y → ∃ x, dist a = some x ∧ y ≤ x := by
    rcases h3 with h3 | ⟨u, x, hu, -⟩
    · exact h3
    · simp at hu
  refine ⟨N, dist, h1, ?_, ?_⟩
  · intro v x
    constructor
    · intro hx
      refine ⟨h2 v x hx, ?_⟩
      intro y hy
      obtain ⟨x', hx', hle⟩ := h3 v y hy
      rw [hx] at hx'; simp only [Option.some.injEq] at hx'; subst hx'; exact hle
    · intro hx
      obtain ⟨x', hx', hle⟩ := h3 v x hx.1
      have : x' = x := le_antisymm (hx.2 (h2 v x' hx')) hle
      rw [hx', this]
  · intro v
    constructor
    · intro hn y hy
      obtain ⟨x, hx, -⟩ := h3 v y hy
      rw [hn] at hx; simp at hx
    · intro hn
      rcases hd : dist v with _ | x
      · rfl
      · exact absurd (h2 v x hd) (hn x)

/-- weights in `(0,1]` and closed node list give `Shrinking` for exact arithmetic -/
theorem shrinking_exact {g : WGraph α ℚ} (hc : ∀ v ∈ g.nodes, ∀ e ∈ g.adj v, e.1 ∈ g.nodes)
    (hw : ∀ v ∈ g.nodes, ∀ u w, (u, some w) ∈ g.adj v → 0 ≤ w ∧ w ≤ 1) :
    Shrinking g 0 1 (· * ·) where
  closed := hc
  one_nonneg := by norm_num
  shrink := fun v hv u w he _ a _ ha => by
    obtain ⟨h0, h1⟩ := hw v hv u w he
    exact ⟨mul_nonneg ha h0, mul_le_of_le_one_right ha h1⟩
  mono := fun v hv u w he _ a b _ _ _ hab => mul_le_mul_of_nonneg_right hab (hw v hv u w he).1

theorem walkVal_iff_foldl {K : Type} (g : WGraph α K) (one : K) (mul : K → K → K) (src v : α)
    (y : K) : WalkVal g one mul src v y ↔ ∃ ws, Walk g src ws v ∧ y = ws.foldl mul one := by
  constructor
  · intro h
    induction h with
    | start => exact ⟨[], .nil _, rfl⟩
    | step _ he ih =>
      obtain ⟨ws, h1, h2⟩ := ih
      exact ⟨_, .snoc h1 he, by simp [h2]⟩
  · rintro ⟨ws, h, rfl⟩
    induction h with
    | nil => exact .start
    | snoc _ he ih =>
      have := WalkVal.step ih he
      rwa [List.foldl_append]

theorem walkVal_iff_prod (g : WGraph α ℚ) (src v : α) (y : ℚ) :
    WalkVal g 1 (· * ·) src v y ↔ ∃ ws, Walk g src ws v ∧ y = ws.prod := by
  constructor
  · intro h
    induction h with
    | start => exact ⟨[], .nil _, by simp⟩
    | step _ he ih =>
      obtain ⟨ws, h1, h2⟩ := ih
      exact ⟨_, .snoc h1 he, by simp [h2]⟩
  · rintro ⟨ws, h, rfl⟩
    induction h with
    | nil => exact .start
    | snoc _ he ih =>
      have := WalkVal.step ih he
      simpa using this

/-- **C12** in exact arithmetic, in terms of products of edge weights along walks. -/
theorem C12_dijkstra_max_product {g : WGraph α ℚ} {src : α} (hs : src ∈ g.nodes)
    (hc : ∀ v ∈ g.nodes, ∀ e ∈ g.adj v, e.1 ∈ g.nodes)
    (hw : ∀ v ∈ g.nodes, ∀ u w, (u, some w) ∈ g.adj v → 0 ≤ w ∧ w ≤ 1) :
    ∃ N dist, (∀ fuel ≥ N, modDijkstra g 0 1 (· * ·) src none none fuel = some dist) ∧
      (∀ v x, dist v = some x ↔ IsGreatest {y | ∃ ws, Walk g src ws v ∧ y = ws.prod} x) ∧
      (∀ v, dist v = none ↔ ∀ ws, ¬ Walk g src ws v) := by
  obtain ⟨N, dist, h1, h2, h3⟩ := C12_dijkstra_optimal (shrinking_exact hc hw) hs
  refine ⟨N, dist, h1, ?_, ?_⟩
  · intro v x
    rw [h2]
    simp only [walkVal_iff_prod]
  · intro v
    rw [h3]
    simp only [walkVal_iff_prod]
    constructor
    · intro h ws hws; exact h _ ⟨ws, hws, rfl⟩
    · rintro h y ⟨ws, hws, -⟩; exact h ws hws

/-- values of walks are numbers of the format -/
theorem walkVal_fmt {rnd : ℚ → ℚ} (hr : RndOk rnd) {g : WGraph α ℚ} {src v : α} {y : ℚ}
    (h : WalkVal g 1 (fun a b => rnd (a * b)) src v y) : rnd y = y := by
  cases h with
  | start => exact hr.one
  | step _ _ => exact hr.idem _

/-- the same for rounded multiplication -/
theorem shrinking_rounded {rnd : ℚ → ℚ} (hr : RndOk rnd) {g : WGraph α ℚ}
    (hc : ∀ v ∈ g.nodes, ∀ e ∈ g.adj v, e.1 ∈ g.nodes)
    (hw : ∀ v ∈ g.nodes, ∀ u w, (u, some w) ∈ g.adj v → 0 ≤ w ∧ w ≤ 1) :
    Shrinking g 0 1 (fun a b => rnd (a * b)) where
  closed := hc
  one_nonneg := by norm_num
  shrink := fun v hv u w he _ a hwk ha => by
    obtain ⟨hw0, hw1⟩ := hw v hv u w he
    constructor
    · show 0 ≤ rnd (a * w)
      rw [← hr.zero]; exact hr.mono _ _ (mul_nonneg ha hw0)
    · calc rnd (a * w) ≤ rnd a := hr.mono _ _ (mul_le_of_le_one_right ha hw1)
        _ = a := walkVal_fmt hr hwk
  mono := fun v hv u w he _ a b _ _ _ hab =>
    hr.mono _ _ (mul_le_mul_of_nonneg_right hab (hw v hv u w he).1)

/-- **C12** with any rounded multiplication: `rnd` is monotone, idempotent and fixes 0 and 1. -/
theorem C12_dijkstra_rounded {rnd : ℚ → ℚ} (hr : RndOk rnd) {g : WGraph α ℚ} {src : α}
    (hs : src ∈ g.nodes) (hc : ∀ v ∈ g.nodes, ∀ e ∈ g.adj v, e.1 ∈ g.nodes)
    (hw : ∀ v ∈ g.nodes, ∀ u w, (u, some w) ∈ g.adj v → 0 ≤ w ∧ w ≤ 1) :
    ∃ N dist, (∀ fuel ≥ N,
        modDijkstra g 0 1 (fun a b => rnd (a * b)) src none none fuel = some dist) ∧
      (∀ v x, dist v = some x ↔
        IsGreatest {y | ∃ ws, Walk g src ws v ∧ y = ws.foldl (fun a b => rnd (a * b)) 1} x) ∧
      (∀ v, dist v = none ↔ ∀ ws, ¬ Walk g src ws v) := by
  obtain ⟨N, dist, h1, h2, h3⟩ := C12_dijkstra_optimal (shrinking_rounded hr hc hw) hs
  refine ⟨N, dist, h1, ?_, ?_⟩
  · intro v x
    rw [h2]
    simp only [walkVal_iff_foldl]
  · intro v
    rw [h3]
    simp only [walkVal_iff_foldl]
    constructor
    · intro h ws hws; exact h _ ⟨ws, hws, rfl⟩
    · rintro h y ⟨ws, hws, -⟩; exact h ws hws

/-! ### example graph -/

/-- `s → t` (1/10), `s → a` (9/10), `a → t` (9/10), `t → s` (1/2), node names 0, 1, 2. -/
def exWGraph : WGraph Nat ℚ where
  nodes := [0, 1, 2]
  adj := fun v => match v with
    | 0 => [(2, some (1/10)), (1, some (9/10))]
    | 1 => [(2, some (9/10))]
    | 2 => [(0, some (1/2)), (1, none)]
    | _ => []

theorem exWGraph_ok : (∀ v ∈ exWGraph.nodes, ∀ e ∈ exWGraph.adj v, e.1 ∈ exWGraph.nodes) ∧
    (∀ v ∈ exWGraph.nodes, ∀ u w, (u, some w) ∈ exWGraph.adj v → 0 ≤ w ∧ w ≤ 1) := by
  constructor
  · decide
  · intro v hv u w he
    simp only [exWGraph, List.mem_cons, List.not_mem_nil, or_false] at hv
    rcases hv with rfl | rfl | rfl <;> simp [exWGraph] at he
    · rcases he with ⟨-, rfl⟩ | ⟨-, rfl⟩ <;> norm_num
    · obtain ⟨-, rfl⟩ := he; norm_num
    · obtain ⟨-, rfl⟩ := he; norm_num

/-- non-vacuity: the example graph meets the hypotheses and the search finds 81/100 -/
example : ∃ N dist, (∀ fuel ≥ N, modDijkstra exWGraph 0 1 (· * ·) 0 none none fuel = some dist) ∧
    (∀ v x, dist v = some x ↔ IsGreatest {y | ∃ ws, Walk exWGraph 0 ws v ∧ y = ws.prod} x) ∧
    (∀ v, dist v = none ↔ ∀ ws, ¬ Walk exWGraph 0 ws v) :=
  C12_dijkstra_max_product (by decide) exWGraph_ok.1 exWGraph_ok.2
example : (modDijkstra exWGraph 0 1 (· * ·) 0 none none 10).map (fun d => (d 0, d 1, d 2)) =
    some (some 1, some (9/10), some (81/100)) := by decide +kernel

/-! ### C13: cutoff -/

theorem relaxEdge_cutoff (mul : K → K → K) (c dv : K) (s : DijState α K) (e : α × Option K) :
    relaxEdge mul (some c) dv s e = s := by
  unfold relaxEdge
  rcases e.2 with _ | w
  · rfl
  · simp

/-- **C13**, what the code does instead: with any cutoff, on any graph, the search stops
after its first step and returns only the source. -/
theorem C13_cutoff_source_only_partial (g : WGraph α K) (zero one : K) (mul : K → K → K) (src : α)
    (c : K) (fuel : Nat) (hf : 2 ≤ fuel) :
    modDijkstra g zero one mul src (some c) none fuel =
      some (fun v => if v = src then some one else none) := by
  apply dijLoop_mono (some c) none 2 fuel hf
  have hfold : ∀ (l : List (α × Option K)) (s : DijState α K),
      l.foldl (relaxEdge mul (some c) one) s = s := by
    intro l
    induction l with
    | nil => intro s; rfl
    | cons e l ih => intro s; rw [List.foldl_cons, relaxEdge_cutoff, ih]
  simp [dijLoop, dijStep, dijInit, popMin, alreadySearched, hfold]
  rfl

/-- **C13** is false of the code: a node whose best path value is above the cutoff is
missing from the result, whatever the number of iterations. -/
theorem C13_cutoff_refuted :
    ∃ (g : WGraph Nat ℚ) (src v : Nat) (c y : ℚ), Shrinking g 0 1 (· * ·) ∧ src ∈ g.nodes ∧
      WalkVal g 1 (· * ·) src v y ∧ c < y ∧
      ∀ fuel, ∀ dist, modDijkstra g 0 1 (· * ·) src (some c) none fuel = some dist →
        dist v = none := by
  refine ⟨exWGraph, 0, 1, 1/2, 1 * (9/10), shrinking_exact exWGraph_ok.1 exWGraph_ok.2, by decide,
    .step .start (by simp [exWGraph]), by norm_num, ?_⟩
  intro fuel dist h
  have h2 := dijLoop_mono (some (1/2 : ℚ)) none fuel (fuel + 2) (by omega) _ _ h
  have h3 := C13_cutoff_source_only_partial exWGraph (0 : ℚ) 1 (· * ·) 0 (1/2) (fuel + 2) (by omega)
  have : some dist = some _ := h2.symm.trans h3
  simp only [Option.some.injEq] at this
  subst this
  rfl

/-! ### C14: target -/

/-- **C14** is false of the code: with a target the search can return a value below the
best path value of that target. -/
theorem C14_target_refuted :
    ∃ (g : WGraph Nat ℚ) (src tgt : Nat) (dist : Nat → Option ℚ) (x y : ℚ),
      Shrinking g 0 1 (· * ·) ∧ src ∈ g.nodes ∧
      modDijkstra g 0 1 (· * ·) src none (some tgt) 10 = some dist ∧ dist tgt = some x ∧
      WalkVal g 1 (· * ·) src tgt y ∧ x < y := by
  have hv : (modDijkstra exWGraph 0 1 (· * ·) 0 none (some 2) 10).map (fun d => d 2) =
    some (some (1/10)) := by decide +kernel
  rcases hd : modDijkstra exWGraph (0:ℚ) 1 (· * ·) 0 none (some 2) 10 with _ | dist
  · rw [hd] at hv; simp at hv
  · rw [hd] at hv
    simp only [Option.map_some, Option.some.injEq] at hv
    exact ⟨exWGraph, 0, 2, dist, 1/10, 1 * (9/10) * (9/10),
      shrinking_exact exWGraph_ok.1 exWGraph_ok.2, by decide, hd, hv,
      .step (.step .start (v := 0) (u := 1) (by simp [exWGraph])) (by simp [exWGraph]), by norm_num⟩

/-- **C14**, the part that holds: with a target the search terminates, every returned value
is the value of some walk, and a reachable target does get a value. -/
theorem C14_target_partial {g : WGraph α K} {zero one : K} {mul : K → K → K} {src : α}
    (H : Shrinking g zero one mul) (hs : src ∈ g.nodes) (tgt : α) :
    ∃ N dist, (∀ fuel ≥ N, modDijkstra g zero one mul src none (some tgt) fuel = some dist) ∧
      (∀ v x, dist v = some x → WalkVal g one mul src v x) ∧
      ((∃ y, WalkVal g one mul src tgt y) → ∃ x, dist tgt = some x) := by
  obtain ⟨N, dist, h1, h2, h3⟩ := modDijkstra_spec H hs (some tgt)
  refine ⟨N, dist, h1, h2, ?_⟩
  rintro ⟨y, hy⟩
  rcases h3 with h3 | ⟨u, x, hu, hx⟩
  · obtain ⟨x, hx, -⟩ := h3 tgt y hy; exact ⟨x, hx⟩
  · simp only [Option.some.injEq] at hu; subst hu; exact ⟨x, hx⟩

example : ∃ N dist, (∀ fuel ≥ N, modDijkstra exWGraph 0 1 (· * ·) 0 none (some 2) fuel = some dist) ∧
    (∀ v x, dist v = some x → WalkVal exWGraph 1 (· * ·) 0 v x) ∧
    ((∃ y, WalkVal exWGraph 1 (· * ·) 0 2 y) → ∃ x, dist 2 = some x) :=
  C14_target_partial (shrinking_exact exWGraph_ok.1 exWGraph_ok.2) (by decide) 2

/-! ### C15: the weight bound is needed -/

/-- `0 → 1` with weight `p`, and a cycle `1 → 2 → 1` with weights `q`, `r`. -/
def cycGraph (p q r : ℚ) : WGraph Nat ℚ where
  nodes := [0, 1, 2]
  adj := fun v => match v with
    | 0 => [(1, some p)]
    | 1 => [(2, some q)]
    | 2 => [(1, some r)]
    | _ => []

theorem cyc_runs (p q r : ℚ) (hq : 0 < q) (hqr : 1 < q * r) (k : Nat) :
    ∀ (s : DijState Nat ℚ) (d : ℚ), 0 < d →
      (((∃ c, s.fringe = [(d, c, 1)]) ∧ s.seen 1 = some d ∧ (∀ y, s.seen 2 = some y → y < d * q) ∧
          (∀ y, s.dist 1 = some y → y ≤ d) ∧ (∀ y, s.dist 2 = some y → y ≤ d * q)) ∨
       ((∃ c, s.fringe = [(d * q, c, 2)]) ∧ s.seen 1 = some d ∧ s.seen 2 = some (d * q) ∧
          (∀ y, s.dist 1 = some y → y ≤ d) ∧ (∀ y, s.dist 2 = some y → y ≤ d * q))) →
      dijLoop (cycGraph p q r) 1 (· * ·) 0 none none k s = none := by
  induction k with
  | zero => intro s d _ _; rfl
  | succ k ih =>
    intro s d hd hs
    unfold dijLoop
    rcases hs with ⟨⟨c, hf⟩, h1, h2, h3, h4⟩ | ⟨⟨c, hf⟩, h1, h2, h3, h4⟩
    · have hsk : alreadySearched s.dist 1 d = false := by
        unfold alreadySearched
        rcases hx : s.dist 1 with _ | y
        · rfl
        · simpa using h3 y hx
      have hrel : ∃ t, dijStep (cycGraph p q r) 1 (· * ·) 0 none none s = .cont t ∧
          (∃ c, t.fringe = [(d * q, c, 2)]) ∧ t.seen 1 = some d ∧ t.seen 2 = some (d * q) ∧
          t.dist 1 = some d ∧ t.dist 2 = s.dist 2 := by
        rcases hx : s.seen 2 with _ | y
        · exact ⟨_, by simp only [dijStep, hf, popMin, hsk]; rfl, ⟨s.cnt, by
            simp [cycGraph, relaxEdge, hx]⟩, by simp [cycGraph, relaxEdge, hx, setKey, h1],
            by simp [cycGraph, relaxEdge, hx, setKey], by simp [cycGraph, relaxEdge, hx, setKey],
            by simp [cycGraph, relaxEdge, hx, setKey]⟩
        · have hlt := h2 y hx
          exact ⟨_, by simp only [dijStep, hf, popMin, hsk]; rfl, ⟨s.cnt, by
            simp [cycGraph, relaxEdge, hx, hlt]⟩, by simp [cycGraph, relaxEdge, hx, setKey, h1, hlt],
            by simp [cycGraph, relaxEdge, hx, setKey, hlt],
            by simp [cycGraph, relaxEdge, hx, setKey, hlt],
            by simp [cycGraph, relaxEdge, hx, setKey, hlt]⟩
      obtain ⟨t, e1, e2, e3, e4, e5, e6⟩ := hrel
      rw [e1]
      refine ih t d hd (Or.inr ⟨e2, e3, e4, ?_, ?_⟩)
      · intro y hy; rw [e5] at hy; simp at hy; exact hy.symm.le
      · intro y hy; rw [e6] at hy; exact h4 y hy
    · have hsk : alreadySearched s.dist 2 (d * q) = false := by
        unfold alreadySearched
        rcases hx : s.dist 2 with _ | y
        · rfl
        · simpa using h4 y hx
      have hlt : d < d * q * r := by
        rw [mul_assoc]; exact lt_mul_of_one_lt_right hd hqr
      have hrel : ∃ t, dijStep (cycGraph p q r) 1 (· * ·) 0 none none s = .cont t ∧
          (∃ c, t.fringe = [(d * q * r, c, 1)]) ∧ t.seen 1 = some (d * q * r) ∧
          t.seen 2 = some (d * q) ∧
          t.dist 2 = some (d * q) ∧ t.dist 1 = s.dist 1 :=
        ⟨_, by simp only [dijStep, hf, popMin, hsk]; rfl, ⟨s.cnt, by
            simp [cycGraph, relaxEdge, h1, hlt]⟩, by simp [cycGraph, relaxEdge, h1, setKey, hlt],
            by simp [cycGraph, relaxEdge, h1, h2, setKey, hlt],
            by simp [cycGraph, relaxEdge, h1, setKey, hlt],
            by simp [cycGraph, relaxEdge, h1, setKey, hlt]⟩
      obtain ⟨t, e1, e2, e3, e4, e5, e6⟩ := hrel
      rw [e1]
      have hstep : d * q < d * q * r * q := mul_lt_mul_of_pos_right hlt hq
      refine ih t (d * q * r) (hd.trans hlt) (Or.inl ⟨e2, e3, ?_, ?_, ?_⟩)
      · intro y hy; rw [e4] at hy; simp at hy; rw [← hy]; exact hstep
      · intro y hy; rw [e6] at hy; exact (h3 y hy).trans hlt.le
      · intro y hy; rw [e5] at hy; simp at hy; rw [← hy]; exact hstep.le

/-- **C15**: the bound on the weights cannot be dropped: as soon as a two-node cycle away
from the source has weight product above one, the search never stops. -/
theorem C15_diverges (p q r : ℚ) (hp : 0 < p) (hq : 0 < q) (hqr : 1 < q * r) (fuel : Nat) :
    modDijkstra (cycGraph p q r) 0 1 (· * ·) 0 none none fuel = none := by
  unfold modDijkstra
  cases fuel with
  | zero => rfl
  | succ k =>
    unfold dijLoop
    simp only [dijStep, dijInit, popMin, alreadySearched]
    refine cyc_runs p q r hq hqr k _ p hp (Or.inl ⟨⟨1, ?_⟩, ?_, ?_, ?_, ?_⟩)
      <;> simp [cycGraph, relaxEdge, setKey]

/-- non-vacuity, and the same graph with weights at most one does stop -/
example (fuel : Nat) : modDijkstra (cycGraph (1/2) 2 (3/4)) 0 1 (· * ·) 0 none none fuel = none :=
  C15_diverges _ _ _ (by norm_num) (by norm_num) (by norm_num) fuel
example : (modDijkstra (cycGraph (1/2) 1 1) 0 1 (· * ·) 0 none none 9).isSome := by decide +kernel

/-- **C15**: a two-node cycle through the source is harmless, because the source's own value is
reset to one each time it is popped. -/
theorem C15_cycle_through_source (q r : ℚ) (hq : 0 < q) (hr : 0 < r) (fuel : Nat) (hf : 4 ≤ fuel) :
    ∃ dist, modDijkstra (⟨[0, 1], fun v => if v = 0 then [(1, some q)] else
        if v = 1 then [(0, some r)] else []⟩ : WGraph Nat ℚ) 0 1 (· * ·) 0 none none fuel = some dist ∧
      dist 0 = some 1 ∧ dist 1 = some q := by
  have key : ∃ dist, modDijkstra (⟨[0, 1], fun v => if v = 0 then [(1, some q)] else
        if v = 1 then [(0, some r)] else []⟩ : WGraph Nat ℚ) 0 1 (· * ·) 0 none none 4 = some dist ∧
      dist 0 = some 1 ∧ dist 1 = some q := by
    have hqr : 0 < q * r := mul_pos hq hr
    have hm : (modDijkstra (⟨[0, 1], fun v => if v = 0 then [(1, some q)] else
        if v = 1 then [(0, some r)] else []⟩ : WGraph Nat ℚ) 0 1 (· * ·) 0 none none 4).map
        (fun d => (d 0, d 1)) = some (some 1, some q) := by
      by_cases h1 : q * r < 1
      · simp [modDijkstra, dijLoop, dijStep, dijInit, popMin, alreadySearched,
          relaxEdge, setKey, hqr, h1]
      · simp [modDijkstra, dijLoop, dijStep, dijInit, popMin, alreadySearched,
          relaxEdge, setKey, hqr, h1]
    rw [Option.map_eq_some_iff] at hm
    obtain ⟨dist, h1, h2⟩ := hm
    simp only [Prod.mk.injEq] at h2
    exact ⟨dist, h1, h2⟩
  obtain ⟨dist, h, h'⟩ := key
  exact ⟨dist, dijLoop_mono none none 4 fuel hf _ _ h, h'⟩

end Verif
