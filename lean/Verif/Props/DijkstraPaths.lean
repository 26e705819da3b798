import Verif.Lemmas.DijkstraPaths
import Verif.Props.Dijkstra
/-!
# C86, C87: the optional outputs of the modified Dijkstra search
-/
namespace Verif
open Spec
variable {α K : Type} [DecidableEq α] [LinearOrder K]

/-- at the end of the search the values seen are the final ones -/
theorem dist_of_seen {g : WGraph α K} {zero one : K} {mul : K → K → K} {src v0 : α}
    {s : DijState α K} (h : Inv g zero one mul src s v0 []) (hf : s.fringe = []) {u : α} {y : K}
    (hne : u ≠ src) (hy : s.seen u = some y) : s.dist u = some y := by
  rcases h.live u y hne hy with h1 | ⟨c, hc⟩
  · exact h1
  · rw [hf] at hc; simp at hc

/-- **C86**: called with `paths={source: [source]}` (and any or no `pred`), on a graph in which
the source has no edge to itself, the search ends without an error, returns `(dist, paths)` with
the same `dist` as without the option, and for every other node with a value the path returned
starts at the source, follows edges of the graph, visits no node twice and has exactly that
value.  Nodes without a value have no path. -/
theorem C86_paths {g : WGraph α K} {zero one : K} {mul : K → K → K} {src : α}
    (H : Shrinking g zero one mul) (hs : src ∈ g.nodes) (hself : ∀ w, (src, some w) ∉ g.adj src)
    (pred : Option (α → Option (List α))) (hpr : ∀ pr, pred = some pr → pr = singleKey src []) :
    ∃ N t dist ps, (∀ fuel ≥ N,
        modDijkstraX g zero one mul src pred (some (singleKey src [src])) none none fuel
          = some (.ok t) ∧ modDijkstra g zero one mul src none none fuel = some dist) ∧
      t.out = .withPaths dist ps ∧
      (∀ v x, v ≠ src → dist v = some x →
        ∃ l, ps v = some l ∧ NodePath g one mul src l v x ∧ l.Nodup) ∧
      (∀ v, dist v = none → ps v = none) := by
  obtain ⟨N, t, v0, h1, h2, h3, -, h5, h6⟩ := modDijkstraX_spec H hs hself pred
    (some (singleKey src [src])) hpr (by rintro ps h; simpa using h.symm)
  obtain ⟨ps, hps⟩ := Option.isSome_iff_exists.1 (by simpa using h3)
  have hP := h6.p ps hps
  refine ⟨N, t, t.base.dist, ps, h1, by simp [DijX.out, hps], ?_, ?_⟩
  · intro v x hne hx
    obtain ⟨y, hy, hxy⟩ := seen_of_dist H hs h5 hne hx
    have hyd := dist_of_seen h5 h2 hne hy
    have : y = x := by rw [hx] at hyd; simpa using hyd.symm
    subst this
    obtain ⟨l, x', e1, e2, e3, e4, -⟩ := hP.node v y hne hy
    obtain ⟨z, hz, hle⟩ := final_greatest H hs h5 h2 v x' (nodePath_walk e2)
    have : z = y := by rw [hx] at hz; simpa using hz.symm
    subst this
    have : x' = z := le_antisymm hle e3
    subst this
    exact ⟨l, e1, e2, e4⟩
  · intro v hv
    rcases hl : ps v with _ | l
    · rfl
    · rcases hP.dom v l hl with rfl | ⟨y, hy⟩
      · rw [h5.dsrc] at hv; simp at hv
      · by_cases hvs : v = src
        · subst hvs; rw [h5.dsrc] at hv; simp at hv
        · rw [dist_of_seen h5 h2 hvs hy] at hv; simp at hv

/-- **C86**: called with `pred={source: []}`, on a graph in which the source has no edge to
itself, the search ends without an error, returns `(pred, dist)` with the same `dist` as without
the option, and the predecessors listed for any other node with a value are exactly the nodes from
which an edge attains that value. -/
theorem C86_pred {g : WGraph α K} {zero one : K} {mul : K → K → K} {src : α}
    (H : Shrinking g zero one mul) (hs : src ∈ g.nodes) (hself : ∀ w, (src, some w) ∉ g.adj src) :
    ∃ N t dist pr, (∀ fuel ≥ N,
        modDijkstraX g zero one mul src (some (singleKey src [])) none none none fuel
          = some (.ok t) ∧ modDijkstra g zero one mul src none none fuel = some dist) ∧
      t.out = .withPred pr dist ∧
      (∀ u x, u ≠ src → dist u = some x → ∃ l, pr u = some l ∧
        ∀ a, a ∈ l ↔ ∃ w d, (u, some w) ∈ g.adj a ∧ dist a = some d ∧ mul d w = x) := by
  obtain ⟨N, t, v0, h1, h2, h3, h4, h5, h6⟩ := modDijkstraX_spec H hs hself
    (some (singleKey src [])) none (by rintro ps h; simpa using h.symm) (by simp)
  obtain ⟨pr, hpr⟩ := Option.isSome_iff_exists.1 (by simpa using h4)
  have hnp : t.paths = none := by simpa using h3
  have hQ := h6.q pr hpr
  refine ⟨N, t, t.base.dist, pr, h1, by simp [DijX.out, hpr, hnp], ?_⟩
  intro u x hne hx
  obtain ⟨y, hy, hxy⟩ := seen_of_dist H hs h5 hne hx
  have hyd := dist_of_seen h5 h2 hne hy
  have : y = x := by rw [hx] at hyd; simpa using hyd.symm
  subst this
  obtain ⟨l, e1, e2⟩ := hQ.sound u y hne hy
  refine ⟨l, e1, ?_⟩
  intro a
  constructor
  · intro ha
    obtain ⟨w, x', d, f1, f2, f3, f4, f5⟩ := e2 a ha
    refine ⟨w, d, f1, f4, ?_⟩
    obtain ⟨p, hp⟩ := h5.di a d f4
    have hmem := WalkVal.mem H hs f2
    have hr := WalkVal.range H hs f2
    have hlow : y ≤ mul d w := by
      rw [← f3]; exact H.mono a hmem u w f1 _ x' d f2 hp.walk hr.1 f5
    obtain ⟨z, hz, hle⟩ := final_greatest H hs h5 h2 u _ (.step hp.walk f1)
    have : z = y := by rw [hx] at hz; simpa using hz.symm
    subst this
    exact le_antisymm hle hlow
  · rintro ⟨w, d, f1, f2, f3⟩
    rcases hQ.full a d f2 u w f1 hne with ⟨-, h⟩ | ⟨y', hy', h⟩
    · simp at h
    · have : y' = y := by rw [hy] at hy'; simpa using hy'.symm
      subst this
      rcases h with h | ⟨-, l', hl', ha⟩
      · rw [f3] at h; exact absurd h (lt_irrefl _)
      · have : l' = l := by rw [e1] at hl'; simpa using hl'.symm
        subst this
        exact ha

/-! ### C87 -/

/-- **C87** is false of the code, on every graph in which some edge leads from a reachable node
back to the source with a positive value: the path then returned for the source is a closed walk
with at least one edge, not `[source]`.  Without such an edge it is `[source]`. -/
theorem C87_source_path_refuted {g : WGraph α K} {zero one : K} {mul : K → K → K} {src : α}
    (H : Shrinking g zero one mul) (hs : src ∈ g.nodes) (hself : ∀ w, (src, some w) ∉ g.adj src) :
    ∃ N t dist ps l, (∀ fuel ≥ N,
        modDijkstraX g zero one mul src none (some (singleKey src [src])) none none fuel
          = some (.ok t)) ∧ t.out = .withPaths dist ps ∧ ps src = some l ∧
      ((∃ a x w, WalkVal g one mul src a x ∧ (src, some w) ∈ g.adj a ∧ zero < mul x w) →
        2 ≤ l.length) ∧
      ((∀ a x w, WalkVal g one mul src a x → (src, some w) ∈ g.adj a → mul x w ≤ zero) →
        l = [src]) := by
  obtain ⟨N, t, v0, h1, h2, h3, -, h5, h6⟩ := modDijkstraX_spec H hs hself none
    (some (singleKey src [src])) (by simp) (by rintro ps h; simpa using h.symm)
  obtain ⟨ps, hps⟩ := Option.isSome_iff_exists.1 (by simpa using h3)
  have hP := h6.p ps hps
  rcases hP.ret with ⟨e1, e2⟩ | ⟨y, l, a, x, w, e1, e2, e3, e4, e5, e6, e7⟩
  · refine ⟨N, t, t.base.dist, ps, [src], fun f hf => (h1 f hf).1, by simp [DijX.out, hps], e2, ?_,
      fun _ => rfl⟩
    rintro ⟨a, x, w, f1, f2, f3⟩
    exfalso
    obtain ⟨d, hd, hle⟩ := final_greatest H hs h5 h2 a x f1
    obtain ⟨p, hp⟩ := h5.di a d hd
    have hm := H.mono a (WalkVal.mem H hs f1) src w f2 _ x d f1 hp.walk (WalkVal.range H hs f1).1 hle
    rcases h5.edge a d hd src w f2 with ⟨-, h⟩ | ⟨y, hy, hle'⟩
    · simp at h
    · have : y = zero := by rw [e1] at hy; simpa using hy.symm
      subst this
      exact absurd f3 (not_lt.2 (hm.trans hle'))
  · refine ⟨N, t, t.base.dist, ps, l, fun f hf => (h1 f hf).1, by simp [DijX.out, hps], e3,
      fun _ => e4, ?_⟩
    intro h
    have := h a x w e5 e6
    rw [e7] at this
    exact absurd e2 (not_lt.2 this)

/-- two nodes: `0 → 1` with weight `q` and back with weight `r` -/
def backGraph (q r : ℚ) : WGraph Nat ℚ where
  nodes := [0, 1]
  adj := fun v => if v = 0 then [(1, some q)] else if v = 1 then [(0, some r)] else []

theorem backGraph_ok {q r : ℚ} (hq : 0 ≤ q ∧ q ≤ 1) (hr : 0 ≤ r ∧ r ≤ 1) :
    Shrinking (backGraph q r) 0 1 (· * ·) := by
  refine shrinking_exact ?_ ?_
  · intro v hv e he
    simp only [backGraph, List.mem_cons, List.not_mem_nil, or_false] at hv
    rcases hv with rfl | rfl <;> simp [backGraph] at he ⊢ <;> simp [he]
  · intro v hv u w he
    simp only [backGraph, List.mem_cons, List.not_mem_nil, or_false] at hv
    rcases hv with rfl | rfl <;> simp [backGraph] at he
    · rw [he.2]; exact hq
    · rw [he.2]; exact hr

/-- **C87** is false of the code: when a closed walk through the source has value one (or more)
the source is searched a second time, and the predecessors of node 1 are listed as `[0, 0]`. -/
theorem C87_pred_repeated_refuted (q r : ℚ) (hq : 0 < q) (hqr : 1 ≤ q * r) (fuel : Nat)
    (hf : 4 ≤ fuel) :
    ∃ t pr, modDijkstraX (backGraph q r) 0 1 (· * ·) 0 (some (singleKey 0 [])) none none none fuel
        = some (.ok t) ∧ t.out = .withPred pr t.base.dist ∧ pr 1 = some [0, 0] := by
  have hpos : 0 < q * r := lt_of_lt_of_le one_pos hqr
  have h1 : ¬ q * r < 1 := not_lt.2 hqr
  have key : ∃ t, modDijkstraX (backGraph q r) 0 1 (· * ·) 0 (some (singleKey 0 [])) none none none 4
      = some (.ok t) ∧ t.paths = none ∧ ∃ pr, t.pred = some pr ∧ pr 1 = some [0, 0] := by
    refine ⟨_, by
      simp [modDijkstraX, dijLoopX, dijStepX, dijInit, popMin, alreadySearched, relaxAllX,
        relaxEdgeX, pushX, notePath, appendPred, setKey, setList, backGraph, singleKey, hpos, h1]
      rfl, ?_⟩
    simp [setList]
  obtain ⟨t, h1, h2, pr, h3, h4⟩ := key
  exact ⟨t, pr, dijLoopX_mono none none 4 fuel hf _ _ h1, by simp [DijX.out, h2, h3], h4⟩

/-- an edge from the source to itself with weight `p`, before an edge `0 → 1` with weight `q` -/
def selfGraph (p q : ℚ) : WGraph Nat ℚ where
  nodes := [0, 1]
  adj := fun v => if v = 0 then [(0, some p), (1, some q)] else []

/-- **C87** is false of the code: with an edge from the source to itself the path returned for
another node can run through that edge, so that its product is not the value returned. -/
theorem C87_self_edge_refuted (p q : ℚ) (hp : 0 < p) (hp1 : p < 1) (hq : 0 < q) (fuel : Nat)
    (hf : 4 ≤ fuel) :
    ∃ t ps, modDijkstraX (selfGraph p q) 0 1 (· * ·) 0 none (some (singleKey 0 [0])) none none fuel
        = some (.ok t) ∧ t.out = .withPaths t.base.dist ps ∧ ps 1 = some [0, 0, 1] ∧
      t.base.dist 1 = some q ∧
      ∀ x, NodePath (selfGraph p q) 1 (· * ·) 0 [0, 0, 1] 1 x → x < q := by
  have key : ∃ t, modDijkstraX (selfGraph p q) 0 1 (· * ·) 0 none (some (singleKey 0 [0])) none none 4
      = some (.ok t) ∧ t.base.dist 1 = some q ∧
      ∃ ps, t.paths = some ps ∧ ps 1 = some [0, 0, 1] := by
    by_cases hpq : q < p
    · have hpq' : ¬ p < q := not_lt.2 hpq.le
      have hne : ¬ p = q := ne_of_gt hpq
      refine ⟨_, by
        simp [modDijkstraX, dijLoopX, dijStepX, dijInit, popMin, entryLt, alreadySearched, relaxAllX,
          relaxEdgeX, pushX, notePath, setKey, setList, selfGraph, singleKey, hp, hp1, hpq, hpq', hne]
        rfl, ?_⟩
      simp [setList, setKey]
    · have hor : p < q ∨ p = q := lt_or_eq_of_le (not_lt.1 hpq)
      refine ⟨_, by
        simp [modDijkstraX, dijLoopX, dijStepX, dijInit, popMin, entryLt, alreadySearched, relaxAllX,
          relaxEdgeX, pushX, notePath, setKey, setList, selfGraph, singleKey, hp, hp1, hor]
        rfl, ?_⟩
      simp [setList, setKey]
  obtain ⟨t, h1, h2, ps, h3, h4⟩ := key
  refine ⟨t, ps, dijLoopX_mono none none 4 fuel hf _ _ h1, by simp [DijX.out, h3], h4, h2, ?_⟩
  intro x hx
  have inv : ∀ l v x, NodePath (selfGraph p q) 1 (· * ·) 0 l v x → ∀ l' u, l = l' ++ [u] →
      (l' = [] ∧ x = 1) ∨ ∃ v' y w, NodePath (selfGraph p q) 1 (· * ·) 0 l' v' y ∧
        (u, some w) ∈ (selfGraph p q).adj v' ∧ x = y * w := by
    intro l v x h l' u hl
    cases h with
    | start =>
      left
      have := List.append_inj' (s₁ := []) (t₁ := [0]) (s₂ := l') (t₂ := [u]) hl rfl
      exact ⟨this.1.symm, rfl⟩
    | step h0 he =>
      right
      have := List.append_inj' hl rfl
      obtain ⟨rfl, h2⟩ := this
      simp only [List.cons.injEq, and_true] at h2
      subst h2
      exact ⟨_, _, _, h0, he, rfl⟩
  rcases inv _ _ _ hx [0, 0] 1 rfl with ⟨h, -⟩ | ⟨v1, y1, w1, g1, g2, rfl⟩
  · simp at h
  · rcases inv _ _ _ g1 [0] 0 rfl with ⟨h, -⟩ | ⟨v2, y2, w2, g3, g4, rfl⟩
    · simp at h
    · have hy2 : y2 = 1 := by
        rcases inv _ _ _ g3 [] 0 rfl with ⟨-, h⟩ | ⟨v3, y3, w3, g5, -, -⟩
        · exact h
        · exfalso
          generalize hl : ([] : List Nat) = l at g5
          cases g5 <;> simp at hl
      have hw2 : w2 = p := by
        simp only [selfGraph] at g4
        split_ifs at g4 <;> simp at g4
        exact g4
      have hw1 : w1 = q := by
        simp only [selfGraph] at g2
        split_ifs at g2 <;> simp at g2
        exact g2
      subst hy2 hw2 hw1
      rw [one_mul]
      exact mul_lt_of_lt_one_left hq hp1

/-- **C87** is false of the code: started with empty dictionaries the search raises `KeyError`: on
the first edge of positive or zero weight for `paths`, ... -/
theorem C87_empty_paths_refuted {g : WGraph α K} {zero one : K} {mul : K → K → K} {src u : α}
    {w : K} {es : List (α × Option K)} (hadj : g.adj src = (u, some w) :: es) (hne : u ≠ src)
    (pred : Option (α → Option (List α))) (fuel : Nat) (hf : 1 ≤ fuel) :
    modDijkstraX g zero one mul src pred (some (fun _ => none)) none none fuel
      = some (.error .keyError) := by
  apply dijLoopX_mono none none 1 fuel hf
  simp [dijLoopX, dijStepX, dijInit, popMin, alreadySearched, hadj, relaxAllX, relaxEdgeX, pushX,
    notePath, hne]

/-- ... and for `pred` on an edge of weight zero back to the source. -/
theorem C87_empty_pred_refuted (q : ℚ) (fuel : Nat) (hf : 2 ≤ fuel) :
    modDijkstraX (backGraph q 0) 0 1 (· * ·) 0 (some (fun _ => none)) none none none fuel
      = some (.error .keyError) := by
  apply dijLoopX_mono none none 2 fuel hf
  simp [dijLoopX, dijStepX, dijInit, popMin, alreadySearched, relaxAllX, relaxEdgeX, pushX,
    notePath, appendPred, backGraph, setKey, setList]

/-! ### the hypotheses can be met -/

theorem exWGraph_noSelf : ∀ w, ((0 : Nat), some w) ∉ exWGraph.adj 0 := by
  intro w; simp [exWGraph]

/-- non-vacuity: the example graph of C12; the paths found are `[0, 1]` and `[0, 1, 2]` -/
example : (modDijkstraX exWGraph 0 1 (· * ·) 0 none (some (singleKey 0 [0])) none none 10).map
    (Except.map (fun t => match t.out with
      | .withPaths _ ps => [ps 0, ps 1, ps 2]
      | _ => [])) = some (.ok [some [0, 1, 2, 0], some [0, 1], some [0, 1, 2]]) := by decide +kernel
example : (modDijkstraX exWGraph 0 1 (· * ·) 0 (some (singleKey 0 [])) none none none 10).map
    (Except.map (fun t => match t.out with
      | .withPred pr _ => [pr 0, pr 1, pr 2]
      | _ => [])) = some (.ok [some [2], some [0], some [1]]) := by decide +kernel
example := C86_paths (shrinking_exact exWGraph_ok.1 exWGraph_ok.2) (by decide) exWGraph_noSelf
  (some (singleKey 0 [])) (by rintro pr h; simpa using h.symm)
example := C86_pred (shrinking_exact exWGraph_ok.1 exWGraph_ok.2) (by decide) exWGraph_noSelf
example := C87_source_path_refuted (shrinking_exact exWGraph_ok.1 exWGraph_ok.2) (by decide)
  exWGraph_noSelf
example : ∃ a x w, WalkVal exWGraph 1 (· * ·) 0 a x ∧ (0, some w) ∈ exWGraph.adj a ∧ (0 : ℚ) < x * w :=
  ⟨2, 1 * (1/10), 1/2, .step .start (by simp [exWGraph]), by simp [exWGraph], by norm_num⟩
example := C87_pred_repeated_refuted 1 1 (by norm_num) (by norm_num) 4 (by norm_num)
example : Shrinking (backGraph 1 1) 0 1 (· * ·) := backGraph_ok (by norm_num) (by norm_num)
example := C87_self_edge_refuted (1/2) (1/3) (by norm_num) (by norm_num) (by norm_num) 4 (by norm_num)

end Verif
