import Verif.Model.Graph
import Mathlib.Logic.Relation
import Mathlib.Tactic.Common
namespace Verif
open Relation

/-- edge relation of a digraph -/
def Digraph.Edge {α} (g : Digraph α) (a b : α) : Prop := b ∈ g.succ a

/-- the graph's adjacency lists only mention its nodes -/
def Digraph.Ok {α} (g : Digraph α) : Prop := ∀ a ∈ g.nodes, ∀ b ∈ g.succ a, b ∈ g.nodes

structure DfsInv {α} (g : Digraph α) (src : α) (s : DfsState α) : Prop where
  nodup : s.visited.Nodup
  src_mem : src ∈ s.visited
  sub : ∀ v ∈ s.visited, v ∈ g.nodes
  reach : ∀ v ∈ s.visited, ReflTransGen g.Edge src v
  sreach : ∀ l ∈ s.stack, ∀ v ∈ l, v ∈ g.nodes ∧ ReflTransGen g.Edge src v
  closed : ∀ v ∈ s.visited, ∀ w ∈ g.succ v, w ∈ s.visited ∨ ∃ l ∈ s.stack, w ∈ l

variable {α : Type} [DecidableEq α]

theorem dfsStep_inv {g : Digraph α} (hg : g.Ok) {src : α} {s : DfsState α}
    (h : DfsInv g src s) : DfsInv g src (dfsStep g.succ s) := by
  unfold dfsStep
  rcases hs : s.stack with _ | ⟨_ | ⟨c, cs⟩, rest⟩
  · simpa [hs] using h
  · simp only
    refine ⟨h.nodup, h.src_mem, h.sub, h.reach, ?_, ?_⟩
    · intro l hl; exact h.sreach l (by rw [hs]; exact List.mem_cons_of_mem _ hl)
    · intro v hv w hw
      rcases h.closed v hv w hw with h1 | ⟨l, hl, hwl⟩
      · exact Or.inl h1
      · rw [hs] at hl
        rcases List.mem_cons.1 hl with rfl | hl
        · simp at hwl
        · exact Or.inr ⟨l, hl, hwl⟩
  · have hc := h.sreach (c :: cs) (by rw [hs]; simp) c (by simp)
    simp only
    split_ifs with hv
    · refine ⟨h.nodup, h.src_mem, h.sub, h.reach, ?_, ?_⟩
      · intro l hl v hvl
        rcases List.mem_cons.1 hl with rfl | hl
        · exact h.sreach (c :: l) (by rw [hs]; simp) v (List.mem_cons_of_mem _ hvl)
        · exact h.sreach l (by rw [hs]; exact List.mem_cons_of_mem _ hl) v hvl
      · intro v hv' w hw
        rcases h.closed v hv' w hw with h1 | ⟨l, hl, hwl⟩
        · exact Or.inl h1
        · rw [hs] at hl
          rcases List.mem_cons.1 hl with rfl | hl
          · rcases List.mem_cons.1 hwl with rfl | hwl
            · exact Or.inl hv
            · exact Or.inr ⟨cs, by simp, hwl⟩
          · exact Or.inr ⟨l, by simp [hl], hwl⟩
    · refine ⟨?_, ?_, ?_, ?_, ?_, ?_⟩
      · exact List.nodup_append.2 ⟨h.nodup, by simp, by
          intro a ha b hb; simp at hb; subst hb; exact fun e => hv (e ▸ ha)⟩
      · simp [h.src_mem]
      · intro v hv'; rcases List.mem_append.1 hv' with hv' | hv'
        · exact h.sub v hv'
        · simp at hv'; subst hv'; exact hc.1
      · intro v hv'; rcases List.mem_append.1 hv' with hv' | hv'
        · exact h.reach v hv'
        · simp at hv'; subst hv'; exact hc.2
      · intro l hl v hvl
        rcases List.mem_cons.1 hl with rfl | hl
        · exact ⟨hg c hc.1 v hvl, hc.2.tail hvl⟩
        · rcases List.mem_cons.1 hl with rfl | hl
          · exact h.sreach (c :: l) (by rw [hs]; simp) v (List.mem_cons_of_mem _ hvl)
          · exact h.sreach l (by rw [hs]; exact List.mem_cons_of_mem _ hl) v hvl
      · intro v hv' w hw
        rcases List.mem_append.1 hv' with hv' | hv'
        · rcases h.closed v hv' w hw with h1 | ⟨l, hl, hwl⟩
          · exact Or.inl (by simp [h1])
          · rw [hs] at hl
            rcases List.mem_cons.1 hl with rfl | hl
            · rcases List.mem_cons.1 hwl with rfl | hwl
              · exact Or.inl (by simp)
              · exact Or.inr ⟨cs, by simp, hwl⟩
            · exact Or.inr ⟨l, by simp [hl], hwl⟩
        · simp at hv'; subst hv'
          exact Or.inr ⟨g.succ v, by simp, hw⟩

/-- work left: unexpanded nodes plus remaining iterator items -/
def dfsMeasure (g : Digraph α) (s : DfsState α) : Nat :=
  ((g.nodes.dedup.filter (fun v => v ∉ s.visited)).map (fun v => (g.succ v).length + 2)).sum +
    (s.stack.map (fun l => l.length + 1)).sum

theorem sum_filter_remove (l : List α) (hl : l.Nodup) (vis : List α) (c : α) (hc : c ∈ l)
    (hv : c ∉ vis) (f : α → Nat) :
    ((l.filter (fun v => v ∉ vis)).map f).sum =
      ((l.filter (fun v => v ∉ vis ++ [c])).map f).sum + f c := by
  induction l with
  | nil => simp at hc
  | cons a l ih =>
    have hnd := List.nodup_cons.1 hl
    rcases List.mem_cons.1 hc with rfl | hc
    · have h1 : l.filter (fun v => v ∉ vis ++ [c]) = l.filter (fun v => v ∉ vis) := by
        apply List.filter_congr
        intro x hx
        have : x ≠ c := fun e => hnd.1 (e ▸ hx)
        simp [this]
      rw [List.filter_cons_of_pos (by simpa using hv), List.filter_cons_of_neg (by simp), h1]
      simp; omega
    · have hac : a ≠ c := fun e => hnd.1 (e ▸ hc)
      have := ih hnd.2 hc
      by_cases ha : a ∈ vis
      · rw [List.filter_cons_of_neg (by simpa using ha),
          List.filter_cons_of_neg (by simp [ha])]; exact this
      · rw [List.filter_cons_of_pos (by simpa using ha),
          List.filter_cons_of_pos (by simp [ha, hac])]
        simp only [List.map_cons, List.sum_cons, this]; omega

theorem dfsStep_measure {g : Digraph α} {src : α} {s : DfsState α} (h : DfsInv g src s)
    (hne : s.stack ≠ []) : dfsMeasure g (dfsStep g.succ s) + 1 ≤ dfsMeasure g s := by
  unfold dfsStep dfsMeasure
  rcases hs : s.stack with _ | ⟨_ | ⟨c, cs⟩, rest⟩
  · exact absurd hs hne
  · simp only [List.map_cons, List.sum_cons, List.length_nil]; omega
  · have hc := h.sreach (c :: cs) (by rw [hs]; simp) c (by simp)
    simp only
    split_ifs with hv
    · simp only [List.map_cons, List.sum_cons, List.length_cons]; omega
    · have := sum_filter_remove g.nodes.dedup (List.nodup_dedup _) s.visited c
        (List.mem_dedup.2 hc.1) hv (fun v => (g.succ v).length + 2)
      simp only [List.map_cons, List.sum_cons, List.length_cons] at *
      omega

theorem dfsLoop_some {g : Digraph α} (hg : g.Ok) {src : α} (k : Nat) (s : DfsState α)
    (h : DfsInv g src s) (hk : dfsMeasure g s ≤ k) :
    ∃ t, dfsLoop g.succ k s = some t.visited ∧ t.stack = [] ∧ DfsInv g src t := by
  induction k generalizing s with
  | zero =>
    have : s.stack = [] := by
      by_contra hne
      have := dfsStep_measure h hne
      omega
    exact ⟨s, by simp [dfsLoop, this], this, h⟩
  | succ k ih =>
    by_cases hne : s.stack = []
    · exact ⟨s, by simp [dfsLoop, hne], hne, h⟩
    · have := dfsStep_measure h hne
      obtain ⟨t, h1, h2, h3⟩ := ih (dfsStep g.succ s) (dfsStep_inv hg h) (by omega)
      exact ⟨t, by simp [dfsLoop, hne, h1], h2, h3⟩

theorem sum_filter_le (l : List α) (p : α → Bool) (f : α → Nat) :
    ((l.filter p).map f).sum ≤ (l.map f).sum := by
  induction l with
  | nil => simp
  | cons a l ih => by_cases h : p a <;> simp [h] <;> omega

theorem sum_dedup_le (l : List α) (f : α → Nat) : (l.dedup.map f).sum ≤ (l.map f).sum := by
  induction l with
  | nil => simp
  | cons a l ih =>
    by_cases h : a ∈ l
    · rw [List.dedup_cons_of_mem h]; simp; omega
    · rw [List.dedup_cons_of_notMem h]; simp; omega

theorem dfsPreorder_spec {g : Digraph α} (hg : g.Ok) {src : α} (hsrc : src ∈ g.nodes) :
    ∃ l, dfsPreorder g src = .ok l ∧ l.Nodup ∧
      ∀ v, v ∈ l ↔ ReflTransGen g.Edge src v := by
  have h0 : DfsInv g src { visited := [src], stack := [g.succ src] } := by
    refine ⟨by simp, by simp, by simpa using hsrc, ?_, ?_, ?_⟩
    · intro v hv; simp at hv; subst hv; exact ReflTransGen.refl
    · intro l hl v hv; simp at hl; subst hl
      exact ⟨hg src hsrc v hv, ReflTransGen.single hv⟩
    · intro v hv w hw; simp at hv; subst hv; exact Or.inr ⟨_, by simp, hw⟩
  have hm : dfsMeasure g { visited := [src], stack := [g.succ src] } ≤ dfsFuel g := by
    unfold dfsMeasure dfsFuel
    have h1 := sum_filter_remove g.nodes.dedup (List.nodup_dedup _) [] src
      (List.mem_dedup.2 hsrc) (by simp) (fun v => (g.succ v).length + 2)
    have h2 := sum_dedup_le g.nodes (fun v => (g.succ v).length + 2)
    simp only [List.nil_append, List.not_mem_nil, not_false_eq_true, decide_true,
      List.filter_true, List.map_cons, List.map_nil, List.sum_cons, List.sum_nil] at *
    omega
  obtain ⟨t, h1, h2, h3⟩ := dfsLoop_some hg _ _ h0 hm
  refine ⟨t.visited, by simp [dfsPreorder, hsrc, h1], h3.nodup, fun v => ⟨h3.reach v, ?_⟩⟩
  intro hv
  induction hv with
  | refl => exact h3.src_mem
  | tail _ hbc ih =>
    rcases h3.closed _ ih _ hbc with h | ⟨l, hl, -⟩
    · exact h
    · rw [h2] at hl; simp at hl

theorem graphSearchLoop_spec {g : Digraph α} (hg : g.Ok) (ts : List α) (acc : List α)
    (ht : ∀ t ∈ ts, t ∈ g.nodes) :
    ∃ l, graphSearchLoop g acc ts = .ok l ∧
      ∀ v, v ∈ l ↔ v ∈ acc ∨ ∃ t ∈ ts, ReflTransGen g.Edge t v := by
  induction ts generalizing acc with
  | nil => exact ⟨acc, rfl, by simp⟩
  | cons t ts ih =>
    obtain ⟨l, h1, -, h3⟩ := dfsPreorder_spec hg (ht t (by simp))
    obtain ⟨l', h4, h5⟩ := ih (acc ++ l) (fun x hx => ht x (by simp [hx]))
    refine ⟨l', by simp [graphSearchLoop, h1, h4], fun v => ?_⟩
    rw [h5, List.mem_append, h3, List.exists_mem_cons_iff, or_assoc]

theorem graphSearchLoop_error {g : Digraph α} (hg : g.Ok) (ts : List α) (acc : List α)
    (ht : ∃ t ∈ ts, t ∉ g.nodes) : graphSearchLoop g acc ts = .error .keyError := by
  induction ts generalizing acc with
  | nil => simp at ht
  | cons t ts ih =>
    by_cases h : t ∈ g.nodes
    · obtain ⟨l, h1, -, -⟩ := dfsPreorder_spec hg h
      have : ∃ t ∈ ts, t ∉ g.nodes := by
        obtain ⟨x, hx, hn⟩ := ht
        rcases List.mem_cons.1 hx with rfl | hx
        · exact absurd h hn
        · exact ⟨x, hx, hn⟩
      simp [graphSearchLoop, h1, ih _ this]
    · simp [graphSearchLoop, dfsPreorder, h]

theorem graphSearch_spec {g : Digraph α} (hg : g.Ok) (ts : List α) (ht : ∀ t ∈ ts, t ∈ g.nodes) :
    ∃ l, graphSearch g ts = .ok l ∧ l.Nodup ∧
      ∀ v, v ∈ l ↔ ∃ t ∈ ts, ReflTransGen g.Edge t v := by
  obtain ⟨l, h1, h2⟩ := graphSearchLoop_spec hg ts [] ht
  refine ⟨l.dedup, by simp [graphSearch, h1, Except.map], List.nodup_dedup _, fun v => ?_⟩
  rw [List.mem_dedup, h2]; simp

theorem graphSearch_error {g : Digraph α} (hg : g.Ok) (ts : List α) (ht : ∃ t ∈ ts, t ∉ g.nodes) :
    graphSearch g ts = .error .keyError := by
  simp [graphSearch, graphSearchLoop_error hg ts [] ht, Except.map]

theorem thresholdGraph_edge (M : NMat) (names : List String) (hn : names.Nodup) (thr : ℚ)
    (a b : String) : (thresholdGraph M names thr).Edge a b ↔
      ∃ i j, names[i]? = some a ∧ names[j]? = some b ∧ thr ≤ M i j ∧ M i j ≠ 0 := by
  unfold Digraph.Edge thresholdGraph
  simp only
  rcases h : names.idxOf? a with _ | i
  · simp only [List.not_mem_nil, false_iff]
    rintro ⟨i, j, hi, -⟩
    rw [List.idxOf?_eq_none_iff] at h
    exact h (List.mem_of_getElem? hi)
  · have hi : names[i]? = some a := by
      rw [List.idxOf?, List.findIdx?_eq_some_iff_getElem] at h
      obtain ⟨h1, h2, -⟩ := h
      rw [List.getElem?_eq_getElem h1]
      simpa using h2
    simp only [List.mem_filterMap, List.mem_filter, List.mem_range]
    constructor
    · rintro ⟨j, ⟨hj, hM⟩, hb⟩
      refine ⟨i, j, hi, hb, ?_⟩
      split_ifs at hM with hge
      · exact ⟨hge, by simpa using hM⟩
      · simp at hM
    · rintro ⟨i', j, hi', hb, hge, hne⟩
      have hii : i' = i := by
        have hlt : i' < names.length := by
          by_contra hlt
          rw [List.getElem?_eq_none (by omega)] at hi'; simp at hi'
        have hlt2 : i < names.length := by
          by_contra hlt2
          rw [List.getElem?_eq_none (by omega)] at hi; simp at hi
        rw [List.getElem?_eq_getElem hlt] at hi'
        rw [List.getElem?_eq_getElem hlt2] at hi
        exact (List.Nodup.getElem_inj_iff hn (hi := hlt) (hj := hlt2)).1 (by simp_all)
      subst hii
      refine ⟨j, ⟨?_, ?_⟩, hb⟩
      · by_contra hlt
        rw [List.getElem?_eq_none (by omega)] at hb; simp at hb
      · simp [hge, hne]

theorem thresholdGraph_ok (M : NMat) (names : List String) (thr : ℚ) :
    (thresholdGraph M names thr).Ok := by
  intro a _ b hb
  unfold thresholdGraph at hb ⊢
  simp only at hb ⊢
  split at hb
  · simp at hb
  · simp only [List.mem_filterMap] at hb
    obtain ⟨j, -, hj⟩ := hb
    exact List.mem_of_getElem? hj

end Verif
