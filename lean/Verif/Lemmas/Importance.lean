import Verif.Model.Importance
import Verif.Spec.Importance
import Verif.Props.Dijkstra
import Verif.Lemmas.Graph
namespace Verif
open Spec

theorem mem_matrixGraph_adj {M : NMat} {names : List String} (hn : names.Nodup) {a c : String}
    {ow : Option ℚ} : (c, ow) ∈ (matrixGraph M names).adj a ↔
      ∃ i j, names[i]? = some a ∧ names[j]? = some c ∧ M i j ≠ 0 ∧ ow = some (M i j) := by
  unfold matrixGraph
  dsimp only
  rcases hi : names.idxOf? a with _ | i
  · simp only [List.not_mem_nil, false_iff]
    rintro ⟨i, j, h1, -⟩
    have : a ∈ names := List.mem_of_getElem? h1
    rw [List.idxOf?_eq_none_iff] at hi
    exact hi this
  · have hia : names[i]? = some a := by
      have := List.idxOf?_eq_some_iff.1 hi
      obtain ⟨h, h2, -⟩ := this
      rw [List.getElem?_eq_getElem h]
      exact congrArg _ h2
    simp only [List.mem_filterMap, List.mem_filter, List.mem_range, bne_iff_ne, ne_eq,
      Option.map_eq_some_iff, Prod.mk.injEq]
    constructor
    · rintro ⟨j, ⟨hj, hne⟩, u, hu, rfl, rfl⟩
      exact ⟨i, j, hia, hu, hne, rfl⟩
    · rintro ⟨i', j, h1, h2, h3, rfl⟩
      have hii : i' = i := by
        obtain ⟨hl, h1'⟩ := List.getElem?_eq_some_iff.1 h1
        obtain ⟨hl', h2'⟩ := List.getElem?_eq_some_iff.1 hia
        exact (List.Nodup.getElem_inj_iff hn (hi := hl) (hj := hl')).1 (h1'.trans h2'.symm)
      subst hii
      exact ⟨j, ⟨(List.getElem?_eq_some_iff.1 h2).1, h3⟩, c, h2, rfl, rfl⟩

theorem matrixGraph_closed {M : NMat} {names : List String} (hn : names.Nodup) :
    ∀ v ∈ (matrixGraph M names).nodes, ∀ e ∈ (matrixGraph M names).adj v,
      e.1 ∈ (matrixGraph M names).nodes := by
  rintro v _ ⟨c, ow⟩ he
  obtain ⟨i, j, -, h, -⟩ := (mem_matrixGraph_adj hn).1 he
  exact List.mem_of_getElem? h

theorem matrixGraph_weights {M : NMat} {names : List String} (hn : names.Nodup)
    (hM : UnitMatrix M names.length) :
    ∀ v ∈ (matrixGraph M names).nodes, ∀ u w, (u, some w) ∈ (matrixGraph M names).adj v →
      0 ≤ w ∧ w ≤ 1 := by
  intro v _ u w he
  obtain ⟨i, j, h1, h2, -, h3⟩ := (mem_matrixGraph_adj hn).1 he
  simp only [Option.some.injEq] at h3
  subst h3
  exact hM i (List.getElem?_eq_some_iff.1 h1).1 j (List.getElem?_eq_some_iff.1 h2).1

theorem pathProduct_iff {rnd : ℚ → ℚ} {M : NMat} {names : List String} (hn : names.Nodup) {a b : String} {y : ℚ}
    (ha : a ∈ names) :
    PathProduct rnd M names a y b ↔ WalkVal (matrixGraph M names) 1 (fun a b => rnd (a * b)) a b y := by
  constructor
  · intro h
    induction h with
    | nil _ => exact .start
    | step _ h1 h2 h3 ih =>
      exact WalkVal.step ih ((mem_matrixGraph_adj hn).2 ⟨_, _, h1, h2, h3, rfl⟩)
  · intro h
    induction h with
    | start => exact .nil ha
    | step _ he ih =>
      obtain ⟨i, j, h1, h2, h3, h4⟩ := (mem_matrixGraph_adj hn).1 he
      simp only [Option.some.injEq] at h4
      subst h4
      exact .step ih h1 h2 h3

theorem Spec.PathProduct.source_mem {rnd : ℚ → ℚ} {M : NMat} {names : List String} {a b : String} {y : ℚ}
    (h : PathProduct rnd M names a y b) : a ∈ names := by
  induction h with
  | nil h => exact h
  | step _ _ _ _ ih => exact ih

theorem Spec.PathProduct.dest_mem {rnd : ℚ → ℚ} {M : NMat} {names : List String} {a b : String} {y : ℚ}
    (h : PathProduct rnd M names a y b) : b ∈ names := by
  cases h with
  | nil h => exact h
  | step _ _ h _ => exact List.mem_of_getElem? h

theorem Spec.PathProduct.range {rnd : ℚ → ℚ} (hr : RndOk rnd) {M : NMat} {names : List String} (hM : UnitMatrix M names.length)
    {a b : String} {y : ℚ} (h : PathProduct rnd M names a y b) : 0 ≤ y ∧ y ≤ 1 := by
  induction h with
  | nil _ => norm_num
  | step _ h1 h2 _ ih =>
    have := hM _ (List.getElem?_eq_some_iff.1 h1).1 _ (List.getElem?_eq_some_iff.1 h2).1
    constructor
    · rw [← hr.zero]; exact hr.mono _ _ (mul_nonneg ih.1 this.1)
    · rw [← hr.one]; exact hr.mono _ _ (mul_le_one₀ ih.2 this.1 this.2)

/-- the result of a single-source search, for all large enough fuels -/
theorem ssDijkstra_spec {rnd : ℚ → ℚ} (hr : RndOk rnd) {M : NMat} {names : List String} (hn : names.Nodup)
    (hM : UnitMatrix M names.length) {t : String} (ht : t ∈ names) :
    ∃ N d, (∀ fuel ≥ N, ssDijkstra rnd (matrixGraph M names) t fuel = .ok d) ∧
      (∀ v x, setKey d t 1 v = some x ↔ IsGreatest {y | PathProduct rnd M names t y v} x) ∧
      (∀ v, setKey d t 1 v = none ↔ ∀ y, ¬ PathProduct rnd M names t y v) := by
  obtain ⟨N, d, h1, h2, h3⟩ := C12_dijkstra_optimal (g := matrixGraph M names) (src := t)
    (shrinking_rounded hr (matrixGraph_closed hn) (matrixGraph_weights hn hM)) ht
  have hd : setKey d t 1 = d := by
    funext v
    unfold setKey
    split_ifs with hv
    · subst hv
      symm
      rw [h2]
      refine ⟨.start, ?_⟩
      intro y hy
      exact (WalkVal.range (shrinking_rounded hr (matrixGraph_closed hn)
        (matrixGraph_weights hn hM)) ht hy).2
    · rfl
  refine ⟨N, d, ?_, ?_, ?_⟩
  · intro fuel hf
    unfold ssDijkstra
    rw [if_pos (by exact ht), h1 fuel hf]
  · intro v x; rw [hd, h2]; simp only [pathProduct_iff hn ht]
  · intro v; rw [hd, h3]; simp only [pathProduct_iff hn ht]

theorem searchLoop_spec {rnd : ℚ → ℚ} (hr : RndOk rnd) {M : NMat} {names : List String} (hn : names.Nodup)
    (hM : UnitMatrix M names.length) (ts : List String) (hts : ∀ t ∈ ts, t ∈ names)
    (overall : String → Option ℚ) :
    ∃ N d, (∀ fuel ≥ N, searchLoop rnd (matrixGraph M names) fuel ts overall = .ok d) ∧
      ∀ sp, IsGreatest {y | y = (overall sp).getD 0 ∨ ∃ t ∈ ts, PathProduct rnd M names t y sp}
        ((d sp).getD 0) ∨ ((overall sp).getD 0 < 0) := by
  induction ts generalizing overall with
  | nil =>
    refine ⟨0, overall, fun _ _ => rfl, fun sp => Or.inl ⟨Or.inl rfl, ?_⟩⟩
    rintro y (rfl | ⟨t, ht, -⟩)
    · exact le_refl _
    · simp at ht
  | cons t ts ih =>
    obtain ⟨N1, d1, h1, h2, h3⟩ := ssDijkstra_spec hr hn hM (hts t (by simp))
    obtain ⟨N2, d2, h4, h5⟩ := ih (fun t ht => hts t (by simp [ht])) (mergeMax overall (setKey d1 t 1))
    refine ⟨max N1 N2, d2, ?_, ?_⟩
    · intro fuel hf
      unfold searchLoop
      rw [h1 fuel (by omega)]
      exact h4 fuel (by omega)
    · intro sp
      rcases lt_or_ge ((overall sp).getD 0) 0 with hneg | hneg
      · exact Or.inr hneg
      left
      have hrange : ∀ y t, PathProduct rnd M names t y sp → 0 ≤ y := fun y t h => (h.range hr hM).1
      rcases hc : setKey d1 t 1 sp with _ | c
      · have hm : mergeMax overall (setKey d1 t 1) sp = overall sp := by simp [mergeMax, hc]
        have hno := (h3 sp).1 hc
        have := h5 sp
        rw [hm] at this
        rcases this with this | this
        · convert this using 1
          ext y
          simp only [Set.mem_ofPred_eq, List.mem_cons, exists_eq_or_imp]
          constructor
          · rintro (h | h | h)
            · exact Or.inl h
            · exact absurd h (hno y)
            · exact Or.inr h
          · rintro (h | h)
            · exact Or.inl h
            · exact Or.inr (Or.inr h)
        · exact absurd this (not_lt.2 hneg)
      · have hm : mergeMax overall (setKey d1 t 1) sp = some (max ((overall sp).getD 0) c) := by
          simp [mergeMax, hc]
        have hg := (h2 sp c).1 hc
        have := h5 sp
        rw [hm] at this
        simp only [Option.getD_some] at this
        rcases this with ⟨ha, hb⟩ | this
        · constructor
          · rcases ha with ha | ⟨t', ht', ha⟩
            · rcases max_choice ((overall sp).getD 0) c with hmx | hmx
              · left; rw [ha, hmx]
              · right; refine ⟨t, by simp, ?_⟩; rw [ha, hmx]; exact hg.1
            · right; exact ⟨t', by simp [ht'], ha⟩
          · rintro y (rfl | ⟨t', ht', hy⟩)
            · exact le_trans (le_max_left _ _) (hb (Or.inl rfl))
            · rcases List.mem_cons.1 ht' with rfl | ht'
              · exact le_trans (hg.2 hy) (le_trans (le_max_right _ _) (hb (Or.inl rfl)))
              · exact hb (Or.inr ⟨t', ht', hy⟩)
        · exact absurd this (not_lt.2 (le_trans hneg (le_max_left _ _)))

theorem importanceLoop_spec {rnd : ℚ → ℚ} (hr : RndOk rnd) {names targets : List String} (hn : names.Nodup)
    (hts : ∀ t ∈ targets, t ∈ names) (Ms : List NMat)
    (hM : ∀ M ∈ Ms, UnitMatrix M names.length)
    (imp : String → Option ℚ) (hi : ∀ sp x, imp sp = some x → 0 ≤ x) :
    ∃ N d, (∀ fuel ≥ N, importanceLoop rnd names targets fuel Ms imp = .ok d) ∧
      (∀ sp, imp sp = none → d sp = none) ∧
      ∀ sp x, imp sp = some x → ∃ z, d sp = some z ∧
        IsGreatest {y | y = x ∨ ∃ M ∈ Ms, ∃ t ∈ targets, PathProduct rnd M names t y sp} z := by
  induction Ms generalizing imp with
  | nil =>
    refine ⟨0, imp, fun _ _ => rfl, fun _ h => h, fun sp x hx => ⟨x, hx, Or.inl rfl, ?_⟩⟩
    rintro y (rfl | ⟨M, hm, -⟩)
    · exact le_refl _
    · simp at hm
  | cons M Ms ih =>
    obtain ⟨N1, d1, h1, h2⟩ := searchLoop_spec hr hn (hM M (by simp)) targets hts (fun _ => none)
    have h2 : ∀ sp, IsGreatest {y | y = 0 ∨ ∃ t ∈ targets, PathProduct rnd M names t y sp}
        ((d1 sp).getD 0) := by
      intro sp
      rcases h2 sp with h | h
      · exact h
      · simp at h
    obtain ⟨N2, d2, h3, h4, h5⟩ := ih (fun M hm => hM M (by simp [hm])) (maxInto d1 imp) (by
      intro sp x hx
      simp only [maxInto, Option.map_eq_some_iff] at hx
      obtain ⟨v, hv, rfl⟩ := hx
      exact le_trans (hi sp v hv) (le_max_right _ _))
    refine ⟨max N1 N2, d2, ?_, ?_, ?_⟩
    · intro fuel hf
      unfold importanceLoop
      unfold graphSearchDrgep
      rw [h1 fuel (by omega)]
      exact h3 fuel (by omega)
    · intro sp hs
      exact h4 sp (by simp [maxInto, hs])
    · intro sp x hx
      obtain ⟨z, hz, ha, hb⟩ := h5 sp (max ((d1 sp).getD 0) x) (by simp [maxInto, hx])
      refine ⟨z, hz, ?_, ?_⟩
      · rcases ha with ha | ⟨M', hm', t, ht, ha⟩
        · rcases max_choice ((d1 sp).getD 0) x with hmx | hmx
          · rw [hmx] at ha
            rcases (h2 sp).1 with h0 | ⟨t, ht, hp⟩
            · left
              have hx0 := hi sp x hx
              have : x ≤ (d1 sp).getD 0 := hmx ▸ le_max_right _ _
              rw [ha]
              exact le_antisymm (le_trans h0.le hx0) this
            · right; exact ⟨M, by simp, t, ht, ha ▸ hp⟩
          · left; rw [ha, hmx]
        · right; exact ⟨M', by simp [hm'], t, ht, ha⟩
      · rintro y (rfl | ⟨M', hm', t, ht, hy⟩)
        · exact le_trans (le_max_right _ _) (hb (Or.inl rfl))
        · rcases List.mem_cons.1 hm' with rfl | hm'
          · exact le_trans ((h2 sp).2 (Or.inr ⟨t, ht, hy⟩))
              (le_trans (le_max_left _ _) (hb (Or.inl rfl)))
          · exact hb (Or.inr ⟨M', hm', t, ht, hy⟩)

/-- a target missing from the model stops the search with `KeyError` (once the earlier
targets have been searched) -/
theorem searchLoop_missing {rnd : ℚ → ℚ} (hr : RndOk rnd) {M : NMat} {names : List String} (hn : names.Nodup)
    (hM : UnitMatrix M names.length) (ts : List String) (hts : ∃ t ∈ ts, t ∉ names)
    (overall : String → Option ℚ) :
    ∃ N, ∀ fuel ≥ N, searchLoop rnd (matrixGraph M names) fuel ts overall = .error .keyError := by
  induction ts generalizing overall with
  | nil => simp at hts
  | cons t ts ih =>
    by_cases ht : t ∈ names
    · obtain ⟨N1, d1, h1, -⟩ := ssDijkstra_spec hr hn hM ht
      obtain ⟨N2, h2⟩ := ih (by
        obtain ⟨t', ht', hne⟩ := hts
        rcases List.mem_cons.1 ht' with rfl | h
        · exact absurd ht hne
        · exact ⟨t', h, hne⟩) (mergeMax overall (setKey d1 t 1))
      refine ⟨max N1 N2, fun fuel hf => ?_⟩
      unfold searchLoop
      rw [h1 fuel (by omega)]
      exact h2 fuel (by omega)
    · refine ⟨0, fun fuel _ => ?_⟩
      unfold searchLoop ssDijkstra
      rw [if_neg (by exact ht)]

end Verif
