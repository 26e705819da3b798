import Verif.Lemmas.Importance
namespace Verif
open Spec

section
variable {α K : Type} [DecidableEq α] [LinearOrder K] {g : WGraph α K} {zero one : K} {mul : K → K → K} {src : α}

theorem relax_fringe (dv : K) (s : DijState α K) (e : α × Option K) :
    (relaxEdge mul none dv s e).fringe.length ≤ s.fringe.length + 1 := by
  unfold relaxEdge
  rcases e.2 with _ | w
  · dsimp only; omega
  · dsimp only
    rcases s.seen e.1 with _ | y
    · simp
    · dsimp only
      split_ifs <;> simp

theorem relaxAll_fringe (dv : K) (l : List (α × Option K)) (s : DijState α K) :
    (l.foldl (relaxEdge mul none dv) s).fringe.length ≤ s.fringe.length + l.length := by
  induction l generalizing s with
  | nil => simp
  | cons e l ih =>
    have h1 := ih (relaxEdge mul none dv s e)
    have h2 := relax_fringe (mul := mul) dv s e
    rw [List.foldl_cons, List.length_cons]
    omega

theorem extend_length {D : Nat} (hD : ∀ v, (g.adj v).length ≤ D) (l : List (α × K)) :
    (extend g mul l).length ≤ D * l.length := by
  induction l with
  | nil => simp [extend]
  | cons x l ih =>
    unfold extend at ih ⊢
    rw [List.flatMap_cons, List.length_append, List.length_cons]
    have := (List.length_filterMap_le (fun e : α × Option K => e.2.map (fun w => (e.1, mul x.2 w))) (g.adj x.1)).trans
      (hD x.1)
    rw [Nat.mul_succ]
    omega

theorem vals_length {D : Nat} (hD : ∀ v, (g.adj v).length ≤ D) (k : Nat) :
    (vals g one mul src k).length ≤ (D + 1) ^ k := by
  induction k with
  | zero => simp [vals]
  | succ k ih =>
    have := extend_length (mul := mul) hD (vals g one mul src k)
    have h2 := Nat.mul_le_mul_left (D + 1) ih
    rw [vals, List.length_append, pow_succ]
    rw [Nat.add_mul, Nat.one_mul] at h2
    rw [Nat.mul_comm ((D + 1) ^ k)]
    omega

theorem sum_groups_le (V : List (α × K)) : ∀ {nodes : List α}, nodes.Nodup →
    (nodes.map (fun u => (V.filter (fun e => e.1 = u)).length)).sum ≤ V.length := by
  intro nodes
  induction nodes generalizing V with
  | nil => simp
  | cons u l ih =>
    intro hd
    rw [List.nodup_cons] at hd
    rw [List.map_cons, List.sum_cons]
    have h1 := ih (V.filter (fun e => ¬ e.1 = u)) hd.2
    have h2 : (l.map (fun x => ((V.filter (fun e => ¬ e.1 = u)).filter (fun e => e.1 = x)).length)).sum =
        (l.map (fun x => (V.filter (fun e => e.1 = x)).length)).sum := by
      congr 1
      refine List.map_congr_left fun x hx => ?_
      rw [List.filter_filter]
      congr 1
      refine List.filter_congr fun e _ => ?_
      have hxu : x ≠ u := fun h => hd.1 (h ▸ hx)
      by_cases hex : e.1 = x
      · simp [hex, hxu]
      · simp [hex]
    have h3 : (V.filter (fun e => e.1 = u)).length + (V.filter (fun e => ¬ e.1 = u)).length = V.length := by
      have := List.length_eq_length_filter_add (l := V) (fun e => decide (e.1 = u))
      simp only [decide_not]
      omega
    omega

theorem cntAbove_le (V : List (α × K)) (seen : α → Option K) (u : α) :
    cntAbove V seen u ≤ (V.filter (fun e => e.1 = u)).length + 1 := by
  unfold cntAbove
  rcases seen u with _ | y
  · exact le_rfl
  · dsimp only
    refine Nat.le_succ_of_le ?_
    have : V.filter (fun e => decide (e.1 = u ∧ y < e.2)) =
        (V.filter (fun e => decide (e.1 = u))).filter (fun e => decide (y < e.2)) := by
      rw [List.filter_filter]
      refine List.filter_congr fun e _ => ?_
      by_cases h1 : e.1 = u <;> by_cases h2 : y < e.2 <;> simp [h1, h2]
    rw [this]
    exact List.length_filter_le _ _

/-- An explicit number of iterations after which the search has ended. -/
theorem modDijkstra_ends (H : Shrinking g zero one mul) (hs : src ∈ g.nodes) (hn : g.nodes.Nodup) {D : Nat}
    (hD : ∀ v, (g.adj v).length ≤ D) {fuel : Nat}
    (hf : 2 * ((D + 1) ^ (g.nodes.length + 1) + g.nodes.length) + D + 2 ≤ fuel) :
    ∃ dist, modDijkstra g zero one mul src none none fuel = some dist := by
  rcases dijStep_first H hs none with ⟨ht, -⟩ | ⟨-, t, h1, h2⟩
  · simp at ht
  · have hm : dijMeasure (allVals g one mul src) g.nodes t + 2 ≤ fuel := by
      refine le_trans ?_ hf
      have e : t = (g.adj src).foldl (relaxEdge mul none one) (firstState zero one src) := by
        have : dijStep g one mul src none none (dijInit zero src) =
            .cont ((g.adj src).foldl (relaxEdge mul none one) (firstState zero one src)) := by
          simp [dijStep, dijInit, popMin, firstState, alreadySearched]
        rw [this] at h1
        injection h1 with h1
        exact h1.symm
      have hfr : t.fringe.length ≤ D := by
        rw [e]
        refine (relaxAll_fringe _ _ _).trans ?_
        have := hD src
        simpa [firstState] using this
      have hsum : (g.nodes.map (cntAbove (allVals g one mul src) t.seen)).sum ≤
          (D + 1) ^ (g.nodes.length + 1) + g.nodes.length := by
        calc _ ≤ (g.nodes.map (fun u => ((allVals g one mul src).filter (fun e => e.1 = u)).length + 1)).sum :=
              List.sum_le_sum fun u _ => cntAbove_le _ _ u
          _ = (g.nodes.map (fun u => ((allVals g one mul src).filter (fun e => e.1 = u)).length)).sum +
                g.nodes.length := by
              rw [List.sum_map_add]; simp
          _ ≤ _ := by
              have h3 := sum_groups_le (allVals g one mul src) hn
              have h4 : (allVals g one mul src).length ≤ (D + 1) ^ (g.nodes.length + 1) :=
                vals_length hD (g.nodes.length + 1)
              omega
      unfold dijMeasure
      omega
    obtain ⟨k, rfl⟩ : ∃ k, fuel = k + 1 := ⟨fuel - 1, by omega⟩
    obtain ⟨dist, h4, -⟩ := dijLoop_spec H hs none k t src h2 (by omega)
    exact ⟨dist, by rw [modDijkstra, dijLoop, h1]; exact h4⟩
end

theorem matrixGraph_degree (M : NMat) (names : List String) (v : String) :
    ((matrixGraph M names).adj v).length ≤ names.length := by
  unfold matrixGraph
  dsimp only
  rcases names.idxOf? v with _ | i
  · simp
  · dsimp only
    refine (List.length_filterMap_le _ _).trans ((List.length_filter_le _ _).trans ?_)
    simp

theorem ssDijkstra_ends {rnd : ℚ → ℚ} (hr : RndOk rnd) {M : NMat} {names : List String} (hn : names.Nodup)
    (hM : UnitMatrix M names.length) {t : String} (ht : t ∈ names) {fuel : Nat}
    (hf : 2 * ((names.length + 1) ^ (names.length + 1) + names.length) + names.length + 2 ≤ fuel) :
    ∃ d, ssDijkstra rnd (matrixGraph M names) t fuel = .ok d := by
  obtain ⟨d, h⟩ := modDijkstra_ends (g := matrixGraph M names) (src := t)
    (shrinking_rounded hr (matrixGraph_closed hn) (matrixGraph_weights hn hM)) ht hn (matrixGraph_degree M names) hf
  exact ⟨d, by rw [ssDijkstra, if_pos (by exact ht), h]⟩

theorem searchLoop_ends {rnd : ℚ → ℚ} (hr : RndOk rnd) {M : NMat} {names : List String} (hn : names.Nodup)
    (hM : UnitMatrix M names.length) {fuel : Nat}
    (hf : 2 * ((names.length + 1) ^ (names.length + 1) + names.length) + names.length + 2 ≤ fuel)
    {ts : List String} (hts : ∀ t ∈ ts, t ∈ names) (o : String → Option ℚ) :
    ∃ d, searchLoop rnd (matrixGraph M names) fuel ts o = .ok d := by
  induction ts generalizing o with
  | nil => exact ⟨_, rfl⟩
  | cons t ts ih =>
    obtain ⟨d, h⟩ := ssDijkstra_ends hr hn hM (hts t (by simp)) hf
    rw [searchLoop, h]
    exact ih (fun x hx => hts x (by simp [hx])) _

theorem importance_ends {rnd : ℚ → ℚ} (hr : RndOk rnd) {names : List String} (hn : names.Nodup) {fuel : Nat}
    (hf : 2 * ((names.length + 1) ^ (names.length + 1) + names.length) + names.length + 2 ≤ fuel)
    {ts : List String} (hts : ∀ t ∈ ts, t ∈ names) {Ms : List NMat} (hM : ∀ M ∈ Ms, UnitMatrix M names.length)
    (o : String → Option ℚ) : ∃ d, importanceLoop rnd names ts fuel Ms o = .ok d := by
  induction Ms generalizing o with
  | nil => exact ⟨_, rfl⟩
  | cons M Ms ih =>
    obtain ⟨d, h⟩ := searchLoop_ends hr hn (hM M (by simp)) hf hts (fun _ => none)
    rw [importanceLoop, graphSearchDrgep, h]
    exact ih (fun x hx => hM x (by simp [hx])) _

/-! ### more iterations do not change a result -/

theorem ssDijkstra_more {rnd : ℚ → ℚ} {g : WGraph String ℚ} {t : String} {fuel fuel' : Nat} (hf : fuel ≤ fuel')
    {d : String → Option ℚ} (h : ssDijkstra rnd g t fuel = .ok d) : ssDijkstra rnd g t fuel' = .ok d := by
  unfold ssDijkstra at h ⊢
  split_ifs at h ⊢ with ht
  rcases hm : modDijkstra g 0 1 (fun a b => rnd (a * b)) t none none fuel with _ | x
  · rw [hm] at h; simp at h
  · rw [hm] at h
    rw [show modDijkstra g 0 1 (fun a b => rnd (a * b)) t none none fuel' = some x from
      dijLoop_mono none none fuel fuel' hf _ _ hm]
    exact h

theorem searchLoop_more {rnd : ℚ → ℚ} {g : WGraph String ℚ} {fuel fuel' : Nat} (hf : fuel ≤ fuel')
    {ts : List String} {o d : String → Option ℚ} (h : searchLoop rnd g fuel ts o = .ok d) :
    searchLoop rnd g fuel' ts o = .ok d := by
  induction ts generalizing o with
  | nil => exact h
  | cons t ts ih =>
    rw [searchLoop] at h ⊢
    rcases hs : ssDijkstra rnd g t fuel with e | x
    · rw [hs] at h; simp at h
    · rw [hs] at h
      rw [ssDijkstra_more hf hs]
      exact ih h

theorem importance_more {rnd : ℚ → ℚ} {names ts : List String} {fuel fuel' : Nat} (hf : fuel ≤ fuel')
    {Ms : List NMat} {o d : String → Option ℚ} (h : importanceLoop rnd names ts fuel Ms o = .ok d) :
    importanceLoop rnd names ts fuel' Ms o = .ok d := by
  induction Ms generalizing o with
  | nil => exact h
  | cons M Ms ih =>
    rw [importanceLoop] at h ⊢
    rcases hs : graphSearchDrgep rnd (matrixGraph M names) ts fuel with e | x
    · rw [hs] at h; simp at h
    · rw [hs] at h
      rw [show graphSearchDrgep rnd (matrixGraph M names) ts fuel' = .ok x from searchLoop_more hf hs]
      exact ih h

/-! ### searches that do not end in time -/

theorem ssDijkstra_or {rnd : ℚ → ℚ} {g : WGraph String ℚ} {t : String} (ht : t ∈ g.nodes) (fuel : Nat) :
    (∃ d, ssDijkstra rnd g t fuel = .ok d) ∨ ssDijkstra rnd g t fuel = .error .outOfFuel := by
  rw [ssDijkstra, if_pos ht]
  rcases modDijkstra g 0 1 (fun a b => rnd (a * b)) t none none fuel with _ | d
  · exact .inr rfl
  · exact .inl ⟨d, rfl⟩

theorem searchLoop_or {rnd : ℚ → ℚ} {g : WGraph String ℚ} {fuel : Nat} {ts : List String} (hts : ∀ t ∈ ts, t ∈ g.nodes)
    (o : String → Option ℚ) :
    (∃ d, searchLoop rnd g fuel ts o = .ok d) ∨ searchLoop rnd g fuel ts o = .error .outOfFuel := by
  induction ts generalizing o with
  | nil => exact .inl ⟨_, rfl⟩
  | cons t ts ih =>
    rcases ssDijkstra_or (rnd := rnd) (hts t (by simp)) fuel with ⟨d, h⟩ | h
    · rw [searchLoop, h]; exact ih (fun x hx => hts x (by simp [hx])) _
    · rw [searchLoop, h]; exact .inr rfl

theorem searchLoop_slow {rnd : ℚ → ℚ} {g : WGraph String ℚ} {fuel : Nat} {ts : List String} (hts : ∀ t ∈ ts, t ∈ g.nodes)
    {t : String} (ht : t ∈ ts) (h : modDijkstra g 0 1 (fun a b => rnd (a * b)) t none none fuel = none)
    (o : String → Option ℚ) : searchLoop rnd g fuel ts o = .error .outOfFuel := by
  induction ts generalizing o with
  | nil => simp at ht
  | cons x ts ih =>
    rcases List.mem_cons.1 ht with rfl | ht
    · rw [searchLoop, ssDijkstra, if_pos (hts t (by simp)), h]
    · rcases ssDijkstra_or (rnd := rnd) (hts x (by simp)) fuel with ⟨d, hd⟩ | hd
      · rw [searchLoop, hd]; exact ih (fun x hx => hts x (by simp [hx])) ht _
      · rw [searchLoop, hd]

theorem importance_slow {rnd : ℚ → ℚ} {names : List String} {fuel : Nat} {ts : List String}
    (hts : ∀ t ∈ ts, t ∈ names) {t : String} (ht : t ∈ ts) {M : NMat} {Ms : List NMat} (hM : M ∈ Ms)
    (h : modDijkstra (matrixGraph M names) 0 1 (fun a b => rnd (a * b)) t none none fuel = none)
    (o : String → Option ℚ) : importanceLoop rnd names ts fuel Ms o = .error .outOfFuel := by
  induction Ms generalizing o with
  | nil => simp at hM
  | cons X Ms ih =>
    rcases List.mem_cons.1 hM with rfl | hM
    · rw [importanceLoop, graphSearchDrgep, searchLoop_slow (g := matrixGraph M names) hts ht h]
    · rcases searchLoop_or (rnd := rnd) (g := matrixGraph X names) (fuel := fuel) hts (fun _ => none) with ⟨d, hd⟩ | hd
      · rw [importanceLoop, graphSearchDrgep, hd]; exact ih hM _
      · rw [importanceLoop, graphSearchDrgep, hd]

end Verif
