import Verif.Lemmas.Fixpoint
import Verif.Spec.Away
import Mathlib.Algebra.Order.Field.Rat
import Mathlib.Tactic.Linarith
import Mathlib.Tactic.Ring
/-!
The search in exact arithmetic with positive weights of any size ends exactly when no cycle
that can be reached, away from the source, gains.
-/
namespace Verif
open Spec
variable {α : Type} [DecidableEq α] {g : WGraph α ℚ} {src : α}

omit [DecidableEq α] in
theorem Spec.AwayWalk.pos (hw : ∀ v u w, (u, some w) ∈ g.adj v → 0 < w) {a v : α} {x : ℚ}
    (h : AwayWalk g src a v x) : 0 < x := by
  induction h with
  | nil => norm_num
  | snoc _ he _ ih => exact mul_pos ih (hw _ _ _ he)

omit [DecidableEq α] in
theorem Spec.AwayWalk.src_eq {v : α} {x : ℚ} (h : AwayWalk g src src v x) (hv : v = src) : x = 1 := by
  cases h with
  | nil => rfl
  | snoc _ _ hne => exact absurd hv hne

theorem SP.src_mem {seen : α → Option ℚ} {p v x} (hp : SP g 1 (· * ·) src seen p v x) :
    src ∈ p := by
  induction hp with
  | start => simp
  | step _ _ _ _ ih => exact List.mem_cons_of_mem _ ih

theorem SP.away {seen : α → Option ℚ} {p v x} (hp : SP g 1 (· * ·) src seen p v x) :
    AwayWalk g src src v x := by
  induction hp with
  | start => exact .nil
  | step h0 h1 h2 _ ih =>
    exact .snoc ih h1 (fun h => h2 (h ▸ SP.src_mem h0))

/-- a certificate splits at each of its nodes -/
theorem SP.split {seen : α → Option ℚ} {p v x} (hp : SP g 1 (· * ·) src seen p v x) :
    ∀ u ∈ p, u ≠ src → ∃ y q s, AwayWalk g src src u y ∧ AwayWalk g src u v q ∧ x = y * q ∧
      seen u = some s ∧ y ≤ s := by
  induction hp with
  | start => intro u hu hne; simp at hu; exact absurd hu hne
  | step h0 h1 h2 h3 ih =>
    intro u hu hne
    have haway := (SP.step h0 h1 h2 h3).away
    rcases List.mem_cons.1 hu with rfl | hu
    · obtain ⟨s, hs, hle⟩ := h3
      exact ⟨_, 1, s, haway, .nil, (mul_one _).symm, hs, hle⟩
    · obtain ⟨y, q, s, e1, e2, e3, e4, e5⟩ := ih u hu hne
      refine ⟨y, _, s, e1, .snoc e2 h1 (fun h => h2 (h ▸ SP.src_mem h0)), ?_, e4, e5⟩
      simp only [e3, mul_assoc]

theorem SP.sub_nodes (hcl : ∀ v ∈ g.nodes, ∀ e ∈ g.adj v, e.1 ∈ g.nodes) (hs : src ∈ g.nodes)
    {seen : α → Option ℚ} {p v x} (hp : SP g 1 (· * ·) src seen p v x) : ∀ u ∈ p, u ∈ g.nodes := by
  induction hp with
  | start => simpa using hs
  | step h0 h1 _ _ ih =>
    intro u hu
    rcases List.mem_cons.1 hu with rfl | hu
    · exact hcl _ (ih _ h0.head_mem) _ h1
    · exact ih u hu

theorem SP.push_mem_vals (hcl : ∀ v ∈ g.nodes, ∀ e ∈ g.adj v, e.1 ∈ g.nodes)
    (hs : src ∈ g.nodes) {seen : α → Option ℚ}
    {p v x} (hp : SP g 1 (· * ·) src seen p v x) {u w} (he : (u, some w) ∈ g.adj v) :
    (u, x * w) ∈ allVals g 1 (· * ·) src := by
  have hlen : p.length ≤ g.nodes.length :=
    (List.subperm_of_subset hp.nodup (fun u hu => hp.sub_nodes hcl hs u hu)).length_le
  exact List.mem_append_right _ (mem_extend (vals_mono _ _ hlen hp.mem_vals) he)

/-- every value in the heap and in the result belongs to a simple path -/
structure CertInv (g : WGraph α ℚ) (src : α) (s : DijState α ℚ) : Prop where
  fr : ∀ d c u, (d, c, u) ∈ s.fringe → u = src ∨ ∃ p, SP g 1 (· * ·) src s.seen p u d
  di : ∀ u x, s.dist u = some x → ∃ p, SP g 1 (· * ·) src s.seen p u x

theorem cert_relax (hw : ∀ v u w, (u, some w) ∈ g.adj v → 0 < w)
    (hcl : ∀ v ∈ g.nodes, ∀ e ∈ g.adj v, e.1 ∈ g.nodes) (hs : src ∈ g.nodes)
    (hN : NoGain g src) {s : DijState α ℚ} {v : α} {e : α × Option ℚ} {dv : ℚ}
    (hdv : s.dist v = some dv) (hmem : e ∈ g.adj v) (h : CertInv g src s) :
    CertInv g src (relaxEdge (· * ·) none dv s e) ∧
    (relaxEdge (· * ·) none dv s e).dist = s.dist ∧
    dijMeasure (allVals g 1 (· * ·) src) g.nodes (relaxEdge (· * ·) none dv s e) ≤
      dijMeasure (allVals g 1 (· * ·) src) g.nodes s := by
  obtain ⟨u, ow⟩ := e
  rcases ow with _ | w
  · exact ⟨h, rfl, le_refl _⟩
  · obtain ⟨p, hp⟩ := h.di v dv hdv
    have hvmem := hp.sub_nodes hcl hs v hp.head_mem
    have push : (∀ z, s.seen u = some z → z < dv * w) →
        CertInv g src
          { s with seen := setKey s.seen u (dv * w)
                   fringe := (dv * w, s.cnt, u) :: s.fringe
                   cnt := s.cnt + 1 } ∧
        dijMeasure (allVals g 1 (· * ·) src) g.nodes
          { s with seen := setKey s.seen u (dv * w)
                   fringe := (dv * w, s.cnt, u) :: s.fringe
                   cnt := s.cnt + 1 } ≤
          dijMeasure (allVals g 1 (· * ·) src) g.nodes s := by
      intro hgt
      have hle := seenLe_set hgt
      have hset : setKey s.seen u (dv * w) u = some (dv * w) := by simp [setKey]
      constructor
      · refine ⟨?_, ?_⟩
        · intro d c u' hm
          rcases List.mem_cons.1 hm with hm | hm
          · simp only [Prod.mk.injEq] at hm
            obtain ⟨rfl, rfl, rfl⟩ := hm
            by_cases hu : u' = src
            · exact Or.inl hu
            · right
              refine ⟨u' :: p, .step (hp.mono hle) hmem ?_ ⟨_, hset, le_refl _⟩⟩
              intro hup
              obtain ⟨y, q, z, e1, e2, e3, e4, e5⟩ := hp.split u' hup hu
              have hlt := hgt z e4
              have hq := hN u' y _ hu e1 (.snoc e2 hmem hu)
              have hy := e1.pos hw
              have : dv * w = y * (q * w) := by rw [e3]; ring
              rw [this] at hlt
              have := mul_le_mul_of_nonneg_left hq hy.le
              linarith
          · exact (h.fr d c u' hm).imp id (fun ⟨q, hq⟩ => ⟨q, hq.mono hle⟩)
        · intro u' x hx
          obtain ⟨q, hq⟩ := h.di u' x hx
          exact ⟨q, hq.mono hle⟩
      · have humem : u ∈ g.nodes := hcl v hvmem _ hmem
        have hV := hp.push_mem_vals hcl hs hmem
        have := sum_map_lt humem (cntAbove_set hV hgt)
        unfold dijMeasure
        simp only [List.length_cons]
        omega
    unfold relaxEdge
    simp only
    rcases hsu : s.seen u with _ | y
    · have := push (fun z hz => by rw [hsu] at hz; simp at hz)
      exact ⟨this.1, rfl, this.2⟩
    · dsimp only
      split_ifs with hgt
      · have := push (fun z hz => by rw [hsu] at hz; simp at hz; subst hz; exact hgt)
        exact ⟨this.1, rfl, this.2⟩
      · exact ⟨h, rfl, le_refl _⟩

theorem cert_relaxAll (hw : ∀ v u w, (u, some w) ∈ g.adj v → 0 < w)
    (hcl : ∀ v ∈ g.nodes, ∀ e ∈ g.adj v, e.1 ∈ g.nodes) (hs : src ∈ g.nodes)
    (hN : NoGain g src) {v : α} {dv : ℚ} (es : List (α × Option ℚ)) (s : DijState α ℚ)
    (hdv : s.dist v = some dv) (hmem : ∀ x ∈ es, x ∈ g.adj v) (h : CertInv g src s) :
    CertInv g src (es.foldl (relaxEdge (· * ·) none dv) s) ∧
    dijMeasure (allVals g 1 (· * ·) src) g.nodes (es.foldl (relaxEdge (· * ·) none dv) s) ≤
      dijMeasure (allVals g 1 (· * ·) src) g.nodes s := by
  induction es generalizing s with
  | nil => exact ⟨h, le_refl _⟩
  | cons e es ih =>
    obtain ⟨h1, h2, h3⟩ := cert_relax hw hcl hs hN hdv (hmem e (by simp)) h
    obtain ⟨h4, h5⟩ := ih (relaxEdge (· * ·) none dv s e) (by rw [h2]; exact hdv)
      (fun x hx => hmem x (by simp [hx])) h1
    exact ⟨h4, h5.trans h3⟩

theorem cert_step (hw : ∀ v u w, (u, some w) ∈ g.adj v → 0 < w)
    (hcl : ∀ v ∈ g.nodes, ∀ e ∈ g.adj v, e.1 ∈ g.nodes) (hs : src ∈ g.nodes)
    (hN : NoGain g src) {s : DijState α ℚ} (h : CertInv g src s) :
    dijStep g 1 (· * ·) src none none s = .done s ∨
    ∃ t, dijStep g 1 (· * ·) src none none s = .cont t ∧ CertInv g src t ∧
      dijMeasure (allVals g 1 (· * ·) src) g.nodes t + 1 ≤
        dijMeasure (allVals g 1 (· * ·) src) g.nodes s := by
  unfold dijStep
  rcases hp : popMin s.fringe with _ | ⟨⟨d, c, v⟩, rest⟩
  · exact Or.inl rfl
  · right
    have hperm := popMin_perm hp
    have hmem : ∀ x, x ∈ s.fringe ↔ x = (d, c, v) ∨ x ∈ rest := by
      intro x; rw [hperm.mem_iff, List.mem_cons]
    have hlen : s.fringe.length = rest.length + 1 := by rw [hperm.length_eq]; rfl
    dsimp only
    by_cases hskip : alreadySearched s.dist v d = true
    · rw [if_pos hskip]
      refine ⟨_, rfl, ⟨fun d' c' u hm => h.fr d' c' u ((hmem _).2 (Or.inr hm)), h.di⟩, ?_⟩
      unfold dijMeasure; simp only; omega
    · rw [if_neg hskip, if_neg (by simp)]
      set d' := if v = src then (1 : ℚ) else d with hd'
      have hmid : CertInv g src { s with fringe := rest, dist := setKey s.dist v d' } := by
        refine ⟨fun d' c' u hm => h.fr d' c' u ((hmem _).2 (Or.inr hm)), ?_⟩
        intro u x hx
        simp only [setKey] at hx
        split_ifs at hx with hu
        · simp only [Option.some.injEq] at hx
          subst hx; subst hu
          by_cases hv : u = src
          · subst hv; simp only [hd', if_true]; exact ⟨_, .start⟩
          · simp only [hd', hv, if_false]
            exact (h.fr d c u ((hmem _).2 (Or.inl rfl))).resolve_left hv
        · exact h.di u x hx
      obtain ⟨h4, h5⟩ := cert_relaxAll hw hcl hs hN (dv := d') (g.adj v) _ (by simp [setKey])
        (fun x hx => hx) hmid
      refine ⟨_, rfl, h4, ?_⟩
      have : dijMeasure (allVals g 1 (· * ·) src) g.nodes
          { s with fringe := rest, dist := setKey s.dist v d' } + 1 =
          dijMeasure (allVals g 1 (· * ·) src) g.nodes s := by
        unfold dijMeasure; simp only; omega
      omega

theorem cert_loop (hw : ∀ v u w, (u, some w) ∈ g.adj v → 0 < w)
    (hcl : ∀ v ∈ g.nodes, ∀ e ∈ g.adj v, e.1 ∈ g.nodes) (hs : src ∈ g.nodes)
    (hN : NoGain g src) (k : Nat) : ∀ s : DijState α ℚ, CertInv g src s →
      dijMeasure (allVals g 1 (· * ·) src) g.nodes s < k →
      ∃ dist, dijLoop g 1 (· * ·) src none none k s = some dist := by
  induction k with
  | zero => intro s _ h; omega
  | succ k ih =>
    intro s h hk
    unfold dijLoop
    rcases cert_step hw hcl hs hN h with h1 | ⟨t, h1, h2, h3⟩
    · rw [h1]; exact ⟨_, rfl⟩
    · rw [h1]; exact ih t h2 (by omega)

theorem modDijkstra_ends_nogain (hw : ∀ v u w, (u, some w) ∈ g.adj v → 0 < w)
    (hcl : ∀ v ∈ g.nodes, ∀ e ∈ g.adj v, e.1 ∈ g.nodes) (hs : src ∈ g.nodes)
    (hN : NoGain g src) :
    ∃ fuel dist, modDijkstra g 0 1 (· * ·) src none none fuel = some dist := by
  obtain ⟨dist, h⟩ := cert_loop hw hcl hs hN
    (dijMeasure (allVals g 1 (· * ·) src) g.nodes (dijInit 0 src) + 1) (dijInit 0 src) (by
      refine ⟨?_, ?_⟩
      · intro d c u h
        simp only [dijInit, List.mem_singleton, Prod.mk.injEq] at h
        exact Or.inl h.2.2
      · intro u x h; simp [dijInit] at h) (Nat.lt_succ_self _)
  exact ⟨_, dist, h⟩

/-! ### values -/

/-- values in the heap and in the result belong to walks that do not come back to the source -/
theorem away_relaxAll {v : α} {dv : ℚ} (es : List (α × Option ℚ)) (s : DijState α ℚ)
    (hv : AwayWalk g src src v dv) (hmem : ∀ x ∈ es, x ∈ g.adj v)
    (h : ∀ d c u, (d, c, u) ∈ s.fringe → u = src ∨ AwayWalk g src src u d) :
    (∀ d c u, (d, c, u) ∈ (es.foldl (relaxEdge (· * ·) none dv) s).fringe →
      u = src ∨ AwayWalk g src src u d) ∧
    (es.foldl (relaxEdge (· * ·) none dv) s).dist = s.dist := by
  induction es generalizing s with
  | nil => exact ⟨h, rfl⟩
  | cons e es ih =>
    have key : (∀ d c u, (d, c, u) ∈ (relaxEdge (· * ·) none dv s e).fringe →
        u = src ∨ AwayWalk g src src u d) ∧ (relaxEdge (· * ·) none dv s e).dist = s.dist := by
      obtain ⟨u, ow⟩ := e
      rcases ow with _ | w
      · exact ⟨h, rfl⟩
      · have push : ∀ d c u', (d, c, u') ∈ (dv * w, s.cnt, u) :: s.fringe →
            u' = src ∨ AwayWalk g src src u' d := by
          intro d c u' hm
          rcases List.mem_cons.1 hm with hm | hm
          · simp only [Prod.mk.injEq] at hm
            obtain ⟨rfl, rfl, rfl⟩ := hm
            by_cases hu : u' = src
            · exact Or.inl hu
            · exact Or.inr (.snoc hv (hmem _ (by simp)) hu)
          · exact h d c u' hm
        unfold relaxEdge
        simp only
        rcases hsu : s.seen u with _ | y
        · exact ⟨push, rfl⟩
        · dsimp only
          split_ifs with hgt
          · exact ⟨push, rfl⟩
          · exact ⟨h, rfl⟩
    obtain ⟨h1, h2⟩ := ih (relaxEdge (· * ·) none dv s e) (fun x hx => hmem x (by simp [hx])) key.1
    exact ⟨h1, by rw [List.foldl_cons, h2, key.2]⟩

theorem away_loop (k : Nat) : ∀ (s : DijState α ℚ) (dist : α → Option ℚ),
    (∀ d c u, (d, c, u) ∈ s.fringe → u = src ∨ AwayWalk g src src u d) →
    (∀ u x, s.dist u = some x → AwayWalk g src src u x) →
    dijLoop g 1 (· * ·) src none none k s = some dist →
    ∀ u x, dist u = some x → AwayWalk g src src u x := by
  induction k with
  | zero => intro s dist _ _ h; simp [dijLoop] at h
  | succ k ih =>
    intro s dist hf hd h
    unfold dijLoop dijStep at h
    rcases hp : popMin s.fringe with _ | ⟨⟨d, c, v⟩, rest⟩
    · rw [hp] at h
      simp only [Option.some.injEq] at h
      subst h; exact hd
    · rw [hp] at h
      have hperm := popMin_perm hp
      have hmem : ∀ x, x ∈ s.fringe ↔ x = (d, c, v) ∨ x ∈ rest := by
        intro x; rw [hperm.mem_iff, List.mem_cons]
      have hrest : ∀ d c u, (d, c, u) ∈ rest → u = src ∨ AwayWalk g src src u d :=
        fun d c u hm => hf d c u ((hmem _).2 (Or.inr hm))
      dsimp only at h
      by_cases hskip : alreadySearched s.dist v d = true
      · rw [if_pos hskip] at h
        exact ih { s with fringe := rest } dist hrest hd h
      · rw [if_neg hskip, if_neg (by simp)] at h
        have hv : AwayWalk g src src v (if v = src then 1 else d) := by
          by_cases hv : v = src
          · subst hv; simp only [if_true]; exact .nil
          · simp only [hv, if_false]
            exact (hf d c v ((hmem _).2 (Or.inl rfl))).resolve_left hv
        obtain ⟨h1, h2⟩ := away_relaxAll (g.adj v)
          { s with fringe := rest, dist := setKey s.dist v (if v = src then 1 else d) } hv
          (fun x hx => hx) hrest
        refine ih _ dist h1 ?_ h
        rw [h2]
        intro u x hx
        simp only [setKey] at hx
        split_ifs at hx with hu hvs
        · simp only [Option.some.injEq] at hx
          subst hx; subst hu; subst hvs; exact .nil
        · simp only [Option.some.injEq] at hx
          subst hx; subst hu
          simpa only [hvs, if_false] using hv
        · exact hd u x hx

theorem modDijkstra_away {fuel : Nat} {dist : α → Option ℚ}
    (h : modDijkstra g 0 1 (· * ·) src none none fuel = some dist) :
    ∀ u x, dist u = some x → AwayWalk g src src u x := by
  refine away_loop fuel (dijInit 0 src) dist ?_ ?_ h
  · intro d c u h
    simp only [dijInit, List.mem_singleton, Prod.mk.injEq] at h
    exact Or.inl h.2.2
  · intro u x h; simp [dijInit] at h

/-- the values returned bound every walk that does not come back to the source -/
theorem modDijkstra_bounds (hw : ∀ v u w, (u, some w) ∈ g.adj v → 0 < w) {fuel : Nat}
    {dist : α → Option ℚ} (h : modDijkstra g 0 1 (· * ·) src none none fuel = some dist) :
    ∀ u p, AwayWalk g src src u p → ∃ x, dist u = some x ∧ p ≤ x := by
  obtain ⟨h0, h1⟩ := modDijkstra_fix h
  intro u p hp
  induction hp with
  | nil => exact ⟨1, h0, le_refl _⟩
  | snoc _ he hne ih =>
    obtain ⟨x, hx, hle⟩ := ih
    obtain ⟨y, hy, hxy⟩ := h1 _ x hx _ _ he hne
    exact ⟨y, hy, (mul_le_mul_of_nonneg_right hle (hw _ _ _ he).le).trans hxy⟩

omit [DecidableEq α] in
theorem Spec.AwayWalk.trans {a v u : α} {p q : ℚ} (h1 : AwayWalk g src a v p)
    (h2 : AwayWalk g src v u q) : AwayWalk g src a u (p * q) := by
  induction h2 with
  | nil => rw [mul_one]; exact h1
  | snoc _ he hne ih => rw [← mul_assoc]; exact .snoc ih he hne

end Verif
