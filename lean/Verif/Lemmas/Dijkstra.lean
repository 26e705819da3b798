import Verif.Spec.Dijkstra
import Mathlib.Data.List.Perm.Basic
import Mathlib.Data.List.Dedup
import Mathlib.Data.List.Nodup
import Mathlib.Data.List.Perm.Subperm
import Mathlib.Tactic.Common
namespace Verif
open Spec
variable {α K : Type} [DecidableEq α] [LinearOrder K]

/-! ### heap -/

theorem popMin_none {l : List (Entry α K)} : popMin l = none ↔ l = [] := by
  cases l with
  | nil => simp [popMin]
  | cons e es =>
    simp only [popMin, reduceCtorEq, iff_false]
    rcases popMin es with _ | ⟨x, r⟩
    · simp
    · simp only; split_ifs <;> simp

theorem popMin_perm {l : List (Entry α K)} {x : Entry α K} {r : List (Entry α K)}
    (h : popMin l = some (x, r)) : l.Perm (x :: r) := by
  induction l generalizing x r with
  | nil => simp [popMin] at h
  | cons e es ih =>
    simp only [popMin] at h
    rcases hp : popMin es with _ | ⟨y, r'⟩
    · rw [hp] at h
      simp only [Option.some.injEq, Prod.mk.injEq] at h
      obtain ⟨rfl, rfl⟩ := h
      rw [popMin_none.1 hp]
    · rw [hp] at h
      simp only at h
      have := ih hp
      split_ifs at h
      · simp only [Option.some.injEq, Prod.mk.injEq] at h
        obtain ⟨rfl, rfl⟩ := h
        exact (this.cons e).trans (List.Perm.swap _ _ _)
      · simp only [Option.some.injEq, Prod.mk.injEq] at h
        obtain ⟨rfl, rfl⟩ := h
        exact this.cons e

/-! ### simple-path certificates -/

/-- `p` (newest node first) is a simple path from `src` to `v` of value `x` such that every
node on it except `src` has been seen with at least the value it has along the path -/
inductive SP (g : WGraph α K) (one : K) (mul : K → K → K) (src : α) (seen : α → Option K) :
    List α → α → K → Prop
  | start : SP g one mul src seen [src] src one
  | step {p : List α} {v u : α} {x w : K} : SP g one mul src seen p v x →
      (u, some w) ∈ g.adj v → u ∉ p → (∃ s, seen u = some s ∧ mul x w ≤ s) →
      SP g one mul src seen (u :: p) u (mul x w)

section
variable {g : WGraph α K} {zero one : K} {mul : K → K → K} {src : α}

/-- values only grow -/
def SeenLe (a b : α → Option K) : Prop := ∀ u y, a u = some y → ∃ z, b u = some z ∧ y ≤ z

theorem SP.mono {seen seen' : α → Option K} (h : SeenLe seen seen') {p v x}
    (hp : SP g one mul src seen p v x) : SP g one mul src seen' p v x := by
  induction hp with
  | start => exact .start
  | step _ h1 h2 h3 ih =>
    obtain ⟨s, hs, hle⟩ := h3
    obtain ⟨z, hz, hle'⟩ := h _ _ hs
    exact .step ih h1 h2 ⟨z, hz, hle.trans hle'⟩

theorem SP.walk {seen : α → Option K} {p v x} (hp : SP g one mul src seen p v x) :
    WalkVal g one mul src v x := by
  induction hp with
  | start => exact .start
  | step _ h1 _ _ ih => exact .step ih h1

theorem SP.nodup {seen : α → Option K} {p v x} (hp : SP g one mul src seen p v x) : p.Nodup := by
  induction hp with
  | start => simp
  | step _ _ h2 _ ih => exact List.nodup_cons.2 ⟨h2, ih⟩

theorem WalkVal.mem (H : Shrinking g zero one mul) (hs : src ∈ g.nodes) {v x}
    (h : WalkVal g one mul src v x) : v ∈ g.nodes := by
  induction h with
  | start => exact hs
  | step _ h1 ih => exact H.closed _ ih _ h1

theorem WalkVal.range (H : Shrinking g zero one mul) (hs : src ∈ g.nodes) {v x}
    (h : WalkVal g one mul src v x) : zero ≤ x ∧ x ≤ one := by
  induction h with
  | start => exact ⟨H.one_nonneg, le_refl _⟩
  | step h0 h1 ih =>
    have := H.shrink _ (WalkVal.mem H hs h0) _ _ h1 _ _ h0 ih.1
    exact ⟨this.1, this.2.trans ih.2⟩

theorem SP.sub (H : Shrinking g zero one mul) (hs : src ∈ g.nodes) {seen : α → Option K} {p v x}
    (hp : SP g one mul src seen p v x) : ∀ u ∈ p, u ∈ g.nodes := by
  induction hp with
  | start => simpa using hs
  | step h0 h1 _ _ ih =>
    intro u hu
    rcases List.mem_cons.1 hu with rfl | hu
    · exact H.closed _ (WalkVal.mem H hs h0.walk) _ h1
    · exact ih u hu

/-- every node on the certificate has been seen with at least the end value -/
theorem SP.seen_ge (H : Shrinking g zero one mul) (hs : src ∈ g.nodes) {seen : α → Option K}
    {p v x} (hp : SP g one mul src seen p v x) :
    ∀ u ∈ p, u ≠ src → ∃ s, seen u = some s ∧ x ≤ s := by
  induction hp with
  | start => intro u hu hne; simp at hu; exact absurd hu hne
  | step h0 h1 _ h3 ih =>
    intro u hu hne
    rcases List.mem_cons.1 hu with rfl | hu
    · exact h3
    · obtain ⟨s, h, hle⟩ := ih u hu hne
      have := H.shrink _ (WalkVal.mem H hs h0.walk) _ _ h1 _ _ h0.walk (WalkVal.range H hs h0.walk).1
      exact ⟨s, h, this.2.trans hle⟩

theorem SP.head_mem {seen : α → Option K} {p v x} (hp : SP g one mul src seen p v x) : v ∈ p := by
  cases hp <;> simp

/-! ### finitely many candidate values -/

/-- one-step extensions of a list of (node, value) pairs -/
def extend (g : WGraph α K) (mul : K → K → K) (l : List (α × K)) : List (α × K) :=
  l.flatMap (fun vx => (g.adj vx.1).filterMap (fun e => e.2.map (fun w => (e.1, mul vx.2 w))))

/-- values of walks with at most `k` edges -/
def vals (g : WGraph α K) (one : K) (mul : K → K → K) (src : α) : Nat → List (α × K)
  | 0 => [(src, one)]
  | k + 1 => vals g one mul src k ++ extend g mul (vals g one mul src k)

theorem vals_mono (k k' : Nat) (h : k ≤ k') {y} (hy : y ∈ vals g one mul src k) :
    y ∈ vals g one mul src k' := by
  induction k', h using Nat.le_induction with
  | base => exact hy
  | succ n _ ih => exact List.mem_append_left _ ih

theorem mem_extend {l : List (α × K)} {v u : α} {x w : K} (h : (v, x) ∈ l)
    (he : (u, some w) ∈ g.adj v) : (u, mul x w) ∈ extend g mul l := by
  unfold extend
  rw [List.mem_flatMap]
  exact ⟨(v, x), h, List.mem_filterMap.2 ⟨(u, some w), he, rfl⟩⟩

theorem SP.mem_vals {seen : α → Option K} {p v x} (hp : SP g one mul src seen p v x) :
    (v, x) ∈ vals g one mul src p.length := by
  induction hp with
  | start => exact List.mem_append_left _ (by simp [vals])
  | step h0 h1 _ _ ih => exact List.mem_append_right _ (mem_extend ih h1)

/-- all values that are ever pushed -/
def allVals (g : WGraph α K) (one : K) (mul : K → K → K) (src : α) : List (α × K) :=
  vals g one mul src (g.nodes.length + 1)

theorem SP.push_mem (H : Shrinking g zero one mul) (hs : src ∈ g.nodes) {seen : α → Option K}
    {p v x} (hp : SP g one mul src seen p v x) {u w} (he : (u, some w) ∈ g.adj v) :
    (u, mul x w) ∈ allVals g one mul src := by
  have hlen : p.length ≤ g.nodes.length :=
    (List.subperm_of_subset hp.nodup (fun u hu => hp.sub H hs u hu)).length_le
  exact List.mem_append_right _ (mem_extend (vals_mono _ _ hlen hp.mem_vals) he)

/-! ### invariant -/

structure Inv (g : WGraph α K) (zero one : K) (mul : K → K → K) (src : α) (s : DijState α K)
    (v : α) (rem : List (α × Option K)) : Prop where
  dsrc : s.dist src = some one
  ssrc : ∃ y, s.seen src = some y
  fr : ∀ d c u, (d, c, u) ∈ s.fringe →
    (u = src ∨ ∃ p, SP g one mul src s.seen p u d) ∧ zero ≤ d ∧ d ≤ one ∧
      ∃ y, s.seen u = some y ∧ d ≤ y
  di : ∀ u x, s.dist u = some x → ∃ p, SP g one mul src s.seen p u x
  live : ∀ u y, u ≠ src → s.seen u = some y → s.dist u = some y ∨ ∃ c, (y, c, u) ∈ s.fringe
  edge : ∀ a x, s.dist a = some x → ∀ u w, (u, some w) ∈ g.adj a →
    (a = v ∧ (u, some w) ∈ rem) ∨ ∃ y, s.seen u = some y ∧ mul x w ≤ y
  smem : ∀ u y, s.seen u = some y → u ∈ g.nodes

/-- number of candidate values of `u` still above the best seen -/
def cntAbove (V : List (α × K)) (seen : α → Option K) (u : α) : Nat :=
  match seen u with
  | none => (V.filter (fun e => e.1 = u)).length + 1
  | some y => (V.filter (fun e => e.1 = u ∧ y < e.2)).length

def dijMeasure (V : List (α × K)) (nodes : List α) (s : DijState α K) : Nat :=
  2 * (nodes.map (cntAbove V s.seen)).sum + s.fringe.length

theorem filter_length_lt {β} (l : List β) (p q : β → Bool) (h : ∀ x ∈ l, q x → p x)
    (a : β) (ha : a ∈ l) (hp : p a) (hq : ¬ q a) :
    (l.filter q).length + 1 ≤ (l.filter p).length := by
  induction l with
  | nil => simp at ha
  | cons b l ih =>
    have hmono : ∀ l : List β, (∀ x ∈ l, q x → p x) → (l.filter q).length ≤ (l.filter p).length := by
      intro l hl
      induction l with
      | nil => simp
      | cons c l ih2 =>
        have := ih2 (fun x hx => hl x (by simp [hx]))
        have hc := hl c (by simp)
        by_cases h1 : q c
        · simp [h1, hc h1, this]
        · by_cases h2 : p c
          · simp [h1, h2]; omega
          · simp [h1, h2, this]
    rcases List.mem_cons.1 ha with rfl | ha
    · have := hmono l (fun x hx => h x (by simp [hx]))
      simp [hp, hq, this]
    · have := ih (fun x hx => h x (by simp [hx])) ha
      have hb := h b (by simp)
      by_cases h1 : q b
      · simp [h1, hb h1]; omega
      · by_cases h2 : p b
        · simp [h1, h2]; omega
        · simp [h1, h2]; omega

theorem cntAbove_set {V : List (α × K)} {seen : α → Option K} {u : α} {y : K}
    (hV : (u, y) ∈ V) (hgt : ∀ z, seen u = some z → z < y) (v : α) :
    cntAbove V (setKey seen u y) v + (if v = u then 1 else 0) ≤ cntAbove V seen v := by
  by_cases hv : v = u
  · subst hv
    unfold cntAbove setKey
    simp only [if_true]
    rcases hs : seen v with _ | z
    · simp only
      have : (V.filter (fun e => decide (e.1 = v ∧ y < e.2))).length ≤
          (V.filter (fun e => decide (e.1 = v))).length := by
        have h := List.monotone_filter_right V
          (p := fun e => decide (e.1 = v ∧ y < e.2)) (q := fun e => decide (e.1 = v))
          (by intro a; simp; tauto)
        exact h.length_le
      omega
    · simp only
      refine filter_length_lt V (fun e => decide (e.1 = v ∧ z < e.2))
        (fun e => decide (e.1 = v ∧ y < e.2)) ?_ (v, y) hV ?_ ?_
      · intro x _; simp only [decide_eq_true_eq]
        exact fun h => ⟨h.1, (hgt z hs).trans h.2⟩
      · simp [hgt z hs]
      · simp
  · simp [cntAbove, setKey, hv]

theorem sum_map_lt {l : List α} {f h : α → Nat} {u : α} (hu : u ∈ l)
    (H : ∀ v, f v + (if v = u then 1 else 0) ≤ h v) : (l.map f).sum + 1 ≤ (l.map h).sum := by
  induction l with
  | nil => simp at hu
  | cons a l ih =>
    have hle : (l.map f).sum ≤ (l.map h).sum := by
      clear ih hu
      induction l with
      | nil => simp
      | cons b l ih2 => have := H b; simp only [List.map_cons, List.sum_cons]; omega
    have ha := H a
    rcases List.mem_cons.1 hu with rfl | hu
    · simp at ha ⊢; omega
    · have := ih hu
      simp; omega

theorem seenLe_set {seen : α → Option K} {u : α} {y : K} (hgt : ∀ z, seen u = some z → z < y) :
    SeenLe seen (setKey seen u y) := by
  intro v z hz
  unfold setKey
  by_cases h : v = u
  · subst h; exact ⟨y, by simp, (hgt z hz).le⟩
  · exact ⟨z, by simp [h, hz], le_refl _⟩

/-- pushing one relaxed edge preserves the invariant and does not increase the measure -/
theorem relax_inv (H : Shrinking g zero one mul) (hs : src ∈ g.nodes) {s : DijState α K} {v : α}
    {e : α × Option K} {es : List (α × Option K)} {dv : K} (hdv : s.dist v = some dv)
    (hmem : ∀ x ∈ e :: es, x ∈ g.adj v)
    (h : Inv g zero one mul src s v (e :: es)) :
    Inv g zero one mul src (relaxEdge mul none dv s e) v es ∧
    (relaxEdge mul none dv s e).dist = s.dist ∧
    dijMeasure (allVals g one mul src) g.nodes (relaxEdge mul none dv s e) ≤
      dijMeasure (allVals g one mul src) g.nodes s := by
  obtain ⟨u, ow⟩ := e
  rcases ow with _ | w
  · refine ⟨⟨h.dsrc, h.ssrc, h.fr, h.di, h.live, ?_, h.smem⟩, rfl, le_refl _⟩
    intro a x hx u' w' he
    rcases h.edge a x hx u' w' he with ⟨h1, h2⟩ | h2
    · left; refine ⟨h1, ?_⟩
      rcases List.mem_cons.1 h2 with h2 | h2
      · simp at h2
      · exact h2
    · exact Or.inr h2
  · have hedge : (u, some w) ∈ g.adj v := hmem _ (by simp)
    obtain ⟨p, hp⟩ := h.di v dv hdv
    have hvmem := WalkVal.mem H hs hp.walk
    have hrange := WalkVal.range H hs hp.walk
    have hshr := H.shrink v hvmem u w hedge _ dv hp.walk hrange.1
    -- no push
    have nopush : ∀ y, s.seen u = some y → mul dv w ≤ y →
        Inv g zero one mul src s v es := by
      intro y hy hle
      refine ⟨h.dsrc, h.ssrc, h.fr, h.di, h.live, ?_, h.smem⟩
      intro a x hx u' w' he
      rcases h.edge a x hx u' w' he with ⟨h1, h2⟩ | h2
      · rcases List.mem_cons.1 h2 with h2 | h2
        · right
          simp only [Prod.mk.injEq, Option.some.injEq] at h2
          obtain ⟨rfl, rfl⟩ := h2
          subst h1
          rw [hdv] at hx
          simp only [Option.some.injEq] at hx
          subst hx
          exact ⟨y, hy, hle⟩
        · exact Or.inl ⟨h1, h2⟩
      · exact Or.inr h2
    -- push
    have push : (∀ z, s.seen u = some z → z < mul dv w) →
        Inv g zero one mul src
          { s with seen := setKey s.seen u (mul dv w)
                   fringe := (mul dv w, s.cnt, u) :: s.fringe
                   cnt := s.cnt + 1 } v es ∧
        dijMeasure (allVals g one mul src) g.nodes
          { s with seen := setKey s.seen u (mul dv w)
                   fringe := (mul dv w, s.cnt, u) :: s.fringe
                   cnt := s.cnt + 1 } ≤
          dijMeasure (allVals g one mul src) g.nodes s := by
      intro hgt
      have hle := seenLe_set hgt
      have hset : setKey s.seen u (mul dv w) u = some (mul dv w) := by simp [setKey]
      constructor
      · refine ⟨h.dsrc, ?_, ?_, ?_, ?_, ?_, ?_⟩
        · obtain ⟨y, hy⟩ := h.ssrc
          obtain ⟨z, hz, -⟩ := hle _ _ hy
          exact ⟨z, hz⟩
        · intro d c u' hm
          rcases List.mem_cons.1 hm with hm | hm
          · simp only [Prod.mk.injEq] at hm
            obtain ⟨rfl, rfl, rfl⟩ := hm
            refine ⟨?_, hshr.1, hshr.2.trans hrange.2, _, hset, le_refl _⟩
            by_cases hu : u' = src
            · exact Or.inl hu
            · right
              refine ⟨u' :: p, .step (hp.mono hle) hedge ?_ ⟨_, hset, le_refl _⟩⟩
              intro hup
              obtain ⟨z, hz, hzle⟩ := hp.seen_ge H hs u' hup hu
              exact absurd (hgt z hz) (not_lt.2 (hshr.2.trans hzle))
          · obtain ⟨h1, h2, h3, y, hy, hdy⟩ := h.fr d c u' hm
            refine ⟨h1.imp id (fun ⟨q, hq⟩ => ⟨q, hq.mono hle⟩), h2, h3, ?_⟩
            obtain ⟨z, hz, hyz⟩ := hle _ _ hy
            exact ⟨z, hz, hdy.trans hyz⟩
        · intro u' x hx
          obtain ⟨q, hq⟩ := h.di u' x hx
          exact ⟨q, hq.mono hle⟩
        · intro u' y hne hy
          by_cases huu : u' = u
          · subst huu
            have hy' := hset.symm.trans hy
            simp only [Option.some.injEq] at hy'
            subst hy'
            exact Or.inr ⟨s.cnt, by simp⟩
          · have : s.seen u' = some y := by simpa [setKey, huu] using hy
            rcases h.live u' y hne this with h1 | ⟨c, hc⟩
            · exact Or.inl h1
            · exact Or.inr ⟨c, List.mem_cons_of_mem _ hc⟩
        · intro a x hx u' w' he
          rcases h.edge a x hx u' w' he with ⟨h1, h2⟩ | ⟨y, hy, hle'⟩
          · rcases List.mem_cons.1 h2 with h2 | h2
            · right
              simp only [Prod.mk.injEq, Option.some.injEq] at h2
              obtain ⟨rfl, rfl⟩ := h2
              subst h1
              have hx' : some dv = some x := hdv ▸ hx
              simp only [Option.some.injEq] at hx'
              subst hx'
              exact ⟨_, hset, le_refl _⟩
            · exact Or.inl ⟨h1, h2⟩
          · obtain ⟨z, hz, hyz⟩ := hle _ _ hy
            exact Or.inr ⟨z, hz, hle'.trans hyz⟩
        · intro u' y hy
          by_cases huu : u' = u
          · subst huu; exact H.closed v hvmem _ hedge
          · exact h.smem u' y (by simpa [setKey, huu] using hy)
      · have humem : u ∈ g.nodes := H.closed v hvmem _ hedge
        have hV := hp.push_mem H hs hedge
        have := sum_map_lt humem (cntAbove_set hV hgt)
        unfold dijMeasure
        simp only [List.length_cons]
        omega
    unfold relaxEdge
    simp only
    rcases hsu : s.seen u with _ | y
    · have := push (fun z hz => by rw [hsu] at hz; simp at hz)
      exact ⟨this.1, rfl, this.2⟩
    · dsimp only
      split_ifs with hgt
      · have := push (fun z hz => by rw [hsu] at hz; simp at hz; subst hz; exact hgt)
        exact ⟨this.1, rfl, this.2⟩
      · exact ⟨nopush y hsu (not_lt.1 hgt), rfl, le_refl _⟩

theorem relaxAll_inv (H : Shrinking g zero one mul) (hs : src ∈ g.nodes) {v : α} {dv : K}
    (es : List (α × Option K)) (s : DijState α K) (hdv : s.dist v = some dv)
    (hmem : ∀ x ∈ es, x ∈ g.adj v) (h : Inv g zero one mul src s v es) :
    Inv g zero one mul src (es.foldl (relaxEdge mul none dv) s) v [] ∧
    dijMeasure (allVals g one mul src) g.nodes (es.foldl (relaxEdge mul none dv) s) ≤
      dijMeasure (allVals g one mul src) g.nodes s := by
  induction es generalizing s with
  | nil => exact ⟨h, le_refl _⟩
  | cons e es ih =>
    obtain ⟨h1, h2, h3⟩ := relax_inv H hs hdv hmem h
    obtain ⟨h4, h5⟩ := ih (relaxEdge mul none dv s e) (by rw [h2]; exact hdv)
      (fun x hx => hmem x (by simp [hx])) h1
    exact ⟨h4, h5.trans h3⟩

/-- the invariant while the edges of the node just popped are treated -/
theorem dijMid_inv {s : DijState α K} {v0 v : α} {d : K} {c : Nat} {rest : List (Entry α K)}
    (h : Inv g zero one mul src s v0 []) (hp : popMin s.fringe = some ((d, c, v), rest))
    (hskip : ¬ alreadySearched s.dist v d = true) :
    Inv g zero one mul src
      { s with fringe := rest, dist := setKey s.dist v (if v = src then one else d) } v (g.adj v) := by
  have hperm := popMin_perm hp
  have hmem : ∀ x, x ∈ s.fringe ↔ x = (d, c, v) ∨ x ∈ rest := by
    intro x; rw [hperm.mem_iff, List.mem_cons]
  obtain ⟨e1, e2, e3, y, hy, hdy⟩ := h.fr d c v ((hmem _).2 (Or.inl rfl))
  have hnot : ∀ x, s.dist v = some x → x ≤ d := by
    intro x hx
    simpa [alreadySearched, hx] using hskip
  have hcert : ∃ p, SP g one mul src s.seen p v (if v = src then one else d) := by
    by_cases hv : v = src
    · subst hv; simp only [if_true]; exact ⟨_, .start⟩
    · simp only [hv, if_false]
      exact e1.resolve_left hv
  set d' := if v = src then one else d with hd'
  refine ⟨?_, h.ssrc, ?_, ?_, ?_, ?_, h.smem⟩
  · by_cases hv : src = v
    · simp [setKey, hd', hv]
    · simp [setKey, hv, h.dsrc]
  · intro d1 c1 u hm; exact h.fr d1 c1 u ((hmem _).2 (Or.inr hm))
  · intro u x hx
    simp only [setKey] at hx
    split_ifs at hx with hu
    · simp only [Option.some.injEq] at hx; subst hx; subst hu; exact hcert
    · exact h.di u x hx
  · intro u z hne hz
    by_cases hu : u = v
    · subst hu
      have hdd : d' = d := by simp [hd', hne]
      rcases h.live u z hne hz with h1 | ⟨c', hc'⟩
      · left
        have hzle := hnot z h1
        have hyz : y = z := by
          have hz' : s.seen u = some z := hz
          rw [hy] at hz'; simpa using hz'
        subst hyz
        have : d = y := le_antisymm hdy hzle
        simp [setKey, hdd, this]
      · rcases (hmem _).1 hc' with he | hr
        · simp only [Prod.mk.injEq] at he
          left; simp [setKey, hdd, he.1]
        · exact Or.inr ⟨c', hr⟩
    · rcases h.live u z hne hz with h1 | ⟨c', hc'⟩
      · left; simpa [setKey, hu] using h1
      · rcases (hmem _).1 hc' with he | hr
        · simp only [Prod.mk.injEq] at he
          exact absurd he.2.2 hu
        · exact Or.inr ⟨c', hr⟩
  · intro a x hx u w he
    by_cases ha : a = v
    · left; exact ⟨ha, ha ▸ he⟩
    · have hx' : s.dist a = some x := by simpa [setKey, ha] using hx
      rcases h.edge a x hx' u w he with ⟨-, h2⟩ | h2
      · simp at h2
      · exact Or.inr h2

/-- one iteration: either the loop ends, or the invariant holds again with less work left -/
theorem dijStep_inv (H : Shrinking g zero one mul) (hs : src ∈ g.nodes) (tgt : Option α)
    {s : DijState α K} {v0 : α} (h : Inv g zero one mul src s v0 []) :
    (∃ t, dijStep g one mul src none tgt s = .done t ∧
      ((t = s ∧ s.fringe = []) ∨ ∃ u, tgt = some u ∧ ∃ x, t.dist u = some x ∧
        ∀ a y, t.dist a = some y → WalkVal g one mul src a y)) ∨
    (∃ t v, dijStep g one mul src none tgt s = .cont t ∧ Inv g zero one mul src t v [] ∧
      dijMeasure (allVals g one mul src) g.nodes t + 1 ≤
        dijMeasure (allVals g one mul src) g.nodes s) := by
  unfold dijStep
  rcases hp : popMin s.fringe with _ | ⟨⟨d, c, v⟩, rest⟩
  · left; exact ⟨s, rfl, Or.inl ⟨rfl, popMin_none.1 hp⟩⟩
  · have hperm := popMin_perm hp
    have hmem : ∀ x, x ∈ s.fringe ↔ x = (d, c, v) ∨ x ∈ rest := by
      intro x; rw [hperm.mem_iff, List.mem_cons]
    have hlen : s.fringe.length = rest.length + 1 := by rw [hperm.length_eq]; rfl
    obtain ⟨e1, e2, e3, y, hy, hdy⟩ := h.fr d c v ((hmem _).2 (Or.inl rfl))
    dsimp only
    by_cases hskip : alreadySearched s.dist v d = true
    · -- skipped
      rw [if_pos hskip]
      right
      refine ⟨_, v0, rfl, ⟨h.dsrc, h.ssrc, ?_, h.di, ?_, h.edge, h.smem⟩, ?_⟩
      · intro d' c' u hm; exact h.fr d' c' u ((hmem _).2 (Or.inr hm))
      · intro u z hne hz
        rcases h.live u z hne hz with h1 | ⟨c', hc'⟩
        · exact Or.inl h1
        · rcases (hmem _).1 hc' with he | hr
          · simp only [Prod.mk.injEq] at he
            obtain ⟨rfl, rfl, rfl⟩ := he
            exfalso
            rcases hd : s.dist u with _ | x
            · simp [alreadySearched, hd] at hskip
            · simp only [alreadySearched, hd, decide_eq_true_eq] at hskip
              obtain ⟨q, hq⟩ := h.di u x hd
              obtain ⟨s', hs', hle⟩ := hq.seen_ge H hs u hq.head_mem hne
              rw [hz] at hs'
              simp only [Option.some.injEq] at hs'
              subst hs'
              exact absurd hskip (not_lt.2 hle)
          · exact Or.inr ⟨c', hr⟩
      · unfold dijMeasure; simp only; omega
    · rw [if_neg hskip]
      have hnot : ∀ x, s.dist v = some x → x ≤ d := by
        intro x hx
        simpa [alreadySearched, hx] using hskip
      have hcert : ∃ p, SP g one mul src s.seen p v (if v = src then one else d) := by
        by_cases hv : v = src
        · subst hv; simp only [if_true]; exact ⟨_, .start⟩
        · simp only [hv, if_false]
          exact e1.resolve_left hv
      by_cases htgt : tgt = some v
      · -- target reached
        rw [if_pos htgt]
        left
        refine ⟨_, rfl, Or.inr ⟨v, htgt, if v = src then one else d, by simp [setKey], ?_⟩⟩
        intro a z hz
        simp only [setKey] at hz
        split_ifs at hz with ha hv
        · simp only [Option.some.injEq] at hz; subst hz; subst ha
          obtain ⟨p, hp'⟩ := hcert
          simp only [hv, if_true] at hp'
          rw [hv]; exact hp'.walk
        · simp only [Option.some.injEq] at hz; subst hz; subst ha
          obtain ⟨p, hp'⟩ := hcert
          simp only [hv, if_false] at hp'
          exact hp'.walk
        · obtain ⟨p, hp'⟩ := h.di a z hz
          exact hp'.walk
      · -- relaxed
        rw [if_neg htgt]
        right
        set d' := if v = src then one else d with hd'
        have hmid : Inv g zero one mul src
            { s with fringe := rest, dist := setKey s.dist v d' } v (g.adj v) :=
          dijMid_inv h hp hskip
        obtain ⟨h4, h5⟩ := relaxAll_inv H hs (dv := d') (g.adj v) _ (by simp [setKey])
          (fun x hx => hx) hmid
        refine ⟨_, v, rfl, h4, ?_⟩
        have : dijMeasure (allVals g one mul src) g.nodes
            { s with fringe := rest, dist := setKey s.dist v d' } + 1 =
            dijMeasure (allVals g one mul src) g.nodes s := by
          unfold dijMeasure; simp only; omega
        omega

/-- the state right after `dist[source] = 1` -/
def firstState (zero one : K) (src : α) : DijState α K where
  dist := setKey (fun _ => none) src one
  seen := fun x => if x = src then some zero else none
  fringe := []
  cnt := 1

theorem firstState_inv (hs : src ∈ g.nodes) :
    Inv g zero one mul src (firstState zero one src) src (g.adj src) := by
  refine ⟨by simp [firstState, setKey], ⟨zero, by simp [firstState]⟩, by simp [firstState], ?_, ?_, ?_, ?_⟩
  · intro u x hx
    simp only [firstState, setKey] at hx
    split_ifs at hx with hu
    · simp only [Option.some.injEq] at hx; subst hx; subst hu; exact ⟨_, .start⟩
  · intro u y hne hy; simp [firstState, hne] at hy
  · intro a x hx u w he
    simp only [firstState, setKey] at hx
    split_ifs at hx with ha
    · left; exact ⟨ha, ha ▸ he⟩
  · intro u y hy
    simp only [firstState] at hy
    split_ifs at hy with hu
    · exact hu ▸ hs

/-- the first iteration -/
theorem dijStep_first (H : Shrinking g zero one mul) (hs : src ∈ g.nodes) (tgt : Option α) :
    (tgt = some src ∧ ∃ t, dijStep g one mul src none tgt (dijInit zero src) = .done t ∧
      t.dist src = some one ∧ ∀ a y, t.dist a = some y → WalkVal g one mul src a y) ∨
    (tgt ≠ some src ∧ ∃ t, dijStep g one mul src none tgt (dijInit zero src) = .cont t ∧
      Inv g zero one mul src t src []) := by
  by_cases ht : tgt = some src
  · left
    subst ht
    refine ⟨rfl, (firstState zero one src),
      by simp [dijStep, dijInit, popMin, firstState, alreadySearched], by simp [firstState, setKey], ?_⟩
    intro a y hy
    simp only [firstState, setKey] at hy
    split_ifs at hy with ha
    · simp only [Option.some.injEq] at hy; subst hy; subst ha; exact .start
  · right
    refine ⟨ht, (g.adj src).foldl (relaxEdge mul none one)
      (firstState zero one src),
      by simp [dijStep, dijInit, popMin, ht, firstState, alreadySearched], ?_⟩
    exact (relaxAll_inv H hs (dv := one) (g.adj src) _ (by simp [firstState, setKey])
      (fun x hx => hx) (firstState_inv hs)).1

/-- at the end of the loop every walk value is bounded by `dist` -/
theorem final_greatest (H : Shrinking g zero one mul) (hs : src ∈ g.nodes) {s : DijState α K}
    {v0 : α} (h : Inv g zero one mul src s v0 []) (hf : s.fringe = []) (v : α) (y : K)
    (hw : WalkVal g one mul src v y) : ∃ x, s.dist v = some x ∧ y ≤ x := by
  induction hw with
  | start => exact ⟨one, h.dsrc, le_refl _⟩
  | @step v u y w h0 he ih =>
    obtain ⟨x, hx, hyx⟩ := ih
    have hv := WalkVal.mem H hs h0
    have hr := WalkVal.range H hs h0
    rcases h.edge v x hx u w he with ⟨-, h2⟩ | ⟨z, hz, hle⟩
    · simp at h2
    · by_cases hu : u = src
      · subst hu
        refine ⟨one, h.dsrc, ?_⟩
        exact ((H.shrink v hv u w he _ y h0 hr.1).2).trans hr.2
      · rcases h.live u z hu hz with h1 | ⟨c, hc⟩
        · exact ⟨z, h1, (H.mono v hv u w he _ y x h0 (h.di v x hx).choose_spec.walk hr.1 hyx).trans hle⟩
        · rw [hf] at hc; simp at hc

theorem dijLoop_spec (H : Shrinking g zero one mul) (hs : src ∈ g.nodes) (tgt : Option α) (k : Nat) :
    ∀ (s : DijState α K) (v : α), Inv g zero one mul src s v [] →
      dijMeasure (allVals g one mul src) g.nodes s < k →
      ∃ dist, dijLoop g one mul src none tgt k s = some dist ∧
        (∀ a y, dist a = some y → WalkVal g one mul src a y) ∧
        ((∀ a y, WalkVal g one mul src a y → ∃ x, dist a = some x ∧ y ≤ x) ∨
          ∃ u x, tgt = some u ∧ dist u = some x) := by
  induction k with
  | zero => intro s v _ h; omega
  | succ k ih =>
    intro s v hinv hk
    unfold dijLoop
    rcases dijStep_inv H hs tgt hinv with ⟨t, h1, h2⟩ | ⟨t, v', h1, h2, h3⟩
    · rw [h1]
      refine ⟨t.dist, rfl, ?_⟩
      rcases h2 with ⟨rfl, hf⟩ | ⟨u, hu, x, hx, hall⟩
      · refine ⟨?_, Or.inl (final_greatest H hs hinv hf)⟩
        intro a y hy
        obtain ⟨p, hp⟩ := hinv.di a y hy
        exact hp.walk
      · exact ⟨hall, Or.inr ⟨u, x, hu, hx⟩⟩
    · rw [h1]
      exact ih t v' h2 (by omega)

theorem dijLoop_mono (cutoff : Option K) (tgt : Option α) (k k' : Nat) (h : k ≤ k')
    (s : DijState α K) (r) (hr : dijLoop g one mul src cutoff tgt k s = some r) :
    dijLoop g one mul src cutoff tgt k' s = some r := by
  induction k generalizing s k' with
  | zero => simp [dijLoop] at hr
  | succ k ih =>
    obtain ⟨k'', rfl⟩ : ∃ j, k' = j + 1 := ⟨k' - 1, by omega⟩
    unfold dijLoop at hr ⊢
    rcases hst : dijStep g one mul src cutoff tgt s with t | t
    · rw [hst] at hr; exact hr
    · rw [hst] at hr; exact ih k'' (by omega) t hr

/-- termination and values, for any target -/
theorem modDijkstra_spec (H : Shrinking g zero one mul) (hs : src ∈ g.nodes) (tgt : Option α) :
    ∃ N dist, (∀ fuel ≥ N, modDijkstra g zero one mul src none tgt fuel = some dist) ∧
      (∀ a y, dist a = some y → WalkVal g one mul src a y) ∧
      ((∀ a y, WalkVal g one mul src a y → ∃ x, dist a = some x ∧ y ≤ x) ∨
        ∃ u x, tgt = some u ∧ dist u = some x) := by
  rcases dijStep_first H hs tgt with ⟨ht, t, h1, h2, h3⟩ | ⟨ht, t, h1, h2⟩
  · refine ⟨1, t.dist, ?_, h3, Or.inr ⟨src, one, ht, h2⟩⟩
    intro fuel hf
    apply dijLoop_mono none tgt 1 fuel hf
    simp [dijLoop, h1]
  · obtain ⟨dist, h4, h5, h6⟩ := dijLoop_spec H hs tgt _ t src h2 (Nat.lt_succ_self _)
    refine ⟨(dijMeasure (allVals g one mul src) g.nodes t).succ + 1, dist, ?_, h5, h6⟩
    intro fuel hf
    apply dijLoop_mono none tgt _ fuel hf
    rw [dijLoop, h1]
    exact h4

end
end Verif
