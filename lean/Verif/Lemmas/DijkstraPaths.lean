import Verif.Model.DijkstraPaths
import Verif.Lemmas.Dijkstra
namespace Verif
open Spec
variable {α K : Type} [DecidableEq α] [LinearOrder K]
variable {g : WGraph α K} {zero one : K} {mul : K → K → K} {src : α}

theorem nodePath_walk {p v x} (h : NodePath g one mul src p v x) : WalkVal g one mul src v x := by
  induction h with
  | start => exact .start
  | step _ h1 ih => exact .step ih h1

/-- what holds of the caller's `paths` -/
structure PInv (g : WGraph α K) (zero one : K) (mul : K → K → K) (src : α) (seen : α → Option K)
    (v : α) (ps : α → Option (List α)) : Prop where
  node : ∀ u y, u ≠ src → seen u = some y → ∃ l x, ps u = some l ∧ NodePath g one mul src l u x ∧
    y ≤ x ∧ l.Nodup ∧ ∀ a ∈ l, a ≠ src → ∃ z, seen a = some z ∧ y ≤ z
  atSrc : (v = src ∧ ps src = some [src]) ∨
    ∀ u w, (u, some w) ∈ g.adj src → ∃ y, seen u = some y ∧ mul one w ≤ y
  dom : ∀ u l, ps u = some l → u = src ∨ ∃ y, seen u = some y
  ret : (seen src = some zero ∧ ps src = some [src]) ∨ ∃ y l a x w, seen src = some y ∧ zero < y ∧
    ps src = some l ∧ 2 ≤ l.length ∧ WalkVal g one mul src a x ∧ (src, some w) ∈ g.adj a ∧
    mul x w = y

/-- what holds of the caller's `pred` while the edges `rem` of `v` are still to be treated -/
structure QInv (g : WGraph α K) (one : K) (mul : K → K → K) (src : α) (s : DijState α K)
    (v : α) (rem : List (α × Option K)) (pr : α → Option (List α)) : Prop where
  has : ∃ l, pr src = some l
  sound : ∀ u y, u ≠ src → s.seen u = some y → ∃ l, pr u = some l ∧ ∀ a ∈ l, ∃ w x d,
    (u, some w) ∈ g.adj a ∧ WalkVal g one mul src a x ∧ mul x w = y ∧ s.dist a = some d ∧ x ≤ d
  full : ∀ a d, s.dist a = some d → ∀ u w, (u, some w) ∈ g.adj a → u ≠ src →
    (a = v ∧ (u, some w) ∈ rem) ∨ ∃ y, s.seen u = some y ∧
      (mul d w < y ∨ mul d w = y ∧ ∃ l, pr u = some l ∧ a ∈ l)

structure XInv (g : WGraph α K) (zero one : K) (mul : K → K → K) (src : α) (s : DijX α K)
    (v : α) (rem : List (α × Option K)) : Prop where
  p : ∀ ps, s.paths = some ps → PInv g zero one mul src s.base.seen v ps
  q : ∀ pr, s.pred = some pr → QInv g one mul src s.base v rem pr

theorem seen_of_dist (H : Shrinking g zero one mul) (hs : src ∈ g.nodes) {s : DijState α K} {v rem}
    (h : Inv g zero one mul src s v rem) {a d} (hne : a ≠ src) (hd : s.dist a = some d) :
    ∃ y, s.seen a = some y ∧ d ≤ y := by
  obtain ⟨p, hp⟩ := h.di a d hd
  exact hp.seen_ge H hs a hp.head_mem hne

/-- when the paths are extended: the new one is simple and worth at least the new value -/
theorem PInv.push (H : Shrinking g zero one mul) (hs : src ∈ g.nodes) {s : DijState α K}
    {v : α} {dv : K} {u : α} {w : K} {rem} (hdv : s.dist v = some dv)
    (hedge : (u, some w) ∈ g.adj v) (hinv : Inv g zero one mul src s v rem)
    (hself : ∀ w, (src, some w) ∉ g.adj src)
    {ps : α → Option (List α)} (hp : PInv g zero one mul src s.seen v ps)
    (hgt : ∀ z, s.seen u = some z → z < mul dv w) :
    ∃ l, ps v = some l ∧
      PInv g zero one mul src (setKey s.seen u (mul dv w)) v (setList ps u (l ++ [u])) := by
  have hle := seenLe_set (y := mul dv w) hgt
  obtain ⟨c, hc⟩ := hinv.di v dv hdv
  have hvmem := WalkVal.mem H hs hc.walk
  have hr := WalkVal.range H hs hc.walk
  have hshr := H.shrink v hvmem u w hedge _ dv hc.walk hr.1
  have hset : setKey s.seen u (mul dv w) u = some (mul dv w) := by simp [setKey]
  -- the path to `v`
  have hv : ∃ l x, ps v = some l ∧ NodePath g one mul src l v x ∧ dv ≤ x ∧ l.Nodup ∧
      ∀ a ∈ l, a ≠ src → ∃ z, s.seen a = some z ∧ dv ≤ z := by
    by_cases hvs : v = src
    · subst hvs
      rcases hp.atSrc with h1 | h1
      · have : dv = one := by have := hinv.dsrc; rw [hdv] at this; simpa using this
        subst this
        exact ⟨[v], dv, h1.2, .start, le_refl _, by simp, by simp⟩
      · have : dv = one := by have := hinv.dsrc; rw [hdv] at this; simpa using this
        subst this
        obtain ⟨y, hy, hle'⟩ := h1 u w hedge
        exact absurd (hgt y hy) (not_lt.2 hle')
    · obtain ⟨y, hy, hdy⟩ := seen_of_dist H hs hinv hvs hdv
      obtain ⟨l, x, h1, h2, h3, h4, h5⟩ := hp.node v y hvs hy
      refine ⟨l, x, h1, h2, hdy.trans h3, h4, ?_⟩
      intro a ha hne
      obtain ⟨z, hz, hyz⟩ := h5 a ha hne
      exact ⟨z, hz, hdy.trans hyz⟩
  obtain ⟨l, x, hl, hnp, hdx, hnd, hseen⟩ := hv
  refine ⟨l, hl, ?_, ?_, ?_, ?_⟩
  · intro u' y hne hy
    by_cases hu : u' = u
    · subst hu
      have hy' := hset.symm.trans hy
      simp only [Option.some.injEq] at hy'
      subst hy'
      refine ⟨l ++ [u'], mul x w, by simp [setList], .step hnp hedge,
        H.mono v hvmem u' w hedge _ dv x hc.walk (nodePath_walk hnp) hr.1 hdx, ?_, ?_⟩
      · rw [List.nodup_append]
        refine ⟨hnd, by simp, ?_⟩
        intro a ha b hb
        simp only [List.mem_singleton] at hb
        subst hb
        rintro rfl
        obtain ⟨z, hz, hle'⟩ := hseen a ha hne
        exact absurd (hgt z hz) (not_lt.2 (hshr.2.trans hle'))
      · intro a ha hna
        rcases List.mem_append.1 ha with ha | ha
        · obtain ⟨z, hz, hle'⟩ := hseen a ha hna
          obtain ⟨z', hz', hzz⟩ := hle a z hz
          exact ⟨z', hz', (hshr.2.trans hle').trans hzz⟩
        · simp only [List.mem_singleton] at ha
          subst ha
          exact ⟨_, hset, le_refl _⟩
    · have hy' : s.seen u' = some y := by simpa [setKey, hu] using hy
      obtain ⟨l', x', h1, h2, h3, h4, h5⟩ := hp.node u' y hne hy'
      refine ⟨l', x', by simp [setList, hu, h1], h2, h3, h4, ?_⟩
      intro a ha hna
      obtain ⟨z, hz, hyz⟩ := h5 a ha hna
      obtain ⟨z', hz', hzz⟩ := hle a z hz
      exact ⟨z', hz', hyz.trans hzz⟩
  · rcases hp.atSrc with ⟨h0, h1⟩ | h1
    · have hus : u ≠ src := by
        rintro rfl
        exact hself w (h0 ▸ hedge)
      left; exact ⟨h0, by simp [setList, Ne.symm hus, h1]⟩
    · right
      intro u' w' he
      obtain ⟨y, hy, hle'⟩ := h1 u' w' he
      obtain ⟨z, hz, hyz⟩ := hle u' y hy
      exact ⟨z, hz, hle'.trans hyz⟩
  · intro u' l' hl'
    by_cases hu : u' = u
    · right; exact ⟨_, by rw [hu]; exact hset⟩
    · rcases hp.dom u' l' (by simpa [setList, hu] using hl') with h1 | h1
      · exact Or.inl h1
      · right; simpa [setKey, hu] using h1
  · by_cases hu : u = src
    · subst hu
      right
      refine ⟨mul dv w, l ++ [u], v, dv, w, hset, ?_, by simp [setList], ?_, hc.walk, hedge, rfl⟩
      · rcases hp.ret with ⟨h1, -⟩ | ⟨y, l', a, x', w', h1, h2, -⟩
        · exact hgt _ h1
        · exact h2.trans (hgt _ h1)
      · have : l ≠ [] := by cases hnp <;> simp
        have := List.length_pos_iff.2 this
        simp only [List.length_append, List.length_singleton]
        omega
    · have hu' : src ≠ u := Ne.symm hu
      simpa [setList, setKey, hu'] using hp.ret

/-- the predecessors after a better path was found -/
theorem QInv.push {s : DijState α K}
    {v : α} {dv : K} {u : α} {w : K} {es} (hdv : s.dist v = some dv)
    (hedge : (u, some w) ∈ g.adj v) (hinv : Inv g zero one mul src s v ((u, some w) :: es))
    {pr : α → Option (List α)} (hq : QInv g one mul src s v ((u, some w) :: es) pr)
    (hgt : ∀ z, s.seen u = some z → z < mul dv w) :
    QInv g one mul src { s with seen := setKey s.seen u (mul dv w)
                                fringe := (mul dv w, s.cnt, u) :: s.fringe
                                cnt := s.cnt + 1 } v es (setList pr u [v]) := by
  have hle := seenLe_set (y := mul dv w) hgt
  have hset : setKey s.seen u (mul dv w) u = some (mul dv w) := by simp [setKey]
  obtain ⟨c, hc⟩ := hinv.di v dv hdv
  refine ⟨?_, ?_, ?_⟩
  · obtain ⟨l, hl⟩ := hq.has
    by_cases h : src = u
    · exact ⟨[v], by simp [setList, h]⟩
    · exact ⟨l, by simp [setList, h, hl]⟩
  · intro u' y hne hy
    by_cases hu : u' = u
    · subst hu
      have hy' := hset.symm.trans hy
      simp only [Option.some.injEq] at hy'
      subst hy'
      refine ⟨[v], by simp [setList], ?_⟩
      intro a ha
      simp only [List.mem_singleton] at ha
      subst ha
      exact ⟨w, dv, dv, hedge, hc.walk, rfl, hdv, le_refl _⟩
    · have hy' : s.seen u' = some y := by simpa [setKey, hu] using hy
      obtain ⟨l, h1, h2⟩ := hq.sound u' y hne hy'
      exact ⟨l, by simp [setList, hu, h1], h2⟩
  · intro a d hd u' w' he hne
    by_cases hu : u' = u
    · subst hu
      by_cases hav : a = v
      · subst hav
        have hdd : dv = d := by rw [hdv] at hd; simpa using hd
        subst hdd
        rcases hq.full a dv hdv u' w' he hne with ⟨-, h2⟩ | ⟨y, hy, h2⟩
        · rcases List.mem_cons.1 h2 with h2 | h2
          · right
            simp only [Prod.mk.injEq, Option.some.injEq, true_and] at h2
            subst h2
            exact ⟨_, hset, Or.inr ⟨rfl, [a], by simp [setList], by simp⟩⟩
          · exact Or.inl ⟨rfl, h2⟩
        · right
          refine ⟨_, hset, Or.inl ?_⟩
          rcases h2 with h2 | ⟨h2, -⟩
          · exact h2.trans (hgt y hy)
          · rw [h2]; exact hgt y hy
      · rcases hq.full a d hd u' w' he hne with ⟨h1, -⟩ | ⟨y, hy, h2⟩
        · exact absurd h1 hav
        · right
          refine ⟨_, hset, Or.inl ?_⟩
          rcases h2 with h2 | ⟨h2, -⟩
          · exact h2.trans (hgt y hy)
          · rw [h2]; exact hgt y hy
    · rcases hq.full a d hd u' w' he hne with ⟨h1, h2⟩ | ⟨y, hy, h2⟩
      · rcases List.mem_cons.1 h2 with h2 | h2
        · simp only [Prod.mk.injEq] at h2; exact absurd h2.1 hu
        · exact Or.inl ⟨h1, h2⟩
      · right
        refine ⟨y, by simp [setKey, hu, hy], ?_⟩
        simpa [setList, hu] using h2

omit [DecidableEq α] in
/-- the predecessors after a path that is not better -/
theorem QInv.keep {s : DijState α K} {v : α} {dv : K} {u : α} {w : K} {es}
    (hdv : s.dist v = some dv)
    {pr : α → Option (List α)} (hq : QInv g one mul src s v ((u, some w) :: es) pr) {y : K}
    (hy : s.seen u = some y) (hlt : mul dv w < y) : QInv g one mul src s v es pr := by
  refine ⟨hq.has, hq.sound, ?_⟩
  intro a d hd u' w' he hne
  rcases hq.full a d hd u' w' he hne with ⟨h1, h2⟩ | h2
  · rcases List.mem_cons.1 h2 with h2 | h2
    · right
      simp only [Prod.mk.injEq, Option.some.injEq] at h2
      obtain ⟨rfl, rfl⟩ := h2
      subst h1
      have : dv = d := by rw [hdv] at hd; simpa using hd
      subst this
      exact ⟨y, hy, Or.inl hlt⟩
    · exact Or.inl ⟨h1, h2⟩
  · exact Or.inr h2

/-- the predecessors after a path of equal value -/
theorem QInv.append {s : DijState α K} {v : α} {dv : K} {u : α} {w : K} {es}
    (hdv : s.dist v = some dv) (hedge : (u, some w) ∈ g.adj v) (hw : WalkVal g one mul src v dv)
    {pr : α → Option (List α)} (hq : QInv g one mul src s v ((u, some w) :: es) pr)
    (hy : s.seen u = some (mul dv w)) :
    ∃ l, pr u = some l ∧ QInv g one mul src s v es (setList pr u (l ++ [v])) := by
  have hl : ∃ l, pr u = some l := by
    by_cases hu : u = src
    · subst hu; exact hq.has
    · obtain ⟨l, hl, -⟩ := hq.sound u _ hu hy; exact ⟨l, hl⟩
  obtain ⟨l, hl⟩ := hl
  refine ⟨l, hl, ?_, ?_, ?_⟩
  · by_cases h : src = u
    · exact ⟨l ++ [v], by simp [setList, h]⟩
    · obtain ⟨l', hl'⟩ := hq.has
      exact ⟨l', by simp [setList, h, hl']⟩
  · intro u' y hne hy'
    by_cases hu : u' = u
    · subst hu
      have : mul dv w = y := by rw [hy] at hy'; simpa using hy'
      subst this
      refine ⟨l ++ [v], by simp [setList], ?_⟩
      intro a ha
      rcases List.mem_append.1 ha with ha | ha
      · obtain ⟨l', h1, h2⟩ := hq.sound u' _ hne hy
        have : l' = l := by rw [hl] at h1; simpa using h1.symm
        subst this
        exact h2 a ha
      · simp only [List.mem_singleton] at ha
        subst ha
        exact ⟨w, dv, dv, hedge, hw, rfl, hdv, le_refl _⟩
    · obtain ⟨l', h1, h2⟩ := hq.sound u' y hne hy'
      exact ⟨l', by simp [setList, hu, h1], h2⟩
  · intro a d hd u' w' he hne
    rcases hq.full a d hd u' w' he hne with ⟨h1, h2⟩ | ⟨y, hy', h2⟩
    · rcases List.mem_cons.1 h2 with h2 | h2
      · right
        simp only [Prod.mk.injEq, Option.some.injEq] at h2
        obtain ⟨rfl, rfl⟩ := h2
        subst h1
        have : dv = d := by rw [hdv] at hd; simpa using hd
        subst this
        exact ⟨_, hy, Or.inr ⟨rfl, l ++ [a], by simp [setList], by simp⟩⟩
      · exact Or.inl ⟨h1, h2⟩
    · right
      refine ⟨y, hy', h2.imp id ?_⟩
      rintro ⟨h3, l', h4, h5⟩
      refine ⟨h3, ?_⟩
      by_cases hu : u' = u
      · subst hu
        have : l' = l := by rw [hl] at h4; simpa using h4.symm
        subst this
        exact ⟨l' ++ [v], by simp [setList], by simp [h5]⟩
      · exact ⟨l', by simp [setList, hu, h4], h5⟩

/-- no error, the same search, and the invariants again: one edge -/
theorem relaxX_inv (H : Shrinking g zero one mul) (hs : src ∈ g.nodes)
    (hself : ∀ w, (src, some w) ∉ g.adj src) {s : DijX α K} {v : α}
    {e : α × Option K} {es : List (α × Option K)} {dv : K} (hdv : s.base.dist v = some dv)
    (hmem : ∀ x ∈ e :: es, x ∈ g.adj v)
    (hinv : Inv g zero one mul src s.base v (e :: es)) (h : XInv g zero one mul src s v (e :: es)) :
    ∃ t, relaxEdgeX mul none v dv s e = .ok t ∧ t.base = relaxEdge mul none dv s.base e ∧
      XInv g zero one mul src t v es := by
  obtain ⟨u, ow⟩ := e
  rcases ow with _ | w
  · refine ⟨s, rfl, rfl, h.p, ?_⟩
    intro pr hpr
    obtain ⟨h1, h2, h3⟩ := h.q pr hpr
    refine ⟨h1, h2, ?_⟩
    intro a d hd u' w' he hne
    rcases h3 a d hd u' w' he hne with ⟨h4, h5⟩ | h4
    · rcases List.mem_cons.1 h5 with h5 | h5
      · simp at h5
      · exact Or.inl ⟨h4, h5⟩
    · exact Or.inr h4
  · have hedge : (u, some w) ∈ g.adj v := hmem _ (by simp)
    obtain ⟨c, hc⟩ := hinv.di v dv hdv
    have push : (∀ z, s.base.seen u = some z → z < mul dv w) →
        ∃ t, pushX (mul dv w) v u s = .ok t ∧
          t.base = { s.base with seen := setKey s.base.seen u (mul dv w)
                                 fringe := (mul dv w, s.base.cnt, u) :: s.base.fringe
                                 cnt := s.base.cnt + 1 } ∧ XInv g zero one mul src t v es := by
      intro hgt
      have hq : ∀ pr', s.pred.map (fun pr => setList pr u [v]) = some pr' →
          QInv g one mul src { s.base with seen := setKey s.base.seen u (mul dv w)
                                           fringe := (mul dv w, s.base.cnt, u) :: s.base.fringe
                                           cnt := s.base.cnt + 1 } v es pr' := by
        intro pr' hpr'
        rw [Option.map_eq_some_iff] at hpr'
        obtain ⟨pr, hpr, rfl⟩ := hpr'
        exact (h.q pr hpr).push hdv hedge hinv hgt
      unfold pushX notePath
      rcases hps : s.paths with _ | ps
      · exact ⟨_, rfl, rfl, by simp, hq⟩
      · obtain ⟨l, hl, hP⟩ := (h.p ps hps).push H hs hdv hedge hinv hself hgt
        simp only [hl]
        refine ⟨_, rfl, rfl, ?_, hq⟩
        intro ps' hps'
        simp only [Option.some.injEq] at hps'
        subst hps'
        exact hP
    unfold relaxEdgeX relaxEdge
    simp only
    rcases hsu : s.base.seen u with _ | y
    · exact push (fun z hz => by rw [hsu] at hz; simp at hz)
    · dsimp only
      by_cases hgt : mul dv w > y
      · rw [if_pos hgt, if_pos hgt]
        exact push (fun z hz => by rw [hsu] at hz; simp at hz; subst hz; exact hgt)
      · rw [if_neg hgt, if_neg hgt]
        by_cases heq : mul dv w = y
        · subst heq
          rw [if_pos rfl]
          unfold appendPred
          rcases hpr : s.pred with _ | pr
          · exact ⟨_, rfl, rfl, h.p, by simp⟩
          · obtain ⟨l, hl, hQ⟩ := (h.q pr hpr).append hdv hedge hc.walk hsu
            simp only [hl]
            refine ⟨_, rfl, rfl, h.p, ?_⟩
            intro pr' hpr'
            simp only [Option.some.injEq] at hpr'
            subst hpr'
            exact hQ
        · rw [if_neg heq]
          exact ⟨s, rfl, rfl, h.p, fun pr hpr =>
            (h.q pr hpr).keep hdv hsu (lt_of_le_of_ne (not_lt.1 hgt) heq)⟩

theorem relaxAllX_inv (H : Shrinking g zero one mul) (hs : src ∈ g.nodes)
    (hself : ∀ w, (src, some w) ∉ g.adj src) {v : α} {dv : K} (es : List (α × Option K))
    (s : DijX α K) (hdv : s.base.dist v = some dv) (hmem : ∀ x ∈ es, x ∈ g.adj v)
    (hinv : Inv g zero one mul src s.base v es) (h : XInv g zero one mul src s v es) :
    ∃ t, relaxAllX mul none v dv es s = .ok t ∧
      t.base = es.foldl (relaxEdge mul none dv) s.base ∧ XInv g zero one mul src t v [] := by
  induction es generalizing s with
  | nil => exact ⟨s, rfl, rfl, h⟩
  | cons e es ih =>
    obtain ⟨t, h1, h2, h3⟩ := relaxX_inv H hs hself hdv hmem hinv h
    obtain ⟨i1, i2, -⟩ := relax_inv H hs hdv hmem hinv
    obtain ⟨t', h4, h5, h6⟩ := ih t (by rw [h2, i2]; exact hdv)
      (fun x hx => hmem x (by simp [hx])) (by rw [h2]; exact i1) h3
    refine ⟨t', ?_, ?_, h6⟩
    · simp only [relaxAllX, h1, h4]
    · rw [h5, h2]; rfl

/-- starting on the edges of a node keeps the invariants -/
theorem XInv.next {s : DijX α K} {v0 v : α}
    (hinv : Inv g zero one mul src s.base v0 []) (h : XInv g zero one mul src s v0 []) {d : K}
    (hup : ∀ x, s.base.dist v = some x → x ≤ d) (rest : List (Entry α K)) :
    XInv g zero one mul src
      { s with base := { s.base with fringe := rest, dist := setKey s.base.dist v d } } v (g.adj v) := by
  refine ⟨?_, ?_⟩
  · intro ps hps
    have hP := h.p ps hps
    refine ⟨hP.node, Or.inr ?_, hP.dom, hP.ret⟩
    intro u w he
    rcases hinv.edge src one hinv.dsrc u w he with ⟨-, h2⟩ | h2
    · simp at h2
    · exact h2
  · intro pr hpr
    have hQ := h.q pr hpr
    refine ⟨hQ.has, ?_, ?_⟩
    · intro u y hne hy
      obtain ⟨l, h1, h2⟩ := hQ.sound u y hne hy
      refine ⟨l, h1, ?_⟩
      intro a ha
      obtain ⟨w, x, d0, h3, h4, h5, h6, h7⟩ := h2 a ha
      by_cases hav : a = v
      · subst hav
        exact ⟨w, x, d, h3, h4, h5, by simp [setKey], h7.trans (hup d0 h6)⟩
      · exact ⟨w, x, d0, h3, h4, h5, by simp [setKey, hav, h6], h7⟩
    · intro a d0 hd u w he hne
      by_cases hav : a = v
      · exact Or.inl ⟨hav, hav ▸ he⟩
      · have hd' : s.base.dist a = some d0 := by simpa [setKey, hav] using hd
        rcases hQ.full a d0 hd' u w he hne with ⟨-, h2⟩ | h2
        · simp at h2
        · exact Or.inr h2


theorem XInv.any {s : DijX α K} {v0 v1 v : α} (hinv : Inv g zero one mul src s.base v0 [])
    (h : XInv g zero one mul src s v1 []) : XInv g zero one mul src s v [] := by
  refine ⟨?_, ?_⟩
  · intro ps hps
    refine ⟨(h.p ps hps).node, Or.inr ?_, (h.p ps hps).dom, (h.p ps hps).ret⟩
    intro u w he
    rcases hinv.edge src one hinv.dsrc u w he with ⟨-, h2⟩ | h2
    · simp at h2
    · exact h2
  · intro pr hpr
    have hQ := h.q pr hpr
    refine ⟨hQ.has, hQ.sound, ?_⟩
    intro a d hd u w he hne
    rcases hQ.full a d hd u w he hne with ⟨-, h2⟩ | h2
    · simp at h2
    · exact Or.inr h2

/-- one iteration does what the plain search does, without an error -/
theorem dijStepX_inv (H : Shrinking g zero one mul) (hs : src ∈ g.nodes)
    (hself : ∀ w, (src, some w) ∉ g.adj src) {s : DijX α K} {v0 : α}
    (hinv : Inv g zero one mul src s.base v0 []) (h : XInv g zero one mul src s v0 []) :
    (dijStepX g one mul src none none s = .ok (.done s) ∧ s.base.fringe = []) ∨
    ∃ t v, dijStepX g one mul src none none s = .ok (.cont t) ∧
      dijStep g one mul src none none s.base = .cont t.base ∧
      Inv g zero one mul src t.base v [] ∧ XInv g zero one mul src t v [] ∧
      dijMeasure (allVals g one mul src) g.nodes t.base + 1 ≤
        dijMeasure (allVals g one mul src) g.nodes s.base := by
  have key : (dijStepX g one mul src none none s = .ok (.done s) ∧ s.base.fringe = []) ∨
      ∃ t v, dijStepX g one mul src none none s = .ok (.cont t) ∧
        dijStep g one mul src none none s.base = .cont t.base ∧ XInv g zero one mul src t v [] := by
    unfold dijStepX dijStep
    rcases hp : popMin s.base.fringe with _ | ⟨⟨d, c, v⟩, rest⟩
    · exact Or.inl ⟨rfl, popMin_none.1 hp⟩
    · right
      dsimp only
      by_cases hskip : alreadySearched s.base.dist v d = true
      · rw [if_pos hskip, if_pos hskip]
        exact ⟨_, v0, rfl, rfl, h.p, fun pr hpr => ⟨(h.q pr hpr).has, (h.q pr hpr).sound,
          (h.q pr hpr).full⟩⟩
      · have hnone : ¬ (none : Option α) = some v := by simp
        rw [if_neg hskip, if_neg hskip, if_neg hnone, if_neg hnone]
        have hup : ∀ x, s.base.dist v = some x → x ≤ (if v = src then one else d) := by
          intro x hx
          by_cases hv : v = src
          · subst hv
            have := hinv.dsrc
            rw [hx] at this
            simp only [Option.some.injEq] at this
            simp [this]
          · simp only [hv, if_false]
            simpa [alreadySearched, hx] using hskip
        have hX := h.next hinv hup rest
        -- the invariant of the plain search while the edges of `v` are treated
        have hI := dijMid_inv hinv hp hskip
        obtain ⟨t, h1, h2, h3⟩ := relaxAllX_inv H hs hself (dv := if v = src then one else d)
          (g.adj v) _ (by simp [setKey]) (fun x hx => hx) hI hX
        exact ⟨t, v, by rw [h1], by rw [h2], h3⟩
  rcases key with h1 | ⟨t, v, h1, h2, h3⟩
  · exact Or.inl h1
  · right
    rcases dijStep_inv H hs none hinv with ⟨t', e1, -⟩ | ⟨t', v', e1, e2, e3⟩
    · rw [h2] at e1; simp at e1
    · rw [h2] at e1
      simp only [DijStep.cont.injEq] at e1
      subst e1
      exact ⟨t, v', h1, h2, e2, h3.any e2, e3⟩

/-- the state of the caller's dictionaries before the loop -/
theorem firstX_inv : ∀ (pred : Option (α → Option (List α))) (paths : Option (α → Option (List α))),
    (∀ pr, pred = some pr → pr = singleKey src []) →
    (∀ ps, paths = some ps → ps = singleKey src [src]) →
    XInv g zero one mul src ⟨firstState zero one src, paths, pred⟩ src (g.adj src) := by
  intro pred paths hpr hps
  refine ⟨?_, ?_⟩
  · intro ps h
    have := hps ps h
    subst this
    refine ⟨?_, Or.inl ⟨rfl, by simp [singleKey]⟩, ?_, Or.inl ?_⟩
    · intro u y hne hy
      simp [firstState, hne] at hy
    · intro u l hl
      simp only [singleKey] at hl
      split_ifs at hl with hu
      exact Or.inl hu
    · simp [firstState, singleKey]
  · intro pr h
    have := hpr pr h
    subst this
    refine ⟨⟨[], by simp [singleKey]⟩, ?_, ?_⟩
    · intro u y hne hy
      simp [firstState, hne] at hy
    · intro a d hd u w he hne
      simp only [firstState, setKey] at hd
      split_ifs at hd with ha
      exact Or.inl ⟨ha, ha ▸ he⟩

theorem dijLoopX_mono (cutoff : Option K) (tgt : Option α) (k k' : Nat) (h : k ≤ k')
    (s : DijX α K) (r) (hr : dijLoopX g one mul src cutoff tgt k s = some r) :
    dijLoopX g one mul src cutoff tgt k' s = some r := by
  induction k generalizing s k' with
  | zero => simp [dijLoopX] at hr
  | succ k ih =>
    obtain ⟨k'', rfl⟩ : ∃ j, k' = j + 1 := ⟨k' - 1, by omega⟩
    unfold dijLoopX at hr ⊢
    rcases hst : dijStepX g one mul src cutoff tgt s with e | (t | t)
    · rw [hst] at hr; exact hr
    · rw [hst] at hr; exact hr
    · rw [hst] at hr; exact ih k'' (by omega) t hr

theorem relaxX_shape {cutoff : Option K} {v : α} {dv : K} {s t : DijX α K} {e : α × Option K}
    (h : relaxEdgeX mul cutoff v dv s e = .ok t) :
    t.paths.isSome = s.paths.isSome ∧ t.pred.isSome = s.pred.isSome := by
  have hpush : ∀ vu u, pushX vu v u s = .ok t →
      t.paths.isSome = s.paths.isSome ∧ t.pred.isSome = s.pred.isSome := by
    intro vu u h
    unfold pushX notePath at h
    rcases hps : s.paths with _ | ps
    · rw [hps] at h
      have := Except.ok.inj h
      subst this
      simp
    · rw [hps] at h
      rcases hl : ps v with _ | l
      · simp [hl] at h
      · simp only [hl] at h
        have := Except.ok.inj h
        subst this
        simp
  unfold relaxEdgeX at h
  rcases he : e.2 with _ | w
  · simp only [he] at h
    have := Except.ok.inj h
    subst this
    simp
  · simp only [he] at h
    rcases cutoff with _ | c
    · simp only at h
      rcases hsu : s.base.seen e.1 with _ | y
      · simp only [hsu] at h; exact hpush _ _ h
      · simp only [hsu] at h
        split_ifs at h with h1 h2
        · exact hpush _ _ h
        · unfold appendPred at h
          rcases hpr : s.pred with _ | pr
          · simp only [hpr] at h
            have := Except.ok.inj h
            subst this
            simp
          · simp only [hpr] at h
            rcases hl : pr e.1 with _ | l
            · simp [hl] at h
            · simp only [hl] at h
              have := Except.ok.inj h
              subst this
              simp
        · have := Except.ok.inj h
          subst this
          simp
    · simp only at h
      split_ifs at h <;> · have := Except.ok.inj h; subst this; simp

theorem relaxAllX_shape {cutoff : Option K} {v : α} {dv : K} (es : List (α × Option K)) :
    ∀ (s t : DijX α K), relaxAllX mul cutoff v dv es s = .ok t →
    t.paths.isSome = s.paths.isSome ∧ t.pred.isSome = s.pred.isSome := by
  induction es with
  | nil => intro s t h; have := Except.ok.inj h; subst this; simp
  | cons e es ih =>
    intro s t h
    simp only [relaxAllX] at h
    rcases hr : relaxEdgeX mul cutoff v dv s e with x | s'
    · simp [hr] at h
    · simp only [hr] at h
      have h1 := relaxX_shape hr
      have h2 := ih s' t h
      exact ⟨h2.1.trans h1.1, h2.2.trans h1.2⟩

theorem dijStepX_shape {cutoff : Option K} {tgt : Option α} {s t : DijX α K}
    (h : dijStepX g one mul src cutoff tgt s = .ok (.cont t)) :
    t.paths.isSome = s.paths.isSome ∧ t.pred.isSome = s.pred.isSome := by
  unfold dijStepX at h
  rcases hp : popMin s.base.fringe with _ | ⟨⟨d, c, v⟩, rest⟩
  · simp [hp] at h
  · simp only [hp] at h
    by_cases hskip : alreadySearched s.base.dist v d = true
    · rw [if_pos hskip] at h
      have := DijStepX.cont.inj (Except.ok.inj h)
      subst this
      simp
    · rw [if_neg hskip] at h
      by_cases ht : tgt = some v
      · rw [if_pos ht] at h; simp at h
      · rw [if_neg ht] at h
        rcases hr : relaxAllX mul cutoff v (if v = src then one else d) (g.adj v)
          { s with base := { s.base with fringe := rest,
                                         dist := setKey s.base.dist v (if v = src then one else d) } }
          with x | s'
        · rw [hr] at h; simp at h
        · rw [hr] at h
          have := DijStepX.cont.inj (Except.ok.inj h)
          subst this
          have hh := relaxAllX_shape _ _ _ hr
          exact hh

theorem dijLoopX_spec (H : Shrinking g zero one mul) (hs : src ∈ g.nodes)
    (hself : ∀ w, (src, some w) ∉ g.adj src) (k : Nat) :
    ∀ (s : DijX α K) (v : α), Inv g zero one mul src s.base v [] → XInv g zero one mul src s v [] →
      dijMeasure (allVals g one mul src) g.nodes s.base < k →
      ∃ t v', dijLoopX g one mul src none none k s = some (.ok t) ∧
        dijLoop g one mul src none none k s.base = some t.base.dist ∧ t.base.fringe = [] ∧
        t.paths.isSome = s.paths.isSome ∧ t.pred.isSome = s.pred.isSome ∧
        Inv g zero one mul src t.base v' [] ∧ XInv g zero one mul src t v' [] := by
  induction k with
  | zero => intro s v _ _ h; omega
  | succ k ih =>
    intro s v hinv hX hk
    rcases dijStepX_inv H hs hself hinv hX with ⟨h1, h2⟩ | ⟨t, v', h1, h2, h3, h4, h5⟩
    · refine ⟨s, v, ?_, ?_, h2, rfl, rfl, hinv, hX⟩
      · simp only [dijLoopX, h1]
      · simp [dijLoop, dijStep, h2, popMin]
    · obtain ⟨t', v'', e1, e2, e3, e4, e5, e6, e7⟩ := ih t v' h3 h4 (by omega)
      have hsh := dijStepX_shape h1
      refine ⟨t', v'', ?_, ?_, e3, e4.trans hsh.1, e5.trans hsh.2, e6, e7⟩
      · simp only [dijLoopX, h1, e1]
      · simp only [dijLoop, h2, e2]

/-- the whole search: it ends without an error, does what the plain search does, and the
invariants hold at the end -/
theorem modDijkstraX_spec (H : Shrinking g zero one mul) (hs : src ∈ g.nodes)
    (hself : ∀ w, (src, some w) ∉ g.adj src)
    (pred : Option (α → Option (List α))) (paths : Option (α → Option (List α)))
    (hpr : ∀ pr, pred = some pr → pr = singleKey src [])
    (hps : ∀ ps, paths = some ps → ps = singleKey src [src]) :
    ∃ N t v, (∀ fuel ≥ N,
        modDijkstraX g zero one mul src pred paths none none fuel = some (.ok t) ∧
        modDijkstra g zero one mul src none none fuel = some t.base.dist) ∧
      t.base.fringe = [] ∧ t.paths.isSome = paths.isSome ∧ t.pred.isSome = pred.isSome ∧
      Inv g zero one mul src t.base v [] ∧ XInv g zero one mul src t v [] := by
  obtain ⟨t, h1, h2, h3⟩ := relaxAllX_inv H hs hself (dv := one) (g.adj src)
    ⟨firstState zero one src, paths, pred⟩ (by simp [firstState, setKey]) (fun x hx => hx)
    (firstState_inv hs) (firstX_inv pred paths hpr hps)
  have hI : Inv g zero one mul src t.base src [] := by
    rw [h2]
    exact (relaxAll_inv H hs (dv := one) (g.adj src) _ (by simp [firstState, setKey])
      (fun x hx => hx) (firstState_inv hs)).1
  obtain ⟨r, v, e1, e2, e3, e4, e5, e6, e7⟩ := dijLoopX_spec H hs hself _ t src hI h3
    (Nat.lt_succ_self _)
  have hsh := relaxAllX_shape _ _ _ h1
  have hst : dijStepX g one mul src none none ⟨dijInit zero src, paths, pred⟩ = .ok (.cont t) := by
    have : dijStepX g one mul src none none ⟨dijInit zero src, paths, pred⟩ =
        match relaxAllX mul none src one (g.adj src) ⟨firstState zero one src, paths, pred⟩ with
          | .error x => .error x
          | .ok t => .ok (.cont t) := by
      simp [dijStepX, dijInit, popMin, alreadySearched, firstState]
      rfl
    rw [this, h1]
  have hst2 : dijStep g one mul src none none (dijInit zero src) = .cont t.base := by
    rw [h2]
    simp [dijStep, dijInit, popMin, firstState, alreadySearched]
  refine ⟨(dijMeasure (allVals g one mul src) g.nodes t.base).succ + 1, r, v, ?_, e3,
    e4.trans hsh.1, e5.trans hsh.2, e6, e7⟩
  intro fuel hf
  refine ⟨dijLoopX_mono none none _ fuel hf _ _ ?_, dijLoop_mono none none _ fuel hf _ _ ?_⟩
  · rw [dijLoopX, hst]; exact e1
  · rw [dijLoop, hst2]; exact e2

end Verif
