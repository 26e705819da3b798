import Verif.Lemmas.Dijkstra
/-!
An invariant of the search that needs nothing of the weights: neither a bound on them nor
laws of the multiplication.  It shows what the values look like whenever the search ends.
-/
namespace Verif
open Spec
variable {α K : Type} [DecidableEq α] [LinearOrder K]
variable {g : WGraph α K} {zero one : K} {mul : K → K → K} {src : α}

/-- what holds while the edges `rem` of `v` are still to be treated -/
structure FixInv (g : WGraph α K) (one : K) (mul : K → K → K) (src : α)
    (s : DijState α K) (v : α) (rem : List (α × Option K)) : Prop where
  dsrc : s.dist src = some one ∨ ∃ d c, (d, c, src) ∈ s.fringe ∧ s.dist src = none
  fr : ∀ d c u, (d, c, u) ∈ s.fringe → ∃ y, s.seen u = some y ∧ d ≤ y
  di : ∀ u x, u ≠ src → s.dist u = some x → ∃ y, s.seen u = some y ∧ x ≤ y
  live : ∀ u y, u ≠ src → s.seen u = some y →
    s.dist u = some y ∨ ∃ c, (y, c, u) ∈ s.fringe
  edge : ∀ a x, s.dist a = some x → ∀ u w, (u, some w) ∈ g.adj a →
    (a = v ∧ (u, some w) ∈ rem) ∨ ∃ y, s.seen u = some y ∧ mul x w ≤ y

theorem fix_relax {s : DijState α K} {v : α} {e : α × Option K} {es : List (α × Option K)} {dv : K}
    (hdv : s.dist v = some dv) (h : FixInv g one mul src s v (e :: es)) :
    FixInv g one mul src (relaxEdge mul none dv s e) v es ∧
    (relaxEdge mul none dv s e).dist = s.dist := by
  obtain ⟨u, ow⟩ := e
  rcases ow with _ | w
  · refine ⟨⟨h.dsrc, h.fr, h.di, h.live, ?_⟩, rfl⟩
    intro a x hx u' w' he
    rcases h.edge a x hx u' w' he with ⟨h1, h2⟩ | h2
    · left; refine ⟨h1, ?_⟩
      rcases List.mem_cons.1 h2 with h2 | h2
      · simp at h2
      · exact h2
    · exact Or.inr h2
  · have nopush : ∀ y, s.seen u = some y → mul dv w ≤ y → FixInv g one mul src s v es := by
      intro y hy hle
      refine ⟨h.dsrc, h.fr, h.di, h.live, ?_⟩
      intro a x hx u' w' he
      rcases h.edge a x hx u' w' he with ⟨h1, h2⟩ | h2
      · rcases List.mem_cons.1 h2 with h2 | h2
        · right
          simp only [Prod.mk.injEq, Option.some.injEq] at h2
          obtain ⟨rfl, rfl⟩ := h2
          subst h1
          rw [hdv] at hx
          simp only [Option.some.injEq] at hx
          subst hx
          exact ⟨y, hy, hle⟩
        · exact Or.inl ⟨h1, h2⟩
      · exact Or.inr h2
    have push : (∀ z, s.seen u = some z → z < mul dv w) →
        FixInv g one mul src
          { s with seen := setKey s.seen u (mul dv w)
                   fringe := (mul dv w, s.cnt, u) :: s.fringe
                   cnt := s.cnt + 1 } v es := by
      intro hgt
      have hle := seenLe_set hgt
      have hset : setKey s.seen u (mul dv w) u = some (mul dv w) := by simp [setKey]
      refine ⟨?_, ?_, ?_, ?_, ?_⟩
      · rcases h.dsrc with h1 | ⟨d, c, h1, h2⟩
        · exact Or.inl h1
        · exact Or.inr ⟨d, c, List.mem_cons_of_mem _ h1, h2⟩
      · intro d c u' hm
        rcases List.mem_cons.1 hm with hm | hm
        · simp only [Prod.mk.injEq] at hm
          obtain ⟨rfl, rfl, rfl⟩ := hm
          exact ⟨_, hset, le_refl _⟩
        · obtain ⟨y, hy, hdy⟩ := h.fr d c u' hm
          obtain ⟨z, hz, hyz⟩ := hle _ _ hy
          exact ⟨z, hz, hdy.trans hyz⟩
      · intro u' x hne hx
        obtain ⟨y, hy, hdy⟩ := h.di u' x hne hx
        obtain ⟨z, hz, hyz⟩ := hle _ _ hy
        exact ⟨z, hz, hdy.trans hyz⟩
      · intro u' y hne hy
        by_cases huu : u' = u
        · subst huu
          have hy' := hset.symm.trans hy
          simp only [Option.some.injEq] at hy'
          subst hy'
          exact Or.inr ⟨s.cnt, by simp⟩
        · have : s.seen u' = some y := by simpa [setKey, huu] using hy
          rcases h.live u' y hne this with h1 | ⟨c, hc⟩
          · exact Or.inl h1
          · exact Or.inr ⟨c, List.mem_cons_of_mem _ hc⟩
      · intro a x hx u' w' he
        rcases h.edge a x hx u' w' he with ⟨h1, h2⟩ | ⟨y, hy, hle'⟩
        · rcases List.mem_cons.1 h2 with h2 | h2
          · right
            simp only [Prod.mk.injEq, Option.some.injEq] at h2
            obtain ⟨rfl, rfl⟩ := h2
            subst h1
            have hx' : some dv = some x := hdv ▸ hx
            simp only [Option.some.injEq] at hx'
            subst hx'
            exact ⟨_, hset, le_refl _⟩
          · exact Or.inl ⟨h1, h2⟩
        · obtain ⟨z, hz, hyz⟩ := hle _ _ hy
          exact Or.inr ⟨z, hz, hle'.trans hyz⟩
    unfold relaxEdge
    simp only
    rcases hsu : s.seen u with _ | y
    · exact ⟨push (fun z hz => by rw [hsu] at hz; simp at hz), rfl⟩
    · dsimp only
      split_ifs with hgt
      · exact ⟨push (fun z hz => by rw [hsu] at hz; simp at hz; subst hz; exact hgt), rfl⟩
      · exact ⟨nopush y hsu (not_lt.1 hgt), rfl⟩

theorem fix_relaxAll {v : α} {dv : K} (es : List (α × Option K)) (s : DijState α K)
    (hdv : s.dist v = some dv) (h : FixInv g one mul src s v es) :
    FixInv g one mul src (es.foldl (relaxEdge mul none dv) s) v [] := by
  induction es generalizing s with
  | nil => exact h
  | cons e es ih =>
    obtain ⟨h1, h2⟩ := fix_relax hdv h
    exact ih (relaxEdge mul none dv s e) (by rw [h2]; exact hdv) h1

/-- one iteration: the loop ends with an empty heap, or the invariant holds again -/
theorem fix_step {s : DijState α K} {v0 : α} (h : FixInv g one mul src s v0 []) :
    (dijStep g one mul src none none s = .done s ∧ s.fringe = []) ∨
    ∃ t v, dijStep g one mul src none none s = .cont t ∧ FixInv g one mul src t v [] := by
  unfold dijStep
  rcases hp : popMin s.fringe with _ | ⟨⟨d, c, v⟩, rest⟩
  · exact Or.inl ⟨rfl, popMin_none.1 hp⟩
  · right
    have hperm := popMin_perm hp
    have hmem : ∀ x, x ∈ s.fringe ↔ x = (d, c, v) ∨ x ∈ rest := by
      intro x; rw [hperm.mem_iff, List.mem_cons]
    obtain ⟨y, hy, hdy⟩ := h.fr d c v ((hmem _).2 (Or.inl rfl))
    dsimp only
    by_cases hskip : alreadySearched s.dist v d = true
    · rw [if_pos hskip]
      refine ⟨_, v0, rfl, ⟨?_, ?_, h.di, ?_, h.edge⟩⟩
      · rcases h.dsrc with h1 | ⟨d', c', h1, h2⟩
        · exact Or.inl h1
        · rcases (hmem _).1 h1 with he | hr
          · simp only [Prod.mk.injEq] at he
            obtain ⟨rfl, rfl, rfl⟩ := he
            simp [alreadySearched, h2] at hskip
          · exact Or.inr ⟨d', c', hr, h2⟩
      · intro d' c' u hm; exact h.fr d' c' u ((hmem _).2 (Or.inr hm))
      · intro u z hne hz
        rcases h.live u z hne hz with h1 | ⟨c', hc'⟩
        · exact Or.inl h1
        · rcases (hmem _).1 hc' with he | hr
          · simp only [Prod.mk.injEq] at he
            obtain ⟨rfl, rfl, rfl⟩ := he
            exfalso
            rcases hd : s.dist u with _ | x
            · simp [alreadySearched, hd] at hskip
            · simp only [alreadySearched, hd, decide_eq_true_eq] at hskip
              obtain ⟨s', hs', hle⟩ := h.di u x hne hd
              rw [hz] at hs'
              simp only [Option.some.injEq] at hs'
              subst hs'
              exact absurd hskip (not_lt.2 hle)
          · exact Or.inr ⟨c', hr⟩
    · rw [if_neg hskip, if_neg (by simp)]
      have hnot : ∀ x, s.dist v = some x → x ≤ d := by
        intro x hx
        simpa [alreadySearched, hx] using hskip
      refine ⟨_, v, rfl, ?_⟩
      set d' := if v = src then one else d with hd'
      apply fix_relaxAll
      · simp [setKey]
      refine ⟨?_, ?_, ?_, ?_, ?_⟩
      · by_cases hv : src = v
        · left; simp [setKey, hd', hv]
        · rcases h.dsrc with h1 | ⟨d1, c1, h1, h2⟩
          · left; simp [setKey, hv, h1]
          · right
            rcases (hmem _).1 h1 with he | hr
            · simp only [Prod.mk.injEq] at he
              exact absurd he.2.2 hv
            · exact ⟨d1, c1, hr, by simp [setKey, hv, h2]⟩
      · intro d1 c1 u hm; exact h.fr d1 c1 u ((hmem _).2 (Or.inr hm))
      · intro u x hne hx
        simp only [setKey] at hx
        split_ifs at hx with hu
        · simp only [Option.some.injEq] at hx
          subst hu
          refine ⟨y, hy, ?_⟩
          rw [← hx, hd', if_neg hne]; exact hdy
        · exact h.di u x hne hx
      · intro u z hne hz
        by_cases hu : u = v
        · subst hu
          have hdd : d' = d := by simp [hd', hne]
          rcases h.live u z hne hz with h1 | ⟨c', hc'⟩
          · left
            have hzle := hnot z h1
            have hyz : y = z := by
              have hz' : s.seen u = some z := hz
              rw [hy] at hz'; simpa using hz'
            subst hyz
            have : d = y := le_antisymm hdy hzle
            simp [setKey, hdd, this]
          · rcases (hmem _).1 hc' with he | hr
            · simp only [Prod.mk.injEq] at he
              left; simp [setKey, hdd, he.1]
            · exact Or.inr ⟨c', hr⟩
        · rcases h.live u z hne hz with h1 | ⟨c', hc'⟩
          · left; simpa [setKey, hu] using h1
          · rcases (hmem _).1 hc' with he | hr
            · simp only [Prod.mk.injEq] at he
              exact absurd he.2.2 hu
            · exact Or.inr ⟨c', hr⟩
      · intro a x hx u w he
        by_cases ha : a = v
        · left; exact ⟨ha, ha ▸ he⟩
        · have hx' : s.dist a = some x := by simpa [setKey, ha] using hx
          rcases h.edge a x hx' u w he with ⟨-, h2⟩ | h2
          · simp at h2
          · exact Or.inr h2

theorem fix_loop (fuel : Nat) : ∀ {s : DijState α K} {v0 : α} {dist : α → Option K},
    FixInv g one mul src s v0 [] → dijLoop g one mul src none none fuel s = some dist →
    ∃ t v, FixInv g one mul src t v [] ∧ t.fringe = [] ∧ dist = t.dist := by
  induction fuel with
  | zero => intro s v0 dist _ h; simp [dijLoop] at h
  | succ k ih =>
    intro s v0 dist hI h
    unfold dijLoop at h
    rcases fix_step hI with ⟨h1, h2⟩ | ⟨t, v, h1, h2⟩
    · rw [h1] at h
      simp only [Option.some.injEq] at h
      exact ⟨s, v0, hI, h2, h.symm⟩
    · rw [h1] at h
      exact ih h2 h

theorem fix_init : FixInv g one mul src (dijInit zero src) src [] where
  dsrc := Or.inr ⟨zero, 0, by simp [dijInit], rfl⟩
  fr := by
    intro d c u h
    simp only [dijInit, List.mem_singleton, Prod.mk.injEq] at h
    obtain ⟨rfl, rfl, rfl⟩ := h
    exact ⟨d, by simp [dijInit], le_refl _⟩
  di := by intro u x _ h; simp [dijInit] at h
  live := by intro u y hne h; simp [dijInit, hne] at h
  edge := by intro a x h; simp [dijInit] at h

/-- whenever the search ends, its values are closed under the edges -/
theorem modDijkstra_fix {fuel : Nat} {dist : α → Option K}
    (h : modDijkstra g zero one mul src none none fuel = some dist) :
    dist src = some one ∧
    ∀ a x, dist a = some x → ∀ u w, (u, some w) ∈ g.adj a → u ≠ src →
      ∃ y, dist u = some y ∧ mul x w ≤ y := by
  obtain ⟨t, v, hI, hf, rfl⟩ := fix_loop fuel fix_init h
  refine ⟨?_, ?_⟩
  · rcases hI.dsrc with h1 | ⟨d, c, h1, _⟩
    · exact h1
    · rw [hf] at h1; simp at h1
  · intro a x hx u w he hne
    rcases hI.edge a x hx u w he with ⟨_, h2⟩ | ⟨y, hy, hle⟩
    · simp at h2
    · rcases hI.live u y hne hy with h1 | ⟨c, hc⟩
      · exact ⟨y, h1, hle⟩
      · rw [hf] at hc; simp at hc

end Verif
