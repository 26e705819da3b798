import Verif.Spec.Simulation
import Verif.Lemmas.Sampling
import Mathlib.Tactic.Linarith
import Mathlib.Tactic.FieldSimp
import Mathlib.Tactic.Ring
/-!
# Lemmas on the simulations
-/
namespace Verif
open Spec

theorem searchFrom_succ (is : List Nat) (k : Nat) :
    searchFrom is (k + 1) = (is[k]?).getD 0 + 1 := rfl

/-! ### profile sampling -/

theorem searchFrom_map (is : List Nat) (k : Nat) (hk : k ≤ is.length) :
    searchFrom (0 :: is.map (· + 1)) (k + 1) = searchFrom is k + 1 := by
  cases k with
  | zero => rfl
  | succ k =>
    have hk' : k < is.length := hk
    rw [searchFrom_succ, searchFrom_succ, List.getElem?_cons_succ, List.getElem?_map, List.getElem?_eq_getElem hk']
    rfl

theorem searchFrom_shift (is : List Nat) (k : Nat) (hk : k ≤ is.length) :
    searchFrom (is.map (· + 1)) k ≤ searchFrom is k + 1 ∧
      (0 < k → searchFrom (is.map (· + 1)) k = searchFrom is k + 1) := by
  cases k with
  | zero => exact ⟨by simp [searchFrom], fun h => absurd h (by omega)⟩
  | succ k =>
    have hk' : k < is.length := hk
    rw [searchFrom_succ, searchFrom_succ, List.getElem?_map, List.getElem?_eq_getElem hk']
    exact ⟨le_refl _, fun _ => rfl⟩

theorem rowsAt_shift (p : Point) (ps : List Point) (is : List Nat) :
    rowsAt (p :: ps) (is.map (· + 1)) = rowsAt ps is := by
  unfold rowsAt
  rw [List.filterMap_map]
  rfl

/-- the loop takes the specified points -/
theorem profileLoop_spec (levels : List PyF) (pts : List Point) (idx : Nat) :
    ∃ is, Picks (levels.drop idx) pts is ∧ profileLoop levels idx pts = rowsAt pts is := by
  induction pts generalizing idx with
  | nil =>
    exact ⟨[], ⟨by simp, by simp, by simp⟩, rfl⟩
  | cons p ps ih =>
    unfold profileLoop
    rcases hl : levels[idx]? with _ | l
    · refine ⟨[], ⟨by simp, by simp, fun k l hk hk0 => ?_⟩, rfl⟩
      have : k = 0 := by simpa using hk0
      subst this
      rw [List.getElem?_drop, Nat.add_zero, hl] at hk
      cases hk
    dsimp only
    by_cases hp : l.le p.T = true
    · rw [if_pos hp]
      obtain ⟨is, P, hr⟩ := ih (idx + 1)
      have hlen : idx < levels.length := (List.getElem?_eq_some_iff.1 hl).1
      refine ⟨0 :: is.map (· + 1), ⟨?_, ?_, ?_⟩, ?_⟩
      · have := P.enough
        simp only [List.length_drop, List.length_cons, List.length_map] at this ⊢
        omega
      · intro k i hk
        cases k with
        | zero =>
          simp only [List.getElem?_cons_zero, Option.some.injEq] at hk
          subst hk
          refine ⟨by simp [searchFrom], p, l, rfl, ?_, hp⟩
          rw [List.getElem?_drop]
          exact hl
        | succ k =>
          rw [List.getElem?_cons_succ, List.getElem?_map] at hk
          rcases hik : is[k]? with _ | i' <;> rw [hik] at hk <;> cases hk
          obtain ⟨h1, p', l', h2, h3, h4⟩ := P.hit k i' hik
          have hk' : k < is.length := (List.getElem?_eq_some_iff.1 hik).1
          refine ⟨?_, p', l', h2, ?_, h4⟩
          · rw [searchFrom_map is k hk'.le]; exact Nat.succ_le_succ h1
          · rw [List.getElem?_drop] at h3 ⊢
            rw [← h3]; congr 1; omega
      · intro k l' hk hkl j q hj hsj hbefore
        cases k with
        | zero =>
          have := hbefore 0 rfl
          omega
        | succ k =>
          simp only [List.length_cons, List.length_map, Nat.add_le_add_iff_right] at hkl
          rw [searchFrom_map is k hkl] at hsj
          cases j with
          | zero => omega
          | succ j =>
            refine P.first k l' ?_ hkl j q hj (by omega) (fun i hi => ?_)
            · rw [List.getElem?_drop] at hk ⊢
              rw [← hk]; congr 1; omega
            · have := hbefore (i + 1) (by
                rw [List.getElem?_cons_succ, List.getElem?_map, hi]; rfl)
              omega
      · rw [hr, ← rowsAt_shift p ps is]
        unfold rowsAt
        rfl
    · rw [if_neg hp]
      obtain ⟨is, P, hr⟩ := ih idx
      refine ⟨is.map (· + 1), ⟨?_, ?_, ?_⟩, ?_⟩
      · rw [List.length_map]; exact P.enough
      · intro k i hk
        rw [List.getElem?_map] at hk
        rcases hik : is[k]? with _ | i' <;> rw [hik] at hk <;> cases hk
        obtain ⟨h1, p', l', h2, h3, h4⟩ := P.hit k i' hik
        have hk' : k < is.length := (List.getElem?_eq_some_iff.1 hik).1
        refine ⟨?_, p', l', h2, h3, h4⟩
        exact le_trans (searchFrom_shift is k hk'.le).1 (Nat.succ_le_succ h1)
      · intro k l' hk hkl j q hj hsj hbefore
        rw [List.length_map] at hkl
        cases j with
        | zero =>
          cases k with
          | zero =>
            rw [List.getElem?_drop, Nat.add_zero, hl] at hk
            cases hk
            cases hj
            simpa using hp
          | succ k =>
            have := (searchFrom_shift is (k + 1) hkl).2 (by omega)
            omega
        | succ j =>
          refine P.first k l' hk hkl j q hj ?_ (fun i hi => ?_)
          · cases k with
            | zero => simp [searchFrom]
            | succ k =>
              have := (searchFrom_shift is (k + 1) hkl).2 (by omega)
              omega
          · have := hbefore (i + 1) (by rw [List.getElem?_map, hi]; rfl)
            omega
      · rw [hr, rowsAt_shift]

theorem Spec.Picks.rows_length {levels : List PyF} {pts : List Point} {is : List Nat}
    (P : Picks levels pts is) : (rowsAt pts is).length = is.length := by
  unfold rowsAt
  rw [List.length_filterMap_eq_countP, List.countP_eq_length]
  intro i hi
  obtain ⟨k, hk⟩ := List.getElem?_of_mem hi
  obtain ⟨-, p, l, h, -⟩ := P.hit k i hk
  simp [h]

theorem Spec.Picks.row {levels : List PyF} {pts : List Point} {is : List Nat}
    (P : Picks levels pts is) {k i : Nat} (hk : is[k]? = some i) :
    ∃ p, pts[i]? = some p ∧ (rowsAt pts is)[k]? = some p.row := by
  have hin : ∀ i ∈ is, ∃ p, pts[i]? = some p := by
    intro i hi
    obtain ⟨k, hk⟩ := List.getElem?_of_mem hi
    obtain ⟨-, p, l, h, -⟩ := P.hit k i hk
    exact ⟨p, h⟩
  clear P
  induction is generalizing k with
  | nil => simp at hk
  | cons a is ih =>
    obtain ⟨p, hp⟩ := hin a (by simp)
    have hr : rowsAt pts (a :: is) = p.row :: rowsAt pts is := by
      unfold rowsAt
      rw [List.filterMap_cons, hp]
      rfl
    rw [hr]
    cases k with
    | zero =>
      simp only [List.getElem?_cons_zero, Option.some.injEq] at hk
      subst hk
      exact ⟨p, hp, rfl⟩
    | succ k =>
      rw [List.getElem?_cons_succ] at hk ⊢
      exact ih hk (fun i hi => hin i (by simp [hi]))

/-- the points of the rows come in order -/
theorem Spec.Picks.increasing {levels : List PyF} {pts : List Point} {is : List Nat}
    (P : Picks levels pts is) {k a b : Nat} (ha : is[k]? = some a) (hb : is[k + 1]? = some b) :
    a < b := by
  have := (P.hit (k + 1) b hb).1
  rw [searchFrom_succ, ha] at this
  simp at this
  omega

theorem deltas_exact (n : Nat) (hn : n ≠ 0) :
    deltas id n = (List.range n).map (fun k : Nat => ((k : ℚ) + 1) / n) := by
  have hn' : (n : ℚ) ≠ 0 := Nat.cast_ne_zero.2 hn
  unfold deltas npArange
  simp only [id]
  have h1 : ((1 : ℚ) + 1 / n - 1 / n) / (1 / n) = n := by field_simp; ring
  rw [h1, Int.ceil_natCast, Int.toNat_natCast]
  apply List.map_congr_left
  intro i _
  by_cases h0 : i = 0
  · subst h0; simp
  rw [if_neg h0]
  by_cases h2 : i = 1
  · subst h2; rw [if_pos rfl]; ring
  rw [if_neg h2]
  ring

theorem level_exact (a b d : ℚ) : level id (.fin a) (.fin b) d = .fin (a + d * (b - a)) := by
  simp [level, PyF.rounded, PyF.sub, PyF.neg, PyF.add, PyF.mul, sub_eq_add_neg]

/-! ### ignition -/

theorem note_points (hot : PyF) (r : Rec) (p : Point) : (r.note hot p).1.points = r.points ++ [p] := by
  unfold Rec.note
  rcases r.delay with _ | d
  · dsimp only; split_ifs <;> rfl
  · rfl

theorem note_delay (hot : PyF) (r : Rec) (p : Point) : (r.note hot p).1.delay =
    match r.delay with
    | some d => some d
    | none => if hot.le p.T then some p.time else none := by
  unfold Rec.note
  rcases r.delay with _ | d
  · dsimp only; split_ifs <;> rfl
  · rfl

theorem note_stop (hot : PyF) (r : Rec) (p : Point) : (r.note hot p).2 =
    (r.delay.isNone && hot.le p.T) := by
  unfold Rec.note
  rcases r.delay with _ | d
  · dsimp only
    split_ifs with h
    · simp [h]
    · simp [h]
  · rfl

/-- the loop variables before step `k` -/
structure RecOk (R : Reactor) (hot : PyF) (k : Nat) (r : Rec) : Prop where
  reached : ∀ j < k, ∃ p, R.step j = some p
  points : r.points = recorded R k
  cold : r.delay = none → ∀ j < k, ∀ q, R.step j = some q → hot.le q.T = false
  lit : ∀ d, r.delay = some d → ∃ j < k, ∃ p, Ignites R hot j p ∧ d = p.time

theorem recorded_succ {R : Reactor} {k : Nat} {p : Point} (h : R.step k = some p) :
    recorded R (k + 1) = recorded R k ++ [p] := by
  unfold recorded
  rw [List.range_succ, List.filterMap_append, List.cons_append]
  simp [h]

theorem RecOk.start (R : Reactor) (hot : PyF) : RecOk R hot 0 ⟨none, [R.init]⟩ :=
  ⟨fun j h => absurd h (by omega), rfl, fun _ j h => absurd h (by omega), fun d h => by cases h⟩

theorem RecOk.next {R : Reactor} {hot : PyF} {k : Nat} {r : Rec} (h : RecOk R hot k r) {p : Point}
    (hp : R.step k = some p) : RecOk R hot (k + 1) (r.note hot p).1 := by
  refine ⟨?_, ?_, ?_, ?_⟩
  · intro j hj
    rcases Nat.lt_succ_iff_lt_or_eq.1 hj with hj | rfl
    · exact h.reached j hj
    · exact ⟨p, hp⟩
  · rw [note_points, h.points, recorded_succ hp]
  · intro hn j hj q hq
    rw [note_delay] at hn
    rcases hd : r.delay with _ | d <;> rw [hd] at hn
    · dsimp only at hn
      rcases Nat.lt_succ_iff_lt_or_eq.1 hj with hj | rfl
      · exact h.cold hd j hj q hq
      · rw [hp] at hq; cases hq
        by_cases hh : hot.le p.T = true
        · rw [if_pos hh] at hn; cases hn
        · simpa using hh
    · cases hn
  · intro d hdel
    rw [note_delay] at hdel
    rcases hd : r.delay with _ | d' <;> rw [hd] at hdel
    · dsimp only at hdel
      by_cases hh : hot.le p.T = true
      · rw [if_pos hh] at hdel
        cases hdel
        refine ⟨k, by omega, p, ⟨hp, hh, fun j hj => ?_⟩, rfl⟩
        obtain ⟨q, hq⟩ := h.reached j hj
        exact ⟨q, hq, h.cold hd j hj q hq⟩
      · rw [if_neg hh] at hdel; cases hdel
    · cases hdel
      obtain ⟨j, hj, x⟩ := h.lit d hd
      exact ⟨j, by omega, x⟩

theorem timeBefore_isSome {R : Reactor} {k : Nat} (h : ∀ j < k, ∃ p, R.step j = some p) :
    ∃ t, timeBefore R k = some t := by
  cases k with
  | zero => exact ⟨_, rfl⟩
  | succ k =>
    obtain ⟨p, hp⟩ := h k (by omega)
    exact ⟨p.time, by simp [timeBefore, hp]⟩

/-- integration to an end time: all steps up to the end are recorded, or one of them fails -/
theorem timedLoop_spec {R : Reactor} {hot tend : PyF} (fuel k : Nat) {cur : Point} {r : Rec}
    (hr : RecOk R hot k r) (hcur : timeBefore R k = some cur.time)
    (hbefore : ∀ j < k, ∃ t, timeBefore R j = some t ∧ t.lt tend = true) {x : Except Err Rec}
    (h : timedLoop R hot tend false fuel k cur r = some x) :
    (∃ n, Ended R tend n ∧ ∃ r', x = .ok r' ∧ RecOk R hot n r') ∨
    (∃ n, Begun R tend n ∧ R.step n = none ∧ x = .error .runtimeError) := by
  induction fuel generalizing k cur r with
  | zero => cases h
  | succ fuel ih =>
    unfold timedLoop at h
    by_cases ht : cur.time.lt tend = true
    · rw [if_pos ht] at h
      have hb' : ∀ j < k + 1, ∃ t, timeBefore R j = some t ∧ t.lt tend = true := by
        intro j hj
        rcases Nat.lt_succ_iff_lt_or_eq.1 hj with hj | rfl
        · exact hbefore j hj
        · exact ⟨_, hcur, ht⟩
      rcases hs : R.step k with _ | p <;> rw [hs] at h
      · cases h
        exact Or.inr ⟨k, fun j hj => hb' j (by omega), hs, rfl⟩
      · dsimp only at h
        rw [Bool.and_false, if_neg (by simp)] at h
        exact ih (k + 1) (hr.next hs) (by simp [timeBefore, hs]) hb' h
    · rw [if_neg ht] at h
      cases h
      exact Or.inl ⟨k, ⟨hbefore, ⟨_, hcur, by simpa using ht⟩⟩, r, rfl, hr⟩

theorem steadyLoop_spec {R : Reactor} {hot : PyF} (left k : Nat) (last : Option Nat) {r : Rec}
    (hr : RecOk R hot k r) (hlast : last = if k = 0 then none else some (k - 1))
    (hset : ∀ j < k, R.settled j = false) :
    (∃ r', steadyLoop R hot false left k last r = .ok (if k + left = 0 then none else some (k + left - 1), r') ∧
      RecOk R hot (k + left) r' ∧ ∀ j < k + left, R.settled j = false) ∨
    (∃ n r', n < k + left ∧ steadyLoop R hot false left k last r = .ok (some n, r') ∧
      RecOk R hot (n + 1) r' ∧ Settles R n) ∨
    (∃ n < k + left, R.step n = none ∧ (∀ j < n, R.settled j = false) ∧
      steadyLoop R hot false left k last r = .error .runtimeError) := by
  induction left generalizing k last r with
  | zero =>
    left
    refine ⟨r, ?_, hr, hset⟩
    unfold steadyLoop
    rw [hlast]
    rfl
  | succ left ih =>
    unfold steadyLoop
    rcases hs : R.step k with _ | p
    · exact Or.inr (Or.inr ⟨k, by omega, hs, hset, rfl⟩)
    dsimp only
    rw [Bool.and_false, if_neg (by simp)]
    by_cases hst : R.settled k = true
    · rw [if_pos hst]
      exact Or.inr (Or.inl ⟨k, _, by omega, rfl, hr.next hs, hst, hset⟩)
    · rw [if_neg hst]
      have := ih (k + 1) (some k) (hr.next hs) (by simp) (fun j hj => by
        rcases Nat.lt_succ_iff_lt_or_eq.1 hj with hj | rfl
        · exact hset j hj
        · simpa using hst)
      rw [show k + (left + 1) = k + 1 + left by omega]
      exact this

/-- metric-only integration for a number of steps -/
theorem calcSteps_spec (R : Reactor) (hot : PyF) (left k : Nat) :
    (∃ j p, k ≤ j ∧ j < k + left ∧ R.step j = some p ∧ hot.le p.T = true ∧
      (∀ i, k ≤ i → i < j → ∃ q, R.step i = some q ∧ hot.le q.T = false) ∧
      calcSteps R hot left k = p.time) ∨
    (calcSteps R hot left k = .fin 0 ∧ ∀ j p, k ≤ j → j < k + left →
      (∀ i, k ≤ i → i < j → ∃ q, R.step i = some q ∧ hot.le q.T = false) →
      R.step j = some p → hot.le p.T = false) := by
  induction left generalizing k with
  | zero => exact Or.inr ⟨rfl, fun j p h1 h2 => absurd h2 (by omega)⟩
  | succ left ih =>
    unfold calcSteps
    rcases hs : R.step k with _ | p
    · refine Or.inr ⟨rfl, fun j p h1 h2 h3 h4 => ?_⟩
      rcases Nat.eq_or_lt_of_le h1 with rfl | h1
      · rw [hs] at h4; cases h4
      · obtain ⟨q, hq, -⟩ := h3 k (le_refl _) h1
        rw [hs] at hq; cases hq
    dsimp only
    by_cases hh : hot.le p.T = true
    · rw [if_pos hh]
      exact Or.inl ⟨k, p, le_refl _, by omega, hs, hh, fun i h1 h2 => absurd h2 (by omega), rfl⟩
    · rw [if_neg hh]
      rcases ih (k + 1) with ⟨j, q, h1, h2, h3, h4, h5, h6⟩ | ⟨h1, h2⟩
      · refine Or.inl ⟨j, q, by omega, by omega, h3, h4, fun i hi1 hi2 => ?_, h6⟩
        rcases Nat.eq_or_lt_of_le hi1 with rfl | hi1
        · exact ⟨p, hs, by simpa using hh⟩
        · exact h5 i hi1 hi2
      · refine Or.inr ⟨h1, fun j q h3 h4 h5 h6 => ?_⟩
        rcases Nat.eq_or_lt_of_le h3 with rfl | h3
        · rw [hs] at h6; cases h6; simpa using hh
        · exact h2 j q h3 (by omega) (fun i h7 h8 => h5 i (by omega) h8) h6

theorem cold_of {R : Reactor} {hot : PyF} {k : Nat}
    (h : ∀ j < k, ∃ q, R.step j = some q ∧ hot.le q.T = false) : Cold R hot k := by
  intro j hj q hq
  obtain ⟨q', h1, h2⟩ := h j hj
  rw [hq] at h1
  cases h1
  exact h2

/-- metric-only integration to an end time -/
theorem calcTimed_spec {R : Reactor} {hot tend : PyF} (fuel k : Nat) {cur : Point}
    (hcur : timeBefore R k = some cur.time)
    (hcold : ∀ j < k, ∃ q, R.step j = some q ∧ hot.le q.T = false)
    (hbefore : ∀ j < k, ∃ t, timeBefore R j = some t ∧ t.lt tend = true) {x : PyF}
    (h : calcTimed R hot tend fuel k cur = some x) :
    (∃ n p, Ignites R hot n p ∧ Begun R tend n ∧ x = p.time) ∨
    (x = .fin 0 ∧ ∃ n, Cold R hot n ∧
      ((Begun R tend n ∧ R.step n = none) ∨ Ended R tend n)) := by
  induction fuel generalizing k cur with
  | zero => cases h
  | succ fuel ih =>
    unfold calcTimed at h
    by_cases ht : cur.time.lt tend = true
    · rw [if_pos ht] at h
      have hb' : ∀ j < k + 1, ∃ t, timeBefore R j = some t ∧ t.lt tend = true := by
        intro j hj
        rcases Nat.lt_succ_iff_lt_or_eq.1 hj with hj | rfl
        · exact hbefore j hj
        · exact ⟨_, hcur, ht⟩
      rcases hs : R.step k with _ | p <;> rw [hs] at h
      · cases h
        exact Or.inr ⟨rfl, k, cold_of hcold, Or.inl ⟨fun j hj => hb' j (by omega), hs⟩⟩
      · dsimp only at h
        by_cases hh : hot.le p.T = true
        · rw [if_pos hh] at h
          cases h
          exact Or.inl ⟨k, p, ⟨hs, hh, hcold⟩, fun j hj => hb' j (by omega), rfl⟩
        · rw [if_neg hh] at h
          refine ih (k + 1) (by simp [timeBefore, hs]) (fun j hj => ?_) hb' h
          rcases Nat.lt_succ_iff_lt_or_eq.1 hj with hj | rfl
          · exact hcold j hj
          · exact ⟨p, hs, by simpa using hh⟩
    · rw [if_neg ht] at h
      cases h
      exact Or.inr ⟨rfl, k, cold_of hcold, Or.inr ⟨hbefore, _, hcur, by simpa using ht⟩⟩

/-- the loop ends: at a failing step or at the end time -/
theorem timedLoop_isSome {R : Reactor} {hot tend : PyF} {n : Nat}
    (h : (R.step n = none) ∨ ∃ t, timeBefore R n = some t ∧ t.lt tend = false)
    (fuel k : Nat) {cur : Point} {r : Rec}
    (hcur : timeBefore R k = some cur.time) (hk : k ≤ n) (hf : n < k + fuel) :
    (timedLoop R hot tend false fuel k cur r).isSome := by
  induction fuel generalizing k cur r with
  | zero => omega
  | succ fuel ih =>
    unfold timedLoop
    by_cases ht : cur.time.lt tend = true
    · rw [if_pos ht]
      rcases hs : R.step k with _ | p
      · rfl
      · dsimp only
        rw [Bool.and_false, if_neg (by simp)]
        rcases Nat.eq_or_lt_of_le hk with rfl | hk
        · rcases h with h | ⟨t, h1, h2⟩
          · rw [hs] at h; cases h
          · rw [hcur] at h1; cases h1; rw [ht] at h2; cases h2
        · exact ih (k + 1) (by simp [timeBefore, hs]) hk (by omega)
    · rw [if_neg ht]; rfl

theorem calcTimed_isSome {R : Reactor} {hot tend : PyF} {n : Nat}
    (h : (R.step n = none) ∨ ∃ t, timeBefore R n = some t ∧ t.lt tend = false)
    (fuel k : Nat) {cur : Point}
    (hcur : timeBefore R k = some cur.time) (hk : k ≤ n) (hf : n < k + fuel) :
    (calcTimed R hot tend fuel k cur).isSome := by
  induction fuel generalizing k cur with
  | zero => omega
  | succ fuel ih =>
    unfold calcTimed
    by_cases ht : cur.time.lt tend = true
    · rw [if_pos ht]
      rcases hs : R.step k with _ | p
      · rfl
      · dsimp only
        by_cases hh : hot.le p.T = true
        · rw [if_pos hh]; rfl
        rw [if_neg hh]
        rcases Nat.eq_or_lt_of_le hk with rfl | hk
        · rcases h with h | ⟨t, h1, h2⟩
          · rw [hs] at h; cases h
          · rw [hcur] at h1; cases h1; rw [ht] at h2; cases h2
        · exact ih (k + 1) (by simp [timeBefore, hs]) hk (by omega)
    · rw [if_neg ht]; rfl

/-- a recording loop that ends within the fuel has a metric-only loop that does -/
theorem calcTimed_of_timedLoop {R : Reactor} {hot tend : PyF} (fuel k : Nat) {cur : Point} {r : Rec}
    (h : (timedLoop R hot tend false fuel k cur r).isSome) :
    (calcTimed R hot tend fuel k cur).isSome := by
  induction fuel generalizing k cur r with
  | zero => cases h
  | succ fuel ih =>
    unfold timedLoop at h
    unfold calcTimed
    by_cases ht : cur.time.lt tend = true
    · rw [if_pos ht] at h ⊢
      rcases hs : R.step k with _ | p <;> rw [hs] at h
      · rfl
      · dsimp only at h ⊢
        rw [Bool.and_false, if_neg (by simp)] at h
        by_cases hh : hot.le p.T = true
        · rw [if_pos hh]; rfl
        rw [if_neg hh]
        exact ih (k + 1) h
    · rw [if_neg ht]; rfl

theorem Spec.Ignites.unique {R : Reactor} {hot : PyF} {j k : Nat} {p q : Point}
    (h : Ignites R hot j p) (h' : Ignites R hot k q) : j = k ∧ p = q := by
  have : j = k := by
    rcases Nat.lt_trichotomy j k with hjk | hjk | hjk
    · obtain ⟨x, h1, h2⟩ := h'.2.2 j hjk
      rw [h.1] at h1
      cases h1
      rw [h.2.1] at h2
      cases h2
    · exact hjk
    · obtain ⟨x, h1, h2⟩ := h.2.2 k hjk
      rw [h'.1] at h1
      cases h1
      rw [h'.2.1] at h2
      cases h2
  subst this
  refine ⟨rfl, ?_⟩
  have := h.1
  rw [h'.1] at this
  cases this
  rfl

theorem delayOf_recorded {R : Reactor} {hot : PyF} {n j : Nat} {p : Point} (hn : ∀ i < n, ∃ q, R.step i = some q)
    (hj : j < n) (hi : Ignites R hot j p) (h0 : hot.le R.init.T = false) :
    delayOf hot (recorded R n) = p.time := by
  unfold recorded delayOf
  rw [if_neg (by simp [h0])]
  have key : ∀ (m s : Nat), s ≤ j → j < s + m → (∀ i, s ≤ i → i < s + m → ∃ q, R.step i = some q) →
      delayOf hot ((List.range' s m).filterMap R.step) = p.time := by
    intro m
    induction m with
    | zero => intro s h1 h2; omega
    | succ m ih =>
      intro s h1 h2 h3
      rw [List.range'_succ, List.filterMap_cons]
      obtain ⟨q, hq⟩ := h3 s (le_refl _) (by omega)
      rw [hq]
      dsimp only
      unfold delayOf
      rcases Nat.eq_or_lt_of_le h1 with rfl | h1
      · rw [hi.1] at hq
        cases hq
        rw [if_pos hi.2.1]
      · obtain ⟨q', hq', hc⟩ := hi.2.2 s h1
        rw [hq] at hq'
        cases hq'
        rw [if_neg (by simp [hc])]
        exact ih (s + 1) h1 (by omega) (fun i h4 h5 => h3 i (by omega) (by omega))
  rw [List.range_eq_range']
  exact key n 0 (by omega) (by omega) (fun i _ h => hn i (by omega))

/-- a finished recording with its outcome -/
theorem RecOk.outcome {R : Reactor} {hot : PyF} {n : Nat} {r : Rec} (h : RecOk R hot n r) :
    (r.delay = none ∧ Cold R hot n) ∨ ∃ k < n, ∃ q, Ignites R hot k q ∧ r.delay = some q.time := by
  rcases hd : r.delay with _ | d
  · exact Or.inl ⟨rfl, h.cold hd⟩
  · obtain ⟨k, hk, q, hq, rfl⟩ := h.lit d hd
    exact Or.inr ⟨k, hk, q, hq, rfl⟩

/-- `run_case` to an end time -/
theorem runCase_timed {p : IgnProps} {R : Reactor} {fuel : Nat} {r : IgnRun} (ht : p.timed = true)
    (h : ignRunCase p R false fuel = some r) :
    (∃ n, Begun R p.endTime n ∧ R.step n = none ∧ r = ⟨.error .runtimeError, none⟩) ∨
    ∃ n, Ended R p.endTime n ∧ (∀ j < n, ∃ q, R.step j = some q) ∧
      ((Cold R p.hot n ∧ r = ⟨.error .runtimeError, some (recorded R n)⟩) ∨
        ∃ k < n, ∃ q, Ignites R p.hot k q ∧ r = ⟨.ok q.time, some (recorded R n)⟩) := by
  unfold ignRunCase at h
  rw [if_pos ht] at h
  rcases h0 : timedLoop R p.hot p.endTime false fuel 0 R.init ⟨none, [R.init]⟩ with _ | x <;>
    rw [h0] at h
  · cases h
  rcases timedLoop_spec fuel 0 (RecOk.start R p.hot) rfl (fun j hj => absurd hj (by omega)) h0 with
    ⟨n, hn, r', rfl, hr⟩ | ⟨n, hn, hs, rfl⟩
  · refine Or.inr ⟨n, hn, hr.reached, ?_⟩
    rcases hr.outcome with ⟨hd, hc⟩ | ⟨k, hk, q, hq, hd⟩
    · simp only [hd, Option.some.injEq] at h
      exact Or.inl ⟨hc, by rw [← h, hr.points]⟩
    · simp only [hd, Option.some.injEq] at h
      exact Or.inr ⟨k, hk, q, hq, by rw [← h, hr.points]⟩
  · cases h
    exact Or.inl ⟨n, hn, hs, rfl⟩

/-- `run_case` to steady state -/
theorem runCase_steady (p : IgnProps) (R : Reactor) (fuel : Nat) (ht : p.timed = false)
    (hm : 0 < p.steps) :
    (∃ n : Nat, n < p.steps ∧ R.step n = none ∧ (∀ j < n, R.settled j = false) ∧
      ignRunCase p R false fuel = some ⟨.error .runtimeError, none⟩) ∨
    (∃ n : Nat, n < p.steps - 1 ∧ Settles R n ∧ (∀ j ≤ n, ∃ q, R.step j = some q) ∧
      ((Cold R p.hot (n + 1) ∧
          ignRunCase p R false fuel = some ⟨.error .runtimeError, some (recorded R (n + 1))⟩) ∨
        ∃ k ≤ n, ∃ q, Ignites R p.hot k q ∧
          ignRunCase p R false fuel = some ⟨.ok q.time, some (recorded R (n + 1))⟩)) ∨
    ((∀ j : Nat, j < p.steps → ∃ q, R.step j = some q) ∧
      (∀ j : Nat, j < p.steps - 1 → R.settled j = false) ∧
      ignRunCase p R false fuel = some ⟨.error .runtimeError, none⟩) := by
  unfold ignRunCase
  rw [if_neg (by simp [ht])]
  unfold steadyPart
  have hto : (p.steps.toNat : Int) = p.steps := Int.toNat_of_nonneg hm.le
  generalize p.steps.toNat = m at hto
  rcases steadyLoop_spec m 0 none (RecOk.start R p.hot) rfl (fun j hj => absurd hj (by omega)) with
    ⟨r', h1, h2, h3⟩ | ⟨n, r', h0, h1, h2, h3⟩ | ⟨n, h0, h1, h2, h3⟩
  · right; right
    rw [Nat.zero_add] at h1 h2 h3
    refine ⟨fun j hj => h2.reached j (by omega), fun j hj => h3 j (by omega), ?_⟩
    rw [h1, if_neg (by omega)]
    dsimp only
    rw [if_pos (by omega)]
  · rw [Nat.zero_add] at h0
    rw [h1]
    dsimp only
    by_cases hl : (n : Int) = p.steps - 1
    · right; right
      refine ⟨fun j hj => h2.reached j (by omega), fun j hj => h3.2 j (by omega), ?_⟩
      rw [if_pos hl]
    · right; left
      refine ⟨n, by omega, h3, fun j hj => h2.reached j (by omega), ?_⟩
      rw [if_neg hl]
      dsimp only
      rcases h2.outcome with ⟨hd, hc⟩ | ⟨k, hk, q, hq, hd⟩
      · exact Or.inl ⟨hc, by rw [hd, h2.points]⟩
      · exact Or.inr ⟨k, by omega, q, hq, by rw [hd, h2.points]⟩
  · left
    rw [Nat.zero_add] at h0
    refine ⟨n, by omega, h1, h2, ?_⟩
    rw [h3]

/-- `calculate` for a number of steps -/
theorem calculate_steps (p : IgnProps) (R : Reactor) (fuel : Nat) (ht : p.timed = false)
    (hm : 0 < p.steps) :
    (∃ (k : Nat) (q : Point), k < p.steps ∧ Ignites R p.hot k q ∧
      ignCalculate p R fuel = some (.ok q.time)) ∨
    ((¬ ∃ (k : Nat) (q : Point), k < p.steps ∧ Ignites R p.hot k q) ∧
      ignCalculate p R fuel = some (.ok (.fin 0))) := by
  unfold ignCalculate
  rw [if_neg (by simp [ht]), if_neg (by omega)]
  have hto : (p.steps.toNat : Int) = p.steps := Int.toNat_of_nonneg hm.le
  generalize p.steps.toNat = m at hto
  rcases calcSteps_spec R p.hot m 0 with ⟨j, q, -, h2, h3, h4, h5, h6⟩ | ⟨h1, h2⟩
  · exact Or.inl ⟨j, q, by omega, ⟨h3, h4, fun i hi => h5 i (by omega) hi⟩, by rw [h6]⟩
  · refine Or.inr ⟨?_, by rw [h1]⟩
    rintro ⟨k, q, hk, h3, h4, h5⟩
    have := h2 k q (by omega) (by omega) (fun i _ hi => h5 i hi) h3
    rw [h4] at this
    cases this

end Verif
