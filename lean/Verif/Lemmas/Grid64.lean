import Verif.Lemmas.ReduceMethod
/-!
The grid of thresholds in binary64, evaluated quickly: inside one binade the increment is constant,
so that only the crossings from one binade to the next are computed one by one.
-/
namespace Verif
open Spec

theorem roundHalfEven_ratio {a b a' b' : Nat} (hb : 0 < b) (hb' : 0 < b') (h : a * b' = a' * b) :
    roundHalfEven a b = roundHalfEven a' b' :=
  Nat.le_antisymm (roundHalfEven_mono hb hb' h.le) (roundHalfEven_mono hb' hb h.ge)

theorem roundHalfEven_add {i D : Nat} (hD : 0 < D) (h : 2 * (i % D) ≠ D) (m : Nat) :
    roundHalfEven (m * D + i) D = m + roundHalfEven i D := by
  have h1 : (m * D + i) / D = m + i / D := by
    rw [Nat.add_comm, Nat.add_mul_div_right _ _ hD, Nat.add_comm]
  have h2 : (m * D + i) % D = i % D := by
    rw [Nat.add_comm, Nat.add_mul_mod_self_right]
  unfold roundHalfEven
  dsimp only
  rw [h1, h2]
  split_ifs <;> omega

/-- rounding of `x / 2^t` when its exponent is known -/
theorem rnd64_scaled {x s t : Nat} (hst : s ≤ t) (h1 : 2 ^ 52 * 2 ^ (t - s) ≤ x)
    (h2 : x < 2 ^ 53 * 2 ^ (t - s)) :
    rnd64 ((x : ℚ) / 2 ^ t) = (roundHalfEven x (2 ^ (t - s)) : ℚ) / 2 ^ s := by
  have hD : 0 < 2 ^ (t - s) := by positivity
  have hx : 0 < x := lt_of_lt_of_le (by positivity) h1
  have hq : (0 : ℚ) < (x : ℚ) / 2 ^ t := by positivity
  rw [rnd64_of_nonneg hq.le]
  generalize hqq : (x : ℚ) / 2 ^ t = q at *
  have hn : 0 < q.num.natAbs := by
    have := Rat.num_pos.2 hq
    omega
  have hval : ((q.num.natAbs : ℚ) / q.den) = q := by
    have h4 : (q.num.natAbs : ℚ) = (q.num : ℚ) := by
      rw [Nat.cast_natAbs, abs_of_nonneg (Rat.num_nonneg.2 hq.le)]
    rw [h4]; exact Rat.num_div_den q
  obtain ⟨e, a, b, hb, k1, k2, k3, k4⟩ := rndPos_spec q.num.natAbs q.den hn q.den_pos
  rw [hval] at k1
  have bq : (0 : ℚ) < b := by exact_mod_cast hb
  have pe : (0 : ℚ) < 2 ^ e := by positivity
  have q2 : (2 : ℚ) ^ 52 ≤ q / 2 ^ e := by
    rw [← k1, le_div_iff₀ bq]; exact_mod_cast k2
  have q3 : q / 2 ^ e < 2 ^ 53 := by
    rw [← k1, div_lt_iff₀ bq]; exact_mod_cast k3
  rw [le_div_iff₀ pe] at q2
  rw [div_lt_iff₀ pe] at q3
  have ht : (2 : ℚ) ^ t = 2 ^ (t - s) * 2 ^ s := by rw [← pow_add]; congr 1; omega
  have p1 : (0 : ℚ) < 2 ^ (t - s) := by positivity
  have p2 : (0 : ℚ) < 2 ^ s := by positivity
  have hqs : q * 2 ^ s = (x : ℚ) / 2 ^ (t - s) := by
    rw [← hqq, ht]; field_simp
  have x1 : (2 : ℚ) ^ 52 ≤ q * 2 ^ s := by
    rw [hqs, le_div_iff₀ p1]; exact_mod_cast h1
  have x2 : q * 2 ^ s < (2 : ℚ) ^ 53 := by
    rw [hqs, div_lt_iff₀ p1]; exact_mod_cast h2
  have hzs : (2 : ℚ) ^ (-(s : Int)) = 1 / 2 ^ s := by
    rw [zpow_neg, zpow_natCast]; simp
  have y1 : (2 : ℚ) ^ 52 * 2 ^ (-(s : Int)) ≤ q := by
    rw [hzs, mul_one_div, div_le_iff₀ p2]; exact x1
  have y2 : q < (2 : ℚ) ^ 53 * 2 ^ (-(s : Int)) := by
    rw [hzs, mul_one_div, lt_div_iff₀ p2]; exact x2
  have hes : e = -(s : Int) := by
    rcases lt_trichotomy e (-(s : Int)) with hc | hc | hc
    · have : (2 : ℚ) ^ (e + 1) ≤ 2 ^ (-(s : Int)) := zpow_le_zpow_right₀ (by norm_num) hc
      rw [zpow_add_one₀ (by norm_num)] at this
      nlinarith
    · exact hc
    · have : (2 : ℚ) ^ (-(s : Int) + 1) ≤ 2 ^ e := zpow_le_zpow_right₀ (by norm_num) hc
      rw [zpow_add_one₀ (by norm_num)] at this
      nlinarith
  rw [k4, hes, hzs, mul_one_div]
  congr 2
  apply roundHalfEven_ratio hb hD
  have : (a : ℚ) / b = x / 2 ^ (t - s) := by
    rw [k1, hes, hzs, ← hqs]; field_simp
  rw [div_eq_div_iff bq.ne' p1.ne'] at this
  exact_mod_cast this

/-- number of steps that stay in the binade of `m / 2^s` -/
def binadeSteps (i D m : Nat) : Nat :=
  (2 ^ 53 * D - 1 - i - m * D) / (roundHalfEven i D * D) + 1

/-- the grid from `(k, m, s)`, meaning value `m / 2^s` at index `k`, to a later place; the increment
is `i / 2^t`: one step into the next binade, one step inside the binade if the rounding there is a
tie, otherwise all steps inside the binade -/
def nextPlace (i t : Nat) (p : Nat × Nat × Nat) : Nat × Nat × Nat :=
  let D := 2 ^ (t - p.2.2)
  let x := p.2.1 * D + i
  if 2 ^ 53 * D ≤ x then (p.1 + 1, roundHalfEven x (2 * D), p.2.2 - 1)
  else if 2 * (i % D) = D then (p.1 + 1, roundHalfEven x D, p.2.2)
  else (p.1 + binadeSteps i D p.2.1, p.2.1 + binadeSteps i D p.2.1 * roundHalfEven i D, p.2.2)

/-- conditions for `nextPlace` -/
def placeOk (i t : Nat) (p : Nat × Nat × Nat) : Bool :=
  let D := 2 ^ (t - p.2.2)
  let x := p.2.1 * D + i
  decide (1 ≤ p.2.2) && decide (p.2.2 ≤ t) && decide (2 ^ 52 ≤ p.2.1) &&
  (if 2 ^ 53 * D ≤ x then decide (x < 2 ^ 53 * (2 * D))
  else if 2 * (i % D) = D then true
  else decide ((p.2.1 + (binadeSteps i D p.2.1 - 1) * roundHalfEven i D) * D + i < 2 ^ 53 * D))

section
variable {j i t : Nat} (hi : startThr rnd64 j = (i : ℚ) / 2 ^ t)
include hi

theorem grid_one {k m s s' : Nat} (hs : s ≤ t) (hs' : s' ≤ t) (hg : gridThr rnd64 j k = (m : ℚ) / 2 ^ s)
    (h1 : 2 ^ 52 * 2 ^ (t - s') ≤ m * 2 ^ (t - s) + i)
    (h2 : m * 2 ^ (t - s) + i < 2 ^ 53 * 2 ^ (t - s')) :
    gridThr rnd64 j (k + 1) = (roundHalfEven (m * 2 ^ (t - s) + i) (2 ^ (t - s')) : ℚ) / 2 ^ s' := by
  have e : gridThr rnd64 j (k + 1) = rnd64 (gridThr rnd64 j k + startThr rnd64 j) := rfl
  have ht : (2 : ℚ) ^ t = 2 ^ (t - s) * 2 ^ s := by rw [← pow_add]; congr 1; omega
  have e2 : (m : ℚ) / 2 ^ s + (i : ℚ) / 2 ^ t = ((m * 2 ^ (t - s) + i : Nat) : ℚ) / 2 ^ t := by
    push_cast
    rw [ht]; field_simp
  rw [e, hg, hi, e2]
  exact rnd64_scaled hs' h1 h2

theorem grid_many {k m s : Nat} (hs : s ≤ t) (hm : 2 ^ 52 ≤ m) (hg : gridThr rnd64 j k = (m : ℚ) / 2 ^ s)
    (htie : 2 * (i % 2 ^ (t - s)) ≠ 2 ^ (t - s)) (n : Nat)
    (h : n = 0 ∨ (m + (n - 1) * roundHalfEven i (2 ^ (t - s))) * 2 ^ (t - s) + i < 2 ^ 53 * 2 ^ (t - s)) :
    gridThr rnd64 j (k + n) = ((m + n * roundHalfEven i (2 ^ (t - s)) : Nat) : ℚ) / 2 ^ s := by
  have hD : 0 < 2 ^ (t - s) := by positivity
  induction n with
  | zero => simpa using hg
  | succ n ih =>
      generalize hc : roundHalfEven i (2 ^ (t - s)) = c at *
      generalize hDD : 2 ^ (t - s) = D at *
      have h' : (m + n * c) * D + i < 2 ^ 53 * D := by
        rcases h with h | h
        · omega
        · simpa using h
      have ih' := ih (by
        rcases Nat.eq_zero_or_pos n with h0 | h0
        · exact Or.inl h0
        · right
          refine lt_of_le_of_lt ?_ h'
          have : (n - 1) * c ≤ n * c := Nat.mul_le_mul_right _ (by omega)
          have := Nat.mul_le_mul_right D (Nat.add_le_add_left this m)
          omega)
      have := grid_one hi hs hs ih' (by
          rw [hDD]
          have : 2 ^ 52 * D ≤ (m + n * c) * D := Nat.mul_le_mul_right _ (by omega)
          omega) (by rw [hDD]; exact h')
      rw [hDD] at this
      rw [show k + (n + 1) = k + n + 1 from rfl, this, roundHalfEven_add hD htie, hc]
      congr 2
      ring

theorem grid_nextPlace {p : Nat × Nat × Nat} (hg : gridThr rnd64 j p.1 = (p.2.1 : ℚ) / 2 ^ p.2.2)
    (h : placeOk i t p = true) :
    gridThr rnd64 j (nextPlace i t p).1 =
      ((nextPlace i t p).2.1 : ℚ) / 2 ^ (nextPlace i t p).2.2 := by
  obtain ⟨k, m, s⟩ := p
  simp only [placeOk, Bool.and_eq_true, decide_eq_true_eq] at h
  obtain ⟨⟨⟨h1, h2⟩, h3⟩, h4⟩ := h
  simp only [nextPlace]
  dsimp only at hg h1 h2 h3
  have hD2 : 2 ^ (t - (s - 1)) = 2 * 2 ^ (t - s) := by
    rw [← pow_succ']; congr 1; omega
  by_cases c1 : 2 ^ 53 * 2 ^ (t - s) ≤ m * 2 ^ (t - s) + i
  · rw [if_pos c1] at h4 ⊢
    simp only [decide_eq_true_eq] at h4
    have := grid_one hi h2 (s' := s - 1) (by omega) hg (by
      rw [hD2]; omega) (by rw [hD2]; exact h4)
    rw [hD2] at this
    exact this
  · rw [if_neg c1] at h4 ⊢
    by_cases c2 : 2 * (i % 2 ^ (t - s)) = 2 ^ (t - s)
    · rw [if_pos c2]
      refine grid_one hi h2 h2 hg ?_ (by omega)
      have : 2 ^ 52 * 2 ^ (t - s) ≤ m * 2 ^ (t - s) := Nat.mul_le_mul_right _ h3
      omega
    · rw [if_neg c2] at h4 ⊢
      simp only [decide_eq_true_eq] at h4
      exact grid_many hi h2 h3 hg c2 _ (Or.inr h4)

/-- the position after `f` moves -/
theorem grid_iterate (f : Nat) {p : Nat × Nat × Nat}
    (hg : gridThr rnd64 j p.1 = (p.2.1 : ℚ) / 2 ^ p.2.2)
    (h : ∀ l < f, placeOk i t ((nextPlace i t)^[l] p) = true) :
    gridThr rnd64 j ((nextPlace i t)^[f] p).1 =
      (((nextPlace i t)^[f] p).2.1 : ℚ) / 2 ^ ((nextPlace i t)^[f] p).2.2 := by
  induction f with
  | zero => exact hg
  | succ f ih =>
      rw [Function.iterate_succ_apply']
      exact grid_nextPlace hi (ih fun l hl => h l (by omega)) (h f (by omega))

end

/-- the threshold of the final reduction as a function of the last accepted one is monotone -/
theorem finalThr_mono64 (j : Nat) {k k' : Nat} (h : gridThr rnd64 j k ≤ gridThr rnd64 j k') :
    finalThr rnd64 j k ≤ finalThr rnd64 j k' := by
  have m := rndOk_rnd64.mono
  unfold finalThr
  apply m
  have h1 : gridThr rnd64 j (k + 1) ≤ gridThr rnd64 j (k' + 1) := m _ _ (by linarith)
  have h2 : gridThr rnd64 j (k + 2) ≤ gridThr rnd64 j (k' + 2) := m _ _ (by linarith)
  linarith

/-- numerator and binary exponent of the starting thresholds in binary64, and the number of moves to
the first value above one -/
def start64 : Nat → Nat × Nat × Nat
  | 0 => (5764607523034235, 59, 13)
  | 1 => (4611686018427388, 62, 25)
  | 2 => (7378697629483821, 66, 26)
  | 3 => (5902958103587057, 69, 33)
  | _ => (4722366482869646, 72, 41)

/-- the position at the first value above one -/
def pass64 (j : Nat) : Nat × Nat × Nat :=
  (nextPlace (start64 j).1 (start64 j).2.1)^[(start64 j).2.2] (0, (start64 j).1, (start64 j).2.1)

/-- what is computed about the passage through one -/
theorem pass64_facts (j : Nat) (hj : j ≤ 4) :
    startThr rnd64 j = ((start64 j).1 : ℚ) / 2 ^ (start64 j).2.1 ∧
    (∀ l < (start64 j).2.2, placeOk (start64 j).1 (start64 j).2.1
      ((nextPlace (start64 j).1 (start64 j).2.1)^[l] (0, (start64 j).1, (start64 j).2.1)) = true) ∧
    1 < ((pass64 j).2.1 : ℚ) / 2 ^ (pass64 j).2.2 ∧
    rnd64 (rnd64 (((pass64 j).2.1 : ℚ) / 2 ^ (pass64 j).2.2 + startThr rnd64 j) -
      rnd64 (2 * startThr rnd64 j)) ≤ 1 ∧ gridThr rnd64 j 1 ≤ 1 ∧ 1 ≤ (pass64 j).1 := by
  have : ∀ j < 5, startThr rnd64 j = ((start64 j).1 : ℚ) / 2 ^ (start64 j).2.1 ∧
    (∀ l < (start64 j).2.2, placeOk (start64 j).1 (start64 j).2.1
      ((nextPlace (start64 j).1 (start64 j).2.1)^[l] (0, (start64 j).1, (start64 j).2.1)) = true) ∧
    1 < ((pass64 j).2.1 : ℚ) / 2 ^ (pass64 j).2.2 ∧
    rnd64 (rnd64 (((pass64 j).2.1 : ℚ) / 2 ^ (pass64 j).2.2 + startThr rnd64 j) -
      rnd64 (2 * startThr rnd64 j)) ≤ 1 ∧ gridThr rnd64 j 1 ≤ 1 ∧ 1 ≤ (pass64 j).1 := by
    decide +kernel
  exact this j (by omega)

/-- if the last accepted threshold is at most one, so is that of the final reduction -/
theorem finalThr_le_one (a : Arith) {j k : Nat} (hj : j ≤ 4) (h : gridThr a.rnd j k ≤ 1) :
    finalThr a.rnd j k ≤ 1 := by
  have key : gridThr rnd64 j k ≤ 1 → finalThr rnd64 j k ≤ 1 := by
      intro h
      obtain ⟨h1, h2, h3, h4, -, h6⟩ := pass64_facts j hj
      have hg := grid_iterate h1 ((start64 j).2.2) (p := (0, (start64 j).1, (start64 j).2.1)) h1 h2
      change gridThr rnd64 j (pass64 j).1 = _ at hg
      obtain ⟨K, hK⟩ : ∃ K, (pass64 j).1 = K + 1 := ⟨(pass64 j).1 - 1, by omega⟩
      have hmono : ∀ a b, a ≤ b → gridThr rnd64 j a ≤ gridThr rnd64 j b := by
        intro a b hab
        exact monotone_nat_of_le_succ (gridThr_mono rndOk_rnd64 j) hab
      have hk : k ≤ K := by
        by_contra hc
        have hc' := hmono (K + 1) k (by omega)
        rw [← hK, hg] at hc'
        exact absurd (lt_of_lt_of_le h3 hc') (not_lt.2 h)
      refine (finalThr_mono64 j (hmono k K hk)).trans ?_
      have e : finalThr rnd64 j K =
          rnd64 (rnd64 (gridThr rnd64 j (K + 1) + startThr rnd64 j) - rnd64 (2 * startThr rnd64 j)) := rfl
      rw [e, ← hK, hg]
      exact h4
  cases a with
  | exact => exact (finalThr_exact j k).le.trans h
  | binary64 => exact key h
  | ieee =>
      change gridThr rnd754 j k ≤ 1 at h
      show finalThr rnd754 j k ≤ 1
      rw [gridThr_ieee hj] at h
      rw [finalThr_ieee hj]
      exact key h

end Verif
