import Verif.Spec.ErrorRound
import Verif.Lemmas.Error
import Verif.Lemmas.States
import Mathlib.Tactic.Positivity
/-!
# Lemmas on the error of a candidate in floating-point arithmetic
-/
namespace Verif
open Spec

/-- as `NearError`, before the multiplication by 100 -/
inductive NearDev : PyF → PyF → Prop
  | nan : NearDev .nan .nan
  | inf : NearDev .inf .inf
  | fin {e e' : ℚ} (h0 : 0 ≤ e) (h : |e' - e| ≤ (2 / 2 ^ 53 + 1 / 2 ^ 106) * e + 1 / 2 ^ 149) :
      NearDev (.fin e) (.fin e')
  | over {e : ℚ} (h : 2 ^ 140 ≤ e) : NearDev (.fin e) .inf

theorem NearDev.ne_nan {x x' : PyF} (h : NearDev x x') : x = .nan ↔ x' = .nan := by
  cases h <;> simp

theorem NearDev.nmax {x x' y y' : PyF} (h : NearDev x x') (g : NearDev y y') :
    NearDev (x.nmax y) (x'.nmax y') := by
  cases h with
  | nan => rw [nmax_nan_left, nmax_nan_left]; exact .nan
  | inf =>
    by_cases hy : y = .nan
    · rw [hy, g.ne_nan.1 hy]; exact .nan
    · rw [nmax_inf_left hy, nmax_inf_left (fun h => hy (g.ne_nan.2 h))]; exact .inf
  | @over e he =>
    cases g with
    | nan => rw [nmax_nan_right, nmax_nan_right]; exact .nan
    | inf => rw [nmax_inf_right (by simp), nmax_inf_right (by simp)]; exact .inf
    | fin h0 h => rw [nmax_fin, nmax_inf_left (by simp)]; exact .over (he.trans (le_max_left _ _))
    | over h => rw [nmax_fin, nmax_inf_left (by simp)]; exact .over (he.trans (le_max_left _ _))
  | @fin e e' h0 h =>
    cases g with
    | nan => rw [nmax_nan_right, nmax_nan_right]; exact .nan
    | inf => rw [nmax_inf_right (by simp), nmax_inf_right (by simp)]; exact .inf
    | over he => rw [nmax_fin, nmax_inf_right (by simp)]; exact .over (he.trans (le_max_right _ _))
    | @fin f f' g0 g =>
      rw [nmax_fin, nmax_fin]
      refine .fin (h0.trans (le_max_left _ _)) ?_
      obtain ⟨b1, b2⟩ := abs_le.1 h
      obtain ⟨c1, c2⟩ := abs_le.1 g
      rw [abs_le]
      rcases le_total e f with i | i <;> rcases le_total e' f' with j | j <;>
        simp only [max_eq_left, max_eq_right, i, j] <;> norm_num at b1 b2 c1 c2 ⊢ <;>
        constructor <;> linarith

theorem foldl_nearDev {l l' : List PyF} (h : List.Forall₂ NearDev l l') {x x' : PyF} (hx : NearDev x x') :
    NearDev (l.foldl PyF.nmax x) (l'.foldl PyF.nmax x') := by
  induction h generalizing x x' with
  | nil => exact hx
  | cons h1 _ ih => exact ih (hx.nmax h1)

theorem npMax_nearDev {l l' : List PyF} (h : List.Forall₂ NearDev l l') :
    (∃ e, npMax l = .error e ∧ npMax l' = .error e) ∨
      ∃ m m', npMax l = .ok m ∧ npMax l' = .ok m' ∧ NearDev m m' := by
  cases h with
  | nil => exact .inl ⟨_, rfl, rfl⟩
  | cons h1 h2 => exact .inr ⟨_, _, rfl, rfl, foldl_nearDev h2 h1⟩

theorem relDevR_near {R : ℚ → PyF} (hR : RoundsF R) {x y : PyF} (hx : Moderate x) :
    NearDev (relDev (x, y)) (relDevR R (x, y)) := by
  obtain ⟨o, rfl, h1, h2⟩ := hx
  have ho : 0 < o := lt_of_lt_of_le (by positivity) h1
  unfold relDev relDevR
  dsimp only
  cases y with
  | nan => exact .nan
  | inf =>
    simp only [PyF.sub, PyF.neg, PyF.add, PyF.abs, PyF.div, PyF.rd, PyF.sgn, PyF.ofSign, not_lt.2 ho.le]
    exact .inf
  | ninf =>
    simp only [PyF.sub, PyF.neg, PyF.add, PyF.abs, PyF.div, PyF.rd, PyF.sgn, PyF.ofSign, not_lt.2 ho.le]
    exact .inf
  | fin t =>
    have e1 : (((PyF.fin o).sub (.fin t)).abs).div (.fin o) = .fin (|o - t| / o) := by
      simp [PyF.sub, PyF.neg, PyF.add, PyF.abs, PyF.div, ho.ne', sub_eq_add_neg]
    have e2 : ((PyF.fin o).sub (.fin t)).rd R = R (o - t) := by
      simp [PyF.sub, PyF.neg, PyF.add, PyF.rd, sub_eq_add_neg]
    rw [e1, e2]
    have einf : ((PyF.inf.div (.fin o)).rd R) = .inf := by
      simp [PyF.div, PyF.rd, PyF.sgn, PyF.ofSign, not_lt.2 ho.le]
    have hbig : 2 ^ 250 ≤ |o - t| → NearDev (.fin (|o - t| / o)) .inf := by
      intro h
      refine .over ?_
      rw [le_div_iff₀ ho]
      calc (2 ^ 140 : ℚ) * o ≤ 2 ^ 140 * 2 ^ 100 := by gcongr
        _ ≤ _ := le_trans (by norm_num) h
    rcases hR.near (o - t) with ⟨s, hs, hb⟩ | ⟨hs, hb⟩ | ⟨hs, hb⟩
    · rw [hs]
      have e3 : ((PyF.fin s).abs.div (.fin o)).rd R = R (|s| / o) := by
        simp [PyF.abs, PyF.div, PyF.rd, ho.ne']
      rw [e3]
      generalize hd : |o - t| = a at *
      have ha : 0 ≤ a := hd ▸ abs_nonneg _
      have hsa : |(|s|) - a| ≤ a / 2 ^ 53 + 1 / 2 ^ 250 := by
        rw [← hd]; exact (abs_abs_sub_abs_le _ _).trans (by rw [hd]; exact hb)
      generalize hs' : |s| = a' at *
      have hs0 : 0 ≤ a' := hs' ▸ abs_nonneg _
      have hq : |a' / o - a / o| ≤ (a / o) / 2 ^ 53 + 1 / 2 ^ 150 := by
        rw [← sub_div, abs_div, abs_of_pos ho, div_le_iff₀ ho]
        refine hsa.trans ?_
        have i1 : ((a / o) / 2 ^ 53 + 1 / 2 ^ 150) * o = a / 2 ^ 53 + o * (1 / 2 ^ 150) := by
          field_simp
        rw [i1]
        have : (1 : ℚ) / 2 ^ 250 ≤ o * (1 / 2 ^ 150) := by
          calc (1 : ℚ) / 2 ^ 250 = 1 / 2 ^ 100 * (1 / 2 ^ 150) := by norm_num
            _ ≤ _ := by gcongr
        linarith
      have hq0 : 0 ≤ a / o := by positivity
      have hq0' : 0 ≤ a' / o := by positivity
      generalize a / o = q at *
      generalize a' / o = q' at *
      obtain ⟨b1, b2⟩ := abs_le.1 hq
      rcases hR.near q' with ⟨r, hr, hb⟩ | ⟨hr, hb⟩ | ⟨hr, hb⟩
      · rw [hr]
        refine .fin hq0 ?_
        rw [abs_of_nonneg hq0'] at hb
        have : |r - q| ≤ |r - q'| + |q' - q| := by
          have := abs_add_le (r - q') (q' - q); simpa using this
        refine this.trans ((add_le_add hb hq).trans ?_)
        norm_num at b2 ⊢
        linarith
      · rw [hr]
        refine .over ?_
        norm_num at b2 hb ⊢
        linarith
      · exfalso
        norm_num at hb
        linarith
    · rw [hs]
      show NearDev _ ((PyF.inf.div (.fin o)).rd R)
      rw [einf]
      exact hbig (hb.trans (le_abs_self _))
    · rw [hs]
      show NearDev _ ((PyF.inf.div (.fin o)).rd R)
      rw [einf]
      exact hbig (le_trans (by linarith) (neg_le_abs _))

theorem hundred_near {R : ℚ → PyF} (hR : RoundsF R) {m m' : PyF} (h : NearDev m m') :
    NearError ((PyF.fin 100).mul m) (((PyF.fin 100).mul m').rd R) := by
  cases h with
  | nan => exact .nan
  | inf =>
    have : (PyF.fin 100).mul .inf = .inf := by decide +kernel
    rw [this]; exact .inf
  | @over e h =>
    have : (PyF.fin 100).mul .inf = .inf := by decide +kernel
    rw [this]
    refine .over ?_
    norm_num at h ⊢
    linarith
  | @fin e e' h0 h =>
    show NearError (.fin (100 * e)) (R (100 * e'))
    obtain ⟨b1, b2⟩ := abs_le.1 h
    rcases hR.near (100 * e') with ⟨r, hr, hb⟩ | ⟨hr, hb⟩ | ⟨hr, hb⟩
    · rw [hr]
      refine .fin (by linarith) ?_
      have h1 : |r - 100 * e| ≤ |r - 100 * e'| + |100 * e' - 100 * e| := by
        have := abs_add_le (r - 100 * e') (100 * e' - 100 * e); simpa using this
      have h2 : |100 * e' - 100 * e| = 100 * |e' - e| := by
        rw [← mul_sub, abs_mul]; norm_num
      have h3 : |100 * e'| ≤ 100 * (e + |e' - e|) := by
        rw [abs_mul]
        have : |e'| ≤ |e| + |e' - e| := by
          have := abs_add_le e (e' - e); simpa using this
        rw [abs_of_nonneg h0] at this
        rw [show |(100 : ℚ)| = 100 by norm_num]
        linarith
      rw [h2] at h1
      refine h1.trans ?_
      have h4 : |r - 100 * e'| ≤ 100 * (e + |e' - e|) / 2 ^ 53 + 1 / 2 ^ 250 := hb.trans (by gcongr)
      generalize |e' - e| = δ at *
      generalize |r - 100 * e'| = γ at *
      norm_num at h h4 ⊢
      linarith
    · rw [hr]
      refine .over ?_
      norm_num at b2 hb ⊢
      linarith
    · exfalso
      norm_num at b1 hb
      linarith

/-- `calculate_error` with and without rounding -/
theorem calculateErrorR_near {R : ℚ → PyF} (hR : RoundsF R) {orig test : List PyF}
    (ho : ∀ x ∈ orig, Moderate x) :
    (∃ e, calculateError orig test = .error e ∧ calculateErrorR R orig test = .error e) ∨
      ∃ x x', calculateError orig test = .ok x ∧ calculateErrorR R orig test = .ok x' ∧ NearError x x' := by
  unfold calculateError calculateErrorR
  have hb : ∀ ps, broadcast orig test = .ok ps → ∀ p ∈ ps, p.1 ∈ orig := by
    intro ps h p hp
    unfold broadcast at h
    split at h
    · cases h; exact (List.of_mem_zip hp).1
    · split at h
      · cases h
        obtain ⟨y, -, rfl⟩ := List.mem_map.1 hp
        simp
      · cases h
        obtain ⟨y, hy, rfl⟩ := List.mem_map.1 hp
        exact hy
      · cases h
  rcases hbr : broadcast orig test with e | ps
  · exact .inl ⟨e, rfl, rfl⟩
  dsimp only
  have hf : List.Forall₂ NearDev (ps.map relDev) (ps.map (relDevR R)) := by
    rw [List.forall₂_map_left_iff, List.forall₂_map_right_iff, List.forall₂_same]
    rintro ⟨x, y⟩ hp
    exact relDevR_near hR (ho _ (hb ps hbr _ hp))
  rcases npMax_nearDev hf with ⟨e, h1, h2⟩ | ⟨m, m', h1, h2, h3⟩ <;> rw [h1, h2]
  · exact .inl ⟨e, rfl, rfl⟩
  · dsimp only
    split
    · exact .inr ⟨_, _, rfl, rfl, .fin (by norm_num) (by norm_num)⟩
    · exact .inr ⟨_, _, rfl, rfl, hundred_near hR h3⟩

/-- an error that is not within rounding of the limit is on the same side when computed -/
theorem Spec.NearError.decide {L : ℚ} (h0 : 0 ≤ L) (h1 : L ≤ 2 ^ 100) {x x' : PyF} (h : NearError x x')
    (hd : Decided L x) : x'.le (.fin L) = x.le (.fin L) ∧ (PyF.fin L).lt x' = (PyF.fin L).lt x := by
  cases h with
  | nan => exact ⟨rfl, rfl⟩
  | inf => exact ⟨rfl, rfl⟩
  | @over e h =>
    have : L < e := lt_of_le_of_lt h1 (lt_of_lt_of_le (by norm_num) h)
    simp [PyF.le, PyF.lt, this]
  | @fin e e' g0 h =>
    have hd := hd e rfl
    obtain ⟨b1, b2⟩ := abs_le.1 h
    rcases le_or_gt e L with hl | hl
    · rw [abs_of_nonpos (by linarith)] at hd
      have : e' < L := by norm_num at b2 hd; linarith
      simp [PyF.le, PyF.lt, hl, this.le, not_lt.2 hl]
    · rw [abs_of_pos (by linarith)] at hd
      have : L < e' := by norm_num at b1 hd; linarith
      simp [PyF.le, PyF.lt, hl, this, not_le.2 hl, not_le.2 this]

theorem roundsF_fin : RoundsF .fin where
  zero := rfl
  near q := .inl ⟨q, rfl, by simp; positivity⟩

theorem roundsF_rndInf : RoundsF rndInf where
  zero := by decide +kernel
  near q := by
    have h := err_rnd754 q
    have hs : (1 : ℚ) / 2 ^ 1075 ≤ 1 / 2 ^ 250 := one_div_le_one_div_of_le (by positivity)
      (pow_le_pow_right₀ (by norm_num) (by norm_num))
    have h' : |rnd754 q - q| ≤ |q| / 2 ^ 53 + 1 / 2 ^ 250 := by
      refine h.trans (add_le_add (le_of_eq ?_) hs)
      ring
    unfold rndInf
    by_cases hb : |rnd754 q| < 2 ^ 1024
    · rw [if_pos hb]; exact .inl ⟨_, rfl, h'⟩
    · rw [if_neg hb]
      have hq : 2 ^ 250 ≤ |q| := by
        have h3 : (2 : ℚ) ^ 252 ≤ 2 ^ 1024 := pow_le_pow_right₀ (by norm_num) (by norm_num)
        have h4 := h3.trans (not_lt.1 hb)
        have h5 : |rnd754 q| ≤ |rnd754 q - q| + |q| := by
          have := abs_add_le (rnd754 q - q) q; simpa using this
        generalize |rnd754 q| = A at *
        generalize |rnd754 q - q| = B at *
        clear h hs h3 hb
        norm_num at h' h4 ⊢
        linarith
      by_cases hn : q < 0
      · rw [if_pos hn]
        rw [abs_of_neg hn] at hq
        exact .inr (.inr ⟨rfl, by linarith⟩)
      · rw [if_neg hn]
        rw [abs_of_nonneg (not_lt.1 hn)] at hq
        exact .inr (.inl ⟨rfl, hq⟩)

end Verif
