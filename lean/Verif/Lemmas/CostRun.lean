import Verif.Lemmas.CostLadder
import Verif.Lemmas.Cost
import Verif.Lemmas.Num
import Verif.Spec.Rounding
import Mathlib.Data.List.GetD
namespace Verif
open Spec

/-! ### products of factors close to each other -/

structure Close (s A B : ℚ) : Prop where
  s0 : 0 ≤ s
  A0 : 0 < A
  B0 : 0 < B
  le : (1 - s) * B ≤ (1 + s) * A

theorem Close.step {s A B x : ℚ} (h : Close s A B) (hx : 0 ≤ x) (hs : s + x < 1) :
    Close (s + x) (A * (1 - x)) (B * (1 + x)) := by
  obtain ⟨s0, A0, B0, le⟩ := h
  refine ⟨by linarith, mul_pos A0 (by linarith), mul_pos B0 (by linarith), ?_⟩
  have h1 : (1 - (s + x)) * (1 + x) * (1 + s) ≤ (1 + (s + x)) * (1 - x) * (1 - s) := by
    have : 0 ≤ s * x * (s + x) := by positivity
    nlinarith
  have hp : 0 < 1 - s := by linarith
  have hq : 0 ≤ (1 - (s + x)) * (1 + x) := mul_nonneg (by linarith) (by linarith)
  have h2 := mul_le_mul_of_nonneg_left le hq
  have h3 := mul_le_mul_of_nonneg_right h1 A0.le
  refine le_of_mul_le_mul_left ?_ hp
  linarith

theorem Close.scale {s A B c : ℚ} (h : Close s A B) (hc : 0 < c) : Close s (A * c) (B * c) :=
  ⟨h.s0, mul_pos h.A0 hc, mul_pos h.B0 hc, by have := mul_le_mul_of_nonneg_right h.le hc.le; linarith⟩

theorem Close.lt {s A B t : ℚ} (h : Close s A B) (ht : s < t) : (1 - t) * B < (1 + t) * A := by
  have h1 := mul_lt_mul_of_pos_right ht h.A0
  have h2 := mul_lt_mul_of_pos_right ht h.B0
  have := h.le
  linarith

theorem shares_close {ε : ℚ} (h0 : 0 ≤ ε) (k : Nat) : ∀ d : Nat, ((d : ℚ) + 1) * ε < 1 / 2 ^ (k + d + 2) →
    Close (tilt k - 1 / 2 ^ (k + d + 2) + (d + 1) * ε)
      ((1 - ε) * ∏ i ∈ Finset.Ico (k + 1) (k + 1 + d), (direct i * (1 - ε)))
      ((1 + ε) * ∏ i ∈ Finset.Ico (k + 1) (k + 1 + d), (detour i * (1 + ε))) := by
  intro d
  induction d with
  | zero =>
    intro h
    have h1 : (1 : ℚ) / 2 ^ (k + 0 + 2) ≤ 1 / 4 := by have := tilt_le k; unfold tilt at this; simpa using this
    have e : tilt k - 1 / 2 ^ (k + 0 + 2) + ((0 : Nat) + 1) * ε = 0 + ε := by unfold tilt; push_cast; ring
    rw [e]
    simp only [Nat.add_zero, Finset.Ico_self, Finset.prod_empty, mul_one]
    have := Close.step (s := 0) (A := 1) (B := 1) ⟨le_rfl, one_pos, one_pos, by norm_num⟩ h0 (by
      push_cast at h
      simp only [Nat.add_zero] at h h1
      linarith)
    simpa using this
  | succ d ih =>
    intro h
    have hp : (1 : ℚ) / 2 ^ (k + (d + 1) + 2) = (1 / 2 ^ (k + d + 2)) / 2 := by
      rw [show k + (d + 1) + 2 = (k + d + 2) + 1 by ring, pow_succ]; field_simp
    have hP : (0 : ℚ) < 1 / 2 ^ (k + d + 2) := by positivity
    have ih := ih (by push_cast at h; rw [hp] at h; linarith)
    have ht : tilt (k + 1 + d) = (1 / 2 ^ (k + d + 2)) / 2 := by
      unfold tilt; rw [← hp]; congr 2; ring
    have hk := tilt_le k
    have c1 := ih.step (tilt_pos (k + 1 + d)).le (by
      rw [ht]; push_cast at h; rw [hp] at h; linarith)
    have c2 := (c1.step h0 (by rw [ht]; push_cast at h; rw [hp] at h; linarith)).scale (c := 1 / 2) (by norm_num)
    rw [show k + 1 + (d + 1) = k + 1 + d + 1 by ring, Finset.prod_Ico_succ_top (by omega),
      Finset.prod_Ico_succ_top (by omega)]
    have e : tilt k - 1 / 2 ^ (k + d + 2) + ((d : ℚ) + 1) * ε + tilt (k + 1 + d) + ε =
        tilt k - 1 / 2 ^ (k + (d + 1) + 2) + (((d + 1 : Nat) : ℚ) + 1) * ε := by
      rw [hp, ht]; push_cast; ring
    rw [e] at c2
    convert c2 using 1 <;> simp only [direct, detour] <;> ring

/-! ### the graph -/

theorem matrixGraph_row {M : NMat} {names : List String} (hn : names.Nodup) {N i : Nat} (hN : names.length = N) (hi : i < N)
    {l : List Nat} (hl : (List.range N).filter (fun j => M i j != 0) = l) :
    (matrixGraph M names).adj (names.getD i "") = l.map (fun j => (names.getD j "", some (M i j))) := by
  subst hN
  have h1 : names.idxOf? (names.getD i "") = some i := by
    rw [List.getD_eq_getElem _ _ hi]
    exact List.idxOf?_eq_some_iff.2 ⟨hi, rfl, fun j hj h => by
      have := (List.Nodup.getElem_inj_iff hn).1 h
      omega⟩
  unfold matrixGraph
  dsimp only
  rw [h1]
  dsimp only
  rw [hl]
  have : ∀ j ∈ l, j < names.length := by
    intro j hj
    rw [← hl, List.mem_filter, List.mem_range] at hj
    exact hj.1
  clear hl h1
  induction l with
  | nil => rfl
  | cons x l ih =>
    have hx := this x (by simp)
    rw [List.filterMap_cons, List.getElem?_eq_getElem hx]
    simp only [Option.map_some, List.map_cons]
    rw [ih (fun j hj => this j (by simp [hj])), List.getD_eq_getElem _ _ hx]

section
variable {rnd : ℚ → ℚ} {n : Nat} {ε : ℚ} {names : List String}

theorem detour_le (k : Nat) : detour k ≤ 5 / 8 := by have := tilt_le k; unfold detour; linarith
theorem direct_ge (k : Nat) : 3 / 8 ≤ direct k := by have := tilt_le k; unfold direct; linarith
theorem direct_le_detour (k : Nat) : direct k ≤ detour k := by have := tilt_pos k; unfold direct detour; linarith

/-- the graph of the model is a ladder -/
theorem iso_ladder (hr : RndOk rnd) (hE : ExactTo rnd (n + 2)) (h0 : 0 ≤ ε)
    (hC : ∀ x, 1 / 4 ^ n ≤ x → |rnd x - x| ≤ x * ε) (he : n * ε < 1 / 2 ^ (n + 1)) (hn : 0 < n)
    (hd : names.Nodup) (hl : names.length = 2 * n + 2) :
    Ladder (matrixGraph (isoMat rnd n) names) (fun x y => rnd (x * y)) (names.getD 0 "") n
      (fun k => names.getD (2 * k + 1) "") (fun k => names.getD (2 * k + 2) "") direct detour
      (fun k => direct k * (1 - ε)) (fun k => direct k * (1 + ε)) (fun k => detour k * (1 - ε))
      (fun k => detour k * (1 + ε)) (fun k x => rnd x = x ∧ 1 / 4 ^ k ≤ x) := by
  have inj : ∀ i j, i < 2 * n + 2 → j < 2 * n + 2 → names.getD i "" = names.getD j "" → i = j := by
    intro i j hi hj h
    rw [← hl] at hi hj
    rw [List.getD_eq_getElem _ _ hi, List.getD_eq_getElem _ _ hj] at h
    exact (List.Nodup.getElem_inj_iff hd).1 h
  have hε : ε ≤ 1 / 4 := by
    have h1 : (1 : ℚ) ≤ n := by exact_mod_cast hn
    have h2 : (1 : ℚ) / 2 ^ (n + 1) ≤ 1 / 4 := by
      have : (2 : ℚ) ^ 2 ≤ 2 ^ (n + 1) := pow_le_pow_right₀ (by norm_num) (by omega)
      exact one_div_le_one_div_of_le (by norm_num) (by linarith)
    nlinarith
  have low : ∀ (k : Nat) (x y : ℚ), k < n → 1 / 4 ^ k ≤ x → 3 / 8 ≤ y → 1 / 4 ^ n ≤ x * y := by
    intro k x y hk hx hy
    have e : (1 : ℚ) / 4 ^ (k + 1) = 1 / 4 ^ k / 4 := by rw [pow_succ]; field_simp
    have h1 : (1 : ℚ) / 4 ^ n ≤ 1 / 4 ^ (k + 1) :=
      one_div_le_one_div_of_le (by positivity) (pow_le_pow_right₀ (by norm_num) hk)
    have h2 : (0 : ℚ) < 1 / 4 ^ k := by positivity
    nlinarith
  have key : ∀ (k : Nat) (x y : ℚ), k < n → 1 / 4 ^ k ≤ x → 3 / 8 ≤ y →
      x * (y * (1 - ε)) ≤ rnd (x * y) ∧ rnd (x * y) ≤ x * (y * (1 + ε)) := by
    intro k x y hk hx hy
    have := abs_le.1 (hC _ (low k x y hk hx hy))
    constructor <;> nlinarith [this.1, this.2]
  have nxt : ∀ (k : Nat) (x y : ℚ), k < n → 1 / 4 ^ k ≤ x → 3 / 8 ≤ y → 1 / 4 ^ (k + 1) ≤ rnd (x * y) := by
    intro k x y hk hx hy
    have h1 := (key k x y hk hx hy).1
    have h2 : (0 : ℚ) < 1 / 4 ^ k := by positivity
    have e : (1 : ℚ) / 4 ^ (k + 1) = 1 / 4 ^ k / 4 := by rw [pow_succ]; field_simp
    have h3 : 1 / 4 ≤ y * (1 - ε) := by nlinarith
    have h4 : x * (1 / 4) ≤ x * (y * (1 - ε)) := mul_le_mul_of_nonneg_left h3 (by linarith)
    rw [e]; linarith
  have gd : ∀ k, 3 / 8 ≤ detour k := fun k => (direct_ge k).trans (direct_le_detour k)
  have ps : ∀ k x, 1 / 4 ^ k ≤ x → (0 : ℚ) < x := fun k x h => lt_of_lt_of_le (by positivity) h
  have dec : ∀ x y, rnd x = x → 0 < x → y ≤ 1 → rnd (x * y) ≤ x := by
    intro x y h1 h2 h3
    calc rnd (x * y) ≤ rnd x := hr.mono _ _ (by nlinarith)
      _ = x := h1
  constructor
  case adj_v =>
    intro k hk
    have := matrixGraph_row (M := isoMat rnd n) hd hl (i := 2 * k + 3) (by omega) (row_v hE hk)
    have e1 := entry_vu hE hk
    have e2 := entry_vv hE hk
    rw [show 2 * (k + 1) + 1 = 2 * k + 3 by ring] at e1 e2
    rw [show 2 * (k + 1) + 2 = 2 * k + 4 by ring] at e1
    rw [show 2 * (k + 1) + 3 = 2 * k + 5 by ring] at e2
    simp only [List.map_cons, List.map_nil, entry_vv' hE (show k < n by omega), entry_vu' hE (show k < n by omega),
      e1, e2] at this
    exact this
  case adj_last =>
    intro k hk
    have := matrixGraph_row (M := isoMat rnd n) hd hl (i := 2 * k + 3) (by omega) (row_last hE hk)
    simp only [List.map_cons, List.map_nil, entry_vv' hE (show k < n by omega), entry_vu' hE (show k < n by omega)] at this
    exact this
  case adj_u =>
    intro k hk
    have := matrixGraph_row (M := isoMat rnd n) hd hl (i := 2 * k + 2) (by omega) (row_u hE hk)
    simp only [List.map_cons, List.map_nil, entry_uv' hE hk, entry_uv hE hk] at this
    exact this
  case inj_v => intro i j hi hj h; have := inj _ _ (by omega) (by omega) h; omega
  case inj_u => intro i j hi hj h; have := inj _ _ (by omega) (by omega) h; omega
  case ne_uv => intro i j hi hj h; have := inj _ _ (by omega) (by omega) h; omega
  case src_v => intro i hi h; have := inj _ _ (by omega) (by omega) h; omega
  case src_u => intro i hi h; have := inj _ _ (by omega) (by omega) h; omega
  case pos => exact fun k x h => ps k x h.2
  case unit => exact fun k x h => by simpa using h.1
  case Fa => exact fun k x hk h => ⟨hr.idem _, nxt k x _ hk h.2 (direct_ge k)⟩
  case Fb => exact fun k x hk h => ⟨hr.idem _, nxt k x _ hk h.2 (gd k)⟩
  case mul_a => exact fun k x hk h => key k x _ hk h.2 (direct_ge k)
  case mul_b => exact fun k x hk h => key k x _ hk h.2 (gd k)
  case back =>
    exact fun k x hk h => ⟨dec x _ h.1 (ps _ _ h.2) (by linarith [direct_le_detour k, detour_le k]),
      dec x _ h.1 (ps _ _ h.2) (by linarith [detour_le k])⟩
  case al_pos => exact fun k _ => mul_pos (direct_pos k) (by linarith)
  case al_bl => exact fun k _ => mul_le_mul_of_nonneg_right (direct_le_detour k) (by linarith)
  case bl_bh => exact fun k _ => mul_le_mul_of_nonneg_left (by linarith) (detour_pos k).le
  case ah_bh => exact fun k _ => mul_le_mul_of_nonneg_right (direct_le_detour k) (by linarith)
  case bh_one =>
    intro k _
    have := detour_le k
    have := detour_pos k
    show detour k * (1 + ε) ≤ 1
    nlinarith
  case cross =>
    intro k j hkj hj
    obtain ⟨d, rfl⟩ : ∃ d, j = k + 1 + d := ⟨j - (k + 1), by omega⟩
    have hb : ((d : ℚ) + 1) * ε < 1 / 2 ^ (k + d + 2) := by
      have h1 : ((d : ℚ) + 1) ≤ n := by exact_mod_cast (by omega : d + 1 ≤ n)
      have h2 : (1 : ℚ) / 2 ^ (n + 1) ≤ 1 / 2 ^ (k + d + 2) :=
        one_div_le_one_div_of_le (by positivity) (pow_le_pow_right₀ (by norm_num) (by omega))
      have := mul_le_mul_of_nonneg_right h1 h0
      linarith
    have := (shares_close h0 k d hb).lt (t := tilt k) (by linarith)
    simp only [direct, detour] at this ⊢
    linarith

/-- Searching from the first species takes at least `2^n` iterations. -/
theorem iso_slow (hr : RndOk rnd) (hE : ExactTo rnd (n + 2)) (h0 : 0 ≤ ε)
    (hC : ∀ x, 1 / 4 ^ n ≤ x → |rnd x - x| ≤ x * ε) (he : n * ε < 1 / 2 ^ (n + 1)) (hn : 0 < n)
    (hd : names.Nodup) (hl : names.length = 2 * n + 2) {fuel : Nat} (hf : fuel ≤ 2 ^ n) :
    modDijkstra (matrixGraph (isoMat rnd n) names) 0 1 (fun x y => rnd (x * y)) (names.getD 0 "") none none fuel = none := by
  have L := iso_ladder hr hE h0 hC he hn hd hl
  refine L.start hn ?_ ?_ ⟨hr.one, by norm_num⟩ ?_ hf
  · have := matrixGraph_row (M := isoMat rnd n) hd hl (i := 0) (by omega) (row_t hE)
    simp only [List.map_cons, List.map_nil, entry_tv hE] at this
    exact this
  · have := matrixGraph_row (M := isoMat rnd n) hd hl (i := 1) (by omega) (row_v0 hE hn)
    have e1 := entry_vu hE hn
    have e2 := entry_vv hE hn
    simp only [Nat.mul_zero, Nat.zero_add] at e1 e2
    simp only [List.map_cons, List.map_nil, entry_vt hE, e1, e2] at this
    exact this
  · have h1 : (1 : ℚ) ≤ n := by exact_mod_cast hn
    have h2 : (1 : ℚ) / 2 ^ (n + 1) ≤ 1 / 4 := by
      have : (2 : ℚ) ^ 2 ≤ 2 ^ (n + 1) := pow_le_pow_right₀ (by norm_num) (by omega)
      exact one_div_le_one_div_of_le (by norm_num) (by linarith)
    have := detour_le 0
    have := detour_pos 0
    show detour 0 * (1 + ε) < 1
    nlinarith
end

theorem exactTo_id (q : Nat) : ExactTo id q := fun _ _ _ => rfl

theorem exactTo_754 {q : Nat} (hq : q ≤ 51) : ExactTo rnd754 q := by
  rintro x ⟨z, rfl⟩ hx
  have hz : z.natAbs < 2 ^ 53 := by
    have h3 : (0 : ℚ) < 2 ^ q := by positivity
    rw [abs_div, abs_of_pos h3, div_le_iff₀ h3] at hx
    have h4 : (2 : ℚ) ^ q ≤ 2 ^ 51 := pow_le_pow_right₀ (by norm_num) hq
    have : |(z : ℚ)| < 2 ^ 53 := by linarith
    rw [← Int.cast_abs, Int.abs_eq_natAbs] at this
    exact_mod_cast this
  rcases eq_or_ne z 0 with rfl | h0
  · simpa using rndOk_rnd754.zero
  have : rnd64 ((z : ℚ) / 2 ^ q) = z / 2 ^ q := by
    have := rnd64_zpow (-(q : ℤ)) (z : ℚ)
    rw [rnd64_int hz, zpow_neg, zpow_natCast] at this
    rw [div_eq_inv_mul]
    exact this
  rw [rnd754_normal, this]
  rw [abs_div, abs_of_pos (by positivity : (0 : ℚ) < 2 ^ q)]
  have h1 : (1 : ℚ) ≤ |(z : ℚ)| := by
    rw [← Int.cast_abs]
    exact_mod_cast Int.one_le_abs h0
  calc (1 : ℚ) / 2 ^ 1022 ≤ 1 / 2 ^ q :=
        one_div_le_one_div_of_le (by positivity) (pow_le_pow_right₀ (by norm_num) (by omega))
    _ ≤ _ := div_le_div_of_nonneg_right h1 (by positivity)

theorem close_754 {n : Nat} (hn : n ≤ 46) (x : ℚ) (hx : 1 / 4 ^ n ≤ x) : |rnd754 x - x| ≤ x * (1 / 2 ^ 53) := by
  have hp : (0 : ℚ) < 1 / 4 ^ n := by positivity
  rw [rnd754_normal, mul_one_div]
  · exact rnd64_close (by linarith)
  · rw [abs_of_pos (by linarith)]
    refine le_trans ?_ hx
    rw [show (4 : ℚ) ^ n = 2 ^ (2 * n) by rw [pow_mul]; norm_num]
    exact one_div_le_one_div_of_le (by positivity) (pow_le_pow_right₀ (by norm_num) (by omega))

theorem few_754 {n : Nat} (hn : n ≤ 46) : (n : ℚ) * (1 / 2 ^ 53) < 1 / 2 ^ (n + 1) := by
  have : n * 2 ^ (n + 1) < 2 ^ 53 := by
    have : ∀ n < 47, n * 2 ^ (n + 1) < 2 ^ 53 := by decide +kernel
    exact this n (by omega)
  rw [mul_one_div, div_lt_div_iff₀ (by positivity) (by positivity), one_mul]
  exact_mod_cast this

end Verif
