import Verif.Spec.Gap
import Verif.Props.Published
/-!
# Binary64 thresholds against exact ones
-/
namespace Verif
open Spec

theorem idealThr_pos (j k : Nat) : 0 < idealThr j k := by unfold idealThr; positivity

theorem startThr_within (j : Nat) :
    Within ((1 - 1 / 2 ^ 53) ^ (j + 1)) ((1 + 1 / 2 ^ 53) ^ (j + 1)) (1 / 100 / 10 ^ j) (startThr rnd64 j) := by
  induction j with
  | zero =>
    have h : Within 1 1 (1 / 100 / 10 ^ 0) (1 / 100) := by constructor <;> norm_num
    have := h.round rounds_rnd64 (by norm_num) (by norm_num)
    simpa [startThr] using this
  | succ j ih =>
    have h : Within ((1 - 1 / 2 ^ 53) ^ (j + 1)) ((1 + 1 / 2 ^ 53) ^ (j + 1)) (1 / 100 / 10 ^ (j + 1))
        (startThr rnd64 j / 10) := by
      have e : (1 : ℚ) / 100 / 10 ^ (j + 1) = 1 / 100 / 10 ^ j / 10 := by rw [pow_succ]; field_simp
      rw [e]
      obtain ⟨h1, h2⟩ := ih
      exact ⟨by rw [← mul_div_assoc]; gcongr, by rw [← mul_div_assoc]; gcongr⟩
    have := h.round rounds_rnd64 (pow_nonneg (by norm_num) _) (by positivity)
    rw [← pow_succ, ← pow_succ] at this
    exact this

theorem gridThr_within (j k : Nat) :
    Within ((1 - 1 / 2 ^ 53) ^ (k + j + 1)) ((1 + 1 / 2 ^ 53) ^ (k + j + 1)) (idealThr j k)
      (gridThr rnd64 j k) := by
  induction k with
  | zero =>
    have := startThr_within j
    simpa [idealThr, gridThr] using this
  | succ k ih =>
    have hs : Within ((1 - 1 / 2 ^ 53) ^ (k + j + 1)) ((1 + 1 / 2 ^ 53) ^ (k + j + 1)) (1 / 100 / 10 ^ j)
        (startThr rnd64 j) :=
      (startThr_within j).weaken (pow_le_pow_of_le_one (by norm_num) (by norm_num) (by omega))
        (pow_le_pow_right₀ (by norm_num) (by omega)) (by positivity)
    have := (ih.add hs).round rounds_rnd64 (pow_nonneg (by norm_num) _) (by
      have := idealThr_pos j k; positivity)
    rw [← pow_succ, ← pow_succ] at this
    have e : idealThr j (k + 1) = idealThr j k + 1 / 100 / 10 ^ j := by unfold idealThr; push_cast; ring
    rw [e, show k + 1 + j + 1 = k + j + 1 + 1 by omega]
    exact this

/-- the binary64 thresholds differ from the exact ones by a small relative error -/
theorem gridThr_close {j k : Nat} (hj : j ≤ 4) (hk : k + 5 ≤ 2 ^ 52) :
    |gridThr rnd64 j k - idealThr j k| ≤ (k + 5) / 2 ^ 52 * idealThr j k := by
  have h := gridThr_within j k
  have h' := within_abs (A := k + j + 1) (B := 0) (u := 1 / 2 ^ 53) (by norm_num) (by norm_num) (by
    have : ((k + j + 1 + 0 : Nat) : ℚ) ≤ 2 ^ 52 := by exact_mod_cast (by omega : k + j + 1 + 0 ≤ 2 ^ 52)
    rw [mul_one_div, div_le_iff₀ (by norm_num)]
    linarith) (idealThr_pos j k).le (by simpa using h)
  refine h'.trans (mul_le_mul_of_nonneg_right ?_ (idealThr_pos j k).le)
  have : (j : ℚ) ≤ 4 := by exact_mod_cast hj
  push_cast
  linarith

/-- so does the threshold of the final reduction -/
theorem finalThr_close {j k : Nat} (hj : j ≤ 4) (hk : k + 7 ≤ 2 ^ 52) :
    |finalThr rnd64 j k - idealThr j k| ≤ (k + 17) / 2 ^ 52 * idealThr j k := by
  have h1 := C26_binary64_close_partial j k hj
  have h2 := gridThr_close (k := k) hj (by omega)
  have h3 := gridThr_close (k := k + 2) hj (by omega)
  have hk' : ((k + 2 : Nat) + 5 : ℚ) / 2 ^ 52 ≤ 1 := by
    rw [div_le_one (by norm_num)]
    exact_mod_cast (by omega : k + 2 + 5 ≤ 2 ^ 52)
  have hp := idealThr_pos j (k + 2)
  have h4 : gridThr rnd64 j (k + 2) ≤ 2 * idealThr j (k + 2) := by
    have := (abs_le.1 h3).2
    have := mul_le_mul_of_nonneg_right hk' hp.le
    linarith
  have h5 : idealThr j (k + 2) ≤ 3 * idealThr j k := by
    unfold idealThr
    rw [← mul_assoc]
    refine mul_le_mul_of_nonneg_right ?_ (by positivity)
    push_cast
    have : (0 : ℚ) ≤ k := by positivity
    linarith
  have h6 : (4 : ℚ) / 2 ^ 53 * gridThr rnd64 j (k + 2) ≤ 4 / 2 ^ 53 * (6 * idealThr j k) :=
    mul_le_mul_of_nonneg_left (by linarith) (by norm_num)
  have h7 : |finalThr rnd64 j k - idealThr j k| ≤ |finalThr rnd64 j k - gridThr rnd64 j k| +
      |gridThr rnd64 j k - idealThr j k| := abs_sub_le _ _ _
  have h8 : |finalThr rnd64 j k - gridThr rnd64 j k| ≤ 4 / 2 ^ 53 * gridThr rnd64 j (k + 2) := h1
  have h9 : ((k : ℚ) + 17) / 2 ^ 52 * idealThr j k =
      (k + 5) / 2 ^ 52 * idealThr j k + 4 / 2 ^ 53 * (6 * idealThr j k) := by ring
  linarith

variable {m : Nat} {meth : Method} {sol : Mech}

/-- the thresholds just above and just below a binary64 threshold stay within the margin -/
theorem margin_covers {n j k : Nat} {t : ℚ} (hsize : k + 4 * m + n + 19 ≤ 2 ^ 50)
    (ht : |t - idealThr j k| ≤ (k + 17) / 2 ^ 52 * idealThr j k) :
    |above meth n m t - idealThr j k| ≤ margin meth n m j k ∧
      |below meth n m t - idealThr j k| ≤ margin meth n m j k := by
  have hT := idealThr_pos j k
  have hsz : (k + 4 * m + n + 19 : ℚ) ≤ 2 ^ 50 := by exact_mod_cast hsize
  have hk0 : (0 : ℚ) ≤ k := by positivity
  have hm0 : (0 : ℚ) ≤ m := by positivity
  have hn0 : (0 : ℚ) ≤ n := by positivity
  have main : |t / (1 - (4 * m + n + 14) / 2 ^ 52) - idealThr j k| ≤
        (k + 4 * m + n + 19) / 2 ^ 50 * idealThr j k ∧
      |t / (1 + (4 * m + n + 14) / 2 ^ 52) - idealThr j k| ≤
        (k + 4 * m + n + 19) / 2 ^ 50 * idealThr j k := by
    set T := idealThr j k
    set e : ℚ := (4 * m + n + 14) / 2 ^ 52 with he
    have he0 : 0 ≤ e := by positivity
    have he1 : e ≤ 1 / 4 := by
      rw [he, div_le_iff₀ (by norm_num)]
      linarith
    set d : ℚ := (k + 17) / 2 ^ 52 with hd
    have hd0 : 0 ≤ d := by positivity
    have hd1 : d ≤ 1 := by
      rw [hd, div_le_one (by norm_num)]
      linarith
    have hsum : (k + 4 * m + n + 19) / 2 ^ 50 * T = 4 * (e + (k + 5) / 2 ^ 52) * T := by
      rw [he]; ring
    have hd4 : d + 4 * e ≤ 4 * (e + (k + 5) / 2 ^ 52) := by
      rw [hd]
      have : (k + 17 : ℚ) / 2 ^ 52 ≤ 4 * ((k + 5) / 2 ^ 52) := by
        rw [← mul_div_assoc]
        gcongr
        linarith
      linarith
    rw [hsum]
    obtain ⟨t1, t2⟩ := abs_le.1 ht
    have hdT : 0 ≤ d * T := by positivity
    have hdT' : d * T ≤ T := mul_le_of_le_one_left hT.le hd1
    have ht0 : 0 ≤ t := by linarith
    have ht2 : t ≤ 2 * T := by linarith
    have het : e * t ≤ 2 * (e * T) := by
      have := mul_le_mul_of_nonneg_left ht2 he0
      linarith
    have het0 : 0 ≤ e * t := by positivity
    have heT0 : 0 ≤ e * T := by positivity
    have goalT : (d + 4 * e) * T ≤ 4 * (e + (k + 5) / 2 ^ 52) * T := mul_le_mul_of_nonneg_right hd4 hT.le
    have a1 : t / (1 - e) ≤ t + 2 * (e * t) := by
      rw [div_le_iff₀ (by linarith)]
      nlinarith
    have a2 : t ≤ t / (1 - e) := by
      rw [le_div_iff₀ (by linarith)]
      linarith
    have b1 : t / (1 + e) ≤ t := by
      rw [div_le_iff₀ (by linarith)]
      linarith
    have b2 : t - e * t ≤ t / (1 + e) := by
      rw [le_div_iff₀ (by linarith)]
      nlinarith [mul_nonneg he0 het0]
    constructor <;> rw [abs_le] <;> constructor <;> linarith
  have main' : |t + n * ((m + 3) / 2 ^ 49) - idealThr j k| ≤
        (k + 17) / 2 ^ 52 * idealThr j k + n * ((m + 3) / 2 ^ 49) ∧
      |t - n * ((m + 3) / 2 ^ 49) - idealThr j k| ≤
        (k + 17) / 2 ^ 52 * idealThr j k + n * ((m + 3) / 2 ^ 49) := by
    have hη : (0 : ℚ) ≤ n * ((m + 3) / 2 ^ 49) := by positivity
    obtain ⟨t1, t2⟩ := abs_le.1 ht
    constructor <;> rw [abs_le] <;> constructor <;> linarith
  cases meth
  · exact main
  · exact main'
  · exact main

/-- thresholds within the gap keep the same species -/
theorem clear_same {names targets safe : List String} {states : List (Chem names.length m)}
    {t t' δ : ℚ} (hnd : names.Nodup) (htg : ∀ x ∈ targets, x ∈ names)
    (h : Clear meth names targets states t δ) (ht : |t' - t| ≤ δ)
    {s : String} (hs : s ∈ names) :
    KeptPublished meth names targets safe states t' s ↔ KeptPublished meth names targets safe states t s := by
  obtain ⟨t1, t2⟩ := abs_le.1 ht
  have main : ∀ meth' : Method, (∀ c ∈ states, ∀ a b, δ < |published meth' c a b - t|) →
      ∀ c ∈ states, Linked (published meth' c).toN names targets t' s ↔
        Linked (published meth' c).toN names targets t s := by
    intro meth' hc c hcs
    have key : ∀ i < names.length, ∀ j < names.length, t' ≤ (published meth' c).toN i j ↔
        t ≤ (published meth' c).toN i j := by
      intro i hi j hj
      have := hc c hcs ⟨i, hi⟩ ⟨j, hj⟩
      have e : (published meth' c).toN i j = published meth' c ⟨i, hi⟩ ⟨j, hj⟩ := by
        simp [Mat.toN, hi, hj]
      rw [e]
      rcases lt_abs.1 this with g | g <;> constructor <;> intro h' <;> linarith
    exact ⟨linked_imp (fun i hi j hj h1 h2 => ⟨(key i hi j hj).1 h1, h2⟩),
      linked_imp (fun i hi j hj h1 h2 => ⟨(key i hi j hj).2 h1, h2⟩)⟩
  cases meth with
  | drg =>
    refine or_congr (exists_congr fun c => and_congr_right fun hc => main .drg h c hc) Iff.rfl
  | pfa =>
    refine or_congr (exists_congr fun c => and_congr_right fun hc => main .pfa h c hc) Iff.rfl
  | drgep =>
    obtain ⟨-, imp, -, -, h3⟩ := C16_importance (rnd := id) rounds_id.toRndOk hnd htg
      (matrices := states.map (fun c => (published .drgep c).toN)) (by
        intro M hM
        obtain ⟨c, -, rfl⟩ := List.mem_map.1 hM
        exact published_unit c)
    obtain ⟨x, -, hx⟩ := h3 s hs
    have hg := h s hs x hx
    refine or_congr ⟨?_, ?_⟩ Iff.rfl
    · rintro ⟨y, hy, hty⟩
      have := hx.2 hy
      refine ⟨x, hx.1, ?_⟩
      rcases lt_abs.1 hg with g | g <;> linarith
    · rintro ⟨y, hy, hty⟩
      have := hx.2 hy
      refine ⟨x, hx.1, ?_⟩
      rcases lt_abs.1 hg with g | g <;> linarith

/-- close to a threshold with a gap around it, binary64 keeps what the published coefficients select
at that threshold -/
theorem kept_clear {c : Ctx} {states : List (Chem sol.names.length m)} {j k : Nat} {t : ℚ}
    (hnd : sol.names.Nodup) (htg : ∀ x ∈ c.targets, x ∈ sol.names)
    (hM : c.matrices = states.map (matrixOf meth rnd64)) (hr : c.rndMul = rnd64)
    (hsize : k + 4 * m + sol.names.length + 19 ≤ 2 ^ 50)
    (hc : Clear meth sol.names c.targets states (idealThr j k) (margin meth sol.names.length m j k))
    (ht : |t - idealThr j k| ≤ (k + 17) / 2 ^ 52 * idealThr j k) :
    candidate c sol (Kept meth c sol) t =
      candidate c sol (KeptPublished meth sol.names c.targets c.safe states) (idealThr j k) := by
  obtain ⟨m1, m2⟩ := margin_covers (meth := meth) (m := m) hsize ht
  classical
  rw [candidate_eq, candidate_eq]
  congr 1
  apply List.filter_congr
  intro s hs
  obtain ⟨k1, k2⟩ := kept_binary64 (meth := meth) (t := t) (s := s) (by omega) hM hr
  have : Kept meth c sol t s ↔ KeptPublished meth sol.names c.targets c.safe states (idealThr j k) s :=
    ⟨fun h => (clear_same hnd htg hc m2 hs).1 (k2 h), fun h => k1 ((clear_same hnd htg hc m1 hs).2 h)⟩
  simp [this]

end Verif
