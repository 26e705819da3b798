import Verif.Lemmas.Accuracy
import Verif.Model.EndToEnd
/-!
# How errors of coefficients carry over to what is kept
-/
namespace Verif
open Spec Finset
variable {n m : Nat} {rnd rnd' : ℚ → ℚ} {u : ℚ}

/-! ### powers -/

theorem pow_ratio_low (hu : 0 ≤ u) (hu1 : u < 1) (A B : Nat) :
    1 - (A + B : Nat) * u ≤ (1 - u) ^ A / (1 + u) ^ B := by
  have h0 : 0 < 1 - u := by linarith
  have h := one_add_mul_le_pow (show (-2 : ℚ) ≤ -u by linarith) (A + B)
  rw [← sub_eq_add_neg] at h
  rw [le_div_iff₀ (by positivity)]
  have hB : (1 - u) ^ B * (1 + u) ^ B ≤ 1 := by
    rw [← mul_pow]
    exact pow_le_one₀ (by nlinarith) (by nlinarith)
  calc (1 - (A + B : Nat) * u) * (1 + u) ^ B ≤ (1 - u) ^ (A + B) * (1 + u) ^ B :=
        mul_le_mul_of_nonneg_right (by linarith) (by positivity)
    _ = (1 - u) ^ A * ((1 - u) ^ B * (1 + u) ^ B) := by ring
    _ ≤ (1 - u) ^ A * 1 := mul_le_mul_of_nonneg_left hB (by positivity)
    _ = _ := by ring

theorem pow_ratio_high (hu : 0 ≤ u) (hu1 : u < 1) (A B : Nat) (h : (A + B : Nat) * u ≤ 1 / 2) :
    (1 + u) ^ A / (1 - u) ^ B ≤ 1 + 2 * ((A + B : Nat) * u) := by
  have h0 : 0 < 1 - u := by linarith
  have hs := one_add_mul_le_pow (show (-2 : ℚ) ≤ -u by linarith) (A + B)
  rw [← sub_eq_add_neg] at hs
  set s := ((A + B : Nat) : ℚ) * u with hsd
  have hs0 : 0 ≤ s := by positivity
  have hA : (1 - u) ^ A * (1 + u) ^ A ≤ 1 := by
    rw [← mul_pow]
    exact pow_le_one₀ (by nlinarith) (by nlinarith)
  rw [div_le_iff₀ (by positivity)]
  have h1 : (1 + u) ^ A * (1 - s) ≤ (1 - u) ^ B := by
    calc (1 + u) ^ A * (1 - s) ≤ (1 + u) ^ A * (1 - u) ^ (A + B) :=
          mul_le_mul_of_nonneg_left (by rw [hsd]; linarith) (by positivity)
      _ = ((1 - u) ^ A * (1 + u) ^ A) * (1 - u) ^ B := by ring
      _ ≤ 1 * (1 - u) ^ B := mul_le_mul_of_nonneg_right hA (by positivity)
      _ = _ := one_mul _
  have h2 : 1 ≤ (1 + 2 * s) * (1 - s) := by nlinarith
  calc (1 + u) ^ A ≤ (1 + u) ^ A * ((1 + 2 * s) * (1 - s)) := le_mul_of_one_le_right (by positivity) h2
    _ = (1 + 2 * s) * ((1 + u) ^ A * (1 - s)) := by ring
    _ ≤ _ := mul_le_mul_of_nonneg_left h1 (by positivity)

theorem within_abs {A B : Nat} {x y : ℚ} (hu : 0 ≤ u) (hu1 : u < 1) (h : (A + B : Nat) * u ≤ 1 / 2)
    (hx : 0 ≤ x) (hw : Within ((1 - u) ^ A / (1 + u) ^ B) ((1 + u) ^ A / (1 - u) ^ B) x y) :
    |y - x| ≤ 2 * ((A + B : Nat) * u) * x := by
  have h1 := mul_le_mul_of_nonneg_right (pow_ratio_low hu hu1 A B) hx
  have h2 := mul_le_mul_of_nonneg_right (pow_ratio_high hu hu1 A B h) hx
  have h3 : 0 ≤ ((A + B : Nat) : ℚ) * u * x := by positivity
  rw [abs_le]
  constructor <;> [have := hw.1; have := hw.2] <;> linarith

/-! ### links -/

theorem linked_imp {M M' : NMat} {names targets : List String} {t t' : ℚ} {s : String}
    (h : ∀ i < names.length, ∀ j < names.length, t ≤ M i j → M i j ≠ 0 → t' ≤ M' i j ∧ M' i j ≠ 0)
    (hl : Linked M names targets t s) : Linked M' names targets t' s := by
  obtain ⟨a, ha, hp⟩ := hl
  refine ⟨a, ha, Relation.ReflTransGen.mono ?_ _ _ hp⟩
  rintro x y ⟨i, j, hi, hj, h1, h2⟩
  have hi' := (List.getElem?_eq_some_iff.1 hi).1
  have hj' := (List.getElem?_eq_some_iff.1 hj).1
  obtain ⟨h3, h4⟩ := h i hi' j hj' h1 h2
  exact ⟨i, j, hi, hj, h3, h4⟩

/-! ### paths -/

/-- a path that visits no species twice, with the species visited, the last one first -/
inductive NPath (rnd : ℚ → ℚ) (M : NMat) (names : List String) (a : String) : ℚ → List String → Prop
  | nil : a ∈ names → NPath rnd M names a 1 [a]
  | step {b c : String} {x : ℚ} {l : List String} {i j : Nat} : NPath rnd M names a x (b :: l) →
      names[i]? = some b → names[j]? = some c → M i j ≠ 0 → c ∉ b :: l →
      NPath rnd M names a (rnd (x * M i j)) (c :: b :: l)

theorem NPath.nodup {M : NMat} {names : List String} {a : String} {x : ℚ} {l : List String}
    (h : NPath rnd M names a x l) : l.Nodup ∧ ∀ s ∈ l, s ∈ names := by
  induction h with
  | nil h => simpa using h
  | step _ _ hj _ hc ih =>
    refine ⟨List.nodup_cons.2 ⟨hc, ih.1⟩, fun s hs => ?_⟩
    rcases List.mem_cons.1 hs with rfl | hs
    · exact List.mem_of_getElem? hj
    · exact ih.2 s hs

theorem NPath.length_le {M : NMat} {names : List String} {a : String} {x : ℚ} {l : List String}
    (h : NPath rnd M names a x l) : l.length ≤ names.length := by
  obtain ⟨h1, h2⟩ := h.nodup
  exact (h1.subperm (fun s hs => h2 s hs)).length_le

theorem NPath.product {M : NMat} {names : List String} {a b : String} {x : ℚ} {l l' : List String}
    (h : NPath rnd M names a x l) : l = b :: l' → PathProduct rnd M names a x b := by
  induction h generalizing b l' with
  | nil h => rintro ⟨⟩; exact .nil h
  | step _ hi hj hM _ ih => rintro ⟨⟩; exact .step (ih rfl) hi hj hM

theorem NPath.fmt (hr : RndOk rnd) {M : NMat} {names : List String} {a : String} {x : ℚ} {l : List String}
    (h : NPath rnd M names a x l) : rnd x = x := by
  cases h with
  | nil => exact hr.one
  | step => exact hr.idem _

theorem NPath.range (hr : RndOk rnd) {M : NMat} {names : List String} (hM : UnitMatrix M names.length)
    {a : String} {x : ℚ} {l : List String} (h : NPath rnd M names a x l) : 0 ≤ x ∧ x ≤ 1 := by
  cases l with
  | nil => cases h
  | cons b l => exact (h.product rfl).range hr hM

/-- products only fall along a path -/
theorem NPath.cut (hr : RndOk rnd) {M : NMat} {names : List String} (hM : UnitMatrix M names.length)
    {a c : String} {x : ℚ} {l : List String} (h : NPath rnd M names a x l) (hc : c ∈ l) :
    ∃ l' x', NPath rnd M names a x' (c :: l') ∧ x ≤ x' := by
  induction h with
  | nil h =>
    obtain rfl := List.mem_singleton.1 hc
    exact ⟨[], 1, .nil h, le_rfl⟩
  | @step b d x l i j hp hi hj hne hd ih =>
    rcases List.mem_cons.1 hc with rfl | hc'
    · exact ⟨_, _, .step hp hi hj hne hd, le_rfl⟩
    · obtain ⟨l', x', h1, h2⟩ := ih hc'
      refine ⟨l', x', h1, le_trans ?_ h2⟩
      have hx := hp.range hr hM
      have hij := hM i (List.getElem?_eq_some_iff.1 hi).1 j (List.getElem?_eq_some_iff.1 hj).1
      calc rnd (x * M i j) ≤ rnd x := hr.mono _ _ (mul_le_of_le_one_right hx.1 hij.2)
        _ = x := hp.fmt hr

/-- going round in circles does not increase a product -/
theorem nodup_path (hr : RndOk rnd) {M : NMat} {names : List String} (hM : UnitMatrix M names.length)
    {a b : String} {x : ℚ} (h : PathProduct rnd M names a x b) :
    ∃ l x', NPath rnd M names a x' (b :: l) ∧ x ≤ x' := by
  induction h with
  | nil h => exact ⟨[], 1, .nil h, le_rfl⟩
  | @step b c x i j hp hi hj hne ih =>
    obtain ⟨l, x', h1, h2⟩ := ih
    have hij := hM i (List.getElem?_eq_some_iff.1 hi).1 j (List.getElem?_eq_some_iff.1 hj).1
    have hx' := h1.range hr hM
    have hle : rnd (x * M i j) ≤ rnd (x' * M i j) := hr.mono _ _ (mul_le_mul_of_nonneg_right h2 hij.1)
    by_cases hc : c ∈ b :: l
    · obtain ⟨l', x'', h3, h4⟩ := h1.cut hr hM hc
      refine ⟨l', x'', h3, hle.trans (le_trans ?_ h4)⟩
      calc rnd (x' * M i j) ≤ rnd x' := hr.mono _ _ (mul_le_of_le_one_right hx'.1 hij.2)
        _ = x' := h1.fmt hr
    · exact ⟨_, _, .step h1 hi hj hne hc, hle⟩

/-- a path in one matrix gives a path in a nearby matrix whose product is not much smaller -/
theorem path_transfer (hr : RndOk rnd) (hr' : RndOk rnd') {v v' ε : ℚ}
    (hv : ∀ x, 0 ≤ x → x ≤ 1 → |rnd x - x| ≤ v) (hv' : ∀ x, 0 ≤ x → x ≤ 1 → |rnd' x - x| ≤ v')
    {M M' : NMat} {names : List String} (hM : UnitMatrix M names.length)
    (hM' : UnitMatrix M' names.length)
    (hε : ∀ i < names.length, ∀ j < names.length, |M i j - M' i j| ≤ ε)
    {a : String} {x : ℚ} {l : List String} (h : NPath rnd M names a x l) :
    ∀ b l', l = b :: l' → ∃ y, (y = 0 ∨ PathProduct rnd' M' names a y b) ∧ 0 ≤ y ∧ y ≤ 1 ∧
      x - l'.length * (ε + v + v') ≤ y := by
  have hv0 : 0 ≤ v := (abs_nonneg _).trans (hv 0 le_rfl zero_le_one)
  have hv0' : 0 ≤ v' := (abs_nonneg _).trans (hv' 0 le_rfl zero_le_one)
  induction h with
  | nil h => rintro b l' ⟨⟩; exact ⟨1, .inr (.nil h), zero_le_one, le_rfl, by simp⟩
  | @step b c x l i j hp hi hj hne hd ih =>
    rintro _ _ ⟨⟩
    obtain ⟨y, hy, hy0, hy1, hxy⟩ := ih b l rfl
    have hx := hp.range hr hM
    have li := (List.getElem?_eq_some_iff.1 hi).1
    have lj := (List.getElem?_eq_some_iff.1 hj).1
    have m1 := hM i li j lj
    have m2 := hM' i li j lj
    have he := abs_le.1 (hε i li j lj)
    have hε0 : 0 ≤ ε := (abs_nonneg _).trans (hε i li j lj)
    have hxM1 : x * M i j ≤ x := mul_le_of_le_one_right hx.1 m1.2
    have r := abs_le.1 (hv (x * M i j) (mul_nonneg hx.1 m1.1) (hxM1.trans hx.2))
    set k := ((l.length : Nat) : ℚ) * (ε + v + v') with hk
    have hk0 : 0 ≤ k := by positivity
    have ek : (((b :: l).length : Nat) : ℚ) * (ε + v + v') = k + (ε + v + v') := by
      rw [hk, List.length_cons]; push_cast; ring
    rw [ek]
    rcases hy with rfl | hy
    · exact ⟨0, .inl rfl, le_rfl, zero_le_one, by linarith [r.2]⟩
    · by_cases h0 : M' i j = 0
      · refine ⟨0, .inl rfl, le_rfl, zero_le_one, ?_⟩
        rw [h0] at he
        have : x * M i j ≤ M i j := mul_le_of_le_one_left m1.1 hx.2
        linarith [r.2, he.2]
      · have hP := PathProduct.step hy hi hj h0
        have hrg := hP.range hr' hM'
        refine ⟨_, .inr hP, hrg.1, hrg.2, ?_⟩
        have hyM : y * M' i j ≤ y := mul_le_of_le_one_right hy0 m2.2
        have r' := abs_le.1 (hv' (y * M' i j) (mul_nonneg hy0 m2.1) (hyM.trans hy1))
        have a1 : (x - k) * M' i j ≤ y * M' i j := mul_le_mul_of_nonneg_right (by linarith) m2.1
        have a2 : k * M' i j ≤ k := mul_le_of_le_one_right hk0 m2.2
        have a3 : x * M i j - x * M' i j ≤ ε := by
          rw [← mul_sub]
          calc x * (M i j - M' i j) ≤ x * ε := mul_le_mul_of_nonneg_left he.2 hx.1
            _ ≤ ε := mul_le_of_le_one_left hε0 hx.2
        have a4 : (x - k) * M' i j = x * M' i j - k * M' i j := by ring
        linarith [r.2, r'.1]

/-- whatever is kept at `t` is kept, in a nearby matrix, at a slightly lower threshold -/
theorem candidate_transfer (hr : RndOk rnd) (hr' : RndOk rnd') {v v' ε : ℚ}
    (hv : ∀ x, 0 ≤ x → x ≤ 1 → |rnd x - x| ≤ v) (hv' : ∀ x, 0 ≤ x → x ≤ 1 → |rnd' x - x| ≤ v')
    {names targets : List String} {α : Type} (f g : α → NMat) (states : List α)
    (hf : ∀ c ∈ states, UnitMatrix (f c) names.length) (hg : ∀ c ∈ states, UnitMatrix (g c) names.length)
    (hε0 : 0 ≤ ε)
    (hε : ∀ c ∈ states, ∀ i < names.length, ∀ j < names.length, |f c i j - g c i j| ≤ ε)
    {s : String} {y : ℚ} (h : y ∈ Candidates rnd names targets (states.map f) s) :
    ∃ z ∈ Candidates rnd' names targets (states.map g) s, y - names.length * (ε + v + v') ≤ z := by
  have hv0 : 0 ≤ v := (abs_nonneg _).trans (hv 0 le_rfl zero_le_one)
  have hv0' : 0 ≤ v' := (abs_nonneg _).trans (hv' 0 le_rfl zero_le_one)
  have hη : 0 ≤ ε + v + v' := by positivity
  rcases h with rfl | ⟨M, hM, t, ht, hp⟩
  · refine ⟨0, .inl rfl, ?_⟩
    have : 0 ≤ (names.length : ℚ) * (ε + v + v') := by positivity
    linarith
  · obtain ⟨c, hc, rfl⟩ := List.mem_map.1 hM
    obtain ⟨l, x, h1, h2⟩ := nodup_path hr (hf c hc) hp
    obtain ⟨z, hz, hz0, -, hxz⟩ := path_transfer hr hr' hv hv' (hf c hc) (hg c hc) (hε c hc) h1 s l rfl
    have hlen := h1.length_le
    rw [List.length_cons] at hlen
    have : (l.length : ℚ) * (ε + v + v') ≤ names.length * (ε + v + v') :=
      mul_le_mul_of_nonneg_right (by exact_mod_cast (by omega : l.length ≤ names.length)) hη
    refine ⟨z, ?_, by linarith⟩
    rcases hz with rfl | hz
    · exact .inl rfl
    · exact .inr ⟨_, List.mem_map.2 ⟨c, hc, rfl⟩, t, ht, hz⟩

end Verif
