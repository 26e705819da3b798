import Verif.Lemmas.MatrixOrder
import Verif.Lemmas.Fixpoint
import Verif.Lemmas.CostBound
import Verif.Lemmas.ReduceRun
import Verif.Props.Accuracy
/-!
# C114: the order in which rates are added

`np.sum` promises no order of additions.  Whatever the order, coefficients stay within the same
rounding errors of the published ones; what is lost, if the order depends on which terms are
added, is the bound 1 on the coefficients of DRGEP, and with it the end of the path search.
-/
namespace Verif
open Spec Finset
variable {n m : Nat} {rnd : ℚ → ℚ} {u : ℚ} {tot part tot' part' : List ℚ → ℚ}

theorem matrixOrder_map (f : Fin m → ℚ) (l : List (Fin m)) :
    seqSum rnd (l.map f) = sumOverR rnd l f := by
  unfold seqSum sumOverR
  rw [List.foldl_map]

/-- **C114**: adding column after column gives the matrices used everywhere else; both that and the
blockwise addition of contiguous rows are orders of addition in the sense of the specification. -/
theorem C114_routines (rnd : ℚ → ℚ) :
    (∀ (n m : Nat) (meth : Method) (c : Chem n m),
      matrixOfS meth rnd (seqSum rnd) (seqSum rnd) c = matrixOf meth rnd c) ∧
    Summation rnd (seqSum rnd) ∧ Summation rnd (pairSum rnd) := by
  refine ⟨fun n m meth c => ?_, summation_seq, summation_pair⟩
  cases meth <;> simp only [matrixOfS, matrixOf] <;> congr 1
  · simp only [drgMatrixS, drgMatrixR, matrixOrder_map]
  · simp only [drgepMatrixS, drgepMatrixR, matrixOrder_map]
  · simp only [pfaMatrixS, pfaMatrixR, matrixOrder_map]

/-! ### coefficients -/

/-- **C114** in binary64: the bounds of C107 hold for every order of additions. -/
theorem C114_binary64 (hT : Summation rnd64 tot) (hP : Summation rnd64 part)
    (hm : 4 * m + n + 14 ≤ 2 ^ 51) (c : Chem n m) (a b : Fin n) (hab : a ≠ b) :
    |drgMatrixS rnd64 tot part c a b - Spec.drg c a b| ≤ (2 * m + 5) / 2 ^ 52 * Spec.drg c a b ∧
    |drgepMatrixS rnd64 tot part c a b - Spec.drgep c a b| ≤ (m + 2) / 2 ^ 49 ∧
    |pfaMatrixS rnd64 tot part c a b - Spec.pfa c a b| ≤ (4 * m + n + 14) / 2 ^ 52 * Spec.pfa c a b := by
  have hm' : (4 * m + n + 14 : ℚ) ≤ 2 ^ 51 := by exact_mod_cast hm
  have h0 : (0 : ℚ) ≤ m := by positivity
  have hn0 : (0 : ℚ) ≤ n := by positivity
  have e : (0 : ℚ) < 1 - 1 / 2 ^ 53 := by norm_num
  refine ⟨?_, ?_, ?_⟩
  · have hw : Within ((1 - 1 / 2 ^ 53) ^ (m + 3) / (1 + 1 / 2 ^ 53) ^ (m + 2))
        ((1 + 1 / 2 ^ 53) ^ (m + 3) / (1 - 1 / 2 ^ 53) ^ (m + 2)) (Spec.drg c a b)
        (drgMatrixS rnd64 tot part c a b) := by
      have := drgS_within rounds_rnd64 hT hP c a b hab
      rwa [div_mul_eq_mul_div, div_mul_eq_mul_div, ← pow_succ, ← pow_succ] at this
    have := within_abs u64.1 u64.2 (by push_cast; linarith) (drg_range c a b).1 hw
    refine this.trans (le_of_eq ?_)
    push_cast
    ring
  · refine (drgepS_err rounds_rnd64 hT hP c a b hab).trans ?_
    have h := pow_ratio_high u64.1 u64.2 (m + 2) (m + 2) (by push_cast; linarith)
    have h1 : (1 : ℚ) ≤ 1 / (1 - 1 / 2 ^ 53) ^ (m + 2) := by
      rw [one_le_div (by positivity)]
      exact pow_le_one₀ e.le (by norm_num)
    have h2 : 3 * ((1 + 1 / 2 ^ 53) ^ (m + 2) - 1) / (1 - 1 / 2 ^ 53) ^ (m + 2) =
        3 * ((1 + 1 / 2 ^ 53) ^ (m + 2) / (1 - 1 / 2 ^ 53) ^ (m + 2)) -
          3 * ((1 : ℚ) / (1 - 1 / 2 ^ 53) ^ (m + 2)) := by ring
    rw [h2]
    push_cast at h
    linarith
  · have := within_abs u64.1 u64.2 (by push_cast; linarith) (pfa_nonneg c a b)
      (pfaS_within rounds_rnd64 hT hP c a b hab)
    refine this.trans (le_of_eq ?_)
    push_cast
    ring

/-- **C114**: two orders of additions give coefficients that differ by no more than twice the
rounding error. -/
theorem C114_orders_agree (hT : Summation rnd64 tot) (hP : Summation rnd64 part)
    (hT' : Summation rnd64 tot') (hP' : Summation rnd64 part')
    (hm : 4 * m + n + 14 ≤ 2 ^ 51) (c : Chem n m) (a b : Fin n) (hab : a ≠ b) :
    |drgMatrixS rnd64 tot part c a b - drgMatrixS rnd64 tot' part' c a b| ≤
      (2 * m + 5) / 2 ^ 51 * Spec.drg c a b ∧
    |drgepMatrixS rnd64 tot part c a b - drgepMatrixS rnd64 tot' part' c a b| ≤ (m + 2) / 2 ^ 48 ∧
    |pfaMatrixS rnd64 tot part c a b - pfaMatrixS rnd64 tot' part' c a b| ≤
      (4 * m + n + 14) / 2 ^ 51 * Spec.pfa c a b := by
  obtain ⟨a1, a2, a3⟩ := C114_binary64 hT hP hm c a b hab
  obtain ⟨b1, b2, b3⟩ := C114_binary64 hT' hP' hm c a b hab
  have tri : ∀ x y z d : ℚ, |x - z| ≤ d → |y - z| ≤ d → |x - y| ≤ 2 * d := by
    intro x y z d h1 h2
    calc |x - y| = |(x - z) - (y - z)| := by ring_nf
      _ ≤ |x - z| + |y - z| := abs_sub _ _
      _ ≤ _ := by linarith
  refine ⟨(tri _ _ _ _ a1 b1).trans (le_of_eq ?_), (tri _ _ _ _ a2 b2).trans (le_of_eq ?_),
    (tri _ _ _ _ a3 b3).trans (le_of_eq ?_)⟩ <;> ring

/-- the diagonal is zero, whatever the order -/
theorem matrixOfS_diag (meth : Method) (c : Chem n m) {i : Nat} :
    matrixOfS meth rnd tot part c i i = 0 := by
  by_cases hi : i < n
  · have hs : ∀ (M : Mat n), M.toN i i = M ⟨i, hi⟩ ⟨i, hi⟩ := fun M => by simp [Mat.toN, hi]
    cases meth <;> simp only [matrixOfS, hs] <;>
      [unfold drgMatrixS; unfold drgepMatrixS; unfold pfaMatrixS] <;>
      split_ifs <;> simp [fillDiagonal]
  · cases meth <;> simp [matrixOfS, Mat.toN, hi]

/-- relative error of DRG and PFA coefficients in binary64, as matrices, for any order -/
theorem relS_binary64 (hT : Summation rnd64 tot) (hP : Summation rnd64 part) {meth : Method}
    (hmeth : meth ≠ .drgep) (hm : 4 * m + n + 14 ≤ 2 ^ 51)
    (c : Chem n m) {i j : Nat} (hi : i < n) (hj : j < n) :
    0 ≤ (published meth c).toN i j ∧
    |matrixOfS meth rnd64 tot part c i j - (published meth c).toN i j| ≤
      (4 * m + n + 14) / 2 ^ 52 * (published meth c).toN i j := by
  have hnn : (0 : ℚ) ≤ m ∧ (0 : ℚ) ≤ n := ⟨by positivity, by positivity⟩
  have hs : ∀ (M : Mat n), M.toN i j = M ⟨i, hi⟩ ⟨j, hj⟩ := fun M => by simp [Mat.toN, hi, hj]
  by_cases hij : (⟨i, hi⟩ : Fin n) = ⟨j, hj⟩
  · have hij' : i = j := by simpa using hij
    have e0 : matrixOfS meth rnd64 tot part c i j = 0 := by rw [hij']; exact matrixOfS_diag meth c
    rw [hs, e0, hij, published_diag]
    simp
  · have e : (published meth c).toN i j = match meth with
      | .drg => Spec.drg c ⟨i, hi⟩ ⟨j, hj⟩
      | .drgep => Spec.drgep c ⟨i, hi⟩ ⟨j, hj⟩
      | .pfa => Spec.pfa c ⟨i, hi⟩ ⟨j, hj⟩ := by
      rw [hs]
      unfold published
      rw [if_neg hij]
      cases meth <;> rfl
    rw [e]
    cases meth with
    | drgep => exact absurd rfl hmeth
    | drg =>
      refine ⟨(drg_range c _ _).1, ?_⟩
      simp only [matrixOfS, hs]
      refine (C114_binary64 hT hP hm c _ _ hij).1.trans ?_
      refine mul_le_mul_of_nonneg_right ?_ (drg_range c _ _).1
      rw [div_le_div_iff_of_pos_right (by norm_num)]
      linarith
    | pfa =>
      refine ⟨pfa_nonneg c _ _, ?_⟩
      simp only [matrixOfS, hs]
      exact (C114_binary64 hT hP hm c _ _ hij).2.2

/-! ### what is kept -/

section
variable {c c' : Ctx} {sol : Mech} {states : List (Chem sol.names.length m)} {t : ℚ} {s : String}

/-- **C114** (DRG and PFA): if no published coefficient is within rounding error of the threshold,
exactly the species determined by the published coefficients are kept, for every order of
additions. -/
theorem C114_kept (hT : Summation rnd64 tot) (hP : Summation rnd64 part) {meth : Method}
    (hmeth : meth ≠ .drgep) (hm : 4 * m + sol.names.length + 14 ≤ 2 ^ 51)
    (hM : c.matrices = states.map (matrixOfS meth rnd64 tot part))
    (hgap : ∀ x ∈ states, ∀ a b, published meth x a b ≠ 0 →
      |published meth x a b - t| > (4 * m + sol.names.length + 14) / 2 ^ 52 * published meth x a b) :
    Kept meth c sol t s ↔ KeptPublished meth sol.names c.targets c.safe states t s := by
  have hk : Kept meth c sol t s ↔
      (∃ x ∈ states, Linked (matrixOfS meth rnd64 tot part x) sol.names c.targets t s) ∨ s ∈ c.safe := by
    have : Kept meth c sol t s ↔ KeptDrg c sol t s := by cases meth <;> first | rfl | exact absurd rfl hmeth
    rw [this]
    unfold KeptDrg
    rw [hM]
    simp
  have hp : KeptPublished meth sol.names c.targets c.safe states t s ↔
      (∃ x ∈ states, Linked (published meth x).toN sol.names c.targets t s) ∨ s ∈ c.safe := by
    cases meth <;> first | rfl | exact absurd rfl hmeth
  rw [hk, hp]
  have hs : ∀ (M : Mat sol.names.length) i j (hi : i < sol.names.length) (hj : j < sol.names.length),
    M.toN i j = M ⟨i, hi⟩ ⟨j, hj⟩ := fun M i j hi hj => by simp [Mat.toN, hi, hj]
  have hm' : (4 * m + sol.names.length + 14 : ℚ) ≤ 2 ^ 51 := by exact_mod_cast hm
  set δ : ℚ := (4 * m + sol.names.length + 14) / 2 ^ 52 with hδ
  have hδ0 : 0 ≤ δ := by positivity
  have hδ1 : δ < 1 := by rw [hδ, div_lt_one (by norm_num)]; linarith
  have key : ∀ x ∈ states, ∀ i < sol.names.length, ∀ j < sol.names.length,
      ((t ≤ matrixOfS meth rnd64 tot part x i j ∧ matrixOfS meth rnd64 tot part x i j ≠ 0) ↔
        (t ≤ (published meth x).toN i j ∧ (published meth x).toN i j ≠ 0)) := by
    intro x hx i hi j hj
    obtain ⟨r0, r1⟩ := relS_binary64 hT hP hmeth hm x hi hj
    have hg := hgap x hx ⟨i, hi⟩ ⟨j, hj⟩
    rw [← hs (published meth x) i j hi hj] at hg
    rw [← hδ, abs_le] at r1
    by_cases h0 : (published meth x).toN i j = 0
    · rw [h0, mul_zero, sub_zero] at r1
      have : matrixOfS meth rnd64 tot part x i j = 0 := by linarith [r1.1, r1.2]
      rw [this, h0]
    · have hg := hg h0
      have hpos : 0 < (published meth x).toN i j := lt_of_le_of_ne r0 (Ne.symm h0)
      have h2 : 0 < (1 - δ) * (published meth x).toN i j := mul_pos (by linarith) hpos
      have hne : matrixOfS meth rnd64 tot part x i j ≠ 0 := by intro h; linarith [r1.1]
      simp only [hne, h0, ne_eq, not_false_eq_true, and_true]
      rcases lt_abs.1 hg with hg | hg <;> constructor <;> intro h <;> linarith [r1.1, r1.2]
  refine or_congr (exists_congr fun x => and_congr_right fun hx => ?_) Iff.rfl
  exact ⟨linked_imp (fun i hi j hj h1 h2 => (key x hx i hi j hj).1 ⟨h1, h2⟩),
    linked_imp (fun i hi j hj h1 h2 => (key x hx i hi j hj).2 ⟨h1, h2⟩)⟩

/-- **C114** (DRG and PFA): away from ties two orders of additions keep the same species. -/
theorem C114_kept_agree (hT : Summation rnd64 tot) (hP : Summation rnd64 part)
    (hT' : Summation rnd64 tot') (hP' : Summation rnd64 part') {meth : Method}
    (hmeth : meth ≠ .drgep) (hm : 4 * m + sol.names.length + 14 ≤ 2 ^ 51)
    (ht : c.targets = c'.targets) (hs : c.safe = c'.safe)
    (hM : c.matrices = states.map (matrixOfS meth rnd64 tot part))
    (hM' : c'.matrices = states.map (matrixOfS meth rnd64 tot' part'))
    (hgap : ∀ x ∈ states, ∀ a b, published meth x a b ≠ 0 →
      |published meth x a b - t| > (4 * m + sol.names.length + 14) / 2 ^ 52 * published meth x a b) :
    Kept meth c sol t s ↔ Kept meth c' sol t s := by
  rw [C114_kept hT hP hmeth hm hM hgap, C114_kept hT' hP' hmeth hm hM' hgap, ht, hs]

end

/-! ### DRGEP with blockwise addition -/

/-- `T → A` and eight parallel reactions `A → B` whose rates are representable in binary64 -/
def blockChem : Chem 3 9 where
  prod := fun s r => if r = 0 then ![0, 1, 0] s else ![0, 0, 1] s
  reac := fun s r => if r = 0 then ![1, 0, 0] s else ![0, 1, 0] s
  rop := ![1 / 2, 1, 1 / 2 ^ 200, 1 / 2 ^ 200, 1 / 2 ^ 200, 1 / 2 ^ 200, 1 / 2 ^ 200,
    1 / 2 ^ 53, 1 / 2 ^ 53]

/-- with blockwise addition the coefficient from `A` to `B` exceeds one -/
theorem blockChem_entries :
    (∀ r, rnd64 (blockChem.rop r) = blockChem.rop r) ∧
    drgepMatrixS rnd64 (pairSum rnd64) (pairSum rnd64) blockChem 0 1 = 1 ∧
    drgepMatrixS rnd64 (pairSum rnd64) (pairSum rnd64) blockChem 1 2 = 1 + 1 / 2 ^ 52 ∧
    drgepMatrixS rnd64 (pairSum rnd64) (pairSum rnd64) blockChem 2 1 = 1 := by
  refine ⟨?_, ?_, ?_, ?_⟩ <;> decide +kernel

/-- a species of the graph follows another if the coefficient is not zero -/
theorem matrixGraph_edge {M : NMat} {names : List String} {i j : Nat} {a b : String}
    (hi : names.idxOf? a = some i) (hj : names[j]? = some b) (h : M i j ≠ 0) :
    (b, some (M i j)) ∈ (matrixGraph M names).adj a := by
  unfold matrixGraph
  simp only [hi]
  rw [List.mem_filterMap]
  have hl : j < names.length := by
    by_contra hl
    rw [List.getElem?_eq_none (by omega)] at hj
    cases hj
  exact ⟨j, by simp [hl, h], by simp [hj]⟩

/-- two species whose coefficients for each other are `1 + 2u` (or more) and one keep the search
busy for ever, even though products are rounded -/
theorem gaining_pair (hR : Rounds rnd u) (hu : 0 < u) (hu1 : 2 * u < 1) {M : NMat} {T A B : String}
    (hn : [T, A, B].Nodup) (h01 : 0 < M 0 1) (h12 : 1 + 2 * u ≤ M 1 2) (h21 : M 2 1 = 1) (fuel : Nat) :
    modDijkstra (matrixGraph M [T, A, B]) 0 1 (fun a b => rnd (a * b)) T none none fuel = none := by
  rcases h : modDijkstra (matrixGraph M [T, A, B]) 0 1 (fun a b => rnd (a * b)) T none none fuel
    with _ | dist
  · rfl
  exfalso
  obtain ⟨h0, h1⟩ := modDijkstra_fix h
  simp only [List.nodup_cons, List.mem_cons, List.not_mem_nil, or_false, not_or] at hn
  obtain ⟨⟨hTA, hTB⟩, hAB, -⟩ := hn
  have iT : [T, A, B].idxOf? T = some 0 := by simp [List.idxOf?_cons]
  have iA : [T, A, B].idxOf? A = some 1 := by simp [List.idxOf?_cons, hTA]
  have iB : [T, A, B].idxOf? B = some 2 := by simp [List.idxOf?_cons, hTB, hAB]
  have eTA := matrixGraph_edge (M := M) iT (j := 1) (b := A) rfl h01.ne'
  have eAB := matrixGraph_edge (M := M) iA (j := 2) (b := B) rfl (by linarith)
  have eBA := matrixGraph_edge (M := M) iB (j := 1) (b := A) rfl (by rw [h21]; norm_num)
  obtain ⟨x, hx, hx0⟩ := h1 T 1 h0 A _ eTA (Ne.symm hTA)
  obtain ⟨y, hy, hxy⟩ := h1 A x hx B _ eAB (Ne.symm hTB)
  obtain ⟨z, hz, hyz⟩ := h1 B y hy A _ eBA (Ne.symm hTA)
  rw [hx] at hz
  obtain rfl := Option.some.inj hz
  simp only [one_mul, h21, mul_one] at hx0 hyz
  have hxp : 0 < x := by
    have := (hR.rel _ h01.le).1
    have : 0 < (1 - u) * M 0 1 := mul_pos (by linarith) h01
    linarith
  have hw : x * (1 + 2 * u) ≤ x * M 1 2 := mul_le_mul_of_nonneg_left h12 hxp.le
  have hbig := (hR.rel (x * M 1 2) (by nlinarith)).1
  have hfix : rnd (x * M 1 2) ≤ x := by
    have := hR.mono _ _ hxy
    rw [hR.idem] at this
    exact this.trans hyz
  have hgain : x < (1 - u) * (x * (1 + 2 * u)) := by nlinarith [mul_pos hxp hu]
  have : (1 - u) * (x * (1 + 2 * u)) ≤ (1 - u) * (x * M 1 2) :=
    mul_le_mul_of_nonneg_left hw (by linarith)
  linarith

/-- **C114** (DRGEP) **refuted**: with blockwise addition, as numpy performs it on contiguous rows,
coefficients need not be at most one, although rates are representable and sums are as accurate
as before.  On a model with three species and nine reactions a reduction by DRGEP then searches for
paths for ever; with the rates added one after the other the same search ends. -/
theorem C114_drgep_refuted {c : Ctx} {w : World} {mech : Mech} {T A B : String} (hr : c.rndMul = rnd64)
    (hl : loadModel w c.modelFile = .ok mech) (hnames : mech.names = [T, A, B])
    (hd : [T, A, B].Nodup) (hT : T ∈ c.targets) (hts : ∀ t ∈ c.targets, t ∈ mech.names) :
    (matrixOfS .drgep rnd64 (pairSum rnd64) (pairSum rnd64) blockChem ∈ c.matrices →
      ∀ sim rnd limit dfuel fuel,
        runDrgepS c sim rnd limit dfuel fuel w = (some (.error .outOfFuel), w)) ∧
    (∃ N, ∀ fuel ≥ N, ∃ imp, getImportanceCoeffs rnd64 mech.names c.targets
      [matrixOfS .drgep rnd64 (seqSum rnd64) (seqSum rnd64) blockChem] fuel = .ok imp) := by
  constructor
  · intro hM sim rnd limit dfuel fuel
    have hne : c.targets ≠ [] := fun h => by rw [h] at hT; simp at hT
    obtain ⟨-, e1, e2, e3⟩ := blockChem_entries
    have := gaining_pair (u := 1 / 2 ^ 53) rounds_rnd64 (by norm_num) (by norm_num) hd
      (M := matrixOfS .drgep rnd64 (pairSum rnd64) (pairSum rnd64) blockChem)
      (by show (0 : ℚ) < drgepMatrixS rnd64 (pairSum rnd64) (pairSum rnd64) blockChem 0 1
          rw [e1]; norm_num)
      (by show _ ≤ drgepMatrixS rnd64 (pairSum rnd64) (pairSum rnd64) blockChem 1 2
          rw [e2]; norm_num)
      (by show drgepMatrixS rnd64 (pairSum rnd64) (pairSum rnd64) blockChem 2 1 = 1
          exact e3) dfuel
    rw [← hnames] at this
    rw [runDrgepS, hl]
    simp only [if_neg hne]
    rw [getImportanceCoeffs, hr, importance_slow hts hT hM this]
  · rw [(C114_routines rnd64).1]
    have hn : mech.names.Nodup := hnames ▸ hd
    obtain ⟨N, h⟩ := C16_range_and_targets rnd64_usable.1 hn hts
      (matrices := [matrixOf .drgep rnd64 blockChem]) (by
        intro M hM
        obtain rfl := List.mem_singleton.1 hM
        rw [hnames]
        exact toN_unit (drgepMatrixR rnd64 blockChem) (C84_drgep_range rnd64_usable.1 rnd64_usable.2.1 _))
    refine ⟨N, fun fuel hf => ?_⟩
    obtain ⟨imp, h1, -⟩ := h fuel hf
    exact ⟨imp, h1⟩

/-- non-vacuity: blockwise and sequential addition give different coefficients; and the premises
of the refutation are met by a model file -/
example : drgepMatrixS rnd64 (pairSum rnd64) (pairSum rnd64) blockChem 1 2 ≠
      drgepMatrixS rnd64 (seqSum rnd64) (seqSum rnd64) blockChem 1 2 ∧
    4 * 9 + 3 + 14 ≤ 2 ^ 51 := by
  constructor
  · decide +kernel
  · norm_num

def blockMech : Mech := ⟨["T", "A", "B"].map (fun s => ⟨s, 0⟩), [], 0, 0, [], idealGas⟩

example : let w : World := ⟨fun f => if f = "m".toList then some blockMech else none, []⟩
    let c : Ctx := { modelFile := "m".toList, targets := ["T"], safe := [], errOf := fun _ => .fin 0,
                     phase := [], path := [], upper := none, rndMul := rnd64,
                     matrices := [matrixOfS .drgep rnd64 (pairSum rnd64) (pairSum rnd64) blockChem] }
    ∀ sim rnd limit dfuel fuel, runDrgepS c sim rnd limit dfuel fuel w = (some (.error .outOfFuel), w) := by
  intro w c
  exact (C114_drgep_refuted (mech := blockMech) (T := "T") (A := "A") (B := "B") rfl
    (by simp [loadModel, w, c]) rfl (by decide) (by simp [c]) (by decide)).1 (List.mem_singleton.2 rfl)

def blockState : Chem blockMech.names.length 9 := blockChem

/-- away from ties the order does not matter: at threshold 1/10 both orders keep `A` and `B` -/
example (meth : Method) (h : meth ≠ .drgep) (s : String) :
    let c (sum : List ℚ → ℚ) : Ctx :=
                   { modelFile := [], targets := ["T"], safe := [], errOf := fun _ => .fin 0,
                     phase := [], path := [], upper := none, rndMul := rnd64,
                     matrices := [matrixOfS meth rnd64 sum sum blockState] }
    Kept meth (c (pairSum rnd64)) blockMech (1 / 10) s ↔ Kept meth (c (seqSum rnd64)) blockMech (1 / 10) s := by
  intro c
  refine C114_kept_agree (m := 9) (sol := blockMech) (states := [blockState])
    summation_pair summation_pair summation_seq summation_seq h (by decide) rfl rfl rfl rfl ?_
  intro x hx
  obtain rfl := List.mem_singleton.1 hx
  have e : ∀ a b : Fin blockMech.names.length, published meth blockState a b = 0 ∨
      (4 * (9 : Nat) + (3 : Nat) + 14) / 2 ^ 52 * published meth blockState a b <
        |published meth blockState a b - 1 / 10| := by
    cases meth <;> decide +kernel
  intro a b hab
  exact (e a b).resolve_left hab

end Verif
