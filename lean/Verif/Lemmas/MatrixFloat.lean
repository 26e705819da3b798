import Verif.Spec.Undefined
/-!
Matrices with undefined rates.
-/
namespace Verif
open Spec

namespace PyF

theorem not_finite {x : PyF} : ¬ Finite x ↔ x = .inf ∨ x = .ninf ∨ x = .nan := by
  cases x <;> simp [Finite]

theorem finite_fin (q : ℚ) : Finite (.fin q) := ⟨q, rfl⟩

theorem add_not_finite_left {x : PyF} (h : ¬ Finite x) (y : PyF) : ¬ Finite (x.add y) := by
  rcases not_finite.1 h with rfl | rfl | rfl <;> cases y <;> simp [PyF.add, Finite]

theorem add_not_finite_right {y : PyF} (h : ¬ Finite y) (x : PyF) : ¬ Finite (x.add y) := by
  rcases not_finite.1 h with rfl | rfl | rfl <;> cases x <;> simp [PyF.add, Finite]

theorem ofSign_not_finite (s : Int) : ¬ Finite (ofSign s) := by
  unfold ofSign; split_ifs <;> simp [Finite]

theorem mul_not_finite_right {y : PyF} (h : ¬ Finite y) (x : PyF) : ¬ Finite (x.mul y) := by
  rcases not_finite.1 h with rfl | rfl | rfl <;> cases x <;>
    first
      | exact ofSign_not_finite _
      | simp [PyF.mul, Finite]

theorem rd_not_finite {x : PyF} (h : ¬ Finite x) (R : ℚ → PyF) : x.rd R = x := by
  rcases not_finite.1 h with rfl | rfl | rfl <;> rfl

theorem abs_not_finite {x : PyF} (h : ¬ Finite x) : ¬ Finite x.abs := by
  rcases not_finite.1 h with rfl | rfl | rfl <;> simp [PyF.abs, Finite]

/-- not negative, or undefined -/
def NN (x : PyF) : Prop := x = .nan ∨ x = .inf ∨ ∃ q, 0 ≤ q ∧ x = .fin q

theorem NN.zero_max (x : PyF) : NN ((PyF.fin 0).nmax x) := by
  cases x <;> simp [NN, nmax, lt]
  split_ifs with h
  · exact .inr (.inr ⟨_, h.le, rfl⟩)
  · exact .inr (.inr ⟨0, le_refl _, rfl⟩)

theorem NN.add {x y : PyF} (hx : NN x) (hy : NN y) : NN (x.add y) := by
  rcases hx with rfl | rfl | ⟨p, hp, rfl⟩ <;> rcases hy with rfl | rfl | ⟨q, hq, rfl⟩ <;>
    simp [NN, PyF.add]
  exact add_nonneg hp hq

theorem NN.rd {R : ℚ → PyF} (hR : FloatRound R) {x : PyF} (hx : NN x) : NN (x.rd R) := by
  rcases hx with rfl | rfl | ⟨p, hp, rfl⟩
  · exact .inl rfl
  · exact .inr (.inl rfl)
  · rcases hR.nonneg p hp with h | ⟨q, hq, h⟩
    · exact .inr (.inl h)
    · exact .inr (.inr ⟨q, hq, h⟩)

/-- the greater of two numbers, none of them minus infinity, is finite only if both are -/
theorem nmax_not_finite {x y : PyF} (hx : NN x) (hy : NN y) (h : ¬ Finite x ∨ ¬ Finite y) :
    ¬ Finite (x.nmax y) := by
  rcases hx with rfl | rfl | ⟨p, hp, rfl⟩ <;> rcases hy with rfl | rfl | ⟨q, hq, rfl⟩ <;>
    simp [nmax, lt, Finite] at h ⊢

end PyF

section
variable {n m : Nat} {R : ℚ → PyF}

theorem sumOverF_stays {l : List (Fin m)} {f : Fin m → PyF} {s : PyF} (h : ¬ Finite s) :
    ¬ Finite (l.foldl (fun s r => (s.add (f r)).rd R) s) := by
  induction l generalizing s with
  | nil => exact h
  | cons r l ih =>
      simp only [List.foldl_cons]
      apply ih
      rw [PyF.rd_not_finite (PyF.add_not_finite_left h _)]
      exact PyF.add_not_finite_left h _

/-- one undefined or infinite term makes a sum so -/
theorem sumOverF_not_finite {l : List (Fin m)} {f : Fin m → PyF} {r : Fin m} (hr : r ∈ l)
    (h : ¬ Finite (f r)) : ¬ Finite (sumOverF R l f) := by
  unfold sumOverF
  generalize PyF.fin 0 = s
  induction l generalizing s with
  | nil => simp at hr
  | cons a l ih =>
      simp only [List.foldl_cons]
      rcases List.mem_cons.1 hr with rfl | hr
      · apply sumOverF_stays
        rw [PyF.rd_not_finite (PyF.add_not_finite_right h _)]
        exact PyF.add_not_finite_right h _
      · exact ih hr _

theorem sumOverF_nn (hR : FloatRound R) {l : List (Fin m)} {f : Fin m → PyF}
    (h : ∀ r, PyF.NN (f r)) : PyF.NN (sumOverF R l f) := by
  unfold sumOverF
  have h0 : PyF.NN (.fin 0) := .inr (.inr ⟨0, le_refl _, rfl⟩)
  revert h0
  generalize PyF.fin 0 = s
  intro h0
  induction l generalizing s with
  | nil => exact h0
  | cons a l ih => exact ih _ ((h0.add (h a)).rd hR)

variable {c : ChemF n m}

theorem bad_valid {r : Fin m} (h : ¬ Finite (c.rop r)) : r ∈ c.valid := by
  rcases PyF.not_finite.1 h with h | h | h <;> simp [ChemF.valid, h, PyF.eq]

theorem bad_base {r : Fin m} (h : ¬ Finite (c.rop r)) (a : Fin n) : ¬ Finite (c.base R a r) := by
  unfold ChemF.base
  rw [PyF.rd_not_finite (PyF.mul_not_finite_right h _)]
  exact PyF.mul_not_finite_right h _

theorem wide_drgTotal {r : Fin m} {a : Fin n} (hv : r ∈ c.valid) (hb : ¬ Finite (c.base R a r)) :
    ¬ Finite (drgTotalF R c a) := sumOverF_not_finite hv (PyF.abs_not_finite hb)

theorem wide_netTotal (hR : FloatRound R) {r : Fin m} {a : Fin n} (hv : r ∈ c.valid)
    (hb : ¬ Finite (c.base R a r)) : ¬ Finite (netTotalF R c a) := by
  refine PyF.nmax_not_finite (sumOverF_nn hR (fun _ => PyF.NN.zero_max _))
    (sumOverF_nn hR (fun _ => PyF.NN.zero_max _)) ?_
  rcases PyF.not_finite.1 hb with e | e | e
  · refine .inl (sumOverF_not_finite hv ?_)
    rw [e]; simp [PyF.nmax, PyF.lt, Finite]
  · refine .inr (sumOverF_not_finite hv ?_)
    rw [e]; simp [PyF.nmax, PyF.lt, PyF.neg, Finite]
  · refine .inl (sumOverF_not_finite hv ?_)
    rw [e]; simp [PyF.nmax, Finite]

/-- every row of a state with an undefined rate has an undefined total: also for species that do
not take part in the reaction -/
theorem bad_drgTotal (h : BadRates c) (a : Fin n) : ¬ Finite (drgTotalF R c a) := by
  obtain ⟨r, hr⟩ := h
  exact wide_drgTotal (bad_valid hr) (bad_base hr a)

theorem bad_netTotal (hR : FloatRound R) (h : BadRates c) (a : Fin n) :
    ¬ Finite (netTotalF R c a) := by
  obtain ⟨r, hr⟩ := h
  exact wide_netTotal hR (bad_valid hr) (bad_base hr a)

theorem blank_zero : Blank (.fin 0) := .inl rfl
theorem blank_nan : Blank .nan := .inr rfl

theorem blank_rd (hR : FloatRound R) {x : PyF} (h : Blank x) : Blank (x.rd R) := by
  rcases h with rfl | rfl
  · exact .inl hR.zero
  · exact .inr rfl

theorem blank_add {x y : PyF} (hx : Blank x) (hy : Blank y) : Blank (x.add y) := by
  rcases hx with rfl | rfl <;> rcases hy with rfl | rfl <;> simp [Blank, PyF.add]

/-- what is divided by an infinite or undefined number gives nothing -/
theorem blank_div {x y : PyF} (h : ¬ Finite y) : Blank (x.div y) := by
  rcases PyF.not_finite.1 h with rfl | rfl | rfl <;> cases x <;> simp [Blank, PyF.div]

theorem whereDivF_blank (hR : FloatRound R) {num : MatF n} {den : Fin n → PyF} {a : Fin n}
    (h : ¬ Finite (den a)) (b : Fin n) : Blank (whereDivF R num den a b) := by
  unfold whereDivF
  split_ifs
  · exact blank_zero
  · exact blank_rd hR (blank_div h)

theorem fillDiagonalF_blank {M : MatF n} {a b : Fin n} (h : Blank (M a b)) :
    Blank (fillDiagonalF M a b) := by
  unfold fillDiagonalF
  split_ifs
  · exact blank_zero
  · exact h

/-- DRG: nothing is left of a row whose total is not finite -/
theorem drg_row_blank (hR : FloatRound R) {a : Fin n} (h : ¬ Finite (drgTotalF R c a)) (b : Fin n) :
    Blank (drgMatrixF R c a b) := by
  unfold drgMatrixF
  split_ifs
  · exact fillDiagonalF_blank blank_zero
  · exact fillDiagonalF_blank (whereDivF_blank hR h b)

/-- DRGEP: nothing is left of a row whose total is not finite -/
theorem drgep_row_blank (hR : FloatRound R) {a : Fin n} (h : ¬ Finite (netTotalF R c a)) (b : Fin n) :
    Blank (drgepMatrixF R c a b) := by
  unfold drgepMatrixF
  split_ifs
  · exact fillDiagonalF_blank blank_zero
  · exact fillDiagonalF_blank (whereDivF_blank hR h b)

theorem blank_mul {x y : PyF} (hx : Blank x) (hy : Blank y) : Blank (x.mul y) := by
  rcases hx with rfl | rfl <;> rcases hy with rfl | rfl <;> simp [Blank, PyF.mul]

/-- all four arrays of PFA are blank -/
def PfaStateF.AllBlank (s : PfaStateF n) : Prop :=
  ∀ a b, Blank (s.pro1 a b) ∧ Blank (s.con1 a b) ∧ Blank (s.pro2 a b) ∧ Blank (s.con2 a b)

theorem setEntryF_blank {M : MatF n} (h : ∀ a b, Blank (M a b)) (k : Fin n) :
    ∀ a b, Blank (setEntryF (setEntryF M k k (.fin 0)) k k (.fin 0) a b) := by
  intro a b
  unfold setEntryF
  split_ifs
  · exact blank_zero
  · exact h a b

theorem pfaStepF_blank (hR : FloatRound R) {s : PfaStateF n} (h : s.AllBlank) (k : Fin n) :
    (pfaStepF R s k).AllBlank := by
  have hP := setEntryF_blank (fun a b => (h a b).1) k
  have hC := setEntryF_blank (fun a b => (h a b).2.1) k
  intro a b
  exact ⟨hP a b, hC a b,
    blank_rd hR (blank_add (h a b).2.2.1 (blank_rd hR (blank_mul (hP a k) (hP k b)))),
    blank_rd hR (blank_add (h a b).2.2.2 (blank_rd hR (blank_mul (hC a k) (hC k b))))⟩

theorem pfa_blank (hR : FloatRound R) (h : ∀ a : Fin n, ¬ Finite (netTotalF R c a)) (a b : Fin n) :
    Blank (pfaMatrixF R c a b) := by
  unfold pfaMatrixF
  split_ifs
  · exact fillDiagonalF_blank blank_zero
  · apply fillDiagonalF_blank
    have key : ∀ (l : List (Fin n)) (s : PfaStateF n), s.AllBlank →
        (l.foldl (pfaStepF R) s).AllBlank := by
      intro l
      induction l with
      | nil => exact fun s hs => hs
      | cons k l ih => exact fun s hs => ih _ (pfaStepF_blank hR hs k)
    generalize hs : List.foldl (pfaStepF R) _ (List.finRange n) = s
    have hs : s.AllBlank := by
      rw [← hs]
      refine key _ _ (fun a b => ?_)
      dsimp only
      exact ⟨whereDivF_blank hR (h a) b, whereDivF_blank hR (h a) b, blank_zero, blank_zero⟩
    have hs := hs a b
    exact blank_rd hR (blank_add (blank_rd hR (blank_add (blank_rd hR (blank_add hs.1 hs.2.1))
      hs.2.2.1)) hs.2.2.2)

/-! ## Species that do not take part -/

namespace PyF

theorem add_nan (x : PyF) : x.add .nan = .nan := by cases x <;> rfl

theorem nan_add (x : PyF) : PyF.nan.add x = .nan := by cases x <;> rfl

theorem div_nan (x : PyF) : x.div .nan = .nan := by cases x <;> rfl

/-- zero times an infinite or undefined number -/
theorem zero_mul_bad {x : PyF} (h : ¬ Finite x) : (PyF.fin 0).mul x = .nan := by
  rcases not_finite.1 h with rfl | rfl | rfl <;> simp [PyF.mul, sgn, ofSign]

end PyF

theorem sumOverF_nan {l : List (Fin m)} {f : Fin m → PyF} {r : Fin m} (hr : r ∈ l) (h : f r = .nan) :
    sumOverF R l f = .nan := by
  have stay : ∀ l : List (Fin m), l.foldl (fun (s : PyF) r => (s.add (f r)).rd R) PyF.nan = PyF.nan := by
    intro l
    induction l with
    | nil => rfl
    | cons x l ih => rw [List.foldl_cons, PyF.nan_add]; exact ih
  unfold sumOverF
  generalize PyF.fin 0 = s
  induction l generalizing s with
  | nil => simp at hr
  | cons x l ih =>
      rw [List.foldl_cons]
      rcases List.mem_cons.1 hr with rfl | hr
      · rw [h, PyF.add_nan]; exact stay l
      · exact ih hr _

theorem idle_base (hR : FloatRound R) {r : Fin m} (h : ¬ Finite (c.rop r)) {a : Fin n} (ha : c.prod a r = c.reac a r) :
    c.base R a r = .nan := by
  unfold ChemF.base
  rw [ha, sub_self]
  show (((R 0).mul (c.rop r)).rd R) = .nan
  rw [hR.zero, PyF.zero_mul_bad h]
  rfl

theorem idle_totals (hR : FloatRound R) {r : Fin m} (h : ¬ Finite (c.rop r)) {a : Fin n}
    (ha : c.prod a r = c.reac a r) : drgTotalF R c a = .nan ∧ netTotalF R c a = .nan := by
  have hb := idle_base hR h ha
  constructor
  · unfold drgTotalF
    exact sumOverF_nan (bad_valid h) (by rw [hb]; rfl)
  · unfold netTotalF
    rw [sumOverF_nan (bad_valid h) (by rw [hb]; rfl)]
    rfl

theorem whereDivF_nan {num : MatF n} {den : Fin n → PyF} {a : Fin n} (h : den a = .nan) (b : Fin n) :
    whereDivF R num den a b = .nan := by
  unfold whereDivF
  rw [h, PyF.div_nan]
  rfl

theorem pfa_fold_nan {a b : Fin n} (hab : a ≠ b) (l : List (Fin n)) (s : PfaStateF n) (h : s.pro1 a b = .nan) :
    (l.foldl (pfaStepF R) s).pro1 a b = .nan := by
  induction l generalizing s with
  | nil => exact h
  | cons k l ih =>
      rw [List.foldl_cons]
      apply ih
      unfold pfaStepF setEntryF
      dsimp only
      have : ¬ (a = k ∧ b = k) := fun e => hab (e.1.trans e.2.symm)
      rw [if_neg this, if_neg this, h]

/-- the row of a species that does not take part in the reaction (or with equal coefficients) -/
theorem idle_row (meth : Method) (hR : FloatRound R) {r : Fin m} (h : ¬ Finite (c.rop r)) {a b : Fin n}
    (ha : c.prod a r = c.reac a r) (hab : a ≠ b) : matrixF meth R c a b = .nan := by
  obtain ⟨h1, h2⟩ := idle_totals hR h ha
  have hv : ¬ c.valid.isEmpty = true := by
    rw [List.isEmpty_iff]
    exact List.ne_nil_of_mem (bad_valid h)
  cases meth with
  | drg =>
      show drgMatrixF R c a b = .nan
      unfold drgMatrixF fillDiagonalF
      rw [if_neg hv, if_neg hab, whereDivF_nan h1]
  | drgep =>
      show drgepMatrixF R c a b = .nan
      unfold drgepMatrixF fillDiagonalF
      rw [if_neg hv, if_neg hab, whereDivF_nan h2]
  | pfa =>
      show pfaMatrixF R c a b = .nan
      unfold pfaMatrixF fillDiagonalF
      rw [if_neg hv]
      dsimp only
      rw [if_neg hab, pfa_fold_nan hab _ _ (by dsimp only; exact whereDivF_nan h2 b), PyF.nan_add]
      show (((PyF.nan.add _).rd R).add _).rd R = .nan
      rw [PyF.nan_add]
      show (PyF.nan.add _).rd R = .nan
      rw [PyF.nan_add]
      rfl

/-- a state with an undefined rate gives a matrix without a single coefficient -/
theorem bad_matrix (meth : Method) (hR : FloatRound R) (h : BadRates c) (a b : Fin n) :
    Blank (matrixF meth R c a b) := by
  cases meth with
  | drg => exact drg_row_blank hR (bad_drgTotal h a) b
  | drgep => exact drgep_row_blank hR (bad_netTotal hR h a) b
  | pfa => exact pfa_blank hR (bad_netTotal hR h) a b

end

/-! ### finite rates -/

section
variable {n m : Nat} {rnd : ℚ → ℚ}

/-- finite rates as floating-point numbers -/
def Chem.toF (c : Chem n m) : ChemF n m := ⟨c.prod, c.reac, fun r => .fin (c.rop r)⟩

theorem toF_valid (c : Chem n m) : c.toF.valid = c.valid := by
  simp only [ChemF.valid, Chem.valid, Chem.toF, PyF.eq]
  congr 1

theorem toF_validWith (c : Chem n m) (b : Fin n) : c.toF.validWith b = c.validWith b := by
  simp only [ChemF.validWith, Chem.validWith, toF_valid]; rfl

theorem toF_base (c : Chem n m) (a : Fin n) (r : Fin m) :
    c.toF.base (fun q => .fin (rnd q)) a r = .fin (baseR rnd c a r) := rfl

theorem sumOverF_fin (l : List (Fin m)) (f : Fin m → ℚ) :
    sumOverF (fun q => .fin (rnd q)) l (fun r => .fin (f r)) = .fin (sumOverR rnd l f) := by
  unfold sumOverF sumOverR
  generalize (0 : ℚ) = s
  induction l generalizing s with
  | nil => rfl
  | cons r l ih => exact ih _

theorem nmax_fin (p q : ℚ) : (PyF.fin p).nmax (.fin q) = .fin (max p q) := by
  simp only [PyF.nmax, PyF.lt, reduceCtorEq, if_false, decide_eq_true_eq]
  split_ifs with h
  · rw [max_eq_right h.le]
  · rw [max_eq_left (not_lt.1 h)]

theorem div_fin {p q : ℚ} (h : q ≠ 0) : (PyF.fin p).div (.fin q) = .fin (p / q) := by
  simp [PyF.div, h]

theorem whereDivF_fin {num : Mat n} {den : Fin n → ℚ} {numF : MatF n} {denF : Fin n → PyF}
    (h1 : ∀ a b, numF a b = .fin (num a b)) (h2 : ∀ a, denF a = .fin (den a)) (a b : Fin n) :
    whereDivF (fun q => .fin (rnd q)) numF denF a b = .fin (whereDivR rnd num den a b) := by
  unfold whereDivF whereDivR
  rw [h1, h2]
  by_cases h : den a = 0
  · simp [h, PyF.eq]
  · simp [h, PyF.eq, div_fin h, PyF.rd]

theorem fillDiagonalF_fin {M : Mat n} {MF : MatF n} (h : ∀ a b, MF a b = .fin (M a b)) (a b : Fin n) :
    fillDiagonalF MF a b = .fin (fillDiagonal M a b) := by
  unfold fillDiagonalF fillDiagonal
  split_ifs
  · rfl
  · exact h a b

theorem drgTotalF_fin (c : Chem n m) (a : Fin n) : drgTotalF (fun q => .fin (rnd q)) c.toF a =
    .fin (sumOverR rnd c.valid (fun r => |baseR rnd c a r|)) := by
  unfold drgTotalF
  rw [toF_valid, ← sumOverF_fin]; rfl

theorem drgMatrixF_fin (c : Chem n m) (a b : Fin n) :
    drgMatrixF (fun q => .fin (rnd q)) c.toF a b = .fin (drgMatrixR rnd c a b) := by
  unfold drgMatrixF drgMatrixR
  rw [toF_valid]
  split_ifs
  · exact fillDiagonalF_fin (fun _ _ => rfl) a b
  · refine fillDiagonalF_fin (whereDivF_fin (fun a b => ?_) (drgTotalF_fin c)) a b
    rw [toF_validWith]
    have := sumOverF_fin (rnd := rnd) (c.validWith b) (fun r => |baseR rnd c a r|)
    simp only [toF_base, PyF.abs]
    rw [this]; rfl

theorem netTotalF_fin (c : Chem n m) (a : Fin n) : netTotalF (fun q => .fin (rnd q)) c.toF a =
    .fin (max (sumOverR rnd c.valid (fun r => max 0 (baseR rnd c a r)))
      (sumOverR rnd c.valid (fun r => max 0 (-baseR rnd c a r)))) := by
  unfold netTotalF
  simp only [toF_valid, toF_base, PyF.neg, nmax_fin, sumOverF_fin]

theorem drgepMatrixF_fin (c : Chem n m) (a b : Fin n) :
    drgepMatrixF (fun q => .fin (rnd q)) c.toF a b = .fin (drgepMatrixR rnd c a b) := by
  unfold drgepMatrixF drgepMatrixR
  rw [toF_valid]
  split_ifs
  · exact fillDiagonalF_fin (fun _ _ => rfl) a b
  · refine fillDiagonalF_fin (whereDivF_fin (fun a b => ?_) (netTotalF_fin c)) a b
    rw [toF_validWith]
    have := sumOverF_fin (rnd := rnd) (c.validWith b) (baseR rnd c a)
    have e : c.toF.base (fun q => .fin (rnd q)) a = fun r => .fin (baseR rnd c a r) := rfl
    rw [e, this]; rfl

/-- the arrays of PFA, finite -/
def PfaStateF.IsFin (t : PfaStateF n) (s : PfaState n) : Prop :=
  ∀ a b, t.pro1 a b = .fin (s.pro1 a b) ∧ t.con1 a b = .fin (s.con1 a b) ∧
    t.pro2 a b = .fin (s.pro2 a b) ∧ t.con2 a b = .fin (s.con2 a b)

theorem setEntryF_fin {M : Mat n} {MF : MatF n} (h : ∀ a b, MF a b = .fin (M a b)) (k a b : Fin n) :
    setEntryF (setEntryF MF k k (.fin 0)) k k (.fin 0) a b =
      .fin (setEntry (setEntry M k k 0) k k 0 a b) := by
  unfold setEntryF setEntry
  split_ifs
  · rfl
  · exact h a b

theorem pfaStepF_fin {t : PfaStateF n} {s : PfaState n} (h : t.IsFin s) (k : Fin n) :
    (pfaStepF (fun q => .fin (rnd q)) t k).IsFin (pfaStepR rnd s k) := by
  have hP := setEntryF_fin (fun a b => (h a b).1) k
  have hC := setEntryF_fin (fun a b => (h a b).2.1) k
  intro a b
  refine ⟨hP a b, hC a b, ?_, ?_⟩
  · simp only [pfaStepF, pfaStepR, hP, (h a b).2.2.1]; rfl
  · simp only [pfaStepF, pfaStepR, hC, (h a b).2.2.2]; rfl

theorem pfaMatrixF_fin (c : Chem n m) (a b : Fin n) :
    pfaMatrixF (fun q => .fin (rnd q)) c.toF a b = .fin (pfaMatrixR rnd c a b) := by
  unfold pfaMatrixF pfaMatrixR
  rw [toF_valid]
  split_ifs
  · exact fillDiagonalF_fin (fun _ _ => rfl) a b
  · refine fillDiagonalF_fin (fun a b => ?_) a b
    have key : ∀ (l : List (Fin n)) (t : PfaStateF n) (s : PfaState n), t.IsFin s →
        (l.foldl (pfaStepF (fun q => .fin (rnd q))) t).IsFin (l.foldl (pfaStepR rnd) s) := by
      intro l
      induction l with
      | nil => exact fun t s hs => hs
      | cons k l ih => exact fun t s hs => ih _ _ (pfaStepF_fin hs k)
    dsimp only
    generalize hs : List.foldl (pfaStepF _) _ (List.finRange n) = t
    generalize hs' : List.foldl (pfaStepR rnd) _ (List.finRange n) = s
    have hs : t.IsFin s := by
      rw [← hs, ← hs']
      refine key _ _ _ (fun a b => ?_)
      dsimp only
      refine ⟨whereDivF_fin (fun a b => ?_) (fun a => ?_) a b,
        whereDivF_fin (fun a b => ?_) (fun a => ?_) a b, rfl, rfl⟩
      · simp only [toF_validWith, toF_base, nmax_fin, sumOverF_fin, max_comm _ (0 : ℚ)]; rfl
      · simp only [netTotalF_fin, max_comm _ (0 : ℚ)]
      · simp only [toF_validWith, toF_base, PyF.neg, nmax_fin, sumOverF_fin, max_comm _ (0 : ℚ)]; rfl
      · simp only [netTotalF_fin, max_comm _ (0 : ℚ)]
    rw [(hs a b).1, (hs a b).2.1, (hs a b).2.2.1, (hs a b).2.2.2]; rfl

/-- on finite rates, and as long as no result overflows, the floating-point matrix is the matrix of
`Model/MatrixRound` -/
theorem matrixF_fin (meth : Method) (c : Chem n m) (a b : Fin n) :
    matrixF meth (fun q => .fin (rnd q)) c.toF a b =
      .fin (match meth with
        | .drg => drgMatrixR rnd c a b
        | .drgep => drgepMatrixR rnd c a b
        | .pfa => pfaMatrixR rnd c a b) := by
  cases meth with
  | drg => exact drgMatrixF_fin c a b
  | drgep => exact drgepMatrixF_fin c a b
  | pfa => exact pfaMatrixF_fin c a b

end
end Verif
