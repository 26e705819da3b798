import Verif.Spec.Psr
import Mathlib.Tactic.Linarith
import Mathlib.Tactic.Ring
import Mathlib.Tactic.NormNum
import Mathlib.Algebra.Order.BigOperators.Group.List
/-!
# Lemmas about the reactor solver
-/
set_option linter.unusedSectionVars false
namespace Verif

section
variable {K : Type} [Field K] [LinearOrder K]

theorem vScale_neg_one (v : List K) : vScale (-1) v = v.map (fun x => -x) := by
  unfold vScale
  apply List.map_congr_left
  intro x _
  ring

theorem vAdd_length_le (a b : List K) : (vAdd a b).length ≤ a.length := by
  simp [vAdd]

theorem lineSearch_some {E : NewtonEnv K} {u step : List K} {nrm : K} :
    ∀ {k : Nat} {l0 lam : K} {c : Nat}, lineSearch E u step nrm k l0 = (some lam, c) →
      ∃ i : Nat, i < k ∧ lam = l0 * (1 / 2) ^ i ∧ c = i + 1 ∧
        E.norm (E.residual (vAdd u (vScale lam step))) < nrm ∧
        ∀ j < i, nrm ≤ E.norm (E.residual (vAdd u (vScale (l0 * (1 / 2) ^ j) step))) := by
  intro k
  induction k with
  | zero => intro l0 lam c h; simp [lineSearch] at h
  | succ k ih =>
    intro l0 lam c h
    rw [lineSearch] at h
    by_cases hb : E.norm (E.residual (vAdd u (vScale l0 step))) < nrm
    · rw [if_pos hb] at h
      simp only [Prod.mk.injEq, Option.some.injEq] at h
      obtain ⟨rfl, rfl⟩ := h
      exact ⟨0, Nat.succ_pos _, by simp, rfl, hb, by intro j hj; omega⟩
    · rw [if_neg hb] at h
      simp only [Prod.mk.injEq] at h
      obtain ⟨i, hi, hl, hc, hn, hj⟩ :=
        ih (l0 := l0 * (1 / 2)) (lam := lam)
          (c := (lineSearch E u step nrm k (l0 * (1 / 2))).2) (by rw [← h.1])
      refine ⟨i + 1, by omega, ?_, by omega, hn, ?_⟩
      · rw [hl]; ring
      · intro j hj'
        cases j with
        | zero => simpa using not_lt.1 hb
        | succ j =>
          have := hj j (by omega)
          rw [show l0 * (1 / 2) ^ (j + 1) = l0 * (1 / 2) * (1 / 2) ^ j by ring]
          exact this

theorem lineSearch_none {E : NewtonEnv K} {u step : List K} {nrm : K} :
    ∀ {k : Nat} {l0 : K} {c : Nat}, lineSearch E u step nrm k l0 = (none, c) →
      c = k ∧
        ∀ j < k, nrm ≤ E.norm (E.residual (vAdd u (vScale (l0 * (1 / 2) ^ j) step))) := by
  intro k
  induction k with
  | zero => intro l0 c h; simp [lineSearch] at h; exact ⟨h.symm, by intro j hj; omega⟩
  | succ k ih =>
    intro l0 c h
    rw [lineSearch] at h
    by_cases hb : E.norm (E.residual (vAdd u (vScale l0 step))) < nrm
    · rw [if_pos hb] at h; simp at h
    · rw [if_neg hb] at h
      simp only [Prod.mk.injEq] at h
      obtain ⟨hc, hj⟩ :=
        ih (l0 := l0 * (1 / 2))
          (c := (lineSearch E u step nrm k (l0 * (1 / 2))).2) (by rw [← h.1])
      refine ⟨by omega, ?_⟩
      intro j hj'
      cases j with
      | zero => simpa using not_lt.1 hb
      | succ j =>
        have := hj j (by omega)
        rw [show l0 * (1 / 2) ^ (j + 1) = l0 * (1 / 2) * (1 / 2) ^ j by ring]
        exact this

/-- what one call of the loop does -/
theorem newtonLoop_cases (E : NewtonEnv K) (tol : K) (k : Nat) (u : List K) :
    (E.norm (E.residual u) < tol ∧ newtonLoop E tol (k + 1) u = ⟨u, true, [u], 1⟩) ∨
    (tol ≤ E.norm (E.residual u) ∧ Spec.NewtonStuck E.residual E.norm E.solve u ∧
      ∃ c ≤ 21 + u.length, newtonLoop E tol (k + 1) u = ⟨u, false, [u], c⟩) ∨
    (tol ≤ E.norm (E.residual u) ∧
      ∃ v c, Spec.NewtonStep E.residual E.norm E.solve u v ∧ c ≤ 21 + u.length ∧
        v.length ≤ u.length ∧
        newtonLoop E tol (k + 1) u = ⟨(newtonLoop E tol k v).x, (newtonLoop E tol k v).ok,
          u :: (newtonLoop E tol k v).iterates, c + (newtonLoop E tol k v).evals⟩) := by
  rw [newtonLoop]
  by_cases ht : E.norm (E.residual u) < tol
  · left; rw [if_pos ht]; exact ⟨ht, rfl⟩
  · right
    rw [if_neg ht]
    have ht' := not_lt.1 ht
    cases hs : E.solve (fdJac E.residual u (E.residual u)) (vScale (-1) (E.residual u)) with
    | none =>
      left
      rw [vScale_neg_one] at hs
      exact ⟨ht', Or.inl hs, 1 + u.length, by omega, rfl⟩
    | some step =>
      simp only
      have hs' := hs
      rw [vScale_neg_one] at hs'
      rcases hl : lineSearch E u step (E.norm (E.residual u)) 20 1 with ⟨_ | lam, c⟩
      · left
        obtain ⟨hc, hj⟩ := lineSearch_none hl
        refine ⟨ht', Or.inr ⟨step, hs', ?_⟩, 1 + u.length + c, by omega, rfl⟩
        intro i hi
        have := hj i hi
        rwa [one_mul] at this
      · right
        obtain ⟨i, hi, hlam, hc, hn, hj⟩ := lineSearch_some hl
        rw [one_mul] at hlam
        refine ⟨ht', vAdd u (vScale lam step), 1 + u.length + c, ?_, by omega,
          vAdd_length_le _ _, rfl⟩
        refine ⟨step, i, hi, hs', by rw [hlam], hn, ?_⟩
        intro j hj'
        have := hj j hj'
        rwa [one_mul] at this

theorem newtonLoop_head (E : NewtonEnv K) (tol : K) (k : Nat) (u : List K) :
    ∃ t, (newtonLoop E tol k u).iterates = u :: t := by
  cases k with
  | zero => exact ⟨[], rfl⟩
  | succ k =>
    rcases newtonLoop_cases E tol k u with ⟨_, h⟩ | ⟨_, _, c, _, h⟩ | ⟨_, v, c, _, _, _, h⟩ <;>
      rw [h] <;> exact ⟨_, rfl⟩

theorem newtonLoop_spec (E : NewtonEnv K) (tol : K) : ∀ (k : Nat) (u : List K),
    ((newtonLoop E tol k u).iterates.getLast? = some (newtonLoop E tol k u).x) ∧
    (newtonLoop E tol k u).iterates.length ≤ k + 1 ∧
    List.IsChain (Spec.NewtonStep E.residual E.norm E.solve) (newtonLoop E tol k u).iterates ∧
    (∀ v ∈ (newtonLoop E tol k u).iterates, v.length ≤ u.length) ∧
    (newtonLoop E tol k u).evals ≤ k * (u.length + 21) + 1 := by
  intro k
  induction k with
  | zero => intro u; simp [newtonLoop]
  | succ k ih =>
    intro u
    have e : (k + 1) * (u.length + 21) = k * (u.length + 21) + (u.length + 21) := by ring
    rcases newtonLoop_cases E tol k u with ⟨_, h⟩ | ⟨_, _, c, hc, h⟩ | ⟨_, v, c, hs, hc, hv, h⟩
    · rw [h]; simp
    · rw [h]
      refine ⟨by simp, by simp, by simp, by simp, ?_⟩
      dsimp only
      rw [e]
      have : 0 ≤ k * (u.length + 21) := Nat.zero_le _
      omega
    · obtain ⟨h1, h2, h3, h4, h5⟩ := ih v
      rw [h]
      obtain ⟨t, ht⟩ := newtonLoop_head E tol k v
      refine ⟨?_, ?_, ?_, ?_, ?_⟩
      · dsimp only
        rw [ht] at h1 ⊢
        rw [List.getLast?_cons_cons]; exact h1
      · dsimp only; simp only [List.length_cons]; omega
      · dsimp only
        rw [ht] at h3 ⊢
        exact List.isChain_cons_cons.2 ⟨hs, h3⟩
      · dsimp only
        intro w hw
        rcases List.mem_cons.1 hw with rfl | hw
        · exact le_refl _
        · exact le_trans (h4 w hw) hv
      · dsimp only
        rw [e]
        have : k * (v.length + 21) ≤ k * (u.length + 21) := Nat.mul_le_mul_left _ (by omega)
        omega

/-- the verdict: early stops are judged by `tol`, exhaustion by `100 tol` -/
theorem newtonLoop_verdict (E : NewtonEnv K) (tol : K) : ∀ (k : Nat) (u : List K),
    ((newtonLoop E tol k u).ok = true →
      E.norm (E.residual (newtonLoop E tol k u).x) < tol ∨
      ((newtonLoop E tol k u).iterates.length = k + 1 ∧
        E.norm (E.residual (newtonLoop E tol k u).x) < tol * 100)) ∧
    ((newtonLoop E tol k u).ok = false →
      (tol ≤ E.norm (E.residual (newtonLoop E tol k u).x) ∧
        Spec.NewtonStuck E.residual E.norm E.solve (newtonLoop E tol k u).x) ∨
      ((newtonLoop E tol k u).iterates.length = k + 1 ∧
        tol * 100 ≤ E.norm (E.residual (newtonLoop E tol k u).x))) := by
  intro k
  induction k with
  | zero =>
    intro u
    simp only [newtonLoop, decide_eq_true_eq, decide_eq_false_iff_not, not_lt, List.length_cons,
      List.length_nil, zero_add, true_and]
    exact ⟨fun h => Or.inr h, fun h => Or.inr h⟩
  | succ k ih =>
    intro u
    rcases newtonLoop_cases E tol k u with ⟨ht, h⟩ | ⟨ht, hs, c, hc, h⟩ | ⟨ht, v, c, hs, hc, hv, h⟩
    · rw [h]; exact ⟨fun _ => Or.inl ht, fun hf => by simp at hf⟩
    · rw [h]; exact ⟨fun hf => by simp at hf, fun _ => Or.inl ⟨ht, hs⟩⟩
    · obtain ⟨h1, h2⟩ := ih v
      rw [h]
      dsimp only
      constructor
      · intro hok
        rcases h1 hok with h' | ⟨hl, h'⟩
        · exact Or.inl h'
        · exact Or.inr ⟨by simp [hl], h'⟩
      · intro hok
        rcases h2 hok with h' | ⟨hl, h'⟩
        · exact Or.inl h'
        · exact Or.inr ⟨by simp [hl], h'⟩

/-! ### least index -/

theorem leastGo_spec : ∀ (l pre : List K) (best : K) (bi : Nat),
    pre[bi]? = some best → (∀ (j : Nat) (y : K), pre[j]? = some y → best ≤ y) →
    (∀ (j : Nat) (y : K), j < bi → pre[j]? = some y → best < y) →
    Spec.FirstLeast (pre ++ l) (leastGo best bi pre.length l) := by
  intro l
  induction l with
  | nil =>
    intro pre best bi h1 h2 h3
    rw [List.append_nil]
    exact ⟨best, h1, h2, h3⟩
  | cons x xs ih =>
    intro pre best bi h1 h2 h3
    have e : pre ++ x :: xs = (pre ++ [x]) ++ xs := by simp
    have el : pre.length + 1 = (pre ++ [x]).length := by simp
    rw [leastGo, e, el]
    have hbi : bi < pre.length := by
      by_contra hh
      rw [List.getElem?_eq_none (by omega)] at h1
      cases h1
    by_cases hx : x < best
    · rw [if_pos hx]
      refine ih _ _ _ (by simp) ?_ ?_
      · intro j y hj
        by_cases hjl : j < pre.length
        · rw [List.getElem?_append_left hjl] at hj
          exact le_trans (le_of_lt hx) (h2 j y hj)
        · rw [List.getElem?_append_right (by omega)] at hj
          rcases Nat.lt_or_ge (j - pre.length) 1 with h0 | h0
          · have : j - pre.length = 0 := by omega
            rw [this] at hj
            simp at hj
            exact le_of_eq hj
          · rw [List.getElem?_eq_none (by simpa using h0)] at hj
            cases hj
      · intro j y hj hy
        rw [List.getElem?_append_left hj] at hy
        exact lt_of_lt_of_le hx (h2 j y hy)
    · rw [if_neg hx]
      refine ih _ _ _ (by rw [List.getElem?_append_left hbi]; exact h1) ?_ ?_
      · intro j y hj
        by_cases hjl : j < pre.length
        · rw [List.getElem?_append_left hjl] at hj
          exact h2 j y hj
        · rw [List.getElem?_append_right (by omega)] at hj
          rcases Nat.lt_or_ge (j - pre.length) 1 with h0 | h0
          · have : j - pre.length = 0 := by omega
            rw [this] at hj
            simp at hj
            exact le_trans (not_lt.1 hx) (le_of_eq hj)
          · rw [List.getElem?_eq_none (by simpa using h0)] at hj
            cases hj
      · intro j y hj hy
        rw [List.getElem?_append_left (by omega)] at hy
        exact h3 j y hj hy

theorem leastIdx_spec {l : List K} (h : l ≠ []) : Spec.FirstLeast l (leastIdx l) := by
  cases l with
  | nil => exact absurd rfl h
  | cons x xs =>
    have := leastGo_spec xs [x] x 0 (by simp) (by
      intro j y hj
      cases j with
      | zero => simp at hj; exact le_of_eq hj
      | succ j => simp at hj) (by intro j y hj; omega)
    exact this

theorem firstLeast_lt {l : List K} {i : Nat} (h : Spec.FirstLeast l i) : i < l.length := by
  obtain ⟨x, hx, _⟩ := h
  by_contra hh
  rw [List.getElem?_eq_none (by omega)] at hx
  cases hx

theorem absK_eq [IsStrictOrderedRing K] (x : K) : absK x = |x| := by
  unfold absK
  split_ifs with h
  · rw [abs_of_neg h]
  · rw [abs_of_nonneg (not_lt.1 h)]

/-! ### residual below the penalty -/

variable [IsStrictOrderedRing K]

theorem coreRes_steady {n} {g : PsrGas K n} {norm : List K → K} (hn : Spec.NormLike norm)
    {Y : Fin n → K} {T tau eps : K} (he : eps ≤ 1000)
    (h : norm (coreRes g Y T tau) < eps) : Spec.Steady g eps tau T Y := by
  have hpen : ¬ norm (List.replicate (n + 1) (psrPenalty : K)) < eps := by
    intro hh
    have := hn.entry (List.replicate (n + 1) (psrPenalty : K)) psrPenalty (by simp)
    rw [show (psrPenalty : K) = 1000 from rfl, abs_of_nonneg (by norm_num)] at this
    rw [show (psrPenalty : K) = 1000 from rfl] at hh
    exact absurd (lt_of_le_of_lt this hh) (not_lt.2 he)
  unfold coreRes at h
  by_cases hT : T ≤ 0
  · rw [if_pos hT] at h; exact absurd h hpen
  · rw [if_neg hT] at h
    cases hg : g.at_ Y T with
    | none => rw [hg] at h; exact absurd h hpen
    | some p =>
      rw [hg] at h
      dsimp only at h
      refine ⟨not_le.1 hT, p, hg, ?_, ?_⟩
      · intro k
        refine lt_of_le_of_lt (hn.entry _ (speciesRes g p Y tau k) ?_) h
        simp [List.mem_ofFn]
      · refine lt_of_le_of_lt (hn.entry _ (energyRes g p) ?_) h
        simp

theorem psrCorrect_ok {E : PsrEnv K} (hh : Spec.RootHonest E)
    {res : List K → List K} {jac : List K → Except Err (List (List K))} {x0 x : List K}
    (h : psrCorrect E res jac x0 = .ok (x, true)) : E.norm (res x) < 1 / 10000000 := by
  unfold psrCorrect at h
  cases hr : E.root res jac x0 with
  | error e => rw [hr] at h; cases h
  | ok sol =>
    rw [hr] at h
    dsimp only at h
    by_cases hs : sol.success = true ∧ E.norm sol.fn < 1 / 10000000
    · rw [if_pos hs] at h
      have := Except.ok.inj h
      simp only [Prod.mk.injEq, and_true] at this
      rw [← this, ← hh res jac x0 sol hr]
      exact hs.2
    · rw [if_neg hs] at h
      have := Except.ok.inj h
      simp only [Prod.mk.injEq] at this
      obtain ⟨hx, hok⟩ := this
      unfold dampedNewton at hx hok
      have hv := (newtonLoop_verdict ⟨res, E.norm, E.solve⟩ (1 / 1000000000 : K) 50 x0).1 hok
      rw [hx] at hv
      dsimp only at hv
      rcases hv with hv | ⟨_, hv⟩
      · exact lt_trans hv (by norm_num)
      · rwa [show (1 / 1000000000 : K) * 100 = 1 / 10000000 by norm_num] at hv

theorem psrCorrect_error {E : PsrEnv K}
    {res : List K → List K} {jac : List K → Except Err (List (List K))} {x0 : List K} {e : Err}
    (h : psrCorrect E res jac x0 = .error e) : E.root res jac x0 = .error e := by
  unfold psrCorrect at h
  cases hr : E.root res jac x0 with
  | error e' => rw [hr] at h; cases h; rfl
  | ok sol =>
    rw [hr] at h
    dsimp only at h
    split_ifs at h

theorem coreJac_error {n} {g : PsrGas K n} {Y : Fin n → K} {T tau : K} {e : Err}
    (h : coreJac g Y T tau = .error e) : e = .runtimeError := by
  unfold coreJac at h
  cases hg : g.at_ Y T with
  | none => rw [hg] at h; cases h; rfl
  | some p => rw [hg] at h; cases h

end
end Verif
