import Verif.Lemmas.PsrShape
/-!
# Newton's method on affine residuals
-/
set_option linter.unusedSectionVars false
namespace Verif

section
variable {K : Type} [Field K] [LinearOrder K]

theorem vDot_cons (a b : K) (r u : List K) : vDot (a :: r) (b :: u) = a * b + vDot r u := by
  simp [vDot]

theorem vDot_bump : ∀ (r u : List K) (j : Nat) (d : K), r.length = u.length → j < u.length →
    vDot r (bump u j d) = vDot r u + r.getD j 0 * d
  | [], u, j, d, h, hj => by simp at h; omega
  | a :: r, [], j, d, h, hj => by simp at h
  | a :: r, b :: u, 0, d, h, hj => by
      simp only [bump, List.set_cons_zero, List.getD_cons_zero, vDot_cons]
      ring
  | a :: r, b :: u, j + 1, d, h, hj => by
      have := vDot_bump r u j d (by simpa using h) (by simpa using hj)
      simp only [bump, List.getD_cons_succ, List.set_cons_succ, vDot_cons] at this ⊢
      rw [this]
      ring

theorem vDot_add : ∀ (r u v : List K), r.length = u.length → u.length = v.length →
    vDot r (vAdd u v) = vDot r u + vDot r v
  | [], [], [], _, _ => by simp [vDot]
  | a :: r, b :: u, c :: v, h, h' => by
      have := vDot_add r u v (by simpa using h) (by simpa using h')
      simp only [vAdd, List.zipWith_cons_cons, vDot_cons] at this ⊢
      rw [this]
      ring

theorem vScale_one (v : List K) : vScale 1 v = v := by simp [vScale]

variable [IsStrictOrderedRing K]

theorem fdStep_pos (x : K) : 0 < fdStep x := by
  unfold fdStep
  exact mul_pos (by norm_num) (lt_of_lt_of_le one_pos (le_max_left _ _))

/-- finite differences are exact on an affine residual -/
theorem fdJac_affine {A : List (List K)} {b u : List K} (hb : A.length = b.length)
    (hr : ∀ r ∈ A, r.length = u.length) :
    fdJac (fun v => vSub (mVec A v) b) u (vSub (mVec A u) b) = A := by
  have hlen : ∀ v, (vSub (mVec A v) b).length = A.length := by
    intro v; simp [vSub, mVec, hb]
  have hget : ∀ (v : List K) (i : Nat) (hi : i < A.length),
      (vSub (mVec A v) b).getD i 0 = vDot A[i] v - b.getD i 0 := by
    intro v i hi
    rw [vSub_getD (by simp [mVec, hb])]
    congr 1
    rw [List.getD_eq_getElem _ _ (by simpa [mVec] using hi)]
    simp [mVec]
  apply List.ext_getElem
  · simp only [fdJac, List.length_map, List.length_range, hlen]
  · intro i h1 h2
    simp only [fdJac, List.getElem_map, List.getElem_range]
    apply List.ext_getElem
    · simp only [List.length_map, List.length_range]
      exact (hr _ (List.getElem_mem h2)).symm
    · intro j h3 h4
      simp only [List.getElem_map, List.getElem_range]
      rw [hget _ _ h2, hget _ _ h2]
      have hj : j < u.length := by rw [← hr _ (List.getElem_mem h2)]; exact h4
      rw [vDot_bump _ _ _ _ (hr _ (List.getElem_mem h2)) hj, List.getD_eq_getElem _ _ h4]
      have := fdStep_pos (u.getD j 0)
      rw [div_eq_iff (ne_of_gt this)]
      ring

/-- the residual vanishes after a full Newton step -/
theorem affine_step {A : List (List K)} {b u step : List K} (hb : A.length = b.length)
    (hr : ∀ r ∈ A, r.length = u.length) (hl : step.length = u.length)
    (hs : mVec A step = (vSub (mVec A u) b).map (fun x => -x)) :
    vSub (mVec A (vAdd u step)) b = List.replicate b.length 0 := by
  apply List.ext_getElem
  · simp [vSub, mVec, hb]
  · intro i h1 h2
    rw [List.length_replicate] at h2
    have hiA : i < A.length := by omega
    have e := congrArg (fun l => l.getD i 0) hs
    simp only [mVec, vSub] at e
    rw [List.getD_eq_getElem _ _ (by simpa using hiA),
      List.getD_eq_getElem _ _ (by simp; omega)] at e
    simp only [List.getElem_map, List.getElem_zipWith] at e
    simp only [vSub, mVec, List.getElem_zipWith, List.getElem_map, List.getElem_replicate]
    rw [vDot_add _ _ _ (hr _ (List.getElem_mem hiA)) hl.symm, e]
    ring

end
end Verif
