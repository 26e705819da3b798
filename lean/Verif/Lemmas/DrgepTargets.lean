import Verif.Lemmas.Grid64

/-!
The threshold loop when the candidate does not change above threshold one (DRGEP): whatever the
error limit and the errors, the model is finally rebuilt at a threshold of at most one.
-/

namespace Verif

open Spec

/-- a state of the loop, with what makes the final threshold at most one -/
def BelowOne (c : Ctx) (sol : Mech) (short : ℚ → Nat → Prop) (rnd : ℚ → ℚ) (limit : PyF)
    (jmax : Nat) (s : LoopState) : Prop :=
  s.w.fs c.modelFile = some sol ∧ ∃ j ≤ jmax, s.inc = startThr rnd j ∧
    ((s.first = true ∧ s.thr = startThr rnd j ∧ s.errCur = .fin 0 ∧
        (s.last = none ∨ (PyF.fin 0).le limit = true)) ∨
     (s.first = false ∧ ∃ k, s.thr = gridThr rnd j (k + 1) ∧ s.last = some s.prev ∧
        short (gridThr rnd j k) s.prev.model.nSpecies ∧ s.errCur = s.prev.error ∧
        (s.errCur.le limit = true ∨ k = 0 ∨ ∃ k', k = k' + 1 ∧ gridThr rnd j k' ≤ 1)))

section
variable {c : Ctx} {sol : Mech} {reduce : ReduceFn} {kept : ℚ → String → Prop}
  {short : ℚ → Nat → Prop} {limbo : ℚ → Option (List String)} {rnd : ℚ → ℚ} {ex : ℚ}
  {limit : PyF} {jmax : Nat}

theorem reduce_short (B : Behaves c sol reduce kept short limbo)
    (hself : ∀ t, short t (candidate c sol kept t).nSpecies) {t : ℚ} {w : World}
    (hw : w.fs c.modelFile = some sol) (p : RModel) :
    ∃ r w', reduce t (some p) w = (.ok r, w') ∧ short t r.model.nSpecies ∧
      (short t p.model.nSpecies → r = p) := by
  by_cases hs : short t p.model.nSpecies
  · exact ⟨p, w, B.reuse t w p hw hs, hs, fun _ => rfl⟩
  · exact ⟨_, _, (B.build t w p hw hs).trans (B.fresh t w hw), hself t, fun h => absurd h hs⟩

theorem belowOne_step (B : Behaves c sol reduce kept short limbo) (F : FileSafe c reduce)
    (hself : ∀ t, short t (candidate c sol kept t).nSpecies)
    (hhigh : ∀ t t' n, 1 < t → t ≤ t' → short t n → short t' n)
    (hr : RndOk rnd) (hex : startThr rnd (jmax + 1) ≤ ex) {s s' : LoopState}
    (h : BelowOne c sol short rnd limit jmax s)
    (hs : loopStep reduce rnd ex limit s = .running s') :
    BelowOne c sol short rnd limit jmax s' := by
  obtain ⟨hw, j, hj, hinc, hcase⟩ := h
  have hw' : s'.w.fs c.modelFile = some sol := by
    have := (loopStep_touches F rnd ex limit s).1 c.modelFile (fun n => (B.noclash n).symm)
    rw [hs] at this
    exact this.trans hw
  refine ⟨hw', ?_⟩
  obtain ⟨r, w1, hred, hsh, hreuse⟩ := reduce_short B hself (t := s.thr) hw s.prev
  unfold loopStep at hs
  by_cases hle : s.errCur.le limit = true
  · rw [if_pos hle, hred] at hs
    dsimp only at hs
    rcases hcase with ⟨hf, ht, he, hl⟩ | ⟨hf, k, ht, hl, hps, he, hk⟩
    · by_cases hlt : limit.lt r.error = true
      · rw [if_pos (by rw [hf, hlt]; rfl)] at hs
        split_ifs at hs with hx
        simp only [Outcome.running.injEq] at hs
        subst hs
        have hj' : j + 1 ≤ jmax := by
          by_contra hc
          obtain rfl : j = jmax := by omega
          apply hx
          rw [ht]
          exact hex
        refine ⟨j + 1, hj', ?_, Or.inl ⟨hf, ?_, rfl, Or.inr ?_⟩⟩
        · dsimp only; rw [hinc]; rfl
        · dsimp only; rw [ht]; rfl
        · rw [← he]; exact hle
      · rw [if_neg (by rw [hf]; simpa using hlt)] at hs
        split at hs
        · cases hs
        · simp only [Outcome.running.injEq] at hs
          subst hs
          refine ⟨j, hj, hinc, Or.inr ⟨rfl, 0, ?_, rfl, ?_, rfl, Or.inr (Or.inl rfl)⟩⟩
          · dsimp only; rw [ht, hinc]; rfl
          · dsimp only; rw [ht] at hsh; exact hsh
    · rw [if_neg (by rw [hf]; simp)] at hs
      split at hs
      · cases hs
      · simp only [Outcome.running.injEq] at hs
        subst hs
        refine ⟨j, hj, hinc, Or.inr ⟨rfl, k + 1, ?_, rfl, ?_, rfl, ?_⟩⟩
        · dsimp only; rw [ht, hinc]; rfl
        · dsimp only; rw [ht] at hsh; exact hsh
        · by_cases h1 : gridThr rnd j k ≤ 1
          · exact Or.inr (Or.inr ⟨k, rfl, h1⟩)
          · left
            push Not at h1
            have := hreuse (by rw [ht]; exact hhigh _ _ _ h1 (gridThr_mono hr j k) hps)
            subst this
            rw [← he]
            exact hle
  · rw [if_neg hle] at hs; cases hs

theorem belowOne_loop (B : Behaves c sol reduce kept short limbo) (F : FileSafe c reduce)
    (hself : ∀ t, short t (candidate c sol kept t).nSpecies)
    (hhigh : ∀ t t' n, 1 < t → t ≤ t' → short t n → short t' n)
    (hr : RndOk rnd) (hex : startThr rnd (jmax + 1) ≤ ex) (fuel : Nat) {s t : LoopState}
    (h : BelowOne c sol short rnd limit jmax s)
    (hs : whileLoop reduce rnd ex limit fuel s = .left t) :
    BelowOne c sol short rnd limit jmax t ∧ t.errCur.le limit = false := by
  induction fuel generalizing s with
  | zero => simp [whileLoop] at hs
  | succ n ih =>
    unfold whileLoop at hs
    rcases hst : loopStep reduce rnd ex limit s with u | u | ⟨e, w⟩ <;> rw [hst] at hs
    · exact ih (belowOne_step B F hself hhigh hr hex h hst) hs
    · simp only [Outcome.left.injEq] at hs
      subst hs
      have := (loopStep_touches F rnd ex limit s).2.2.2 u hst
      subst this
      refine ⟨h, ?_⟩
      unfold loopStep at hst
      by_contra hc
      rw [if_pos (by simpa using hc)] at hst
      split at hst
      · cases hst
      · split_ifs at hst
        all_goals (try dsimp only at hst)
        all_goals (try split_ifs at hst)
        all_goals first | (split at hst <;> cases hst) | cases hst
    · cases hs

theorem backStep_first_le_one (a : Arith) {j : Nat} (hj : j ≤ 4) :
    a.rnd (gridThr a.rnd j (0 + 1) - a.rnd (2 * startThr a.rnd j)) ≤ 1 := by
  have : ∀ a : Arith, ∀ j < 5,
      a.rnd (gridThr a.rnd j (0 + 1) - a.rnd (2 * startThr a.rnd j)) ≤ 1 := by
    intro a
    cases a <;> decide +kernel
  exact this a j (by omega)

theorem belowOne_final {a : Arith} (hj : jmax ≤ 4) {t : LoopState}
    (h : BelowOne c sol short a.rnd limit jmax t) (hle : t.errCur.le limit = false)
    {path : Text} {r : RModel} {w' : World}
    (hf : finishOther reduce a.rnd limit path t = (.ok r, w')) :
    ∃ q ≤ 1, reduce q none t.w = (.ok r, w') := by
  obtain ⟨-, j, hjm, hinc, hcase⟩ := h
  rcases hcase with ⟨-, -, he, hl⟩ | ⟨-, k, ht, hl, -, he, hk⟩
  · rcases hl with hl | hl
    · unfold finishOther at hf
      rw [hl] at hf
      simp at hf
    · rw [he, hl] at hle; cases hle
  · unfold finishOther at hf
    rw [hl] at hf
    dsimp only at hf
    by_cases hlt : limit.lt t.prev.error = true
    · rw [if_pos hlt] at hf
      refine ⟨_, ?_, hf⟩
      unfold backStep
      rw [ht, hinc]
      rcases hk with hk | rfl | ⟨k', rfl, hk'⟩
      · rw [hk] at hle; cases hle
      · exact backStep_first_le_one a (hjm.trans hj)
      · exact finalThr_le_one a (hjm.trans hj) hk'
    · rw [if_neg hlt] at hf
      simp [writeYamlTuple] at hf

end

end Verif
