import Verif.Lemmas.Psr
import Mathlib.Data.List.GetD
/-!
# Lemmas about the continuation loop
-/
set_option linter.unusedSectionVars false
namespace Verif

section
variable {K : Type} [Field K] [LinearOrder K] {n : Nat}

theorem psrLoop_ind {E : PsrEnv K} {g : PsrGas K n} {a : PsrArgs K}
    {P P' Q : PsrState K n → Prop}
    (hfold : ∀ s s', P s → foldCheck a (psrTangent E s.uPrev s.uPP) s = (s', false) → P' s')
    (hstop : ∀ s s', P s → foldCheck a (psrTangent E s.uPrev s.uPP) s = (s', true) → Q s')
    (hmove : ∀ s s', P' s → psrMove E g a (psrTangent E s.uPrev s.uPP) s = .ok (s', false) → P s')
    (hquit : ∀ s s', P' s → psrMove E g a (psrTangent E s.uPrev s.uPP) s = .ok (s', true) → Q s')
    (hend : ∀ s, P s → Q s)
    (hu : ∀ t s, (foldCheck a t s : PsrState K n × Bool).1.uPrev = s.uPrev ∧
      (foldCheck a t s).1.uPP = s.uPP) :
    ∀ (k : Nat) (s s' : PsrState K n), P s → psrLoop E g a k s = .ok s' → Q s' := by
  intro k
  induction k with
  | zero => intro s s' hp h; cases h; exact hend _ hp
  | succ k ih =>
    intro s s' hp h
    rw [psrLoop] at h
    have hu' := hu (psrTangent E s.uPrev s.uPP) s
    rcases hf : foldCheck a (psrTangent E s.uPrev s.uPP) s with ⟨s1, _ | _⟩
    · rw [hf] at h hu'
      dsimp only at h hu'
      have hp1 := hfold _ _ hp hf
      rw [← hu'.1, ← hu'.2] at h
      cases hm : psrMove E g a (psrTangent E s1.uPrev s1.uPP) s1 with
      | error e => rw [hm] at h; cases h
      | ok r =>
        rw [hm] at h
        obtain ⟨s2, _ | _⟩ := r
        · exact ih _ _ (hmove _ _ hp1 hm) h
        · cases h; exact hquit _ _ hp1 hm
    · rw [hf] at h
      cases h
      exact hstop _ _ hp hf

/-- what the fold bookkeeping does -/
theorem foldCheck_cases (a : PsrArgs K) (t : List K) (s : PsrState K n) :
    ((signK (t.getD (n + 1) 0) = 0 ∨ signK (t.getD (n + 1) 0) = s.sign) ∧
      foldCheck a t s = (s, false)) ∨
    (signK (t.getD (n + 1) 0) ≠ 0 ∧ signK (t.getD (n + 1) 0) ≠ s.sign ∧
      ((s.folds = 0 ∧ a.stop = true ∧ foldCheck a t s =
          ({ s with sign := signK (t.getD (n + 1) 0), folds := 1,
                    iExt := some (leastIdx s.taus) }, true)) ∨
       (s.folds = 0 ∧ a.stop = false ∧ foldCheck a t s =
          ({ s with sign := signK (t.getD (n + 1) 0), folds := 1,
                    iExt := some (leastIdx s.taus), cap := min a.dsMax psrDsMiddle,
                    ds := min s.ds (min a.dsMax psrDsMiddle) }, false)) ∨
       (s.folds = 1 ∧ foldCheck a t s =
          ({ s with sign := signK (t.getD (n + 1) 0), folds := 2 }, true)) ∨
       (2 ≤ s.folds ∧ foldCheck a t s =
          ({ s with sign := signK (t.getD (n + 1) 0), folds := s.folds + 1 }, false)))) := by
  unfold foldCheck
  by_cases h : signK (t.getD (n + 1) 0) ≠ 0 ∧ signK (t.getD (n + 1) 0) ≠ s.sign
  · right
    refine ⟨h.1, h.2, ?_⟩
    dsimp only
    rw [if_pos h]
    by_cases h1 : s.folds + 1 = 1
    · rw [if_pos h1]
      have h0 : s.folds = 0 := by omega
      cases hs : a.stop
      · right; left; simp [h0]
      · left; simp [h0]
    · rw [if_neg h1]
      by_cases h2 : s.folds + 1 = 2
      · rw [if_pos h2]
        have h0 : s.folds = 1 := by omega
        right; right; left; simp [h0]
      · rw [if_neg h2]
        right; right; right
        exact ⟨by omega, rfl⟩
  · left
    dsimp only
    rw [if_neg h]
    refine ⟨?_, rfl⟩
    by_contra hc
    push Not at hc
    exact h ⟨hc.1, hc.2⟩

theorem foldCheck_u (a : PsrArgs K) (t : List K) (s : PsrState K n) :
    (foldCheck a t s).1.uPrev = s.uPrev ∧ (foldCheck a t s).1.uPP = s.uPP := by
  rcases foldCheck_cases a t s with ⟨_, h⟩ | ⟨_, _, ⟨_, _, h⟩ | ⟨_, _, h⟩ | ⟨_, h⟩ | ⟨_, h⟩⟩ <;>
    rw [h] <;> exact ⟨rfl, rfl⟩

theorem foldCheck_lists (a : PsrArgs K) (t : List K) (s : PsrState K n) :
    (foldCheck a t s).1.taus = s.taus ∧ (foldCheck a t s).1.temps = s.temps ∧
      (foldCheck a t s).1.states = s.states ∧ (foldCheck a t s).1.calls = s.calls ∧
      ((foldCheck a t s).1.iExt = s.iExt ∨
        (foldCheck a t s).1.iExt = some (leastIdx s.taus)) := by
  rcases foldCheck_cases a t s with ⟨_, h⟩ | ⟨_, _, ⟨_, _, h⟩ | ⟨_, _, h⟩ | ⟨_, h⟩ | ⟨_, h⟩⟩ <;>
    rw [h] <;> simp

/-- the state after a successful correction -/
def psrAccept (E : PsrEnv K) (s : PsrState K n) (u : List K) : PsrState K n :=
  { s with
    taus := s.taus ++ [E.exp (u.getD (n + 1) 0)]
    temps := s.temps ++ [u.getD n 0 * psrTref]
    states := s.states ++ [massFrac n u]
    uPP := s.uPrev
    uPrev := u
    ds := min (s.ds * (6 / 5)) s.cap
    calls := s.calls ++ [(s.ds, s.folds)] }

theorem psrMove_cases {E : PsrEnv K} {g : PsrGas K n} {a : PsrArgs K} {t : List K}
    {s s' : PsrState K n} {b : Bool} (h : psrMove E g a t s = .ok (s', b)) :
    (∃ u, psrCorrect E (augRes E g t s.uPrev s.ds) (augJac E g t)
        (vAdd s.uPrev (vScale s.ds t)) = .ok (u, true) ∧ s' = psrAccept E s u ∧ b = false) ∨
    (s' = { s with ds := s.ds * (1 / 2), calls := s.calls ++ [(s.ds, s.folds)] } ∧
      b = decide (s.ds * (1 / 2) < a.dsMin)) := by
  unfold psrMove at h
  cases hc : psrCorrect E (augRes E g t s.uPrev s.ds) (augJac E g t)
      (vAdd s.uPrev (vScale s.ds t)) with
  | error e => rw [hc] at h; cases h
  | ok r =>
    obtain ⟨u, _ | _⟩ := r
    · rw [hc] at h
      right
      have := Except.ok.inj h
      simp only [Prod.mk.injEq, Bool.false_eq_true, if_false] at this
      exact ⟨this.1.symm, this.2.symm⟩
    · rw [hc] at h
      left
      have := Except.ok.inj h
      simp only [Prod.mk.injEq, if_true] at this
      exact ⟨u, rfl, this.1.symm, this.2.symm⟩

/-- a property kept by every step holds at the end -/
theorem psrLoop_inv {E : PsrEnv K} {g : PsrGas K n} {a : PsrArgs K}
    {P : PsrState K n → Prop}
    (hfold : ∀ s t, P s → P (foldCheck a t s).1)
    (hmove : ∀ s s' b, P s → psrMove E g a (psrTangent E s.uPrev s.uPP) s = .ok (s', b) → P s') :
    ∀ (k : Nat) (s s' : PsrState K n), P s → psrLoop E g a k s = .ok s' → P s' :=
  psrLoop_ind (P := P) (P' := P) (Q := P)
    (fun s s' hp h => by have := hfold s (psrTangent E s.uPrev s.uPP) hp; rwa [h] at this)
    (fun s s' hp h => by have := hfold s (psrTangent E s.uPrev s.uPP) hp; rwa [h] at this)
    (fun s s' hp h => hmove s s' _ hp h)
    (fun s s' hp h => hmove s s' _ hp h)
    (fun _ hp => hp)
    (fun t s => foldCheck_u a t s)

/-- the successful calls -/
theorem traceCurve_ok {E : PsrEnv K} {g : PsrGas K n} {equil : Option (List K)} {a : PsrArgs K}
    {c : PsrCurve K n} (h : traceCurve E g equil a = .ok c) :
    ∃ guess x0 x1 i, equil = some guess ∧ solveFixedTau E g a.tauStart guess = .ok (x0, true) ∧
      solveFixedTau E g a.tauSecond x0 = .ok (x1, true) ∧
      psrLoop E g a a.maxSteps (psrInit E a x0 x1) = .ok c.final ∧ c.final.iExt = some i ∧
      c.branch = c.final.taus.zip c.final.temps ∧
      c.extinction = psrPoint c.final i ∧
      c.near = psrPoint c.final (idxNear c.final.taus i) ∧
      c.logMid = psrPoint c.final (idxMid E c.final.taus i) := by
  unfold traceCurve at h
  cases equil with
  | none => cases h
  | some guess =>
    dsimp only at h
    cases h0 : solveFixedTau E g a.tauStart guess with
    | error e => rw [h0] at h; cases h
    | ok r0 =>
      obtain ⟨x0, ok0⟩ := r0
      rw [h0] at h
      dsimp only at h
      cases h1 : solveFixedTau E g a.tauSecond x0 with
      | error e => rw [h1] at h; cases h
      | ok r1 =>
        obtain ⟨x1, ok1⟩ := r1
        rw [h1] at h
        dsimp only at h
        by_cases hk : ok0 = true ∧ ok1 = true
        · rw [if_pos hk] at h
          obtain ⟨rfl, rfl⟩ := hk
          cases hl : psrLoop E g a a.maxSteps (psrInit E a x0 x1) with
          | error e => rw [hl] at h; cases h
          | ok s =>
            rw [hl] at h
            dsimp only at h
            unfold psrFinish at h
            cases hi : s.iExt with
            | none => rw [hi] at h; cases h
            | some i =>
              rw [hi] at h
              cases h
              exact ⟨guess, x0, x1, i, rfl, h0, h1, hl, hi, rfl, rfl, rfl, rfl⟩
        · rw [if_neg hk] at h; cases h

/-! ### every point is a steady state -/

/-- the three arrays describe steady states; the extinction index is in range -/
def PsrGood (g : PsrGas K n) (s : PsrState K n) : Prop :=
  List.Forall₂ (fun tau (q : K × (Fin n → K)) => Spec.Steady g (1 / 10000000) tau q.1 q.2)
    s.taus (s.temps.zip s.states) ∧ s.temps.length = s.states.length ∧
  ∀ i, s.iExt = some i → i < s.taus.length

variable [IsStrictOrderedRing K]

theorem psrGood_fold {g : PsrGas K n} {a : PsrArgs K} {s : PsrState K n} {t : List K}
    (h : PsrGood g s) (hne : s.taus ≠ []) : PsrGood g (foldCheck a t s).1 := by
  obtain ⟨h1, h2, h3, h4, h5⟩ := foldCheck_lists a t s
  unfold PsrGood
  rw [h1, h2, h3]
  refine ⟨h.1, h.2.1, ?_⟩
  intro i hi
  rcases h5 with h5 | h5
  · exact h.2.2 i (by rw [← h5]; exact hi)
  · rw [h5] at hi
    cases hi
    exact firstLeast_lt (leastIdx_spec hne)

theorem psrGood_accept {E : PsrEnv K} {g : PsrGas K n} {s : PsrState K n} {u : List K}
    (h : PsrGood g s)
    (hu : Spec.Steady g (1 / 10000000) (E.exp (u.getD (n + 1) 0)) (u.getD n 0 * psrTref)
      (massFrac n u)) : PsrGood g (psrAccept E s u) := by
  obtain ⟨h1, h2, h3⟩ := h
  refine ⟨?_, ?_, ?_⟩
  · unfold psrAccept
    dsimp only
    rw [List.zip_append h2]
    exact List.rel_append h1 (by simpa using hu)
  · simp [psrAccept, h2]
  · intro i hi
    have := h3 i hi
    simp only [psrAccept, List.length_append]
    omega

theorem augRes_steady {E : PsrEnv K} {g : PsrGas K n} (hn : Spec.NormLike E.norm)
    {t up u : List K} {ds : K} (h : E.norm (augRes E g t up ds u) < 1 / 10000000) :
    Spec.Steady g (1 / 10000000) (E.exp (u.getD (n + 1) 0)) (u.getD n 0 * psrTref)
      (massFrac n u) := by
  unfold augRes at h
  have h' := lt_of_le_of_lt (hn.append _ _) h
  unfold coreResU at h'
  exact coreRes_steady hn (by norm_num) h'

theorem solveFixedTau_steady {E : PsrEnv K} {g : PsrGas K n} (hn : Spec.NormLike E.norm)
    (hh : Spec.RootHonest E) {tau : K} {guess x : List K}
    (h : solveFixedTau E g tau guess = .ok (x, true)) :
    Spec.Steady g (1 / 10000000) tau (x.getD n 0) (massFrac n x) := by
  unfold solveFixedTau at h
  have := psrCorrect_ok hh h
  unfold fixedTauRes at this
  exact coreRes_steady hn (by norm_num) this

theorem psrLoop_good {E : PsrEnv K} {g : PsrGas K n} {a : PsrArgs K}
    (hn : Spec.NormLike E.norm) (hh : Spec.RootHonest E) (k : Nat) (s s' : PsrState K n)
    (hs : PsrGood g s ∧ s.taus ≠ []) (h : psrLoop E g a k s = .ok s') :
    PsrGood g s' ∧ s'.taus ≠ [] := by
  refine psrLoop_inv (P := fun s => PsrGood g s ∧ s.taus ≠ []) ?_ ?_ k s s' hs h
  · intro s t hp
    refine ⟨psrGood_fold hp.1 hp.2, ?_⟩
    rw [(foldCheck_lists a t s).1]; exact hp.2
  · intro s s' b hp hm
    rcases psrMove_cases hm with ⟨u, hc, rfl, _⟩ | ⟨rfl, _⟩
    · refine ⟨psrGood_accept hp.1 (augRes_steady hn (psrCorrect_ok hh hc)), ?_⟩
      simp [psrAccept]
    · exact ⟨hp.1, hp.2⟩

theorem psrInit_good {E : PsrEnv K} {g : PsrGas K n} {a : PsrArgs K} {guess x0 x1 : List K}
    (hn : Spec.NormLike E.norm) (hh : Spec.RootHonest E)
    (h0 : solveFixedTau E g a.tauStart guess = .ok (x0, true))
    (h1 : solveFixedTau E g a.tauSecond x0 = .ok (x1, true)) :
    PsrGood g (psrInit E a x0 x1 : PsrState K n) ∧ (psrInit E a x0 x1 : PsrState K n).taus ≠ [] := by
  refine ⟨⟨?_, by simp [psrInit], ?_⟩, by simp [psrInit]⟩
  · have a0 := solveFixedTau_steady hn hh h0
    have a1 := solveFixedTau_steady hn hh h1
    simp only [psrInit, List.zip_cons_cons, List.zip_nil_right]
    exact List.Forall₂.cons a0 (List.Forall₂.cons a1 List.Forall₂.nil)
  · intro i hi; simp [psrInit] at hi

theorem psrGood_point {g : PsrGas K n} {s : PsrState K n} (h : PsrGood g s) {i : Nat}
    (hi : i < s.taus.length) :
    Spec.Steady g (1 / 10000000) (psrPoint s i).tau (psrPoint s i).T (psrPoint s i).Y := by
  obtain ⟨h1, h2, _⟩ := h
  have hl := h1.length_eq
  rw [List.length_zip, h2, Nat.min_self] at hl
  have := (List.forall₂_iff_get.1 h1).2 i hi (by rw [List.length_zip]; omega)
  simp only [List.get_eq_getElem, List.getElem_zip] at this
  unfold psrPoint
  rw [List.getD_eq_getElem _ _ hi, List.getD_eq_getElem _ _ (by omega),
    List.getD_eq_getElem _ _ (by omega)]
  exact this

theorem idx_lt {taus : List K} {i : Nat} (f : K → K) (hi : i < taus.length) :
    leastIdx ((taus.take (i + 1)).map f) ≤ i ∧
      leastIdx ((taus.take (i + 1)).map f) < taus.length := by
  have hne : (taus.take (i + 1)).map f ≠ [] := by
    intro hh
    have := congrArg List.length hh
    rw [List.length_map, List.length_take, List.length_nil] at this
    omega
  have := firstLeast_lt (leastIdx_spec hne)
  rw [List.length_map, List.length_take] at this
  omega

end
end Verif
