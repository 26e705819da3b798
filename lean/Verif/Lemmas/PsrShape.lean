import Verif.Lemmas.PsrTrace
import Mathlib.Data.List.Pairwise
/-!
# The shape of a traced curve, and its step sizes
-/
set_option linter.unusedSectionVars false
namespace Verif

section
variable {K : Type} [Field K] [LinearOrder K] {n : Nat}

theorem vAdd_length {a b : List K} (h : b.length = a.length) : (vAdd a b).length = a.length := by
  simp [vAdd, h]

theorem vSub_getD {a b : List K} (h : a.length = b.length) (i : Nat) :
    (vSub a b).getD i 0 = a.getD i 0 - b.getD i 0 := by
  unfold vSub
  simp only [List.getD_eq_getElem?_getD, List.getElem?_zipWith]
  by_cases hi : i < a.length
  · rw [List.getElem?_eq_getElem hi, List.getElem?_eq_getElem (h ▸ hi)]; rfl
  · rw [List.getElem?_eq_none (by omega), List.getElem?_eq_none (by omega)]; simp

theorem vScale_getD (c : K) (a : List K) (i : Nat) :
    (vScale c a).getD i 0 = c * a.getD i 0 := by
  unfold vScale
  simp only [List.getD_eq_getElem?_getD, List.getElem?_map]
  cases a[i]? <;> simp

theorem coreRes_length (g : PsrGas K n) (Y : Fin n → K) (T tau : K) :
    (coreRes g Y T tau).length = n + 1 := by
  unfold coreRes
  split_ifs
  · simp
  · split <;> simp

theorem newtonLoop_length {E : NewtonEnv K} {tol : K} {m : Nat}
    (hs : ∀ A b x, E.solve A b = some x → x.length = b.length)
    (hr : ∀ u, u.length = m → (E.residual u).length = m) :
    ∀ (k : Nat) (u : List K), u.length = m → (newtonLoop E tol k u).x.length = m := by
  intro k
  induction k with
  | zero => intro u hu; exact hu
  | succ k ih =>
    intro u hu
    rcases newtonLoop_cases E tol k u with ⟨_, h⟩ | ⟨_, _, c, _, h⟩ | ⟨_, v, c, hst, _, _, h⟩
    · rw [h]; exact hu
    · rw [h]; exact hu
    · rw [h]
      obtain ⟨step, i, _, h1, h2, _⟩ := hst
      refine ih v ?_
      have := hs _ _ _ h1
      rw [List.length_map, hr u hu] at this
      rw [h2, vAdd_length]
      · exact hu
      · simp [vScale, this, hu]

theorem psrCorrect_length {E : PsrEnv K} (hs : Spec.Shapes E)
    {res : List K → List K} {jac : List K → Except Err (List (List K))} {x0 x : List K} {b : Bool}
    {m : Nat} (hr : ∀ u, u.length = m → (res u).length = m) (h0 : x0.length = m)
    (h : psrCorrect E res jac x0 = .ok (x, b)) : x.length = m := by
  unfold psrCorrect at h
  cases hq : E.root res jac x0 with
  | error e => rw [hq] at h; cases h
  | ok sol =>
    rw [hq] at h
    dsimp only at h
    by_cases hc : sol.success = true ∧ E.norm sol.fn < 1 / 10000000
    · rw [if_pos hc] at h
      have := Except.ok.inj h
      simp only [Prod.mk.injEq] at this
      rw [← this.1, hs.root _ _ _ _ hq, h0]
    · rw [if_neg hc] at h
      have := Except.ok.inj h
      simp only [Prod.mk.injEq] at this
      rw [← this.1]
      exact newtonLoop_length hs.solve hr 50 x0 h0

theorem augRes_length (E : PsrEnv K) (g : PsrGas K n) (t up u : List K) (ds : K) :
    (augRes E g t up ds u).length = n + 2 := by
  unfold augRes coreResU
  rw [List.length_append, coreRes_length]; rfl

theorem psrTangent_length (E : PsrEnv K) {u v : List K} (h : u.length = v.length) :
    (psrTangent E u v).length = u.length := by
  simp [psrTangent, vScale, vSub, h]

variable [IsStrictOrderedRing K]

theorem psrTangent_getD {E : PsrEnv K} {u v : List K} (h : u.length = v.length)
    (i : Nat) : (psrTangent E u v).getD i 0 =
      1 / E.norm (vSub u v) * (u.getD i 0 - v.getD i 0) := by
  unfold psrTangent
  rw [vScale_getD, vSub_getD h]

theorem norm_vSub_pos {norm : List K → K} (hn : Spec.NormLike norm) {u v : List K}
    (h : u.length = v.length) {i : Nat} (hi : u.getD i 0 ≠ v.getD i 0) : 0 < norm (vSub u v) := by
  have hx : (vSub u v).getD i 0 ≠ 0 := by rw [vSub_getD h]; exact sub_ne_zero.2 hi
  have hl : i < (vSub u v).length := by
    by_contra hc
    rw [List.getD_eq_getElem?_getD, List.getElem?_eq_none (by omega)] at hx
    exact hx rfl
  rw [List.getD_eq_getElem _ _ hl] at hx
  exact lt_of_lt_of_le (abs_pos.2 hx) (hn.entry _ _ (List.getElem_mem hl))

/-- the sign of the tangent's last component is that of the difference -/
theorem psrTangent_sign {E : PsrEnv K} (hn : Spec.NormLike E.norm) {u v : List K}
    (h : u.length = v.length) (i : Nat) :
    (signK ((psrTangent E u v).getD i 0) = 0 ↔ u.getD i 0 = v.getD i 0) ∧
    (signK ((psrTangent E u v).getD i 0) = -1 ↔ u.getD i 0 < v.getD i 0) ∧
    (signK ((psrTangent E u v).getD i 0) = 1 ↔ v.getD i 0 < u.getD i 0) := by
  rw [psrTangent_getD h]
  by_cases he : u.getD i 0 = v.getD i 0
  · rw [he]; simp [signK]
  · have hp := norm_vSub_pos hn h he
    have hp' : 0 < 1 / E.norm (vSub u v) := one_div_pos.2 hp
    rcases lt_or_gt_of_ne he with hlt | hgt
    · have : 1 / E.norm (vSub u v) * (u.getD i 0 - v.getD i 0) < 0 :=
        mul_neg_of_pos_of_neg hp' (sub_neg.2 hlt)
      unfold signK
      rw [if_pos this]
      simp only [he, hlt, not_lt.2 (le_of_lt hlt), iff_false]
      decide
    · have : 0 < 1 / E.norm (vSub u v) * (u.getD i 0 - v.getD i 0) :=
        mul_pos hp' (sub_pos.2 hgt)
      unfold signK
      rw [if_neg (not_lt.2 (le_of_lt this)), if_pos this]
      simp only [he, not_lt.2 (le_of_lt hgt), iff_false]
      refine ⟨by decide, by decide, ?_⟩
      exact ⟨fun _ => hgt, fun _ => trivial⟩

/-! ### the residence times -/

/-- the residence times fall up to `a'`, then rise to `b'`; the extinction index is the least
index of that part -/
def PsrPast (stop : Bool) (s : PsrState K n) : Prop :=
  ∃ pre a' b' post, s.taus = (pre ++ [a', b']) ++ post ∧ List.IsChain (· ≥ ·) (pre ++ [a']) ∧
    a' < b' ∧ s.iExt = some (leastIdx (pre ++ [a', b'])) ∧ (stop = true → post = [])

/-- the last two residence times belong to the last two points -/
def PsrTail (E : PsrEnv K) (s : PsrState K n) (l : List K) (a b : K) : Prop :=
  s.uPrev.length = n + 2 ∧ s.uPP.length = n + 2 ∧ s.taus = l ++ [a, b] ∧
    a = E.exp (s.uPP.getD (n + 1) 0) ∧ b = E.exp (s.uPrev.getD (n + 1) 0)

/-- still on the burning branch -/
def PsrBurning (s : PsrState K n) : Prop := s.folds = 0 ∧ s.sign = -1 ∧ s.iExt = none

theorem exp_le {E : PsrEnv K} (he : Spec.ExpLike E) {x y : K} (h : x ≤ y) :
    E.exp x ≤ E.exp y := by
  rcases lt_or_eq_of_le h with h | h
  · exact le_of_lt (he.mono _ _ h)
  · rw [h]

theorem psrLoop_shape {E : PsrEnv K} {g : PsrGas K n} {a : PsrArgs K}
    (hn : Spec.NormLike E.norm) (hs : Spec.Shapes E) (he : Spec.ExpLike E) (k : Nat)
    (s s' : PsrState K n)
    (h0 : ∃ l x y, PsrTail E s l x y ∧ PsrBurning s ∧ List.IsChain (· ≥ ·) (l ++ [x]))
    (h : psrLoop E g a k s = .ok s') : s'.iExt = none ∨ PsrPast a.stop s' := by
  refine psrLoop_ind
    (P := fun s => ∃ l x y, PsrTail E s l x y ∧
      ((PsrBurning s ∧ List.IsChain (· ≥ ·) (l ++ [x])) ∨
        (a.stop = false ∧ 1 ≤ s.folds ∧ PsrPast false s)))
    (P' := fun s => ∃ l x y, PsrTail E s l x y ∧
      ((PsrBurning s ∧ List.IsChain (· ≥ ·) (l ++ [x, y])) ∨
        (a.stop = false ∧ 1 ≤ s.folds ∧ PsrPast false s)))
    (Q := fun s => s.iExt = none ∨ PsrPast a.stop s) ?_ ?_ ?_ ?_ ?_
    (fun t s => foldCheck_u a t s) k s s' ?_ h
  · rintro s s1 ⟨l, x, y, ⟨t1, t2, t3, t4, t5⟩, hc⟩ hf
    refine ⟨l, x, y, ?_, ?_⟩
    · have hu := foldCheck_u a (psrTangent E s.uPrev s.uPP) s
      have hl := foldCheck_lists a (psrTangent E s.uPrev s.uPP) s
      rw [hf] at hu hl
      dsimp only at hu hl
      unfold PsrTail
      rw [hu.1, hu.2, hl.1]
      exact ⟨t1, t2, t3, t4, t5⟩
    · have hsg := psrTangent_sign hn (u := s.uPrev) (v := s.uPP) (by rw [t1, t2]) (n + 1)
      rcases foldCheck_cases a (psrTangent E s.uPrev s.uPP) s with
        ⟨hz, h'⟩ | ⟨hz, hz', ⟨f0, st, h'⟩ | ⟨f0, st, h'⟩ | ⟨f1, h'⟩ | ⟨f2, h'⟩⟩
      · rw [hf] at h'
        cases h'
        rcases hc with ⟨hb, hch⟩ | hp
        · left
          refine ⟨hb, ?_⟩
          have hle : s.uPrev.getD (n + 1) 0 ≤ s.uPP.getD (n + 1) 0 := by
            rcases hz with hz | hz
            · exact le_of_eq (hsg.1.1 hz)
            · rw [hb.2.1] at hz
              exact le_of_lt (hsg.2.1.1 hz)
          have hxy : x ≥ y := by rw [t4, t5]; exact exp_le he hle
          rw [show l ++ [x, y] = (l ++ [x]) ++ [y] by simp]
          refine List.isChain_append.2 ⟨hch, by simp, ?_⟩
          intro p hp q hq
          simp at hp hq
          rw [← hp, ← hq]; exact hxy
        · right; exact hp
      · rw [hf] at h'; cases h'
      · right
        rw [hf] at h'
        cases h'
        refine ⟨st, by simp, ?_⟩
        rcases hc with ⟨hb, hch⟩ | ⟨_, hp, _⟩
        · have hlt : s.uPP.getD (n + 1) 0 < s.uPrev.getD (n + 1) 0 := by
            rcases lt_trichotomy (s.uPrev.getD (n + 1) 0) (s.uPP.getD (n + 1) 0) with hh | hh | hh
            · exact absurd (by rw [hb.2.1]; exact hsg.2.1.2 hh) hz'
            · exact absurd (hsg.1.2 hh) hz
            · exact hh
          refine ⟨l, x, y, [], by simp [t3], hch, ?_, by rw [t3], by simp⟩
          rw [t4, t5]; exact he.mono _ _ hlt
        · omega
      · rw [hf] at h'; cases h'
      · rw [hf] at h'
        cases h'
        right
        rcases hc with ⟨hb, _⟩ | ⟨hst, _, hp⟩
        · have := hb.1; omega
        · exact ⟨hst, by simp, hp⟩
  · rintro s s1 ⟨l, x, y, ⟨t1, t2, t3, t4, t5⟩, hc⟩ hf
    have hsg := psrTangent_sign hn (u := s.uPrev) (v := s.uPP) (by rw [t1, t2]) (n + 1)
    right
    rcases foldCheck_cases a (psrTangent E s.uPrev s.uPP) s with
      ⟨hz, h'⟩ | ⟨hz, hz', ⟨f0, st, h'⟩ | ⟨f0, st, h'⟩ | ⟨f1, h'⟩ | ⟨f2, h'⟩⟩
    · rw [hf] at h'; cases h'
    · rw [hf] at h'
      cases h'
      rcases hc with ⟨hb, hch⟩ | ⟨hst, _⟩
      · have hlt : s.uPP.getD (n + 1) 0 < s.uPrev.getD (n + 1) 0 := by
          rcases lt_trichotomy (s.uPrev.getD (n + 1) 0) (s.uPP.getD (n + 1) 0) with hh | hh | hh
          · exact absurd (by rw [hb.2.1]; exact hsg.2.1.2 hh) hz'
          · exact absurd (hsg.1.2 hh) hz
          · exact hh
        refine ⟨l, x, y, [], by simp [t3], hch, ?_, by rw [t3], by simp⟩
        rw [t4, t5]; exact he.mono _ _ hlt
      · rw [hst] at st; cases st
    · rw [hf] at h'; cases h'
    · rw [hf] at h'
      cases h'
      rcases hc with ⟨hb, _⟩ | ⟨hst, _, hp⟩
      · have := hb.1; omega
      · rw [hst]; exact hp
    · rw [hf] at h'; cases h'
  · rintro s s1 ⟨l, x, y, ⟨t1, t2, t3, t4, t5⟩, hc⟩ hm
    rcases psrMove_cases hm with ⟨u, hcor, rfl, _⟩ | ⟨rfl, _⟩
    · have hul : u.length = n + 2 := by
        refine psrCorrect_length hs (m := n + 2) (fun v _ => augRes_length _ _ _ _ _ _) ?_ hcor
        rw [vAdd_length]
        · exact t1
        · rw [vScale, List.length_map, psrTangent_length E (by rw [t1, t2])]
      refine ⟨l ++ [x], y, E.exp (u.getD (n + 1) 0), ?_, ?_⟩
      · refine ⟨hul, t1, ?_, t5, rfl⟩
        simp [psrAccept, t3]
      · rcases hc with ⟨hb, hch⟩ | ⟨hst, hfo, pre, a', b', post, p1, p2, p3, p4, p5⟩
        · left
          exact ⟨hb, by simpa using hch⟩
        · right
          refine ⟨hst, hfo, pre, a', b', post ++ [E.exp (u.getD (n + 1) 0)], ?_, p2, p3, p4,
            by simp⟩
          simp only [psrAccept, p1, List.append_assoc]
    · refine ⟨l, x, y, ⟨t1, t2, t3, t4, t5⟩, ?_⟩
      rcases hc with ⟨hb, hch⟩ | hp
      · left
        refine ⟨hb, ?_⟩
        rw [show l ++ [x, y] = (l ++ [x]) ++ [y] by simp] at hch
        exact (List.isChain_append.1 hch).1
      · right; exact hp
  · rintro s s1 ⟨l, x, y, ht, hc⟩ hm
    rcases psrMove_cases hm with ⟨u, hcor, rfl, hb⟩ | ⟨rfl, _⟩
    · cases hb
    · rcases hc with ⟨hb, _⟩ | ⟨hst, _, hp⟩
      · left; exact hb.2.2
      · right; rw [hst]; exact hp
  · rintro s ⟨l, x, y, ht, hc⟩
    rcases hc with ⟨hb, _⟩ | ⟨hst, _, hp⟩
    · left; exact hb.2.2
    · right; rw [hst]; exact hp
  · obtain ⟨l, x, y, ht, hb, hch⟩ := h0
    exact ⟨l, x, y, ht, Or.inl ⟨hb, hch⟩⟩

theorem ofFn_append_getD (f : Fin n → K) (x y : K) :
    (List.ofFn f ++ [x, y]).getD (n + 1) 0 = y := by
  rw [List.getD_eq_getElem?_getD, List.getElem?_append_right (by simp)]
  simp

theorem psrInit_tail {E : PsrEnv K} (he : Spec.ExpLike E) {a : PsrArgs K} {x0 x1 : List K}
    (h0 : 0 < a.tauStart) (h1 : 0 < a.tauSecond) :
    PsrTail E (psrInit E a x0 x1 : PsrState K n) [] a.tauStart a.tauSecond ∧
      PsrBurning (psrInit E a x0 x1 : PsrState K n) := by
  refine ⟨⟨by simp [psrInit], by simp [psrInit], rfl, ?_, ?_⟩, rfl, rfl, rfl⟩
  · simp only [psrInit]
    rw [ofFn_append_getD, he.exp_log _ h0]
  · simp only [psrInit]
    rw [ofFn_append_getD, he.exp_log _ h1]

theorem chain_ge_last {pre : List K} {x y : K} (h : List.IsChain (· ≥ ·) (pre ++ [x]))
    (hy : y ∈ pre ++ [x]) : x ≤ y := by
  have hp : List.Pairwise (· ≥ ·) (pre ++ [x]) := List.isChain_iff_pairwise.1 h
  rcases List.mem_append.1 hy with hm | hm
  · exact (List.pairwise_append.1 hp).2.2 y hm x (by simp)
  · simp at hm; rw [hm]

/-- the least of falling values followed by a larger one is the last but one -/
theorem firstLeast_turn {pre : List K} {x y : K} {i : Nat}
    (hc : List.IsChain (· ≥ ·) (pre ++ [x])) (hxy : x < y)
    (h : Spec.FirstLeast (pre ++ [x, y]) i) :
    i ≤ pre.length ∧ (pre ++ [x, y])[i]? = some x := by
  obtain ⟨v, hv, hle, hlt⟩ := h
  have hx : (pre ++ [x, y])[pre.length]? = some x := by simp
  have hvx : v ≤ x := hle _ _ hx
  have hip : i ≤ pre.length := by
    by_contra hh
    have hl : i < (pre ++ [x, y]).length := by
      by_contra hl
      rw [List.getElem?_eq_none (by omega)] at hv
      cases hv
    rw [List.length_append] at hl
    simp only [List.length_cons, List.length_nil] at hl
    have hi : i = pre.length + 1 := by omega
    rw [hi, List.getElem?_append_right (by omega)] at hv
    simp at hv
    rw [← hv] at hvx
    exact absurd hxy (not_lt.2 hvx)
  refine ⟨hip, ?_⟩
  have hmem : v ∈ pre ++ [x] := by
    rw [show pre ++ [x, y] = (pre ++ [x]) ++ [y] by simp,
      List.getElem?_append_left (by simp; omega)] at hv
    exact List.mem_of_getElem? hv
  rw [hv, le_antisymm hvx (chain_ge_last hc hmem)]

/-! ### step sizes -/

/-- bounds on the step sizes used -/
def PsrSteps (a : PsrArgs K) (lo hi : K) (q : K × Nat) : Prop :=
  lo ≤ q.1 ∧ q.1 ≤ hi ∧ (1 ≤ q.2 → q.1 ≤ min a.dsMax psrDsMiddle)

/-- the bounds for the state: of the current step, of the cap, and of all steps used -/
def PsrBounds (a : PsrArgs K) (s : PsrState K n) (low : K → Prop) : Prop :=
  low s.ds ∧ s.ds ≤ max a.ds0 a.dsMax ∧
  min a.dsMax psrDsMiddle ≤ s.cap ∧ s.cap ≤ a.dsMax ∧
  (1 ≤ s.folds → s.cap = min a.dsMax psrDsMiddle ∧ s.ds ≤ min a.dsMax psrDsMiddle) ∧
  (∀ q ∈ s.calls, PsrSteps a (min (min a.ds0 a.dsMin) (min a.dsMax psrDsMiddle))
    (max a.ds0 a.dsMax) q)

theorem psrLoop_steps {E : PsrEnv K} {g : PsrGas K n} {a : PsrArgs K}
    (hpos : 0 ≤ a.ds0 ∧ 0 ≤ a.dsMin ∧ 0 ≤ a.dsMax) (k : Nat) (s s' : PsrState K n)
    (h0 : PsrBounds a s
      (fun x => min (min a.ds0 a.dsMin) (min a.dsMax psrDsMiddle) ≤ x))
    (h : psrLoop E g a k s = .ok s') :
    (∀ q ∈ s'.calls, PsrSteps a (min (min a.ds0 a.dsMin) (min a.dsMax psrDsMiddle))
      (max a.ds0 a.dsMax) q) := by
  have hlo : 0 ≤ min (min a.ds0 a.dsMin) (min a.dsMax psrDsMiddle) := by
    refine le_min (le_min hpos.1 hpos.2.1) (le_min hpos.2.2 ?_)
    unfold psrDsMiddle; norm_num
  refine psrLoop_ind
    (P := fun s => PsrBounds a s
      (fun x => min (min a.ds0 a.dsMin) (min a.dsMax psrDsMiddle) ≤ x))
    (P' := fun s => PsrBounds a s
      (fun x => min (min a.ds0 a.dsMin) (min a.dsMax psrDsMiddle) ≤ x))
    (Q := fun s => ∀ q ∈ s.calls,
      PsrSteps a (min (min a.ds0 a.dsMin) (min a.dsMax psrDsMiddle)) (max a.ds0 a.dsMax) q)
    ?_ ?_ ?_ ?_ (fun s hp => hp.2.2.2.2.2) (fun t s => foldCheck_u a t s) k s s' h0 h
  · rintro s s1 ⟨b1, b2, b3, b4, b5, b6⟩ hf
    rcases foldCheck_cases a (psrTangent E s.uPrev s.uPP) s with
        ⟨hz, h'⟩ | ⟨hz, hz', ⟨f0, st, h'⟩ | ⟨f0, st, h'⟩ | ⟨f1, h'⟩ | ⟨f2, h'⟩⟩
    · rw [hf] at h'; cases h'; exact ⟨b1, b2, b3, b4, b5, b6⟩
    · rw [hf] at h'; cases h'
    · rw [hf] at h'; cases h'
      refine ⟨le_min b1 (min_le_right _ _), le_trans (min_le_left _ _) b2, le_refl _,
        min_le_left _ _, fun _ => ⟨rfl, min_le_right _ _⟩, b6⟩
    · rw [hf] at h'; cases h'
    · rw [hf] at h'; cases h'; exact ⟨b1, b2, b3, b4, fun _ => b5 (by omega), b6⟩
  · rintro s s1 ⟨b1, b2, b3, b4, b5, b6⟩ hf
    have hl := foldCheck_lists a (psrTangent E s.uPrev s.uPP) s
    rw [hf] at hl
    rw [hl.2.2.2.1]; exact b6
  · rintro s s1 ⟨b1, b2, b3, b4, b5, b6⟩ hm
    have hq : PsrSteps a (min (min a.ds0 a.dsMin) (min a.dsMax psrDsMiddle)) (max a.ds0 a.dsMax)
        (s.ds, s.folds) := ⟨b1, b2, fun hf => (b5 hf).2⟩
    have h6 : ∀ q ∈ s.calls ++ [(s.ds, s.folds)],
        PsrSteps a (min (min a.ds0 a.dsMin) (min a.dsMax psrDsMiddle)) (max a.ds0 a.dsMax) q := by
      intro q hq'
      rcases List.mem_append.1 hq' with hq' | hq'
      · exact b6 q hq'
      · simp at hq'; rw [hq']; exact hq
    have hds : 0 ≤ s.ds := le_trans hlo b1
    rcases psrMove_cases hm with ⟨u, hcor, rfl, _⟩ | ⟨rfl, hb⟩
    · refine ⟨?_, ?_, b3, b4, ?_, h6⟩
      · refine le_min (le_trans b1 (by linarith)) (le_trans (min_le_right _ _) b3)
      · exact le_trans (min_le_right _ _) (le_trans b4 (le_max_right _ _))
      · intro hf
        refine ⟨(b5 hf).1, ?_⟩
        simp only [psrAccept]
        rw [(b5 hf).1]
        exact min_le_right _ _
    · have hb' := of_decide_eq_false hb.symm
      refine ⟨?_, ?_, b3, b4, ?_, h6⟩
      · exact le_trans (min_le_left _ _) (le_trans (min_le_right _ _) (not_lt.1 hb'))
      · exact le_trans (by linarith : s.ds * (1 / 2) ≤ s.ds) b2
      · intro hf
        exact ⟨(b5 hf).1, le_trans (by linarith : s.ds * (1 / 2) ≤ s.ds) (b5 hf).2⟩
  · rintro s s1 ⟨b1, b2, b3, b4, b5, b6⟩ hm
    rcases psrMove_cases hm with ⟨u, hcor, rfl, hb⟩ | ⟨rfl, hb⟩
    · cases hb
    · intro q hq'
      rcases List.mem_append.1 hq' with hq' | hq'
      · exact b6 q hq'
      · simp at hq'; rw [hq']; exact ⟨b1, b2, fun hf => (b5 hf).2⟩

theorem psrLoop_calls {E : PsrEnv K} {g : PsrGas K n} {a : PsrArgs K} :
    ∀ (k : Nat) (s s' : PsrState K n), psrLoop E g a k s = .ok s' →
      s'.calls.length ≤ s.calls.length + k := by
  intro k
  induction k with
  | zero => intro s s' h; cases h; simp
  | succ k ih =>
    intro s s' h
    rw [psrLoop] at h
    have hl := foldCheck_lists a (psrTangent E s.uPrev s.uPP) s
    rcases hf : foldCheck a (psrTangent E s.uPrev s.uPP) s with ⟨s1, _ | _⟩
    · rw [hf] at h hl
      dsimp only at h hl
      cases hm : psrMove E g a (psrTangent E s.uPrev s.uPP) s1 with
      | error e => rw [hm] at h; cases h
      | ok r =>
        obtain ⟨s2, b⟩ := r
        have hc : s2.calls.length = s.calls.length + 1 := by
          rcases psrMove_cases hm with ⟨u, hcor, rfl, _⟩ | ⟨rfl, _⟩
          · simp [psrAccept, hl.2.2.2.1]
          · simp [hl.2.2.2.1]
        rw [hm] at h
        cases b
        · have := ih _ _ h; omega
        · cases h; omega
    · rw [hf] at h hl
      cases h
      dsimp only at hl
      rw [hl.2.2.2.1]; omega

/-- every point taken costs one call of the corrector -/
theorem psrLoop_count {E : PsrEnv K} {g : PsrGas K n} {a : PsrArgs K} (k : Nat)
    (s s' : PsrState K n) (c : Nat) (h0 : s.taus.length ≤ s.calls.length + c)
    (h : psrLoop E g a k s = .ok s') : s'.taus.length ≤ s'.calls.length + c := by
  refine psrLoop_inv (P := fun s => s.taus.length ≤ s.calls.length + c) ?_ ?_ k s s' h0 h
  · intro s t hp
    have hl := foldCheck_lists a t s
    rw [hl.1, hl.2.2.2.1]; exact hp
  · intro s s' b hp hm
    rcases psrMove_cases hm with ⟨u, hcor, rfl, _⟩ | ⟨rfl, _⟩
    · simp only [psrAccept, List.length_append, List.length_cons, List.length_nil]; omega
    · simp only [List.length_append, List.length_cons, List.length_nil]; omega

theorem vDot_sub_self (t u : List K) : vDot t (vSub u u) = 0 := by
  unfold vDot vSub
  apply List.sum_eq_zero
  intro x hx
  rw [List.mem_iff_getElem] at hx
  obtain ⟨i, hi, rfl⟩ := hx
  simp

theorem getD_ext {u v : List K} (h : u.length = v.length)
    (he : ∀ i, u.getD i 0 = v.getD i 0) : u = v := by
  apply List.ext_getElem h
  intro i h1 h2
  have := he i
  rwa [List.getD_eq_getElem _ _ h1, List.getD_eq_getElem _ _ h2] at this

theorem norm_vSub_pos' {norm : List K → K} (hn : Spec.NormLike norm) {u v : List K}
    (h : u.length = v.length) (hne : u ≠ v) : 0 < norm (vSub u v) := by
  by_contra hc
  refine hne (getD_ext h (fun i => ?_))
  by_contra hi
  exact hc (norm_vSub_pos hn h hi)

theorem log_lt {E : PsrEnv K} (he : Spec.ExpLike E) {x y : K} (hx : 0 < x) (hy : 0 < y)
    (h : x < y) : E.log x < E.log y := by
  by_contra hc
  have := exp_le he (not_lt.1 hc)
  rw [he.exp_log _ hx, he.exp_log _ hy] at this
  exact absurd h (not_lt.2 this)

/-- consecutive points differ, as long as the step is not below the tolerance -/
theorem psrLoop_distinct {E : PsrEnv K} {g : PsrGas K n} {a : PsrArgs K}
    (hn : Spec.NormLike E.norm) (hs : Spec.Shapes E) (hh : Spec.RootHonest E) {lo : K}
    (hlo : 1 / 10000000 ≤ lo) (hmin : lo ≤ a.dsMin) (hmax : lo ≤ min a.dsMax psrDsMiddle)
    (k : Nat) (s s' : PsrState K n)
    (h0 : s.uPrev.length = n + 2 ∧ s.uPP.length = n + 2 ∧ s.uPrev ≠ s.uPP ∧ lo ≤ s.ds ∧
      lo ≤ s.cap) (h : psrLoop E g a k s = .ok s') :
    s'.uPrev.length = n + 2 ∧ s'.uPP.length = n + 2 ∧ s'.uPrev ≠ s'.uPP := by
  refine psrLoop_ind
    (P := fun s => s.uPrev.length = n + 2 ∧ s.uPP.length = n + 2 ∧ s.uPrev ≠ s.uPP ∧ lo ≤ s.ds ∧
      lo ≤ s.cap)
    (P' := fun s => s.uPrev.length = n + 2 ∧ s.uPP.length = n + 2 ∧ s.uPrev ≠ s.uPP ∧ lo ≤ s.ds ∧
      lo ≤ s.cap)
    (Q := fun s => s.uPrev.length = n + 2 ∧ s.uPP.length = n + 2 ∧ s.uPrev ≠ s.uPP)
    ?_ ?_ ?_ ?_ (fun s hp => ⟨hp.1, hp.2.1, hp.2.2.1⟩) (fun t s => foldCheck_u a t s) k s s' h0 h
  · rintro s s1 ⟨b1, b2, b3, b4, b5⟩ hf
    rcases foldCheck_cases a (psrTangent E s.uPrev s.uPP) s with
        ⟨hz, h'⟩ | ⟨hz, hz', ⟨f0, st, h'⟩ | ⟨f0, st, h'⟩ | ⟨f1, h'⟩ | ⟨f2, h'⟩⟩
    · rw [hf] at h'; cases h'; exact ⟨b1, b2, b3, b4, b5⟩
    · rw [hf] at h'; cases h'
    · rw [hf] at h'; cases h'; exact ⟨b1, b2, b3, le_min b4 hmax, hmax⟩
    · rw [hf] at h'; cases h'
    · rw [hf] at h'; cases h'; exact ⟨b1, b2, b3, b4, b5⟩
  · rintro s s1 ⟨b1, b2, b3, _, _⟩ hf
    have hu := foldCheck_u a (psrTangent E s.uPrev s.uPP) s
    rw [hf] at hu
    rw [hu.1, hu.2]; exact ⟨b1, b2, b3⟩
  · rintro s s1 ⟨b1, b2, b3, b4, b5⟩ hm
    rcases psrMove_cases hm with ⟨u, hcor, rfl, _⟩ | ⟨rfl, hb⟩
    · have hul : u.length = n + 2 := by
        refine psrCorrect_length hs (m := n + 2) (fun v _ => augRes_length _ _ _ _ _ _) ?_ hcor
        rw [vAdd_length]
        · exact b1
        · rw [vScale, List.length_map, psrTangent_length E (by rw [b1, b2])]
      refine ⟨hul, b1, ?_, ?_, b5⟩
      · rintro he
        have hr := psrCorrect_ok hh hcor
        have := lt_of_le_of_lt (hn.entry _ (vDot (psrTangent E s.uPrev s.uPP)
          (vSub u s.uPrev) - s.ds) (by simp [augRes])) hr
        rw [show u = s.uPrev from he, vDot_sub_self, zero_sub, abs_neg] at this
        have h2 := le_abs_self s.ds
        linarith
      · have : 0 ≤ s.ds := by linarith [show (0 : K) ≤ 1 / 10000000 by norm_num]
        exact le_min (by linarith) b5
    · have hb' := of_decide_eq_false hb.symm
      exact ⟨b1, b2, b3, le_trans hmin (not_lt.1 hb'), b5⟩
  · rintro s s1 ⟨b1, b2, b3, b4, b5⟩ hm
    rcases psrMove_cases hm with ⟨u, hcor, rfl, hb⟩ | ⟨rfl, hb⟩
    · cases hb
    · exact ⟨b1, b2, b3⟩

theorem psrLoop_prefix {E : PsrEnv K} {g : PsrGas K n} {a : PsrArgs K} (k : Nat)
    (s s' : PsrState K n) (c : List (K × Nat)) (h0 : c <+: s.calls)
    (h : psrLoop E g a k s = .ok s') : c <+: s'.calls := by
  refine psrLoop_inv (P := fun s => c <+: s.calls) ?_ ?_ k s s' h0 h
  · intro s t hp
    rw [(foldCheck_lists a t s).2.2.2.1]; exact hp
  · intro s s' b hp hm
    rcases psrMove_cases hm with ⟨u, hcor, rfl, _⟩ | ⟨rfl, _⟩
    · exact hp.trans (List.prefix_append _ _)
    · exact hp.trans (List.prefix_append _ _)

theorem psrLoop_error {E : PsrEnv K} {g : PsrGas K n} {a : PsrArgs K}
    (hr : Spec.RootRaises E) : ∀ (k : Nat) (s : PsrState K n) (e : Err),
      psrLoop E g a k s = .error e → e = .runtimeError := by
  intro k
  induction k with
  | zero => intro s e h; cases h
  | succ k ih =>
    intro s e h
    rw [psrLoop] at h
    rcases hf : foldCheck a (psrTangent E s.uPrev s.uPP) s with ⟨s1, _ | _⟩
    · rw [hf] at h
      dsimp only at h
      cases hm : psrMove E g a (psrTangent E s.uPrev s.uPP) s1 with
      | error e' =>
        rw [hm] at h
        cases h
        unfold psrMove at hm
        cases hc : psrCorrect E (augRes E g (psrTangent E s.uPrev s.uPP) s1.uPrev s1.ds)
            (augJac E g (psrTangent E s.uPrev s.uPP))
            (vAdd s1.uPrev (vScale s1.ds (psrTangent E s.uPrev s.uPP))) with
        | error e'' =>
          rw [hc] at hm
          cases hm
          obtain ⟨x, hx⟩ := hr _ _ _ _ (psrCorrect_error hc)
          unfold augJac coreJacU at hx
          cases hj : coreJac g (massFrac n x) (x.getD n 0 * psrTref)
              (E.exp (x.getD (n + 1) 0)) with
          | error e3 => rw [hj] at hx; cases hx; exact coreJac_error hj
          | ok J => rw [hj] at hx; cases hx
        | ok r =>
          rw [hc] at hm
          obtain ⟨u, b⟩ := r
          dsimp only at hm
          cases b <;> simp at hm
      | ok r =>
        rw [hm] at h
        obtain ⟨s2, b⟩ := r
        cases b
        · exact ih _ _ h
        · cases h
    · rw [hf] at h; cases h

end
end Verif
