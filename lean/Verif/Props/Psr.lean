import Verif.Lemmas.PsrShape
import Verif.Lemmas.PsrLinear
import Mathlib.Algebra.Order.Ring.Rat
import Mathlib.Data.Rat.Init
/-!
# The stirred-reactor solver: C60-C63
-/
set_option linter.unusedSectionVars false
namespace Verif

section
variable {K : Type} [Field K] [LinearOrder K] [IsStrictOrderedRing K] {n : Nat}

/-! ### C60 -/

/-- **C60**: convergence is reported only for a residual norm below `100 tol`, and below `tol`
unless all iterations were used. -/
theorem C60_converged (E : NewtonEnv K) (x0 : List K) {tol : K} (ht : 0 < tol) (maxit : Nat)
    (h : (dampedNewton E x0 tol maxit).ok = true) :
    E.norm (E.residual (dampedNewton E x0 tol maxit).x) < 100 * tol ∧
    ((dampedNewton E x0 tol maxit).iterates.length ≤ maxit →
      E.norm (E.residual (dampedNewton E x0 tol maxit).x) < tol) := by
  rcases (newtonLoop_verdict E tol maxit x0).1 h with h' | ⟨hl, h'⟩
  · exact ⟨lt_trans h' (by linarith), fun _ => h'⟩
  · refine ⟨by rw [mul_comm]; exact h', fun hl' => ?_⟩
    unfold dampedNewton at hl'
    omega

/-- **C60**: the iterates start at the initial point, end at the returned one, are at most
`maxit` Newton steps, each damped by the first of `1, 1/2, ...` that strictly lowers the residual
norm; the residual is evaluated at most `maxit * (n + 21) + 1` times. -/
theorem C60_iterates (E : NewtonEnv K) (x0 : List K) (tol : K) (maxit : Nat) :
    (dampedNewton E x0 tol maxit).iterates.head? = some x0 ∧
    (dampedNewton E x0 tol maxit).iterates.getLast? = some (dampedNewton E x0 tol maxit).x ∧
    (dampedNewton E x0 tol maxit).iterates.length ≤ maxit + 1 ∧
    List.IsChain (Spec.NewtonStep E.residual E.norm E.solve)
      (dampedNewton E x0 tol maxit).iterates ∧
    List.IsChain (fun u v => E.norm (E.residual v) < E.norm (E.residual u))
      (dampedNewton E x0 tol maxit).iterates ∧
    (dampedNewton E x0 tol maxit).evals ≤ maxit * (x0.length + 21) + 1 := by
  obtain ⟨h1, h2, h3, _, h5⟩ := newtonLoop_spec E tol maxit x0
  obtain ⟨t, ht⟩ := newtonLoop_head E tol maxit x0
  refine ⟨?_, h1, h2, h3, ?_, h5⟩
  · unfold dampedNewton; rw [ht]; rfl
  · refine List.IsChain.imp ?_ h3
    rintro u v ⟨_, _, _, _, _, hlt, _⟩
    exact hlt

/-- **C60**: failure is reported in exactly three cases: a singular Jacobian, no decrease in
twenty halvings (both with a residual norm of at least `tol`), or `maxit` steps that leave it at
`100 tol` or more.  In the first two the solver stops at once. -/
theorem C60_failed (E : NewtonEnv K) (x0 : List K) (tol : K) (maxit : Nat)
    (h : (dampedNewton E x0 tol maxit).ok = false) :
    (tol ≤ E.norm (E.residual (dampedNewton E x0 tol maxit).x) ∧
      Spec.NewtonStuck E.residual E.norm E.solve (dampedNewton E x0 tol maxit).x) ∨
    ((dampedNewton E x0 tol maxit).iterates.length = maxit + 1 ∧
      100 * tol ≤ E.norm (E.residual (dampedNewton E x0 tol maxit).x)) := by
  rcases (newtonLoop_verdict E tol maxit x0).2 h with h' | ⟨hl, h'⟩
  · exact Or.inl h'
  · exact Or.inr ⟨hl, by rw [mul_comm]; exact h'⟩

/-- a step and being stuck exclude each other -/
theorem stuck_no_step {residual : List K → List K} {norm : List K → K}
    {solve : List (List K) → List K → Option (List K)} {u v : List K}
    (h : Spec.NewtonStuck residual norm solve u) (hs : Spec.NewtonStep residual norm solve u v) :
    False := by
  obtain ⟨step, i, hi, h1, h2, h3, _⟩ := hs
  rcases h with h | ⟨step', h, hh⟩
  · rw [h] at h1; cases h1
  · rw [h] at h1
    cases h1
    have := hh i hi
    rw [← h2] at this
    exact absurd h3 (not_lt.2 this)

/-- **C60**: a singular Jacobian or a failed line search at the current point gives `False` and
leaves the point where it is. -/
theorem C60_stuck (E : NewtonEnv K) (x0 : List K) (tol : K) (maxit : Nat)
    (h0 : tol ≤ E.norm (E.residual x0))
    (hs : Spec.NewtonStuck E.residual E.norm E.solve x0) :
    (dampedNewton E x0 tol (maxit + 1)).ok = false ∧ (dampedNewton E x0 tol (maxit + 1)).x = x0 := by
  unfold dampedNewton
  rcases newtonLoop_cases E tol maxit x0 with ⟨h, _⟩ | ⟨_, _, c, _, h⟩ | ⟨_, v, c, hst, _⟩
  · exact absurd h (not_lt.2 h0)
  · rw [h]; exact ⟨rfl, rfl⟩
  · exact (stuck_no_step hs hst).elim

/-- **C60**: on an affine residual `A u - b` that `np.linalg.solve` can invert, the solver finds
the exact root in one full step, from any starting point and with any iteration limit. -/
theorem C60_affine {A : List (List K)} {b x0 step : List K} {norm : List K → K}
    {solve : List (List K) → List K → Option (List K)} {tol : K} (ht : 0 < tol) (maxit : Nat)
    (hn : ∀ k, norm (List.replicate k 0) = 0) (hb : A.length = b.length)
    (hr : ∀ r ∈ A, r.length = x0.length) (h0 : tol ≤ norm (vSub (mVec A x0) b))
    (hs : solve A ((vSub (mVec A x0) b).map (fun x => -x)) = some step)
    (hl : step.length = x0.length)
    (hx : mVec A step = (vSub (mVec A x0) b).map (fun x => -x)) :
    (dampedNewton ⟨fun u => vSub (mVec A u) b, norm, solve⟩ x0 tol (maxit + 1)).ok = true ∧
    (dampedNewton ⟨fun u => vSub (mVec A u) b, norm, solve⟩ x0 tol (maxit + 1)).x
      = vAdd x0 step ∧
    mVec A (vAdd x0 step) = b := by
  have hz := affine_step hb hr hl hx
  have hd : ∀ k, (newtonLoop (⟨fun u => vSub (mVec A u) b, norm, solve⟩ : NewtonEnv K) tol k
      (vAdd x0 step)).ok = true ∧ (newtonLoop (⟨fun u => vSub (mVec A u) b, norm, solve⟩ :
        NewtonEnv K) tol k (vAdd x0 step)).x = vAdd x0 step := by
    intro k
    cases k with
    | zero =>
      simp only [newtonLoop, hz, hn, decide_eq_true_eq, and_true]
      linarith
    | succ k =>
      rw [newtonLoop]
      simp only [hz, hn, if_pos ht, and_self]
  have hmain : newtonLoop (⟨fun u => vSub (mVec A u) b, norm, solve⟩ : NewtonEnv K) tol
      (maxit + 1) x0 = ⟨(newtonLoop (⟨fun u => vSub (mVec A u) b, norm, solve⟩ : NewtonEnv K) tol
        maxit (vAdd x0 step)).x, (newtonLoop (⟨fun u => vSub (mVec A u) b, norm, solve⟩ :
        NewtonEnv K) tol maxit (vAdd x0 step)).ok, x0 :: (newtonLoop
        (⟨fun u => vSub (mVec A u) b, norm, solve⟩ : NewtonEnv K) tol maxit
        (vAdd x0 step)).iterates, 1 + x0.length + 1 + (newtonLoop
        (⟨fun u => vSub (mVec A u) b, norm, solve⟩ : NewtonEnv K) tol maxit
        (vAdd x0 step)).evals⟩ := by
    rw [newtonLoop]
    dsimp only
    rw [if_neg (not_lt.2 h0), vScale_neg_one, fdJac_affine hb hr, hs]
    have hls : lineSearch (⟨fun u => vSub (mVec A u) b, norm, solve⟩ : NewtonEnv K) x0 step
        (norm (vSub (mVec A x0) b)) 20 1 = (some 1, 1) := by
      rw [lineSearch]
      dsimp only
      have hlt : norm (vSub (mVec A (vAdd x0 (vScale 1 step))) b) < norm (vSub (mVec A x0) b) := by
        rw [vScale_one, hz, hn]; exact lt_of_lt_of_le ht h0
      rw [if_pos hlt]
    dsimp only
    rw [hls]
    dsimp only
    rw [vScale_one]
  refine ⟨?_, ?_, ?_⟩
  · unfold dampedNewton; rw [hmain]; exact (hd maxit).1
  · unfold dampedNewton; rw [hmain]; exact (hd maxit).2
  · apply List.ext_getElem
    · simp [mVec, hb]
    · intro i h1 h2
      have := congrArg (fun l => l.getD i 0) hz
      rw [vSub_getD (by simp [mVec, hb]), List.getD_eq_getElem _ _ h1,
        List.getD_eq_getElem _ _ h2, List.getD_eq_getElem _ _ (by simpa using h2),
        List.getElem_replicate] at this
      exact sub_eq_zero.1 this

/-! ### C61 -/

/-- **C61**: every point of the branch and each of the three samples is a steady state with all
balances below `1e-7`, at a positive temperature where the gas can be evaluated. -/
theorem C61_points {E : PsrEnv K} {g : PsrGas K n} {equil : Option (List K)} {a : PsrArgs K}
    {c : PsrCurve K n} (hn : Spec.NormLike E.norm) (hh : Spec.RootHonest E)
    (h : traceCurve E g equil a = .ok c) :
    (∀ q ∈ c.branch, ∃ Y, Spec.Steady g (1 / 10000000) q.1 q.2 Y) ∧
    (∀ p ∈ [c.extinction, c.near, c.logMid],
      Spec.Steady g (1 / 10000000) p.tau p.T p.Y ∧ (p.tau, p.T) ∈ c.branch) := by
  obtain ⟨guess, x0, x1, i, _, h0, h1, hl, hi, hb, he, hne, hmi⟩ := traceCurve_ok h
  have hg := (psrLoop_good hn hh _ _ _ (psrInit_good hn hh h0 h1) hl).1
  have hlen := hg.1.length_eq
  rw [List.length_zip, hg.2.1, Nat.min_self] at hlen
  have hidx := hg.2.2 i hi
  have hmem : ∀ j < c.final.taus.length,
      Spec.Steady g (1 / 10000000) (psrPoint c.final j).tau (psrPoint c.final j).T
        (psrPoint c.final j).Y ∧
      ((psrPoint c.final j).tau, (psrPoint c.final j).T) ∈ c.branch := by
    intro j hj
    refine ⟨psrGood_point hg hj, ?_⟩
    rw [hb]
    have hz : j < (c.final.taus.zip c.final.temps).length := by
      rw [List.length_zip, hg.2.1]; omega
    have := List.getElem_mem hz
    rw [List.getElem_zip] at this
    unfold psrPoint
    dsimp only
    rw [List.getD_eq_getElem _ _ hj, List.getD_eq_getElem _ _ (by rw [hg.2.1]; omega)]
    exact this
  constructor
  · intro q hq
    rw [hb] at hq
    obtain ⟨j, hj, rfl⟩ := List.getElem_of_mem hq
    rw [List.length_zip] at hj
    have hp := (hmem j (by omega)).1
    unfold psrPoint at hp
    rw [List.getElem_zip]
    rw [List.getD_eq_getElem _ _ (by omega), List.getD_eq_getElem _ _ (by omega)] at hp
    exact ⟨_, hp⟩
  · intro p hp
    simp only [List.mem_cons, List.not_mem_nil, or_false] at hp
    rcases hp with rfl | rfl | rfl
    · rw [he]; exact hmem i hidx
    · rw [hne]; exact hmem _ (idx_lt _ hidx).2
    · rw [hmi]; exact hmem _ (idx_lt _ hidx).2

/-! ### C62 -/

/-- **C62**: with `stop_at_extinction` the residence times fall (weakly) to `a'` and then rise
once, to `b'`; the extinction point has residence time `a'`, the least of the branch. -/
theorem C62_extinction {E : PsrEnv K} {g : PsrGas K n} {equil : Option (List K)} {a : PsrArgs K}
    {c : PsrCurve K n} (hn : Spec.NormLike E.norm) (hs : Spec.Shapes E) (he : Spec.ExpLike E)
    (h0 : 0 < a.tauStart) (h1 : 0 < a.tauSecond) (hstop : a.stop = true)
    (h : traceCurve E g equil a = .ok c) :
    ∃ pre a' b', c.final.taus = pre ++ [a', b'] ∧ List.IsChain (· ≥ ·) (pre ++ [a']) ∧ a' < b' ∧
      c.extinction.tau = a' ∧ ∀ t ∈ c.final.taus, c.extinction.tau ≤ t := by
  obtain ⟨guess, x0, x1, i, _, _, _, hl, hi, hb, hex, hne, hmi⟩ := traceCurve_ok h
  obtain ⟨ht, hbu⟩ := psrInit_tail (n := n) he (x0 := x0) (x1 := x1) h0 h1
  rcases psrLoop_shape hn hs he _ _ _ ⟨[], _, _, ht, hbu, by simp⟩ hl with hh | hh
  · rw [hi] at hh; cases hh
  · obtain ⟨pre, a', b', post, p1, p2, p3, p4, p5⟩ := hh
    rw [p5 hstop, List.append_nil] at p1
    rw [hi] at p4
    cases p4
    have hf : Spec.FirstLeast (pre ++ [a', b']) (leastIdx (pre ++ [a', b'])) :=
      leastIdx_spec (by simp)
    have hx := firstLeast_turn p2 p3 hf
    have hext : c.extinction.tau = a' := by
      rw [hex]
      unfold psrPoint
      dsimp only
      rw [p1, List.getD_eq_getElem?_getD, hx.2]; rfl
    refine ⟨pre, a', b', p1, p2, p3, hext, ?_⟩
    intro t htm
    rw [hext]
    rw [p1, show pre ++ [a', b'] = (pre ++ [a']) ++ [b'] by simp] at htm
    rcases List.mem_append.1 htm with hm | hm
    · exact chain_ge_last p2 hm
    · simp at hm; rw [hm]; exact le_of_lt p3

/-- **C62, refuted part**: the branch does not end at the extinction point: its last point is
past the fold, with a strictly larger residence time. -/
theorem C62_end_refuted {E : PsrEnv K} {g : PsrGas K n} {equil : Option (List K)}
    {a : PsrArgs K} {c : PsrCurve K n} (hn : Spec.NormLike E.norm) (hs : Spec.Shapes E)
    (hh : Spec.RootHonest E)
    (he : Spec.ExpLike E) (h0 : 0 < a.tauStart) (h1 : 0 < a.tauSecond) (hstop : a.stop = true)
    (h : traceCurve E g equil a = .ok c) :
    ∃ q, c.branch.getLast? = some q ∧ c.extinction.tau < q.1 := by
  obtain ⟨pre, a', b', p1, _, p3, p4, _⟩ := C62_extinction hn hs he h0 h1 hstop h
  obtain ⟨guess, x0, x1, i, _, s0, s1, hl, hi, hb, _⟩ := traceCurve_ok h
  have hg := (psrLoop_good hn hh _ _ _ (psrInit_good hn hh s0 s1) hl).1
  have hlen := hg.1.length_eq
  rw [List.length_zip, hg.2.1, Nat.min_self] at hlen
  have hl2 : c.final.temps.length = c.final.taus.length := by rw [hg.2.1]; exact hlen.symm
  rcases List.eq_nil_or_concat c.final.temps with hnil | ⟨T', z, hT⟩
  · rw [hnil, p1] at hl2; simp at hl2
  · rw [List.concat_eq_append] at hT
    have hT' : (pre ++ [a']).length = T'.length := by
      rw [hT, p1] at hl2; simp at hl2 ⊢; omega
    refine ⟨(b', z), ?_, by rw [p4]; exact p3⟩
    rw [hb, hT, p1, show pre ++ [a', b'] = (pre ++ [a']) ++ [b'] by simp, List.zip_append hT']
    simp

/-- **C62**: in both modes the extinction point is the first least residence time of the part of
the curve known when the fold was seen, and the two other samples are the points nearest 0.1 s
and nearest the geometric mean, among the points up to the extinction point. -/
theorem C62_samples {E : PsrEnv K} {g : PsrGas K n} {equil : Option (List K)} {a : PsrArgs K}
    {c : PsrCurve K n} (hn : Spec.NormLike E.norm) (hs : Spec.Shapes E) (he : Spec.ExpLike E)
    (h0 : 0 < a.tauStart) (h1 : 0 < a.tauSecond)
    (h : traceCurve E g equil a = .ok c) :
    ∃ i j k, j ≤ i ∧ k ≤ i ∧ i < c.final.taus.length ∧
      c.extinction = psrPoint c.final i ∧ c.near = psrPoint c.final j ∧
      c.logMid = psrPoint c.final k ∧
      (∀ x ∈ c.final.taus.take (i + 1), c.extinction.tau ≤ x) ∧
      (∀ x ∈ c.final.taus.take (i + 1), |c.near.tau - 1 / 10| ≤ |x - 1 / 10|) ∧
      (∀ x ∈ c.final.taus.take (i + 1),
        |c.logMid.tau - E.sqrt (c.extinction.tau * c.near.tau)| ≤
          |x - E.sqrt (c.extinction.tau * c.near.tau)|) := by
  obtain ⟨guess, x0, x1, i, _, _, _, hl, hi, hb, hex, hne, hmi⟩ := traceCurve_ok h
  obtain ⟨ht, hbu⟩ := psrInit_tail (n := n) he (x0 := x0) (x1 := x1) h0 h1
  rcases psrLoop_shape hn hs he _ _ _ ⟨[], _, _, ht, hbu, by simp⟩ hl with hh | hh
  · rw [hi] at hh; cases hh
  · obtain ⟨pre, a', b', post, p1, p2, p3, p4, p5⟩ := hh
    rw [hi] at p4
    have hf : Spec.FirstLeast (pre ++ [a', b']) i := by
      cases p4
      exact leastIdx_spec (by simp)
    have hx := firstLeast_turn p2 p3 hf
    have hil : i < c.final.taus.length := by
      rw [p1]; simp only [List.length_append, List.length_cons, List.length_nil]; omega
    have htk : ∀ x ∈ c.final.taus.take (i + 1), x ∈ pre ++ [a'] := by
      intro x hxm
      rw [p1, show pre ++ [a', b'] ++ post = (pre ++ [a']) ++ (b' :: post) by simp,
        List.take_append_of_le_length (by simp; omega)] at hxm
      exact List.mem_of_mem_take hxm
    have hext : c.extinction.tau = a' := by
      rw [hex]
      unfold psrPoint
      dsimp only
      rw [p1, List.getD_eq_getElem?_getD, List.getElem?_append_left (by simp; omega), hx.2]; rfl
    have hmin : ∀ (m : K) (j : Nat), j = leastIdx ((c.final.taus.take (i + 1)).map
        (fun x => absK (x - m))) → ∀ x ∈ c.final.taus.take (i + 1),
        |(psrPoint c.final j).tau - m| ≤ |x - m| := by
      intro m j hj x hxm
      have hne' : (c.final.taus.take (i + 1)).map (fun x => absK (x - m)) ≠ [] := by
        intro hc
        rw [List.map_eq_nil_iff] at hc
        rw [hc] at hxm; cases hxm
      have hbd := idx_lt (fun x => absK (x - m)) hil
      obtain ⟨v, hv, hle, _⟩ := leastIdx_spec hne'
      rw [← hj] at hv hbd
      rw [List.getElem?_map, List.getElem?_take_of_lt (by omega),
        List.getElem?_eq_getElem hbd.2] at hv
      simp only [Option.map_some, Option.some.injEq] at hv
      obtain ⟨k, hk, rfl⟩ := List.getElem_of_mem hxm
      have := hle k _ (by rw [List.getElem?_map, List.getElem?_eq_getElem hk]; rfl)
      rw [← hv] at this
      dsimp only at this
      rw [absK_eq, absK_eq] at this
      unfold psrPoint
      dsimp only
      rw [List.getD_eq_getElem _ _ hbd.2]
      exact this
    refine ⟨i, idxNear c.final.taus i, idxMid E c.final.taus i, (idx_lt _ hil).1,
      (idx_lt _ hil).1, hil, hex, hne, hmi, ?_, ?_, ?_⟩
    · intro x hxm; rw [hext]; exact chain_ge_last p2 (htk x hxm)
    · rw [hne]; exact hmin _ _ rfl
    · have hm : tauMid E c.final.taus i = E.sqrt (c.extinction.tau * c.near.tau) := by
        rw [hex, hne]; rfl
      rw [← hm, hmi]
      exact hmin _ _ rfl

/-- **C62**: the midpoint sample lies between the two others: its residence time is not below the
extinction point's and not above that of the point nearest 0.1 s. -/
theorem C62_order {E : PsrEnv K} {g : PsrGas K n} {equil : Option (List K)} {a : PsrArgs K}
    {c : PsrCurve K n} (hn : Spec.NormLike E.norm) (hs : Spec.Shapes E) (he : Spec.ExpLike E)
    (h0 : 0 < a.tauStart) (h1 : 0 < a.tauSecond)
    (hq : E.sqrt (c.extinction.tau * c.near.tau) * E.sqrt (c.extinction.tau * c.near.tau)
      = c.extinction.tau * c.near.tau) (hpos : 0 < c.extinction.tau)
    (h : traceCurve E g equil a = .ok c) :
    c.extinction.tau ≤ c.logMid.tau ∧ c.logMid.tau ≤ c.near.tau := by
  obtain ⟨i, j, k, hj, hk, hi, e1, e2, e3, m1, m2, m3⟩ := C62_samples hn hs he h0 h1 h
  have mem : ∀ m ≤ i, (psrPoint c.final m).tau ∈ c.final.taus.take (i + 1) := by
    intro m hm
    unfold psrPoint
    dsimp only
    rw [List.getD_eq_getElem _ _ (by omega)]
    rw [List.mem_iff_getElem?]
    exact ⟨m, by rw [List.getElem?_take_of_lt (by omega), List.getElem?_eq_getElem (by omega)]⟩
  have hnear := mem j hj
  have hmid := mem k hk
  rw [← e2] at hnear
  rw [← e3] at hmid
  refine ⟨m1 _ hmid, ?_⟩
  by_contra hc
  rw [not_le] at hc
  have hen := m1 _ hnear
  generalize hr : E.sqrt (c.extinction.tau * c.near.tau) = r at *
  have hrn : r ≤ c.near.tau := by
    by_contra hc'
    rw [not_le] at hc'
    have : c.extinction.tau * c.near.tau < r * r := by
      calc c.extinction.tau * c.near.tau ≤ c.near.tau * c.near.tau :=
            mul_le_mul_of_nonneg_right hen (by linarith)
        _ < r * r := mul_self_lt_mul_self (by linarith) hc'
    linarith
  have := m3 _ hnear
  rw [abs_of_nonneg (by linarith), abs_of_nonneg (by linarith)] at this
  linarith

/-! ### C63 -/

/-- **C63**: at most `max_steps` corrector calls; at most two more points than calls. -/
theorem C63_bounded {E : PsrEnv K} {g : PsrGas K n} {equil : Option (List K)} {a : PsrArgs K}
    {c : PsrCurve K n} (h : traceCurve E g equil a = .ok c) :
    c.final.calls.length ≤ a.maxSteps ∧ c.branch.length ≤ a.maxSteps + 2 := by
  obtain ⟨guess, x0, x1, i, _, _, _, hl, hi, hb, _⟩ := traceCurve_ok h
  have h1 := psrLoop_calls _ _ _ hl
  have h2 := psrLoop_count _ _ _ 2 (by simp [psrInit]) hl
  have h3 : (psrInit E a x0 x1 : PsrState K n).calls.length = 0 := rfl
  rw [h3] at h1
  rw [hb, List.length_zip]
  exact ⟨by omega, by omega⟩

/-- **C63, partial**: for `ds0 <= ds_max` no step used exceeds `ds_max`, none past the extinction
fold exceeds 0.05, and no step used is below the least of `ds0`, `ds_min`, `ds_max` and 0.05; in
particular none is below `ds_min` if `ds_min` is below the three others. -/
theorem C63_steps_partial {E : PsrEnv K} {g : PsrGas K n} {equil : Option (List K)}
    {a : PsrArgs K} {c : PsrCurve K n}
    (hpos : 0 ≤ a.ds0 ∧ 0 ≤ a.dsMin ∧ 0 ≤ a.dsMax) (hds : a.ds0 ≤ a.dsMax)
    (h : traceCurve E g equil a = .ok c) :
    ∀ q ∈ c.final.calls, q.1 ≤ a.dsMax ∧ (1 ≤ q.2 → q.1 ≤ 1 / 20) ∧
      min (min a.ds0 a.dsMin) (min a.dsMax (1 / 20)) ≤ q.1 ∧
      (a.dsMin ≤ a.ds0 → a.dsMin ≤ a.dsMax → a.dsMin ≤ 1 / 20 → a.dsMin ≤ q.1) := by
  obtain ⟨guess, x0, x1, i, _, _, _, hl, _⟩ := traceCurve_ok h
  intro q hq
  have := psrLoop_steps hpos _ _ _ (by
    refine ⟨?_, ?_, ?_, ?_, ?_, ?_⟩
    · exact le_trans (min_le_left _ _) (min_le_left _ _)
    · exact le_max_left _ _
    · exact min_le_left _ _
    · exact le_refl _
    · intro hf; simp [psrInit] at hf
    · intro q hq; simp [psrInit] at hq) hl q hq
  obtain ⟨s1, s2, s3⟩ := this
  rw [max_eq_right hds] at s2
  refine ⟨s2, fun hf => le_trans (s3 hf) (min_le_right _ _), s1, ?_⟩
  intro i1 i2 i3
  exact le_trans (le_min (le_min i1 (le_refl _)) (le_min i2 i3)) s1

/-- the first corrector call of a march that starts downwards uses `ds0` -/
theorem C63_first {E : PsrEnv K} {g : PsrGas K n} {equil : Option (List K)}
    {a : PsrArgs K} {c : PsrCurve K n} (hn : Spec.NormLike E.norm)
    (he : Spec.ExpLike E) (h1 : 0 < a.tauSecond) (hlt : a.tauSecond < a.tauStart)
    (h : traceCurve E g equil a = .ok c) : (a.ds0, 0) ∈ c.final.calls := by
  obtain ⟨guess, x0, x1, i, _, _, _, hl, hi, _⟩ := traceCurve_ok h
  cases hm : a.maxSteps with
  | zero =>
    rw [hm] at hl
    rw [← Except.ok.inj hl] at hi
    cases hi
  | succ k =>
    rw [hm, psrLoop] at hl
    have hsg := (psrTangent_sign hn
      (u := (psrInit E a x0 x1 : PsrState K n).uPrev)
      (v := (psrInit E a x0 x1 : PsrState K n).uPP) (by simp [psrInit]) (n + 1)).2.1.2 (by
        simp only [psrInit]
        rw [ofFn_append_getD, ofFn_append_getD]
        exact log_lt he h1 (lt_trans h1 hlt) hlt)
    have hf : foldCheck a (psrTangent E (psrInit E a x0 x1 : PsrState K n).uPrev
        (psrInit E a x0 x1 : PsrState K n).uPP) (psrInit E a x0 x1 : PsrState K n)
        = (psrInit E a x0 x1, false) := by
      rcases foldCheck_cases a (psrTangent E (psrInit E a x0 x1 : PsrState K n).uPrev
        (psrInit E a x0 x1 : PsrState K n).uPP) (psrInit E a x0 x1 : PsrState K n) with
        ⟨_, h'⟩ | ⟨_, h', _⟩
      · exact h'
      · exact absurd hsg h'
    rw [hf] at hl
    dsimp only at hl
    cases hmv : psrMove E g a (psrTangent E (psrInit E a x0 x1 : PsrState K n).uPrev
        (psrInit E a x0 x1 : PsrState K n).uPP) (psrInit E a x0 x1 : PsrState K n) with
    | error e => rw [hmv] at hl; cases hl
    | ok r =>
      obtain ⟨s2, b⟩ := r
      have hc : s2.calls = [(a.ds0, 0)] := by
        rcases psrMove_cases hmv with ⟨u, _, rfl, _⟩ | ⟨rfl, _⟩ <;> rfl
      rw [hmv] at hl
      cases b
      · have := psrLoop_prefix _ _ _ [(a.ds0, 0)] (by rw [hc]) hl
        exact this.subset (by simp)
      · rw [← Except.ok.inj hl, hc]; simp

/-- **C63, refuted part**: `ds_max` does not bound the first step: whenever `ds0` is larger than
`ds_max`, a step larger than `ds_max` is used. -/
theorem C63_first_refuted {E : PsrEnv K} {g : PsrGas K n} {equil : Option (List K)}
    {a : PsrArgs K} {c : PsrCurve K n} (hn : Spec.NormLike E.norm)
    (he : Spec.ExpLike E) (h1 : 0 < a.tauSecond) (hlt : a.tauSecond < a.tauStart)
    (hds : a.dsMax < a.ds0) (h : traceCurve E g equil a = .ok c) :
    ¬ ∀ q ∈ c.final.calls, q.1 ≤ a.dsMax :=
  fun hh => absurd (hh _ (C63_first hn he h1 hlt h)) (not_le.2 hds)

/-- **C63**: the call returns or raises `RuntimeError` (of which `CanteraError` is a subclass),
if the library root finder raises only what its callbacks raise. -/
theorem C63_outcome {E : PsrEnv K} {g : PsrGas K n} {equil : Option (List K)} {a : PsrArgs K}
    (hr : Spec.RootRaises E) :
    (∃ c, traceCurve E g equil a = .ok c) ∨ traceCurve E g equil a = .error .runtimeError := by
  have hfix : ∀ tau guess e, solveFixedTau E g tau guess = .error e → e = .runtimeError := by
    intro tau guess e hx
    unfold solveFixedTau at hx
    obtain ⟨x, hx⟩ := hr _ _ _ _ (psrCorrect_error hx)
    unfold fixedTauJac at hx
    cases hj : coreJac g (massFrac n x) (x.getD n 0) tau with
    | error e3 => rw [hj] at hx; cases hx; exact coreJac_error hj
    | ok J => rw [hj] at hx; cases hx
  cases h : traceCurve E g equil a with
  | ok c => exact Or.inl ⟨c, rfl⟩
  | error e =>
    right
    unfold traceCurve at h
    cases equil with
    | none => cases h; rfl
    | some guess =>
      dsimp only at h
      cases h0 : solveFixedTau E g a.tauStart guess with
      | error e' => rw [h0] at h; cases h; rw [hfix _ _ _ h0]
      | ok r0 =>
        obtain ⟨x0, ok0⟩ := r0
        rw [h0] at h
        dsimp only at h
        cases h1 : solveFixedTau E g a.tauSecond x0 with
        | error e' => rw [h1] at h; cases h; rw [hfix _ _ _ h1]
        | ok r1 =>
          obtain ⟨x1, ok1⟩ := r1
          rw [h1] at h
          dsimp only at h
          by_cases hk : ok0 = true ∧ ok1 = true
          · rw [if_pos hk] at h
            cases hl : psrLoop E g a a.maxSteps (psrInit E a x0 x1) with
            | error e' => rw [hl] at h; cases h; rw [psrLoop_error hr _ _ _ hl]
            | ok s =>
              rw [hl] at h
              dsimp only at h
              unfold psrFinish at h
              cases hi : s.iExt with
              | none => rw [hi] at h; cases h; rfl
              | some i => rw [hi] at h; cases h
          · rw [if_neg hk] at h; cases h; rfl

/-- **C63**: the tangent is never computed from two equal points (so no division by zero), for
seeds with different residence times and steps above the corrector's tolerance.  The state after
any number `k` of iterations is covered. -/
theorem C63_distinct {E : PsrEnv K} {g : PsrGas K n} {a : PsrArgs K} {x0 x1 : List K}
    {s : PsrState K n} (hn : Spec.NormLike E.norm) (hs : Spec.Shapes E) (hh : Spec.RootHonest E)
    (he : Spec.ExpLike E) (h0 : 0 < a.tauStart) (h1 : 0 < a.tauSecond)
    (hne : a.tauStart ≠ a.tauSecond) (hds : 1 / 10000000 ≤ a.ds0)
    (hmin : 1 / 10000000 ≤ a.dsMin) (hmax : 1 / 10000000 ≤ a.dsMax) (k : Nat)
    (h : psrLoop E g a k (psrInit E a x0 x1) = .ok s) : 0 < E.norm (vSub s.uPrev s.uPP) := by
  have hd := psrLoop_distinct hn hs hh (lo := 1 / 10000000) (le_refl _) hmin
    (le_min hmax (by unfold psrDsMiddle; norm_num)) k _ _ (by
      refine ⟨by simp [psrInit], by simp [psrInit], ?_, hds, hmax⟩
      intro hc
      have := congrArg (fun l => l.getD (n + 1) 0) hc
      simp only [psrInit] at this
      rw [ofFn_append_getD, ofFn_append_getD] at this
      have h2 := congrArg E.exp this
      rw [he.exp_log _ h0, he.exp_log _ h1] at h2
      exact hne h2.symm) h
  exact norm_vSub_pos' hn (by rw [hd.1, hd.2.1]) hd.2.2

/-- **C62, refuted part**: with the seeds in the other order no continuation happens at all: the
first seed is reported as the extinction point of a branch made of the two seeds. -/
theorem C62_seeds_refuted {E : PsrEnv K} {g : PsrGas K n} {guess x0 x1 : List K}
    {a : PsrArgs K} (hn : Spec.NormLike E.norm) (he : Spec.ExpLike E) (h0 : 0 < a.tauStart)
    (hlt : a.tauStart < a.tauSecond) (hstop : a.stop = true) (hm : 0 < a.maxSteps)
    (s0 : solveFixedTau E g a.tauStart guess = .ok (x0, true))
    (s1 : solveFixedTau E g a.tauSecond x0 = .ok (x1, true)) :
    ∃ c, traceCurve E g (some guess) a = .ok c ∧ c.extinction.tau = a.tauStart ∧
      c.branch = [(a.tauStart, x0.getD n 0), (a.tauSecond, x1.getD n 0)] := by
  obtain ⟨k, hk⟩ : ∃ k, a.maxSteps = k + 1 := ⟨a.maxSteps - 1, by omega⟩
  have hsg := (psrTangent_sign hn
      (u := (psrInit E a x0 x1 : PsrState K n).uPrev)
      (v := (psrInit E a x0 x1 : PsrState K n).uPP) (by simp [psrInit]) (n + 1)).2.2.2 (by
        simp only [psrInit]
        rw [ofFn_append_getD, ofFn_append_getD]
        exact log_lt he h0 (lt_trans h0 hlt) hlt)
  have hli : leastIdx [a.tauStart, a.tauSecond] = 0 := by
    simp [leastIdx, leastGo, not_lt.2 (le_of_lt hlt)]
  have hf : psrLoop E g a a.maxSteps (psrInit E a x0 x1 : PsrState K n) =
      .ok { (psrInit E a x0 x1 : PsrState K n) with sign := 1, folds := 1, iExt := some 0 } := by
    rw [hk, psrLoop]
    rcases foldCheck_cases a (psrTangent E (psrInit E a x0 x1 : PsrState K n).uPrev
        (psrInit E a x0 x1 : PsrState K n).uPP) (psrInit E a x0 x1 : PsrState K n) with
        ⟨hz | hz, _⟩ | ⟨_, _, ⟨_, _, h'⟩ | ⟨_, st, _⟩ | ⟨f, _⟩ | ⟨f, _⟩⟩
    · rw [hsg] at hz; cases hz
    · rw [hsg] at hz; simp [psrInit] at hz
    · rw [h', hsg]
      dsimp only
      rw [show (psrInit E a x0 x1 : PsrState K n).taus = [a.tauStart, a.tauSecond] from rfl, hli]
    · rw [hstop] at st; cases st
    · simp [psrInit] at f
    · simp [psrInit] at f
  have ht : traceCurve E g (some guess) a =
      psrFinish E { (psrInit E a x0 x1 : PsrState K n) with
        sign := 1, folds := 1, iExt := some 0 } := by
    unfold traceCurve
    dsimp only
    rw [s0]
    dsimp only
    rw [s1]
    dsimp only
    rw [if_pos ⟨rfl, rfl⟩, hf]
  rw [ht]
  exact ⟨_, rfl, rfl, rfl⟩

end

/-! ### a concrete curve

One species; the steady states have temperature 1000 and lie on five points: four of a
curve that folds at a residence time of 1/3, and one more for larger steps.  The norm is the maximum norm and `exp` a rational increasing
bijection onto the positive numbers. -/

/-- the maximum norm -/
def supNorm (v : List ℚ) : ℚ := v.foldr (fun x m => max |x| m) 0

theorem supNorm_like : Spec.NormLike supNorm := by
  constructor
  · intro v
    induction v with
    | nil => intro x hx; cases hx
    | cons y v ih =>
      intro x hx
      rw [supNorm, List.foldr_cons]
      rcases List.mem_cons.1 hx with rfl | hx
      · exact le_max_left _ _
      · exact le_trans (ih x hx) (le_max_right _ _)
  · intro v w
    induction v with
    | nil =>
      rw [List.nil_append]
      induction w with
      | nil => exact le_refl _
      | cons y w ih =>
        rw [supNorm, supNorm, List.foldr_cons]
        exact le_trans ih (le_max_right _ _)
    | cons y v ih =>
      rw [List.cons_append, supNorm, supNorm, List.foldr_cons, List.foldr_cons]
      exact max_le_max (le_refl _) ih

/-- a rational stand-in for `exp` -/
def ratExp (x : ℚ) : ℚ := if 0 ≤ x then 1 + x else 1 / (1 - x)
/-- its inverse -/
def ratLog (y : ℚ) : ℚ := if 1 ≤ y then y - 1 else 1 - 1 / y

/-- the five points `(Y, sigma)` of the curve -/
def psrPts : List (ℚ × ℚ) := [(4, 0), (3, -1), (39 / 10, -2), (39 / 10 + 31 / 45, -3 / 2), (23 / 10, -1 / 2)]

/-- the gas of the example: the production rate at mass fraction `Y` is `Y / tau` -/
def exPsrGas : PsrGas ℚ 1 :=
  { at_ := fun Y T =>
      if T ≤ 0 then none
      else some
        { wdot := fun _ => match psrPts.find? (fun q => q.1 == Y 0) with
            | some q => q.1 / ratExp q.2
            | none => 1
          rho := 1, mw := 1, ddC := fun _ _ => 0, ddT := fun _ => 0, h := T, pmh := fun _ => 0
          cp := 1 }
    W := fun _ => 1, Yin := fun _ => 0, hin := 1000, hscale := 1000 }

/-- the root finder of the example: evaluates the Jacobian at the starting point, then looks for a
root among the five points -/
def exRoot (res : List ℚ → List ℚ) (jac : List ℚ → Except Err (List (List ℚ))) (x0 : List ℚ) :
    Except Err (RootSol ℚ) :=
  match jac x0 with
  | .error e => .error e
  | .ok _ =>
      match (psrPts.map (fun q => if x0.length = 2 then [q.1, 1000] else [q.1, 1, q.2])).find?
          (fun x => decide (x.length = x0.length) && decide (supNorm (res x) < 1 / 10000000)) with
      | some x => .ok ⟨x, res x, true⟩
      | none => .ok ⟨x0, res x0, false⟩

/-- the library functions of the example -/
def exPsrEnv : PsrEnv ℚ :=
  { norm := supNorm, exp := ratExp, log := ratLog
    sqrt := fun x => if x = 1 / 9 then 1 / 3 else x, solve := fun _ _ => none, root := exRoot }

/-- the default arguments -/
def exPsrArgs : PsrArgs ℚ :=
  { stop := true, ds0 := 1 / 10, dsMin := 1 / 1000, dsMax := 2 / 5, tauStart := 1,
    tauSecond := 1 / 2, maxSteps := 6000 }

theorem exPsr_honest : Spec.RootHonest exPsrEnv := by
  intro res jac x0 sol h
  simp only [exPsrEnv, exRoot] at h
  split at h
  · cases h
  · split at h <;> (cases h; rfl)

theorem exPsr_raises : Spec.RootRaises exPsrEnv := by
  intro res jac x0 e h
  simp only [exPsrEnv, exRoot] at h
  split at h
  · rename_i e' he
    cases h
    exact ⟨x0, he⟩
  · split at h <;> cases h

theorem exPsr_shapes : Spec.Shapes exPsrEnv := by
  constructor
  · intro res jac x0 sol h
    simp only [exPsrEnv, exRoot] at h
    split at h
    · cases h
    · split at h
      · rename_i x hx
        cases h
        have := List.find?_some hx
        simp only [Bool.and_eq_true, decide_eq_true_eq] at this
        exact this.1
      · cases h; rfl
  · intro A b x h; cases h

theorem exPsr_exp : Spec.ExpLike exPsrEnv := by
  constructor
  · intro x y h
    simp only [exPsrEnv, ratExp]
    by_cases hx : 0 ≤ x
    · rw [if_pos hx, if_pos (by linarith)]; linarith
    · rw [if_neg hx]
      have hx' : 0 < 1 - x := by linarith [not_le.1 hx]
      by_cases hy : 0 ≤ y
      · rw [if_pos hy, div_lt_iff₀ hx']
        have : x < 0 := not_le.1 hx
        nlinarith
      · rw [if_neg hy]
        have hy' : 0 < 1 - y := by linarith [not_le.1 hy]
        rw [div_lt_div_iff₀ hx' hy']; linarith
  · intro x
    simp only [exPsrEnv, ratExp]
    by_cases hx : 0 ≤ x
    · rw [if_pos hx]; linarith
    · rw [if_neg hx]; exact one_div_pos.2 (by linarith [not_le.1 hx])
  · intro x hx
    simp only [exPsrEnv, ratExp, ratLog]
    by_cases h1 : 1 ≤ x
    · rw [if_pos h1, if_pos (by linarith)]; ring
    · rw [if_neg h1]
      have : 1 < 1 / x := by rw [lt_div_iff₀ hx]; linarith [not_le.1 h1]
      rw [if_neg (by linarith)]
      rw [sub_sub_cancel, one_div_one_div]

/-- the call succeeds, with the branch 1, 1/2, 1/3, 2/5 -/
theorem exPsr_ok : ∃ c, traceCurve exPsrEnv exPsrGas (some [4, 1000]) exPsrArgs = .ok c ∧
    c.branch = [(1, 1000), (1 / 2, 1000), (1 / 3, 1000), (2 / 5, 1000)] ∧
    c.extinction.tau = 1 / 3 ∧ c.near.tau = 1 / 3 ∧ c.logMid.tau = 1 / 3 := by
  have h : ((traceCurve exPsrEnv exPsrGas (some [4, 1000]) exPsrArgs).map
      (fun c => (c.branch, c.extinction.tau, c.near.tau, c.logMid.tau))).toOption =
      some ([(1, 1000), (1 / 2, 1000), (1 / 3, 1000), (2 / 5, 1000)], 1 / 3, 1 / 3, 1 / 3) := by
    decide +kernel
  cases hc : traceCurve exPsrEnv exPsrGas (some [4, 1000]) exPsrArgs with
  | error e => rw [hc] at h; cases h
  | ok c =>
    rw [hc] at h
    have := Option.some.inj h
    simp only [Prod.mk.injEq] at this
    exact ⟨c, rfl, this.1, this.2.1, this.2.2.1, this.2.2.2⟩

/-- the theorems apply to this curve -/
example : ∃ c, traceCurve exPsrEnv exPsrGas (some [4, 1000]) exPsrArgs = .ok c ∧
    (∀ q ∈ c.branch, ∃ Y, Spec.Steady exPsrGas (1 / 10000000) q.1 q.2 Y) ∧
    (∃ q, c.branch.getLast? = some q ∧ c.extinction.tau < q.1) ∧
    (c.extinction.tau ≤ c.logMid.tau ∧ c.logMid.tau ≤ c.near.tau) ∧
    c.final.calls.length ≤ 6000 ∧ (1 / 10, 0) ∈ c.final.calls ∧
    (∀ q ∈ c.final.calls, 1 / 1000 ≤ q.1) := by
  obtain ⟨c, hc, hb, he, hne, hm⟩ := exPsr_ok
  refine ⟨c, hc, (C61_points supNorm_like exPsr_honest hc).1,
    C62_end_refuted supNorm_like exPsr_shapes exPsr_honest exPsr_exp (by decide +kernel)
      (by decide +kernel) rfl hc,
    C62_order supNorm_like exPsr_shapes exPsr_exp (by decide +kernel) (by decide +kernel)
      (by rw [he, hne]; decide +kernel)
      (by rw [he]; decide +kernel) hc,
    (C63_bounded hc).1,
    C63_first supNorm_like exPsr_exp (by decide +kernel) (by decide +kernel) hc, ?_⟩
  intro q hq
  exact (C63_steps_partial (by decide +kernel) (by decide +kernel) hc q hq).2.2.2
    (by decide +kernel) (by decide +kernel) (by decide +kernel)

/-- a step size larger than `ds_max` in use -/
example : ∃ c, traceCurve exPsrEnv exPsrGas (some [4, 1000])
    { exPsrArgs with ds0 := 1 / 5, dsMax := 3 / 20 } = .ok c ∧ ¬ ∀ q ∈ c.final.calls,
      q.1 ≤ 3 / 20 := by
  cases h : traceCurve exPsrEnv exPsrGas (some [4, 1000])
      { exPsrArgs with ds0 := 1 / 5, dsMax := 3 / 20 } with
  | error e =>
    have : (traceCurve exPsrEnv exPsrGas (some [4, 1000])
      { exPsrArgs with ds0 := 1 / 5, dsMax := 3 / 20 }).toBool = true := by decide +kernel
    rw [h] at this; cases this
  | ok c =>
    exact ⟨c, rfl, C63_first_refuted (a := { exPsrArgs with ds0 := 1 / 5, dsMax := 3 / 20 })
      supNorm_like exPsr_exp (by decide +kernel) (by decide +kernel) (by decide +kernel) h⟩

/-- the tangents of the example -/
example : ∃ s, psrLoop exPsrEnv exPsrGas exPsrArgs 2 (psrInit exPsrEnv exPsrArgs [4, 1000] [3, 1000])
    = .ok s ∧ 0 < supNorm (vSub s.uPrev s.uPP) := by
  cases h : psrLoop exPsrEnv exPsrGas exPsrArgs 2
      (psrInit exPsrEnv exPsrArgs [4, 1000] [3, 1000]) with
  | error e =>
    have : (psrLoop exPsrEnv exPsrGas exPsrArgs 2
      (psrInit exPsrEnv exPsrArgs [4, 1000] [3, 1000])).toBool = true := by decide +kernel
    rw [h] at this; cases this
  | ok s =>
    exact ⟨s, rfl, C63_distinct supNorm_like exPsr_shapes exPsr_honest exPsr_exp
      (by decide +kernel) (by decide +kernel) (by decide +kernel) (by decide +kernel)
      (by decide +kernel) (by decide +kernel) 2 h⟩

/-- swapped seeds -/
example : ∃ c, traceCurve exPsrEnv exPsrGas (some [4, 1000])
    { exPsrArgs with tauStart := 1 / 2, tauSecond := 1 } = .ok c ∧ c.extinction.tau = 1 / 2 := by
  obtain ⟨c, h1, h2, _⟩ := C62_seeds_refuted (E := exPsrEnv) (g := exPsrGas) (guess := [4, 1000])
    (x0 := [3, 1000]) (x1 := [4, 1000])
    (a := { exPsrArgs with tauStart := 1 / 2, tauSecond := 1 }) supNorm_like exPsr_exp
    (by decide +kernel) (by decide +kernel) rfl (by decide +kernel) (by decide +kernel)
    (by decide +kernel)
  exact ⟨c, h1, h2⟩

/-- both outcomes occur: an unphysical starting point raises from the Jacobian -/
example : traceCurve exPsrEnv exPsrGas (some [4, -1]) exPsrArgs = .error .runtimeError := by
  rcases C63_outcome (E := exPsrEnv) (g := exPsrGas) (equil := some [4, -1]) (a := exPsrArgs)
    exPsr_raises with ⟨c, hc⟩ | h
  · have : (traceCurve exPsrEnv exPsrGas (some [4, -1]) exPsrArgs).toBool = false := by
      decide +kernel
    rw [hc] at this; cases this
  · exact h

/-- one affine equation `2 x - 6 = 0` from 0 -/
example : (dampedNewton ⟨fun u => vSub (mVec [[2]] u) [6], supNorm, fun _ _ => some [3]⟩ [0]
    (1 / 1000000000 : ℚ) 50).ok = true :=
  (C60_affine (A := [[2]]) (b := [6]) (x0 := [0]) (step := [3]) (norm := supNorm)
    (solve := fun _ _ => some [3]) (by decide +kernel) 49
    (by intro k
        induction k with
        | zero => rfl
        | succ k ih =>
          rw [List.replicate_succ, supNorm, List.foldr_cons]
          rw [supNorm] at ih
          rw [ih]; simp)
    rfl (by simp) (by decide +kernel) rfl rfl (by decide +kernel)).1

/-- a solver without roots: `x^2 + 1`, singular at 0 -/
example : (dampedNewton ⟨fun u => [u.getD 0 0 * u.getD 0 0 + 1], supNorm, fun _ _ => none⟩ [0]
    (1 / 1000000000 : ℚ) 50).ok = false :=
  (C60_stuck _ _ _ 49 (by decide +kernel) (Or.inl rfl)).1

/-- a converging run of the solver, to which the theorems about convergence apply -/
example : (dampedNewton ⟨fun u => [u.getD 0 0 * u.getD 0 0 - 4], supNorm,
    fun J r => some [r.getD 0 0 / (J.getD 0 []).getD 0 1]⟩ [3] (1 / 1000000000 : ℚ) 50).ok = true ∧
    3 ≤ (dampedNewton ⟨fun u => [u.getD 0 0 * u.getD 0 0 - 4], supNorm,
    fun J r => some [r.getD 0 0 / (J.getD 0 []).getD 0 1]⟩ [3]
      (1 / 1000000000 : ℚ) 50).iterates.length := by
  decide +kernel

end Verif
