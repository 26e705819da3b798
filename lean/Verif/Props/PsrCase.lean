import Verif.Model.PsrCase
import Verif.Props.Psr
import Verif.Props.Simulation
import Verif.Props.Sampling
/-!
# Stirred-reactor cases from the solver to the error: C105
-/
namespace Verif

variable {n : Nat}

theorem psrLoop_pos {K : Type} [Field K] [LinearOrder K] [IsStrictOrderedRing K] {E : PsrEnv K}
    {g : PsrGas K n} {a : PsrArgs K} (he : Spec.ExpLike E) (k : Nat)
    (s s' : PsrState K n) (h0 : ∀ t ∈ s.taus, 0 < t) (h : psrLoop E g a k s = .ok s') :
    ∀ t ∈ s'.taus, 0 < t := by
  refine psrLoop_inv (P := fun s => ∀ t ∈ s.taus, 0 < t) ?_ ?_ k s s' h0 h
  · intro s t hp
    rw [(foldCheck_lists a t s).1]; exact hp
  · intro s s' b hp hm
    rcases psrMove_cases hm with ⟨u, _, rfl, _⟩ | ⟨rfl, _⟩
    · intro t ht
      simp only [psrAccept, List.mem_append, List.mem_singleton] at ht
      rcases ht with ht | rfl
      · exact hp t ht
      · exact he.pos _
    · exact hp

/-- the seeds stay in front of the list of residence times -/
theorem psrLoop_front {K : Type} [Field K] [LinearOrder K] [IsStrictOrderedRing K] {E : PsrEnv K}
    {g : PsrGas K n} {a : PsrArgs K} {l : List K} (k : Nat)
    (s s' : PsrState K n) (h0 : l <+: s.taus) (h : psrLoop E g a k s = .ok s') : l <+: s'.taus := by
  refine psrLoop_inv (P := fun s => l <+: s.taus) ?_ ?_ k s s' h0 h
  · intro s t hp
    rw [(foldCheck_lists a t s).1]; exact hp
  · intro s s' b hp hm
    rcases psrMove_cases hm with ⟨u, _, rfl, _⟩ | ⟨rfl, _⟩
    · exact hp.trans (List.prefix_append _ _)
    · exact hp

theorem psrTrace_cases {E : PsrEnv ℚ} {g : PsrGas ℚ n} {equil : Option (List ℚ)}
    (hr : Spec.RootRaises E) :
    (∃ c, traceCurve E g equil psrDefaults = .ok c ∧ psrTrace E g equil = .ok c.toPoints) ∨
      psrTrace E g equil = .error .runtimeError := by
  unfold psrTrace
  rcases C63_outcome (g := g) (equil := equil) (a := psrDefaults) hr with ⟨c, hc⟩ | h
  · exact Or.inl ⟨c, hc, by rw [hc]; rfl⟩
  · exact Or.inr (by rw [h]; rfl)

/-- what is asked of the library by the theorems below -/
structure Spec.PsrLibrary (E : PsrEnv ℚ) : Prop where
  norm : Spec.NormLike E.norm
  shapes : Spec.Shapes E
  honest : Spec.RootHonest E
  raises : Spec.RootRaises E
  exp : Spec.ExpLike E

/-- **C105**: the metrics and sampled states of a stirred-reactor case are those of three steady
states of the reactor: the one with the least residence time reached, one nearest 0.1 s and one
between. -/
theorem C105_process {E : PsrEnv ℚ} {g : PsrGas ℚ n} {equil : Option (List ℚ)} {pr : PyF}
    {ms : List PyF} {rows : List Row} (hE : Spec.PsrLibrary E)
    (h : psrProcess pr (psrTrace E g equil) = .ok (ms, rows)) :
    ∃ (e m r : PsrPt ℚ n) (reached : List ℚ),
      ms = [.fin e.tau, .fin m.T, .fin r.T] ∧
      rows = [e, m, r].map
        (fun p => .fin p.T :: pr :: (List.ofFn p.Y).map (fun y : ℚ => PyF.fin y)) ∧
      (∀ p ∈ [e, m, r], Spec.Steady g (1 / 10000000) p.tau p.T p.Y ∧ p.tau ∈ reached ∧
        p.tau ≤ 1) ∧
      [1, 1 / 2] <+: reached ∧ (∀ t ∈ reached, 0 < t ∧ e.tau ≤ t) ∧ r.tau ≤ 1 / 2 ∧
      (∀ t ∈ reached.dropLast, |r.tau - 1 / 10| ≤ |t - 1 / 10| ∧
        |m.tau - E.sqrt (e.tau * r.tau)| ≤ |t - E.sqrt (e.tau * r.tau)|) := by
  rcases psrTrace_cases (g := g) (equil := equil) hE.raises with ⟨c, hc, ht⟩ | ht
  swap
  · rw [ht] at h; cases h
  rw [ht, (C47_points pr c.toPoints).2.2] at h
  have h := Except.ok.inj h
  obtain ⟨i, j, k, hj, hk, hi, e1, e2, e3, m1, m2, m3⟩ :=
    C62_samples hE.norm hE.shapes hE.exp (by decide +kernel) (by decide +kernel) hc
  obtain ⟨pre, a', b', p1, p2, p3, p4, p5⟩ :=
    C62_extinction hE.norm hE.shapes hE.exp (by decide +kernel) (by decide +kernel) rfl hc
  obtain ⟨guess, x0, x1, i', _, _, _, hl, _⟩ := traceCurve_ok hc
  have hpos := psrLoop_pos hE.exp _ _ _ (by
    intro t ht
    simp only [psrInit, psrDefaults, List.mem_cons, List.not_mem_nil, or_false] at ht
    rcases ht with rfl | rfl <;> norm_num) hl
  have hfront : [1, 1 / 2] <+: c.final.taus := psrLoop_front _ _ _ (List.prefix_refl _) hl
  have hmax : ∀ t ∈ pre ++ [a'], t ≤ 1 := by
    intro t ht
    have hpw := (List.isChain_iff_pairwise (R := (· ≥ ·))).1 p2
    cases hp : pre ++ [a'] with
    | nil => simp at hp
    | cons z zs =>
      have hz : z = 1 := by
        obtain ⟨w, hw⟩ := hfront
        rw [p1, show pre ++ [a', b'] = (pre ++ [a']) ++ [b'] by simp, hp] at hw
        simp only [List.cons_append, List.cons.injEq] at hw
        exact hw.1.symm
      rw [hp] at hpw ht
      rcases List.mem_cons.1 ht with rfl | ht
      · exact le_of_eq hz
      · have := (List.pairwise_cons.1 hpw).1 t ht
        rw [hz] at this; exact this
  have hdrop : c.final.taus.dropLast = pre ++ [a'] := by
    rw [p1, show pre ++ [a', b'] = (pre ++ [a']) ++ [b'] by simp, List.dropLast_concat]
  have htau : c.extinction.tau = c.final.taus.getD i 0 := by rw [e1]; rfl
  have hle : i ≤ pre.length := by
    by_contra hlt
    have hi' : i < pre.length + 2 := by rw [p1] at hi; simpa using hi
    have : i = pre.length + 1 := by omega
    rw [p1, this] at htau
    rw [p4] at htau
    simp [List.getD_append_right] at htau
    exact absurd htau p3.ne
  have htake : c.final.taus.take (i + 1) = (pre ++ [a']).take (i + 1) := by
    rw [p1, show pre ++ [a', b'] = (pre ++ [a']) ++ [b'] by simp, List.take_append_of_le_length]
    simp; exact hle
  have hmemt : ∀ m ≤ i, c.final.taus.getD m 0 ∈ c.final.taus.take (i + 1) := by
    intro m hm
    rw [List.getD_eq_getElem _ _ (by omega), List.mem_take_iff_getElem]
    exact ⟨m, by omega, rfl⟩
  have hmem1 : ∀ m ≤ i, c.final.taus.getD m 0 ∈ pre ++ [a'] := fun m hm =>
    List.mem_of_mem_take (htake ▸ hmemt m hm)
  have hcover : ∀ t ∈ pre ++ [a'], t ∈ c.final.taus.take (i + 1) := by
    intro t ht
    rw [htake]
    have hsplit := List.take_append_drop (i + 1) (pre ++ [a'])
    rw [← hsplit] at ht
    rcases List.mem_append.1 ht with ht | ht
    · exact ht
    · have hpw := (List.isChain_iff_pairwise (R := (· ≥ ·))).1 p2
      rw [← hsplit, List.pairwise_append] at hpw
      have hx := hmemt i (le_refl _)
      rw [htake] at hx
      have h1 := hpw.2.2 _ hx t ht
      have h2 : a' ≤ t := by
        have := p5 t (by
          rw [p1, show pre ++ [a', b'] = (pre ++ [a']) ++ [b'] by simp, ← hsplit]
          simp only [List.mem_append]; exact Or.inl (Or.inr ht))
        rwa [p4] at this
      rw [← htau, p4] at h1 hx
      rw [le_antisymm h1 h2]; exact hx
  have hhalf : (1 / 2 : ℚ) ∈ pre ++ [a'] := by
    obtain ⟨w, hw⟩ := hfront
    rw [p1] at hw
    have hmemb : (1 / 2 : ℚ) ∈ pre ++ [a', b'] := by rw [← hw]; simp
    rcases pre with _ | ⟨z, zs⟩
    · simp only [List.nil_append, List.cons_append, List.cons.injEq] at hw
      rw [← hw.1, ← hw.2.1] at p3
      norm_num at p3
    · rcases zs with _ | ⟨z2, zs⟩
      · simp only [List.cons_append, List.nil_append, List.cons.injEq] at hw
        rw [hw.2.1]; simp
      · simp only [List.cons_append, List.nil_append, List.cons.injEq] at hw
        rw [hw.2.1]; simp
  have hsteady := (C61_points hE.norm hE.honest hc).2
  have hnear : c.near.tau = c.final.taus.getD j 0 := by rw [e2]; rfl
  have hmid : c.logMid.tau = c.final.taus.getD k 0 := by rw [e3]; rfl
  refine ⟨c.extinction, c.logMid, c.near, c.final.taus, ?_, ?_, ?_, hfront,
    fun t ht => ⟨hpos t ht, p5 t ht⟩, ?_, ?_⟩
  · exact (congrArg Prod.fst h).symm
  · exact (congrArg Prod.snd h).symm
  · intro p hp
    have key : p.tau ∈ pre ++ [a'] := by
      simp only [List.mem_cons, List.not_mem_nil, or_false] at hp
      rcases hp with rfl | rfl | rfl
      · rw [htau]; exact hmem1 i (le_refl _)
      · rw [hmid]; exact hmem1 k hk
      · rw [hnear]; exact hmem1 j hj
    refine ⟨(hsteady p ?_).1, ?_, hmax _ key⟩
    · simp only [List.mem_cons, List.not_mem_nil, or_false] at hp ⊢
      rcases hp with rfl | rfl | rfl <;> simp
    · rw [p1, show pre ++ [a', b'] = (pre ++ [a']) ++ [b'] by simp]
      exact List.mem_append_left _ key
  · have := m2 _ (hcover _ hhalf)
    rw [show |(1 / 2 : ℚ) - 1 / 10| = 2 / 5 by norm_num [abs_of_pos]] at this
    have := (abs_le.1 this).2
    linarith
  · intro t ht
    rw [hdrop] at ht
    exact ⟨m2 t (hcover t ht), m3 t (hcover t ht)⟩

/-- **C105**: the simulation of a candidate model never raises; it gives three zeros exactly when
the curve cannot be traced (where the starting model would stop the reduction), and otherwise three
positive numbers. -/
theorem C105_calculate {E : PsrEnv ℚ} {g : PsrGas ℚ n} {equil : Option (List ℚ)} (pr : PyF)
    (hE : Spec.PsrLibrary E) :
    (psrCalculate (psrTrace E g equil) = .ok [.fin 0, .fin 0, .fin 0] ∧
      psrProcess pr (psrTrace E g equil) = .error .runtimeError) ∨
    ∃ (a b c : ℚ) (rows : List Row), 0 < a ∧ a ≤ 1 / 2 ∧ 0 < b ∧ 0 < c ∧
      psrCalculate (psrTrace E g equil) = .ok [.fin a, .fin b, .fin c] ∧
      psrProcess pr (psrTrace E g equil) = .ok ([.fin a, .fin b, .fin c], rows) ∧
      rows.length = 3 ∧ ∀ r ∈ rows, r.length = n + 2 := by
  rcases psrTrace_cases (g := g) (equil := equil) hE.raises with ⟨c, hc, ht⟩ | ht
  swap
  · left
    rw [ht]
    exact ⟨(C47_failure pr .runtimeError).2.1 rfl, (C47_failure pr .runtimeError).1.2⟩
  right
  obtain ⟨ms, rows, hp⟩ : ∃ ms rows, psrProcess pr (psrTrace E g equil) = .ok (ms, rows) := by
    rw [ht]; exact ⟨_, _, (C47_points pr c.toPoints).2.2⟩
  obtain ⟨e, m, r, reached, h1, h2, h3, h4, h5, h6, -⟩ := C105_process hE hp
  refine ⟨e.tau, m.T, r.T, rows, (h5 _ (h3 e (by simp)).2.1).1, (h5 (1 / 2) ?_).2,
    (h3 m (by simp)).1.1, (h3 r (by simp)).1.1, ?_, by rw [hp, h1], by rw [h2]; rfl, ?_⟩
  · obtain ⟨w, hw⟩ := h4
    rw [← hw]; simp
  · rw [← h1]; exact C73_same_metrics.2.2 hp
  · rw [h2]
    intro x hx
    simp only [List.map_cons, List.map_nil, List.mem_cons, List.not_mem_nil, or_false] at hx
    rcases hx with rfl | rfl | rfl <;> simp

/-- **C105**: against a starting model whose curve could be traced, a candidate whose curve cannot
be traced has an error of exactly 100 percent, and any other candidate the worst relative deviation
of the three metrics; nothing is infinite or NaN. -/
theorem C105_error {E : PsrEnv ℚ} {n' : Nat} {g : PsrGas ℚ n} {g' : PsrGas ℚ n'}
    {equil equil' : Option (List ℚ)} {pr : PyF} {ms : List PyF} {rows : List Row}
    (hE : Spec.PsrLibrary E) (h : psrProcess pr (psrTrace E g equil) = .ok (ms, rows)) :
    (psrProcess pr (psrTrace E g' equil') = .error .runtimeError →
      ∃ ms', psrCalculate (psrTrace E g' equil') = .ok ms' ∧
        calculateError ms ms' = .ok (.fin 100)) ∧
    (∀ ms' rows', psrProcess pr (psrTrace E g' equil') = .ok (ms', rows') →
      psrCalculate (psrTrace E g' equil') = .ok ms' ∧
      ∃ (os ts : List ℚ) (err : ℚ), ms = os.map (fun x : ℚ => PyF.fin x) ∧
        ms' = ts.map (fun x : ℚ => PyF.fin x) ∧ calculateError ms ms' = .ok (.fin err) ∧
        IsGreatest {x | ∃ p ∈ os.zip ts, x = 100 * (|p.1 - p.2| / p.1)} err) := by
  rcases C105_calculate (g := g) (equil := equil) pr hE with ⟨_, h0⟩ |
    ⟨a, b, c, _, ha, -, hb, hc, -, h0, -⟩
  · rw [h0] at h; cases h
  rw [h0] at h
  obtain ⟨rfl, -⟩ := Prod.mk.inj (Except.ok.inj h)
  rcases C105_calculate (g := g') (equil := equil') pr hE with ⟨hz, h1⟩ |
    ⟨a', b', c', _, ha', -, hb', hc', hz, h1, -⟩
  · refine ⟨fun _ => ⟨_, hz, ?_⟩, fun _ _ hx => ?_⟩
    · rfl
    · rw [h1] at hx; cases hx
  · refine ⟨fun hx => ?_, fun _ _ hx => ?_⟩
    · rw [h1] at hx; cases hx
    · rw [h1] at hx
      obtain ⟨rfl, -⟩ := Prod.mk.inj (Except.ok.inj hx)
      refine ⟨hz, [a, b, c], [a', b', c'], ?_⟩
      obtain ⟨err, e1, e2⟩ := C40_worst (os := [a, b, c]) (ts := [a', b', c']) rfl (by simp)
        (by simp [ha, hb, hc]) (by simp [ha'.ne', hb'.ne', hc'.ne'])
      exact ⟨err, rfl, rfl, e1, e2⟩

theorem exPsr_library : Spec.PsrLibrary exPsrEnv :=
  ⟨supNorm_like, exPsr_shapes, exPsr_honest, exPsr_raises, exPsr_exp⟩

/-- both cases occur: a traced curve, and an unphysical starting point -/
example : (∃ a b c rows, psrProcess (.fin 101325) (psrTrace exPsrEnv exPsrGas (some [4, 1000])) =
      .ok ([.fin a, .fin b, .fin c], rows) ∧ 0 < a) ∧
    psrProcess (.fin 101325) (psrTrace exPsrEnv exPsrGas (some [4, -1])) = .error .runtimeError ∧
    (∃ ms ms' rows, psrProcess (.fin 101325) (psrTrace exPsrEnv exPsrGas (some [4, 1000])) =
      .ok (ms, rows) ∧ psrCalculate (psrTrace exPsrEnv exPsrGas (some [4, -1])) = .ok ms' ∧
      calculateError ms ms' = .ok (.fin 100)) := by
  have h0 : (psrTrace exPsrEnv exPsrGas (some [4, 1000])).toBool = true := by decide +kernel
  have h1 : (psrTrace exPsrEnv exPsrGas (some [4, -1])).toBool = false := by decide +kernel
  have t0 : ∀ {t : Except Err PsrPoints}, t.toBool = true →
      psrProcess (.fin 101325) t ≠ .error .runtimeError := by
    intro t ht hx
    cases t with
    | error e => cases ht
    | ok r => rw [(C47_points _ r).2.2] at hx; cases hx
  have hbad : psrProcess (.fin 101325) (psrTrace exPsrEnv exPsrGas (some [4, -1])) =
      .error .runtimeError := by
    rcases psrTrace_cases (g := exPsrGas) (equil := some [4, -1]) exPsr_raises with ⟨c, _, ht⟩ | ht
    · rw [ht] at h1; cases h1
    · rw [ht]; rfl
  rcases C105_calculate (g := exPsrGas) (equil := some [4, 1000]) (.fin 101325) exPsr_library with
    ⟨_, h⟩ | ⟨a, b, c, rows, ha, -, -, -, -, h, -⟩
  · exact absurd h (t0 h0)
  · obtain ⟨ms', h2, h3⟩ := (C105_error (g' := exPsrGas) (equil' := some [4, -1])
      exPsr_library h).1 hbad
    exact ⟨⟨a, b, c, rows, h, ha⟩, hbad, _, ms', rows, h, h2, h3⟩

end Verif
