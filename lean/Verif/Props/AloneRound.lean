import Verif.Props.SAAlone
import Verif.Model.MainRound
import Verif.Props.TornRun
/-!
# Sensitivity analysis alone in floating-point arithmetic (C94)
-/
namespace Verif
open Spec

variable {ι π φ : Type} {K : Cantera ι π φ} {sol : Mech} {q : MainArgs ι π φ} {d : Disk} {b : Arith} {R : ℚ → PyF}

/-- what `main` does in floating-point arithmetic when no graph-based method is asked for -/
theorem fullMainR_alone {rnd rndThr : ℚ → ℚ} {dfuel fuel saFuel : Nat} {w w' : World} {r : RModel}
    {evs : List Ev} (hm : q.method.bind methodOf = none)
    (T : TmpOk ((mainInR R K rnd rndThr q d [] [] dfuel fuel saFuel).saCtx q.modelFile (.fin 0)))
    (hw : w.fs q.modelFile = some sol)
    (h : fullMainR R K rnd rndThr q d dfuel fuel saFuel w = ((some (.ok r), w'), evs)) :
    evs = [] ∧ ((r.model = sol ∧ r.error = .fin 0) ∨
    ∃ initial test, sampleMetrics (K.sims rnd) sol q.conds q.par true d = .ok initial ∧
      sampleMetrics (K.sims rnd) r.model q.conds q.par false d = .ok test ∧
      calculateErrorR R initial test = .ok r.error ∧ q.limit.lt r.error = false) := by
  unfold fullMainR at h
  rw [hm] at h
  by_cases h2 : ((decide (q.method = none) || decide (q.method = some "")) && !q.sensitivity) = true
  · rw [if_neg (by simp), if_pos h2] at h; cases h
  rw [if_neg (by simp), if_neg h2] at h
  dsimp only at h
  simp only [Prod.mk.injEq] at h
  obtain ⟨h3, h4⟩ := h
  refine ⟨h4.symm, ?_⟩
  rcases C50_stages h3 with ⟨-, m, h5, -⟩ | ⟨-, file, err, limbo, w1, sr, hF, h5, h6, -⟩
  · rw [show q.method.bind methodOf = some m from h5] at hm; cases hm
  · cases hF with
    | method h7 => rw [show q.method.bind methodOf = some _ from h7] at hm; cases hm
    | none h7 =>
      rcases C29_within_limit T hw h5 h6 with h8 | ⟨initial, i1, i2, i3⟩
      · exact .inl h8
      · right
        have i1 : sampleMetrics (K.sims rnd) sol q.conds q.par true d = .ok initial := i1
        unfold saErr at i2
        split at i2
        · cases i2
        · rename_i t ht
          have ht : sampleMetrics (K.sims rnd) r.model q.conds q.par false d = .ok t := ht
          have i3 : ¬ q.limit.lt r.error = true := i3
          exact ⟨initial, t, i1, ht, i2, by simpa using i3⟩

/-- division by a starting metric of zero, in any arithmetic -/
theorem relDevR_zero (R : ℚ → PyF) (t : PyF) : relDevR R (.fin 0, t) = .nan ∨ relDevR R (.fin 0, t) = .inf := by
  have h : ∀ x : PyF, (x.abs.div (.fin 0)).rd R = .nan ∨ (x.abs.div (.fin 0)).rd R = .inf := by
    intro x
    cases x with
    | fin v =>
      by_cases hv : v = 0
      · subst hv
        exact .inl (by simp [PyF.abs, PyF.div, PyF.sgn, PyF.ofSign, PyF.rd])
      · have h3 : ¬ |v| < 0 := not_lt.2 (abs_nonneg v)
        right
        simp [PyF.abs, PyF.div, PyF.sgn, PyF.ofSign, hv, h3]
        rfl
    | nan => exact .inl rfl
    | inf => exact .inr (by simp [PyF.abs, PyF.div, PyF.sgn, PyF.ofSign]; rfl)
    | ninf => exact .inr (by simp [PyF.abs, PyF.div, PyF.sgn, PyF.ofSign]; rfl)
  exact h _

/-- a zero among the starting metrics: the computed error is 100, infinite or undefined -/
theorem calculateErrorR_zero_base {orig test : List PyF} {e : PyF} (hl : orig.length = test.length)
    (h0 : .fin 0 ∈ orig) (h : calculateErrorR R orig test = .ok e) : e = .fin 100 ∨ e = .inf ∨
      e = .nan ∧ .fin 0 ∉ test ∧ .nan ∈ (orig.zip test).map (relDevR R) := by
  unfold calculateErrorR at h
  rw [broadcast_eq hl] at h
  dsimp only at h
  obtain ⟨i, hi, e1⟩ := List.getElem_of_mem h0
  have hi' : i < test.length := by omega
  have hmem0 : (orig[i], test[i]) ∈ orig.zip test :=
    List.mem_iff_getElem.2 ⟨i, by simp; omega, by simp⟩
  have hmem : relDevR R (.fin 0, test[i]) ∈ (orig.zip test).map (relDevR R) :=
    List.mem_map.2 ⟨_, hmem0, by rw [e1]⟩
  generalize hps : (orig.zip test).map (relDevR R) = ps at h hmem ⊢
  rcases ps with _ | ⟨a, l⟩
  · simp at hmem
  simp only [npMax] at h
  split_ifs at h with hany
  · cases h; exact .inl rfl
  right
  have hnt : .fin 0 ∉ test := fun hc => hany (List.any_eq_true.2 ⟨_, hc, by simp [PyF.eq]⟩)
  by_cases hn : .nan ∈ a :: l
  · rw [foldl_nmax_has_nan hn] at h
    cases h
    exact .inr ⟨rfl, hnt, hn⟩
  · left
    have hinf : PyF.inf ∈ a :: l := by
      rcases relDevR_zero R test[i] with h1 | h1 <;> rw [h1] at hmem
      · exact absurd hmem hn
      · exact hmem
    rw [foldl_nmax_inf (fun x hx hc => hn (hc ▸ hx)) hinf] at h
    cases h
    rw [show (PyF.fin 100).mul .inf = .inf by decide +kernel]
    rfl

/-- **C94** in floating-point arithmetic: with at least one ignition or flame condition, whatever the arithmetic, sensitivity
analysis alone in a directory without saved metrics returns the starting model as it is or reports an undefined
error. -/
theorem C94_rounded (hp : ParOk q.par) (hd : ∀ k, d ⟨k, true⟩ = none)
    (hm : q.method.bind methodOf = none) {L : ℚ} (hL : q.limit = .fin L) (hL1 : L < 100)
    (hc : q.conds.ign ≠ [] ∨ q.conds.flame ≠ []) {rndThr : ℚ → ℚ} {dfuel fuel saFuel : Nat}
    (T : TmpOk ((mainInR R K b.rnd rndThr q d [] [] dfuel fuel saFuel).saCtx q.modelFile (.fin 0)))
    {w w' : World} {r : RModel} {evs : List Ev} (hw : w.fs q.modelFile = some sol)
    (h : fullMainR R K b.rnd rndThr q d dfuel fuel saFuel w = ((some (.ok r), w'), evs)) :
    evs = [] ∧ ((r.model = sol ∧ r.error = .fin 0) ∨ r.error = .nan) := by
  obtain ⟨h0, h⟩ := fullMainR_alone hm T hw h
  refine ⟨h0, ?_⟩
  rcases h with h | ⟨initial, test, h1, h2, h3, h4⟩
  · exact .inl h
  right
  obtain ⟨rs, k1, k2⟩ := clean_initial (b := b) hp hd h1
  have hlen : initial.length = test.length := by
    rw [metrics_length (b := b) hp h2, k2]
    simp only [List.length_append, List.length_replicate]
    rw [flatten_const_length (AllOk.all k1 (fun x r h => psrMetric_length h)), AllOk.length_eq k1]
  have hz : .fin 0 ∈ initial := by
    rw [k2]
    rcases hc with hc | hc
    · have : q.conds.ign.length ≠ 0 := by simpa using hc
      simp [this]
    · simp
      exact .inr (.inr hc)
  rcases calculateErrorR_zero_base hlen hz h3 with h5 | h5 | ⟨h5, -⟩
  · rw [h5, hL] at h4
    exfalso
    simp [PyF.lt] at h4
    linarith
  · rw [h5, hL] at h4; simp [PyF.lt] at h4
  · exact h5

/-- the metrics of all models are numbers of the arithmetic: rounding keeps them -/
def Spec.MetricsExact (R : ℚ → PyF) (K : Cantera ι π φ) (rnd : ℚ → ℚ) (q : MainArgs ι π φ) (d : Disk) : Prop :=
  ∀ m ms, sampleMetrics (K.sims rnd) m q.conds q.par false d = .ok ms → ∀ v, .fin v ∈ ms → R (-v) = .fin (-v)

/-- **C94** in floating-point arithmetic, with metrics that are numbers of it: nothing is ever removed. -/
theorem C94_rounded_stuck (hR : ∀ x, R x ≠ .nan) (N : Numbers K) (hv : MetricsExact R K b.rnd q d) (hp : ParOk q.par)
    (hd : ∀ k, d ⟨k, true⟩ = none) (hm : q.method.bind methodOf = none) {L : ℚ} (hL : q.limit = .fin L) (hL1 : L < 100)
    (hc : q.conds.ign ≠ [] ∨ q.conds.flame ≠ []) {rndThr : ℚ → ℚ} {dfuel fuel saFuel : Nat}
    (T : TmpOk ((mainInR R K b.rnd rndThr q d [] [] dfuel fuel saFuel).saCtx q.modelFile (.fin 0)))
    {w w' : World} {r : RModel} {evs : List Ev} (hw : w.fs q.modelFile = some sol)
    (h : fullMainR R K b.rnd rndThr q d dfuel fuel saFuel w = ((some (.ok r), w'), evs)) :
    evs = [] ∧ r.model = sol ∧ r.error = .fin 0 := by
  obtain ⟨h0, h1⟩ := C94_rounded hp hd hm hL hL1 hc T hw h
  refine ⟨h0, ?_⟩
  rcases h1 with h1 | h1
  · exact h1
  obtain ⟨-, h2⟩ := fullMainR_alone hm T hw h
  rcases h2 with h2 | ⟨initial, test, k1, k2, k3, -⟩
  · exact h2
  exfalso
  obtain ⟨rs, j1, j2⟩ := clean_initial (b := b) hp hd k1
  have hlen : initial.length = test.length := by
    rw [metrics_length (b := b) hp k2, j2]
    simp only [List.length_append, List.length_replicate]
    rw [flatten_const_length (AllOk.all j1 (fun x r h => psrMetric_length h)), AllOk.length_eq j1]
  have hi : ∀ v ∈ initial, ∃ x : ℚ, v = .fin x := by
    intro v hv
    rw [j2] at hv
    simp only [List.mem_append, List.mem_flatten, List.mem_replicate] at hv
    rcases hv with (⟨-, rfl⟩ | ⟨l, hl, hv⟩) | ⟨-, rfl⟩
    · exact ⟨0, rfl⟩
    · exact AllOk.all j1 (fun x r h => psrMetric_fin N h) l hl v hv
    · exact ⟨0, rfl⟩
  have hz : .fin 0 ∈ initial := by
    rw [j2]
    rcases hc with hc | hc
    · have : q.conds.ign.length ≠ 0 := by simpa using hc
      simp [this]
    · simp
      exact .inr (.inr hc)
  rw [h1] at k3
  rcases calculateErrorR_zero_base hlen hz k3 with h5 | h5 | ⟨-, hnt, h5⟩
  · cases h5
  · cases h5
  obtain ⟨⟨x, t⟩, hxt, hn⟩ := List.mem_map.1 h5
  obtain ⟨m1, m2⟩ := List.of_mem_zip hxt
  obtain ⟨u, rfl⟩ := hi _ m1
  obtain ⟨v, rfl⟩ := sampleMetrics_fin (b := b) N hp k2 _ m2
  have hv0 : v ≠ 0 := fun hc => hnt (hc ▸ m2)
  by_cases hu : u = 0
  · subst hu
    have h3 : ¬ |v| < 0 := not_lt.2 (abs_nonneg v)
    simp [relDevR, PyF.sub, PyF.neg, PyF.add, PyF.rd, hv _ _ k2 v m2, PyF.abs, PyF.div, PyF.sgn, PyF.ofSign, hv0, h3] at hn
  · have hx := hR (u + -v)
    simp only [relDevR, PyF.sub, PyF.neg, PyF.add, PyF.rd] at hn
    generalize R (u + -v) = y at hn hx
    cases y with
    | fin y =>
      simp [PyF.abs, PyF.div, hu] at hn
      exact hR _ hn
    | nan => exact hx rfl
    | inf =>
      simp [PyF.abs, PyF.div, PyF.sgn, PyF.ofSign] at hn
      split_ifs at hn <;> simp_all
    | ninf =>
      simp [PyF.abs, PyF.div, PyF.sgn, PyF.ofSign] at hn
      split_ifs at hn <;> simp_all

/-! ### a concrete run -/

/-- in binary64 arithmetic nothing is removed either, although `D` changes nothing -/
example : runView (fullMainR rndInf e2eK rnd64 rnd64 (e2eAlone [()]) (fun _ => none) 50 20 20 e2eWorld).1 =
    some (.ok (["A", "B", "C", "D"], .fin 0)) := by
  decide +kernel

theorem e2e_psrMetric (m : Mech) : (e2eK.sims id).psr.metric m () =
    .ok [.fin 1, .fin (if m.names.contains "C" then 1000 else 1001), .fin 1600] := by
  simp only [Cantera.sims, Cantera.psrSims, e2eK]
  generalize m.names = l
  unfold e2ePsr
  rfl

theorem e2e_exact : MetricsExact rndInf e2eK id (e2eAlone [()]) (fun _ => none) := by
  intro m ms h v hv
  obtain ⟨a, s, f, h1, h2, h3, rfl⟩ := sampleMetrics_inv (p := (e2eAlone [()]).par) e2e_request.par h
  have g1 : AllOk ((e2eK.sims id).ign.metric m) [()] a := h1
  have g2 : AllOk ((e2eK.sims id).psr.metric m) [()] s := h2
  have g3 : AllOk ((e2eK.sims id).flame.metric m) [] f := h3
  obtain _ | ⟨i1, _ | _⟩ := g1
  obtain _ | ⟨j1, _ | _⟩ := g2
  cases g3
  rw [e2e_metric] at i1
  rw [e2e_psrMetric] at j1
  cases i1
  cases j1
  simp at hv
  have hall : ∀ x ∈ [100, 99, 50, 1, 1000, 1001, (1600 : ℚ)], rndInf (-x) = .fin (-x) := by decide +kernel
  apply hall
  rcases hv with rfl | rfl | rfl | rfl
  · split_ifs <;> simp
  · simp
  · split_ifs <;> simp
  · simp

/-- all hypotheses of `C94_rounded_stuck` hold here -/
example : (∀ x, rndInf x ≠ .nan) ∧ Numbers e2eK ∧ MetricsExact rndInf e2eK id (e2eAlone [()]) (fun _ => none) ∧
    ParOk (e2eAlone [()]).par ∧ (e2eAlone [()]).method.bind methodOf = none ∧ (e2eAlone [()]).limit = .fin 5 ∧
    (e2eAlone [()]).conds.ign ≠ [] ∧ e2eWorld.fs (e2eAlone [()]).modelFile = some e2eSol :=
  ⟨fun x => by unfold rndInf; split_ifs <;> simp, e2e_numbers, e2e_exact, e2e_request.par, rfl, rfl, by simp [e2eAlone], rfl⟩

/-- nor are the names of the temporary directories in the way -/
example (rnd : ℚ → ℚ) (d : Disk) (x y z : Nat) :
    TmpOk ((mainInR rndInf e2eK rnd rnd (e2eAlone [()]) d [] [] x y z).saCtx (e2eAlone [()]).modelFile (.fin 0)) :=
  have T := e2eAlone_tmp [()] rnd d x y z
  ⟨T.tmp_ne, T.tmp_last, T.eval_ne, T.eval_last, T.model_tmp, T.model_eval, T.apart⟩

end Verif
