import Verif.Lemmas.SAAlone
/-!
# Sensitivity analysis alone, in a directory without saved metrics (C94)
-/
namespace Verif
open Spec

variable {ι π φ : Type} {K : Cantera ι π φ} {sol : Mech} {q : MainArgs ι π φ} {d : Disk} {b : Arith}

/-- Cantera returns numbers for every model -/
structure Spec.Numbers (K : Cantera ι π φ) : Prop where
  time : ∀ m x R k p, K.reactor m x = .ok R → R.step k = some p → ∃ v : ℚ, p.time = .fin v
  psr : ∀ m x r, K.psr m x = .ok (.ok r) →
    ∃ u v w : ℚ, r.extinction.tau = .fin u ∧ r.logMid.T = .fin v ∧ r.near.T = .fin w
  flame : ∀ m x f, K.flame m x = .ok (some f) → ∃ v : ℚ, f.speed = .fin v

/-- what `main` does when no graph-based method is asked for -/
theorem fullMain_alone {rnd : ℚ → ℚ} {dfuel fuel saFuel : Nat} {w w' : World} {r : RModel}
    {evs : List Ev} (hm : q.method.bind methodOf = none)
    (T : TmpOk ((mainIn K rnd q d [] [] dfuel fuel saFuel).saCtx q.modelFile (.fin 0)))
    (hw : w.fs q.modelFile = some sol)
    (h : fullMain K rnd q d dfuel fuel saFuel w = ((some (.ok r), w'), evs)) :
    evs = [] ∧ ((r.model = sol ∧ r.error = .fin 0) ∨
    ∃ initial test, sampleMetrics (K.sims rnd) sol q.conds q.par true d = .ok initial ∧
      sampleMetrics (K.sims rnd) r.model q.conds q.par false d = .ok test ∧
      calculateError initial test = .ok r.error ∧ q.limit.lt r.error = false) := by
  unfold fullMain at h
  rw [hm] at h
  by_cases h2 : ((decide (q.method = none) || decide (q.method = some "")) && !q.sensitivity) = true
  · rw [if_neg (by simp), if_pos h2] at h; cases h
  rw [if_neg (by simp), if_neg h2] at h
  dsimp only at h
  simp only [Prod.mk.injEq] at h
  obtain ⟨h3, h4⟩ := h
  refine ⟨h4.symm, ?_⟩
  rcases C50_stages h3 with ⟨-, m, h5, -⟩ | ⟨-, file, err, limbo, w1, sr, hF, h5, h6, -⟩
  · rw [show q.method.bind methodOf = some m from h5] at hm; cases hm
  · cases hF with
    | method h7 => rw [show q.method.bind methodOf = some _ from h7] at hm; cases hm
    | none h7 =>
      rcases C29_within_limit T hw h5 h6 with h8 | ⟨initial, i1, i2, i3⟩
      · exact .inl h8
      · right
        have i1 : sampleMetrics (K.sims rnd) sol q.conds q.par true d = .ok initial := i1
        unfold saErr at i2
        split at i2
        · cases i2
        · rename_i t ht
          have ht : sampleMetrics (K.sims rnd) r.model q.conds q.par false d = .ok t := ht
          have i3 : ¬ q.limit.lt r.error = true := i3
          exact ⟨initial, t, i1, ht, i2, by simpa using i3⟩

/-- **C94**: sensitivity analysis alone, in a directory without saved metrics and with a limit
below 100 percent, returns the starting model as it is, or reports an undefined error; only if
every condition is a stirred reactor it may also return a smaller model, and that model then
reproduces the starting model within the limit. -/
theorem C94_alone (P : Physical K sol) (hp : ParOk q.par) (hd : ∀ k, d ⟨k, true⟩ = none)
    (hm : q.method.bind methodOf = none) {L : ℚ} (hL : q.limit = .fin L) (hL1 : L < 100)
    {dfuel fuel saFuel : Nat}
    (T : TmpOk ((mainIn K b.rnd q d [] [] dfuel fuel saFuel).saCtx q.modelFile (.fin 0)))
    {w w' : World} {r : RModel} {evs : List Ev} (hw : w.fs q.modelFile = some sol)
    (h : fullMain K b.rnd q d dfuel fuel saFuel w = ((some (.ok r), w'), evs)) :
    evs = [] ∧ ((r.model = sol ∧ r.error = .fin 0) ∨ r.error = .nan ∨
      (q.conds.ign = [] ∧ q.conds.flame = [] ∧ Reproduces K q.conds sol r.model L)) := by
  obtain ⟨h0, h⟩ := fullMain_alone hm T hw h
  refine ⟨h0, ?_⟩
  rcases h with h | ⟨initial, test, h1, h2, h3, h4⟩
  · exact .inl h
  right
  obtain ⟨rs, k1, k2⟩ := clean_initial (b := b) hp hd h1
  have hlen : initial.length = test.length := by
    rw [metrics_length (b := b) hp h2, k2]
    simp only [List.length_append, List.length_replicate]
    rw [flatten_const_length (AllOk.all k1 (fun x r h => psrMetric_length h)), AllOk.length_eq k1]
  by_cases hz : .fin 0 ∈ initial
  · left
    rcases calculateError_zero_base hlen hz h3 with h5 | h5 | h5
    · rw [h5, hL] at h4
      exfalso
      simp [PyF.lt] at h4
      linarith
    · rw [h5, hL] at h4; simp [PyF.lt] at h4
    · exact h5
  · have hi : q.conds.ign = [] := by
      by_contra hc
      apply hz
      rw [k2]
      have : q.conds.ign.length ≠ 0 := by simpa using hc
      simp [this]
    have hf : q.conds.flame = [] := by
      by_contra hc
      apply hz
      rw [k2]
      simp
      exact .inr (.inr hc)
    have hsim : ∃ rows, Simulated (K.sims b.rnd) sol q.conds initial rows := by
      have : ∃ l, AllOk (K.psrSims.run sol) q.conds.psr l ∧ l.map (·.1) = rs := by
        have hz' : ∀ x ∈ rs, .fin 0 ∉ x := fun x hx hc => hz (by
          rw [k2]; simp only [List.mem_append, List.mem_flatten]; exact .inl (.inr ⟨x, hx, hc⟩))
        clear k2 h1 h2 hlen hz h0 hi hf
        revert k1
        generalize q.conds.psr = cs
        intro k1
        induction k1 with
        | nil => exact ⟨[], .nil, rfl⟩
        | @cons x y l l' g1 g2 ih =>
          obtain ⟨l2, g3, g4⟩ := ih (fun x hx => hz' x (by simp [hx]))
          have hy := hz' y (by simp)
          simp only [Cantera.psrSims] at g1
          rcases hR : K.psr sol x with e | t <;> rw [hR] at g1
          · cases g1
          dsimp only at g1
          rcases t with e | cpt
          · exfalso
            by_cases he : e = .runtimeError
            · rw [(C47_failure (.fin 0) e).2.1 he] at g1
              cases g1
              exact hy (by simp)
            · rw [(C47_failure (.fin 0) e).2.2 he] at g1; cases g1
          · rw [(C47_points (.fin 0) cpt).2.1] at g1
            cases g1
            refine ⟨_ :: l2, .cons (b := (psrMetrics cpt, [cpt.extinction, cpt.logMid, cpt.near].map
              (fun z => z.T :: K.psrPressure x :: z.Y))) ?_ g3, ?_⟩
            · simp only [Cantera.psrSims]
              rw [hR]
              rfl
            · rw [List.map_cons, g4]; rfl
      obtain ⟨l, l1, l2⟩ := this
      refine ⟨(l.map (·.2)).flatten, ⟨[], l, [], ?_, l1, ?_, ?_, ?_⟩⟩
      · rw [hi]; exact .nil
      · rw [hf]; exact .nil
      · rw [k2, hi, hf, l2]; simp
      · simp
    obtain ⟨rows, hsim⟩ := hsim
    have hev := evalError_of_sa (q := q.toReduceArgs) (d := d) h2 h3
    rcases hr : r.error with e | _ | _ | _
    · right
      refine ⟨hi, hf, ?_⟩
      rw [hr, hL] at h4
      have hle : e ≤ L := by simpa [PyF.lt] using h4
      rw [hr] at hev
      exact Spec.Reproduces.mono P (reproduces_of_error P (q := q.toReduceArgs) hp hsim hev (by linarith)) hle
    · rw [hr, hL] at h4; simp [PyF.lt] at h4
    · exfalso
      obtain ⟨os, hos, hpos⟩ := simulated_pos P hsim
      rw [hos, hr] at h3
      exact calculateError_ne_ninf hpos h3
    · exact .inl rfl


/-- numbers compared with numbers: the error is a number or infinite -/
theorem calculateError_ne_nan {orig test : List PyF} (hl : orig.length = test.length)
    (ho : ∀ x ∈ orig, ∃ v : ℚ, x = .fin v) (ht : ∀ x ∈ test, ∃ v : ℚ, x = .fin v) :
    calculateError orig test ≠ .ok .nan := by
  intro h
  by_cases h0 : .fin 0 ∈ test
  · rw [C41_zero hl h0] at h; cases h
  have hn : ∀ x ∈ (orig.zip test).map relDev, x ≠ .nan := by
    intro x hx
    obtain ⟨⟨a, c⟩, hac, rfl⟩ := List.mem_map.1 hx
    obtain ⟨h1, h2⟩ := List.of_mem_zip hac
    obtain ⟨u, rfl⟩ := ho _ h1
    obtain ⟨v, rfl⟩ := ht _ h2
    by_cases hu : u = 0
    · have hv : v ≠ 0 := fun hc => h0 (hc ▸ h2)
      have h3 : ¬ |v| < 0 := not_lt.2 (abs_nonneg v)
      subst hu
      simp [relDev, PyF.sub, PyF.neg, PyF.add, PyF.abs, PyF.div, PyF.sgn, PyF.ofSign, hv]
      rw [if_neg h3]; simp
    · simp [relDev, PyF.sub, PyF.neg, PyF.add, PyF.abs, PyF.div, hu]
  unfold calculateError at h
  rw [broadcast_eq hl] at h
  dsimp only at h
  rcases hq : (orig.zip test).map relDev with _ | ⟨a, l⟩
  · rw [hq] at h; simp [npMax] at h
  · rw [hq] at h hn
    simp only [npMax] at h
    split_ifs at h with hany
    · cases h
    have hk := foldl_nmax_not_nan (a := a) (l := l) hn
    revert h hk
    generalize l.foldl PyF.nmax a = y
    intro h hk
    cases y with
    | nan => exact hk rfl
    | fin v => simp [PyF.mul] at h
    | inf => revert h; decide +kernel
    | ninf => revert h; decide +kernel

/-- with numbers from Cantera, the metrics of every model are numbers -/
theorem ignMetric_fin (N : Numbers K) {m : Mech} {x : ι} {r : List PyF}
    (h : (K.ignSims b.rnd).metric m x = .ok r) : ∀ v ∈ r, ∃ z : ℚ, v = .fin z := by
  simp only [Cantera.ignSims] at h
  rcases hR : K.reactor m x with e | R <;> rw [hR] at h
  · cases h
  dsimp only at h
  rcases hw : ignWorker (K.ignProps x) R K.fuel with _ | y <;> rw [hw] at h
  · cases h
  · rw [Option.getD_some] at h
    subst h
    obtain ⟨d, rfl, hd⟩ := ignWorker_nonzero hw
    intro v hv
    rw [List.mem_singleton.1 hv]
    by_cases h0 : d = .fin 0
    · exact ⟨0, h0⟩
    · obtain ⟨k, p, h1, h2⟩ := hd h0
      rw [← h2]
      exact N.time m x R k p hR h1.1

theorem psrMetric_fin (N : Numbers K) {m : Mech} {x : π} {r : List PyF}
    (h : K.psrSims.metric m x = .ok r) : ∀ v ∈ r, ∃ z : ℚ, v = .fin z := by
  simp only [Cantera.psrSims] at h
  rcases hR : K.psr m x with e | t <;> rw [hR] at h
  · cases h
  dsimp only at h
  rcases t with e | c
  · by_cases he : e = .runtimeError
    · rw [(C47_failure (.fin 0) e).2.1 he] at h
      cases h
      intro v hv
      simp only [List.mem_cons, List.not_mem_nil, or_false, or_self] at hv
      exact ⟨0, hv⟩
    · rw [(C47_failure (.fin 0) e).2.2 he] at h; cases h
  · rw [(C47_points (.fin 0) c).2.1] at h
    cases h
    obtain ⟨u, v, z, h1, h2, h3⟩ := N.psr m x c hR
    intro y hy
    simp only [List.mem_cons, List.not_mem_nil, or_false] at hy
    rcases hy with rfl | rfl | rfl
    · exact ⟨_, h1⟩
    · exact ⟨_, h2⟩
    · exact ⟨_, h3⟩

theorem flameMetric_fin (N : Numbers K) {m : Mech} {x : φ} {r : List PyF}
    (h : (K.flameSims b.rnd).metric m x = .ok r) : ∀ v ∈ r, ∃ z : ℚ, v = .fin z := by
  simp only [Cantera.flameSims] at h
  rcases hR : K.flame m x with e | t <;> rw [hR] at h
  · cases h
  · cases h
    intro v hv
    rw [List.mem_singleton.1 hv]
    rcases C46_floor K.floor t with ⟨-, -, h1⟩ | ⟨f, rfl, -, -, h1⟩
    · exact ⟨0, h1⟩
    · rw [h1]; exact N.flame m x f hR

theorem sampleMetrics_fin (N : Numbers K) {p : Par} {c : Conds ι π φ} (hp : ParOk p) {m : Mech}
    {ms : List PyF} (h : sampleMetrics (K.sims b.rnd) m c p false d = .ok ms) :
    ∀ v ∈ ms, ∃ z : ℚ, v = .fin z := by
  obtain ⟨a, s, f, h1, h2, h3, rfl⟩ := sampleMetrics_inv hp h
  intro v hv
  simp only [List.mem_append, List.mem_flatten] at hv
  rcases hv with (⟨l, hl, hv⟩ | ⟨l, hl, hv⟩) | ⟨l, hl, hv⟩
  · exact AllOk.all h1 (fun x r h => ignMetric_fin (b := b) N h) l hl v hv
  · exact AllOk.all h2 (fun x r h => psrMetric_fin N h) l hl v hv
  · exact AllOk.all h3 (fun x r h => flameMetric_fin (b := b) N h) l hl v hv

/-- **C94**: with one ignition or flame condition, sensitivity analysis alone in a directory
without saved metrics removes nothing at all: the model it returns is the starting model and the
error it reports is 0, whatever is asked of it. -/
theorem C94_stuck (P : Physical K sol) (N : Numbers K) (hp : ParOk q.par)
    (hd : ∀ k, d ⟨k, true⟩ = none) (hm : q.method.bind methodOf = none)
    {L : ℚ} (hL : q.limit = .fin L) (hL1 : L < 100) (hc : q.conds.ign ≠ [] ∨ q.conds.flame ≠ [])
    {dfuel fuel saFuel : Nat}
    (T : TmpOk ((mainIn K b.rnd q d [] [] dfuel fuel saFuel).saCtx q.modelFile (.fin 0)))
    {w w' : World} {r : RModel} {evs : List Ev} (hw : w.fs q.modelFile = some sol)
    (h : fullMain K b.rnd q d dfuel fuel saFuel w = ((some (.ok r), w'), evs)) :
    evs = [] ∧ r.model = sol ∧ r.error = .fin 0 := by
  obtain ⟨h0, h1⟩ := C94_alone P hp hd hm hL hL1 T hw h
  refine ⟨h0, ?_⟩
  rcases h1 with h1 | h1 | ⟨h1, h2, -⟩
  · exact h1
  · obtain ⟨-, h2⟩ := fullMain_alone hm T hw h
    rcases h2 with h2 | ⟨initial, test, k1, k2, k3, -⟩
    · exact h2
    · exfalso
      obtain ⟨rs, j1, j2⟩ := clean_initial (b := b) hp hd k1
      have hlen : initial.length = test.length := by
        rw [metrics_length (b := b) hp k2, j2]
        simp only [List.length_append, List.length_replicate]
        rw [flatten_const_length (AllOk.all j1 (fun x r h => psrMetric_length h)), AllOk.length_eq j1]
      rw [h1] at k3
      refine calculateError_ne_nan hlen ?_ (sampleMetrics_fin (b := b) N hp k2) k3
      intro v hv
      rw [j2] at hv
      simp only [List.mem_append, List.mem_flatten, List.mem_replicate] at hv
      rcases hv with (⟨-, rfl⟩ | ⟨l, hl, hv⟩) | ⟨-, rfl⟩
      · exact ⟨0, rfl⟩
      · exact AllOk.all j1 (fun x r h => psrMetric_fin N h) l hl v hv
      · exact ⟨0, rfl⟩
  · rcases hc with hc | hc
    · exact absurd h1 hc
    · exact absurd h2 hc


/-- sensitivity analysis alone on the model of `Props/EndToEnd.lean` -/
def e2eAlone (ign : List Unit) : MainArgs Unit Unit Unit :=
  { e2eMain "" with method := none, conds := { e2eArgs.conds with ign := ign, flame := [] } }

/-- one ignition case: nothing is removed, although `D` changes nothing -/
example : runView (fullMain e2eK id (e2eAlone [()]) (fun _ => none) 50 20 20 e2eWorld).1 =
    some (.ok (["A", "B", "C", "D"], .fin 0)) := by
  decide +kernel

/-- only a stirred reactor: `B` changes nothing, `C` one tenth of a percent -/
example : runView (fullMain e2eK id (e2eAlone []) (fun _ => none) 50 20 20 e2eWorld).1 =
    some (.ok (["A"], .fin (1 / 10))) := by
  decide +kernel

theorem e2e_numbers : Numbers e2eK where
  time := by
    intro m x R k p h hp
    cases h
    cases hp
    exact ⟨_, rfl⟩
  psr := by
    intro m x r h
    cases h
    exact ⟨_, _, _, rfl, rfl, rfl⟩
  flame := by
    intro m x f h
    cases h
    exact ⟨_, rfl⟩

/-- all hypotheses of C94 hold here -/
example : Physical e2eK e2eSol ∧ Numbers e2eK ∧ ParOk (e2eAlone [()]).par ∧
    (e2eAlone [()]).method.bind methodOf = none ∧ (e2eAlone [()]).limit = .fin 5 ∧
    (e2eAlone [()]).conds.ign ≠ [] ∧ e2eWorld.fs (e2eAlone [()]).modelFile = some e2eSol :=
  ⟨e2e_physical, e2e_numbers, e2e_request.par, rfl, rfl, by simp [e2eAlone], rfl⟩


theorem e2eAlone_tmp (ign : List Unit) (rnd : ℚ → ℚ) (d : Disk) (x y z : Nat) :
    TmpOk ((mainIn e2eK rnd (e2eAlone ign) d [] [] x y z).saCtx (e2eAlone ign).modelFile (.fin 0)) where
  tmp_ne := by show "/tmp/a".toList ≠ []; decide
  tmp_last := by show "/tmp/a".toList.getLast? ≠ some '/'; decide
  eval_ne := fun _ => by show "/tmp/b".toList ≠ []; decide
  eval_last := fun _ => by show "/tmp/b".toList.getLast? ≠ some '/'; decide
  model_tmp := by
    show ¬ "/tmp/a".toList ++ ['/'] <+: "m.yaml".toList
    decide
  model_eval := fun _ => by
    show ¬ "/tmp/b".toList ++ ['/'] <+: "m.yaml".toList
    decide
  apart := (exSA_tmp (.fin 0) false []).apart

end Verif
