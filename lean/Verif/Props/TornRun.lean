import Verif.Props.SaveText
import Verif.Props.Main
import Verif.Props.EndToEnd
import Verif.Lemmas.SAAlone
import Verif.Lemmas.NanLoop
import Verif.Props.Undefined
/-!
# Sensitivity analysis after a process died while saving samples (C123)
-/
namespace Verif
open Spec

variable {ι π φ : Type} {S : AllSims ι π φ} {sol : Mech} {cs : Conds ι π φ} {p p' : Par}

/-- what `sample` takes over, `sample_metrics` takes over as well -/
theorem metrics_of_hit {d : Disk} {o : List PyF} {rows : List Row} (hi : cs.ign ≠ [])
    (hc : cs.psr = []) (hf : cs.flame = []) (h : readCache S.ign sol cs.ign.length d = .hit o rows) (m : Mech) :
    sampleMetrics S m cs p' true d = .ok o := by
  unfold readCache at h
  split at h
  swap
  · cases h
  rename_i dat out h1 h2
  rcases hg : genfromtxt out with e | o' <;> rw [hg] at h <;> dsimp only at h
  · cases h
  rcases ha : genfromtxt dat with e | a <;> rw [ha] at h <;> dsimp only at h
  · cases h
  by_cases hl : o'.flat.length = S.ign.mets * cs.ign.length
  swap
  · rw [if_neg hl] at h
    dsimp only at h
    rcases hs : a.shape1 with e | c <;> rw [hs] at h <;> dsimp only at h
    · cases h
    · split at h <;> simp at h
  rw [if_pos hl] at h
  have ho : o = o'.flat := by
    rcases h3 : (a.shape0).map (fun k => decide (k = S.ign.rows * cs.ign.length)) with e | b <;> rw [h3] at h <;>
      dsimp only at h
    · cases h
    rcases hs : a.shape1 with e | c <;> rw [hs] at h <;> dsimp only at h
    · cases h
    · split at h
      · split_ifs at h
        cases h
        rfl
      · cases h
  have hm : metricsPart S.ign (fun n => List.replicate n (.fin 0)) m cs.ign p' true d = .ok o := by
    unfold metricsPart
    rw [if_neg hi, h2, ho]
    simp [hg, Except.map, hl]
  unfold sampleMetrics
  rw [hm, hc, hf]
  simp [metricsPart]

/-- the metrics of candidates that ignite -/
theorem metrics_ignite {d : Disk} (hp : ParOk p') (hi : cs.ign ≠ []) (hc : cs.psr = []) (hf : cs.flame = []) {m : Mech}
    (h : ∀ x ∈ cs.ign, ∃ v, S.ign.metric m x = .ok v ∧ v.length = S.ign.mets ∧ .fin 0 ∉ v) :
    ∃ t, sampleMetrics S m cs p' false d = .ok t ∧ t.length = S.ign.mets * cs.ign.length ∧ .fin 0 ∉ t := by
  have hall : ∀ l : List ι, (∀ x ∈ l, ∃ v, S.ign.metric m x = .ok v ∧ v.length = S.ign.mets ∧ .fin 0 ∉ v) →
      ∃ rs, AllOk (S.ign.metric m) l rs ∧ rs.flatten.length = S.ign.mets * l.length ∧ .fin 0 ∉ rs.flatten := by
    intro l
    induction l with
    | nil => intro _; exact ⟨[], .nil, by simp, by simp⟩
    | cons x l ih =>
      intro h
      obtain ⟨v, h1, h2, h3⟩ := h x (by simp)
      obtain ⟨rs, h4, h5, h6⟩ := ih (fun y hy => h y (by simp [hy]))
      refine ⟨v :: rs, .cons h1 h4, ?_, ?_⟩
      · rw [List.flatten_cons, List.length_append, h2, h5, List.length_cons]; ring
      · rw [List.flatten_cons, List.mem_append, not_or]; exact ⟨h3, h6⟩
  obtain ⟨rs, h1, h2, h3⟩ := hall cs.ign h
  refine ⟨rs.flatten, ?_, h2, h3⟩
  have hm : metricsPart S.ign (fun n => List.replicate n (.fin 0)) m cs.ign p' false d = .ok rs.flatten := by
    unfold metricsPart
    rw [if_neg hi]
    simpa using C38_metric_jobs h1 hp.threads (hp.order S.ign.kind cs.ign.length)
  unfold sampleMetrics
  rw [hm, hc, hf]
  simp [metricsPart]

/-- **C123** is false of the runs that follow: whatever number the last ignition delay is, the process that sampled the
starting model can die at a character after which sensitivity analysis (`initial`) in that directory removes every
species it may remove, whatever the limit, provided that the models it tries ignite.  The model returned has error NaN. -/
theorem C123_analysis_refuted {d : TextDisk} (hS : SimsOk S sol) (hF : FloatAll S sol) (hp : ParOk p) (hp' : ParOk p')
    (hi : cs.ign ≠ []) (hc : cs.psr = []) (hf : cs.flame = [])
    (hmiss : readCache S.ign sol cs.ign.length d.view = .miss)
    {rs : List (List PyF × List Row)} (hrs : AllOk (S.ign.run sol) cs.ign rs) (hmets : 0 < S.ign.mets) :
    ∃ a x rows, (sampleText S sol cs p d).1 = .ok (a ++ [x], rows) ∧ ∀ q : ℚ, x = .fin q → ∃ k, ∀ (c : SACtx) w fuel,
      (∀ m, c.initial m = sampleMetricsText S m cs p' true (diedAfter k d (sampleText S sol cs p d))) →
      (∀ m, c.metrics m = sampleMetricsText S m cs p' false (diedAfter k d (sampleText S sol cs p d))) →
      c.errOf = calculateError → TmpOk c → w.fs c.modelFile = some sol → c.greedy = false →
      (∃ s ∈ sol.names, s ∉ c.safe) → sol.nSpecies < fuel →
      (∀ m (l : List String), (∀ s ∈ l, s ∉ c.safe) → m.names = sol.names.filter (fun s => !(l.contains s)) →
        ∀ y ∈ cs.ign, ∃ v, S.ign.metric m y = .ok v ∧ v.length = S.ign.mets ∧ .fin 0 ∉ v) →
      ∃ r rm, runSA c [] fuel w = some r ∧ r.result = .ok rm ∧ rm.error = .nan ∧
        rm.model.names = sol.names.filter (fun s => c.safe.contains s) := by
  obtain ⟨a, x, rows, h1, h2⟩ := C123_undefined_refuted hS hF hp hi hc hf hmiss hrs hmets p'
  refine ⟨a, x, rows, h1, ?_⟩
  rintro q rfl
  obtain ⟨k, hk⟩ := h2 q rfl
  refine ⟨k, fun c w fuel hci hcm hce T hw hg hne hfuel hign => ?_⟩
  generalize hD : diedAfter k d (sampleText S sol cs p d) = D at hk hci hcm
  obtain ⟨ms, rows', -, -, -, r1, r2, -, -⟩ := sample_ign_writes (p := p) hS hp hi hc hf hmiss hrs
  have hms : ms = a ++ [.fin q] := by
    have h1 : (sample S sol cs p d.view).result = _ := h1
    rw [r1] at h1
    cases h1
    rfl
  have hinit : c.initial sol = .ok (a ++ [.nan]) := by
    rw [hci]
    show sampleMetrics S sol cs p' true D.view = _
    have hk : (sample S sol cs p' D.view).result = .ok (a ++ [.nan], rows) := hk
    rcases hr : readCache S.ign sol cs.ign.length D.view with ⟨o, rows2⟩ | _ | e
    · rw [metrics_of_hit hi hc hf hr]
      have hs : samplePart S.ign sol cs.ign p' D.view = ⟨.ok (o, rows2), [], false⟩ := by
        unfold samplePart
        rw [if_neg hi, hr]
      unfold sample at hk
      rw [hs, hc, hf] at hk
      simp only [samplePart, if_true] at hk
      rcases hv : vstack [rows2, [], []] with e | v <;> rw [hv] at hk <;> simp only [Except.map] at hk
      · cases hk
      · simp only [List.append_nil, Except.ok.injEq, Prod.mk.injEq] at hk
        rw [hk.1]
    · obtain ⟨ms', rows3, m1, -, -, m2, -⟩ := sample_ign_writes (p := p') hS hp' hi hc hf hr hrs
      obtain ⟨ms, _, m3, -, -, m4, -⟩ := sample_ign_writes (p := p) hS hp hi hc hf hmiss hrs
      rw [hk] at m2
      have h1 : (sample S sol cs p d.view).result = _ := h1
      rw [h1] at m4
      simp only [Except.ok.injEq, Prod.mk.injEq] at m2 m4
      have := m2.1.trans (m1.trans (m3.symm.trans m4.1.symm))
      simp at this
    · have hs : samplePart S.ign sol cs.ign p' D.view = ⟨.error e, [], false⟩ := by
        unfold samplePart
        rw [if_neg hi, hr]
      unfold sample at hk
      rw [hs] at hk
      cases hk
  have hlim : saLimbo c.safe sol [] = sol.names.filter (fun s => !(c.safe.contains s)) := by
    rw [saLimbo, if_pos rfl]
  have hlen : (a ++ [PyF.nan]).length = S.ign.mets * cs.ign.length := by
    rw [← r2, hms]; simp
  obtain ⟨r, rm, k1, k2, k3, k4⟩ := C71_nan_accepted_refuted (limbo := []) (fuel := fuel) T hw hinit hg
    (by
      obtain ⟨s, g1, g2⟩ := hne
      rw [hlim]
      exact List.ne_nil_of_mem (a := s) (by simp [g1, g2]))
    (fun l hl _ => by
      obtain ⟨t, t1, t2, t3⟩ := metrics_ignite (S := S) (d := D.view) hp' hi hc hf
        (hign (l.foldl (without c) sol) l (fun s hs => by
          have := hl s hs
          rw [hlim] at this
          simp at this
          exact this.2) (foldl_without_names _ _ _))
      have e1 : c.metrics (l.foldl (without c) sol) = .ok t := by rw [hcm]; exact t1
      unfold saErr
      rw [e1, hce]
      exact C40_nan (by rw [hlen, t2]) (.inl (by simp)) (fun y hy h => t3 (h ▸ hy)))
    (by
      rw [hlim]
      refine lt_of_le_of_lt (List.length_filter_le _ _) ?_
      simpa [Mech.nSpecies, Mech.names] using hfuel)
  refine ⟨r, rm, k1, k2, k3, ?_⟩
  rw [k4, hlim]
  refine List.filter_congr (fun s hs => ?_)
  by_cases h : s ∈ c.safe <;> simp [h, hs]

/-- a baseline with NaN makes every error undefined, or 100 percent if a metric is zero -/
theorem calculateError_torn {base t : List PyF} (hl : base.length = t.length) (hn : .nan ∈ base) {e : PyF}
    (h : calculateError base t = .ok e) : e = .nan ∨ e = .fin 100 ∧ .fin 0 ∈ t := by
  by_cases hz : ∀ x ∈ t, x ≠ .fin 0
  · rw [C40_nan hl (.inl hn) hz] at h
    cases h
    exact .inl rfl
  · push Not at hz
    obtain ⟨x, hx, rfl⟩ := hz
    have hany : t.any (fun t => t.eq (.fin 0)) = true := List.any_eq_true.2 ⟨_, hx, by simp [PyF.eq]⟩
    unfold calculateError at h
    split at h
    · cases h
    split at h
    · cases h
    rw [if_pos hany] at h
    cases h
    exact .inr ⟨rfl, hx⟩

/-- **C123** is false of the reductions that follow: whatever number the last ignition delay is, the process that sampled
the starting model can die at a character after which no reduction of that model with these conditions in that
directory, with any method, species, thresholds and limit that is not negative, returns a model unless simulating some
reduced model gives a metric of zero; and then the error reported is NaN or 100 percent. -/
theorem C123_method_refuted {K : Cantera ι π φ} {d : TextDisk} {b : Arith} (P : Physical K sol)
    (hF : FloatAll (K.sims b.rnd) sol) (hp : ParOk p)
    (hi : cs.ign ≠ []) (hc : cs.psr = []) (hf : cs.flame = [])
    (hmiss : readCache (K.sims b.rnd).ign sol cs.ign.length d.view = .miss)
    {rs : List (List PyF × List Row)} (hrs : AllOk ((K.sims b.rnd).ign.run sol) cs.ign rs) :
    ∃ a x rows, (sampleText (K.sims b.rnd) sol cs p d).1 = .ok (a ++ [x], rows) ∧ ∀ v : ℚ, x = .fin v →
      ∀ p', ParOk p' → ∃ k, ∀ (q : ReduceArgs ι π φ) meth rndThr dfuel fuel w w' r evs, q.conds = cs → q.par = p' →
      sol.names.Nodup → (∀ t ∈ q.targets, t ∈ sol.names) → (∀ n, joinPath q.path (reducedName n) ≠ q.modelFile) →
      w.fs q.modelFile = some sol →
      fullRun K meth b.rnd rndThr q (diedAfter k d (sampleText (K.sims b.rnd) sol cs p d)).view dfuel fuel w =
        ((some (.ok r), w'), evs) →
      (r.error = .nan ∨ r.error = .fin 100) ∧ (q.limit.lt (.fin 0) = false →
        ∃ m ms, sampleMetrics (K.sims b.rnd) m cs p' false (applyEvs (diedAfter k d (sampleText (K.sims b.rnd) sol cs p d)).view evs) =
          .ok ms ∧ .fin 0 ∈ ms) := by
  have hS : SimsOk (K.sims b.rnd) sol := simsOk (b := b) P
  obtain ⟨ms, rows', m1, -, -, r1, r2, r3, -⟩ := sample_ign_writes (p := p) hS hp hi hc hf hmiss hrs
  obtain ⟨a, x, rows, h1, -⟩ := C123_undefined_refuted hS hF hp hi hc hf hmiss hrs Nat.one_pos p
  refine ⟨a, x, rows, h1, ?_⟩
  rintro v rfl p' hp'
  obtain ⟨a', x', rows2, h1', h2⟩ := C123_undefined_refuted hS hF hp hi hc hf hmiss hrs Nat.one_pos p'
  have hab : a ++ [PyF.fin v] = a' ++ [x'] ∧ rows = rows2 := by
    rw [h1] at h1'
    simpa using h1'
  obtain ⟨hab1, rfl⟩ := hab
  have hx : x' = .fin v := by
    have := congrArg List.getLast? hab1
    simpa using this.symm
  obtain ⟨k, hk⟩ := h2 v hx
  refine ⟨k, fun q meth rndThr dfuel fuel w w' r evs e1 e2 hn ht hcl hw h => ?_⟩
  generalize diedAfter k d (sampleText (K.sims b.rnd) sol cs p d) = D at hk h
  obtain ⟨base, rows3, g1, g2, g3⟩ := fullRun_ok hw h
  have hk : (sample (K.sims b.rnd) sol cs p' D.view).result = .ok (a' ++ [.nan], rows) := hk
  rw [e1, e2, hk] at g1
  simp only [Except.ok.injEq, Prod.mk.injEq] at g1
  obtain ⟨rfl, rfl⟩ := g1
  have h1 : (sample (K.sims b.rnd) sol cs p d.view).result = _ := h1
  rw [r1] at h1
  simp only [Except.ok.injEq, Prod.mk.injEq] at h1
  have hrows : rows ≠ [] := by
    rw [← h1.2, ← List.length_pos_iff, r3]
    exact Nat.mul_pos (by norm_num [Cantera.sims, Cantera.ignSims]) (List.length_pos_iff.2 hi)
  have hlen : (a' ++ [PyF.nan]).length = cs.ign.length := by
    have : ms.length = 1 * cs.ign.length := r2
    rw [h1.1, hab1] at this
    simpa using this
  have herr : ∀ m, evalError (K.sims b.rnd) q (applyEvs D.view evs) (a' ++ [.nan]) m = .nan ∨
      evalError (K.sims b.rnd) q (applyEvs D.view evs) (a' ++ [.nan]) m = .fin 100 ∧
      ∃ ms, sampleMetrics (K.sims b.rnd) m cs p' false (applyEvs D.view evs) = .ok ms ∧ .fin 0 ∈ ms := by
    intro m
    rw [evalError_eq, e1, e2]
    rcases ht : sampleMetrics (K.sims b.rnd) m cs p' false (applyEvs D.view evs) with e | t
    · exact .inl rfl
    · dsimp only
      split
      · exact .inl rfl
      · rename_i e he
        rcases calculateError_torn (t := t) (by
          have := metrics_length (b := b) hp' ht
          rw [hlen, this, hc, hf]
          simp) (by simp) he with h | ⟨h, h0⟩
        · exact .inl h
        · exact .inr ⟨h, _, rfl, h0⟩
  have hset : Setting (fullCtx K meth b.rnd q (applyEvs D.view evs) sol (a' ++ [.nan]) rows) sol := ⟨hn, ht, hcl⟩
  have herr2 : ∀ m, evalError (K.sims b.rnd) q (applyEvs D.view evs) (a' ++ [.nan]) m = .nan ∨
      evalError (K.sims b.rnd) q (applyEvs D.view evs) (a' ++ [.nan]) m = .fin 100 :=
    fun m => (herr m).imp_right And.left
  refine ⟨?_, fun hl => ?_⟩
  rotate_left
  · by_contra hno
    push Not at hno
    rw [← runMethod_sim] at g3
    refine dull_method (fun m e he => ?_) hl g3
    cases he
    rcases herr m with h | ⟨-, ms, m1, m2⟩
    · exact h
    · exact absurd m2 (hno m ms m1)
  obtain ⟨t, w1, w2, hw1, H⟩ := runMethod_fresh hset hw g3
  cases meth with
  | drg =>
    dsimp only at H
    rw [reduceDrg_fresh hset t w1 hw1 none (by simp)] at H
    simp only [Prod.mk.injEq, Except.ok.injEq] at H
    rw [← H.1]
    exact herr2 _
  | pfa =>
    dsimp only at H
    rw [reducePfa_fresh hset (.inr (by simpa [fullCtx] using hrows)) t w1 hw1 none (by simp)] at H
    simp only [Prod.mk.injEq, Except.ok.injEq] at H
    rw [← H.1]
    exact herr2 _
  | drgep =>
    obtain ⟨imp, H1, H2⟩ := H
    rw [reduceDrgep_fresh (importance_isSome H1) t w1 hw1 none (by simp)] at H2
    simp only [Prod.mk.injEq, Except.ok.injEq] at H2
    rw [← H2.1]
    exact herr2 _

/-! ### a concrete case -/

/-- ignition takes a thousand times as long without `B` -/
def tornAll : AllSims Nat Nat Nat :=
  { tinyAll with ign := { tinySims .ign 20 1 with
      metric := fun m n => .ok [.fin (rnd754 ((n % 8 : Nat) / (if m.names.contains "B" then 10000 else 10)))] } }

theorem tornAll_ok (m : Mech) : SimsOk tornAll m :=
  have h := tinyAll_ok m
  { ign := rfl, psr := rfl, flame := rfl, ignShape := ⟨h.ignShape.rows_pos, h.ignShape.two, h.ignShape.run⟩,
    psrShape := h.psrShape, flameShape := h.flameShape }

theorem tornAll_float (m : Mech) : FloatAll tornAll m :=
  have h := tinyAll_float m
  ⟨⟨h.ign.metrics, h.ign.data⟩, h.psr, h.flame⟩

/-- sensitivity analysis with a limit of one percent in a directory -/
def tornSA (D : TextDisk) : SACtx :=
  { exSA (.fin 1) false [] with
    initial := fun m => sampleMetricsText tornAll m tinyConds (exPar 3) true D
    metrics := fun m => sampleMetricsText tornAll m tinyConds (exPar 3) false D }

theorem tornSA_tmp (D : TextDisk) : TmpOk (tornSA D) :=
  have T := exSA_tmp (.fin 1) false []
  ⟨T.tmp_ne, T.tmp_last, T.eval_ne, T.eval_last, T.model_tmp, T.model_eval, T.apart⟩

/-- after the death `B` is removed in spite of the limit of one percent -/
example : ∃ k r rm, runSA (tornSA (diedAfter k noFiles (sampleText tornAll saSol tinyConds (exPar 3) noFiles))) [] 4 saWorld =
    some r ∧ r.result = .ok rm ∧ rm.error = .nan ∧ rm.model.names = ["A"] := by
  obtain ⟨a, x, rows, h1, h2⟩ := C123_analysis_refuted (d := noFiles) (cs := tinyConds) (tornAll_ok saSol) (tornAll_float saSol)
    (exPar_ok (t := 3) (by norm_num)) (exPar_ok (t := 3) (by norm_num)) (by decide) rfl rfl rfl
    (rs := _) (.cons rfl (.cons rfl .nil)) (by decide)
  have hx : ∃ q, x = .fin q := by
    obtain ⟨ms, rows', m1, -, -, m2, -⟩ := sample_ign_writes (p := exPar 3) (d := noFiles.view) (c := tinyConds)
      (tornAll_ok saSol) (exPar_ok (t := 3) (by norm_num)) (by decide) rfl rfl rfl (rs := _) (.cons rfl (.cons rfl .nil))
    have h1 : (sample tornAll saSol tinyConds (exPar 3) noFiles.view).result = _ := h1
    rw [m2] at h1
    simp only [Except.ok.injEq, Prod.mk.injEq] at h1
    have hmem : x ∈ ms := by rw [h1.1]; simp
    rw [m1] at hmem
    simp [tornAll, tinyAll, tinySims] at hmem
    rcases hmem with rfl | rfl <;> exact ⟨_, rfl⟩
  obtain ⟨q, rfl⟩ := hx
  obtain ⟨k, hk⟩ := h2 q rfl
  obtain ⟨r, rm, k1, k2, k3, k4⟩ := hk (tornSA (diedAfter k noFiles (sampleText tornAll saSol tinyConds (exPar 3) noFiles)))
    saWorld 4 (fun _ => rfl) (fun _ => rfl) rfl (tornSA_tmp _) rfl rfl ⟨"B", by decide, by simp [tornSA, exSA]⟩ (by decide)
    (fun m l _ _ y hy => ⟨_, rfl, rfl, by
      have hy : y = 5 ∨ y = 7 := by simpa [tinyConds] using hy
      rcases hy with rfl | rfl <;> split_ifs <;> decide +kernel⟩)
  refine ⟨k, r, rm, k1, k2, k3, ?_⟩
  rw [k4]
  show saSol.names.filter (fun s => ["A"].contains s) = ["A"]
  decide

/-- one ignition condition -/
def tornArgs : ReduceArgs Unit Unit Unit := { e2eArgs with conds := ⟨[()], [], []⟩ }

/-- the directory in which the process sampling the model of the first example died after `k` characters -/
def tornDir (k : Nat) : TextDisk :=
  diedAfter k noFiles (sampleText (e2eK.sims id) e2eSol tornArgs.conds tornArgs.par noFiles)

def floatCheck : PyF → Bool
  | .fin q => rnd754 q = q ∧ |q| < 2 ^ 1024
  | _ => true

theorem floatCheck_ok {x : PyF} (h : floatCheck x = true) : IsPyFloat x := by
  cases x with
  | fin q =>
    have h : rnd754 q = q ∧ |q| < 2 ^ 1024 := by simpa [floatCheck] using h
    exact h
  | _ => trivial

def floatResult : Except Err (List PyF × List Row) → Bool
  | .ok (a, b) => a.all floatCheck && b.all (fun r => r.all floatCheck)
  | .error _ => true

theorem floatSims_of {S : Sims Unit} {m : Mech} (h : floatResult (S.run m ()) = true) : FloatSims S m := by
  constructor <;> rintro ⟨⟩ ms rows hr <;> rw [hr] at h <;>
    simp only [floatResult, Bool.and_eq_true, List.all_eq_true] at h
  · exact fun x hx => floatCheck_ok (h.1 x hx)
  · exact fun r hr x hx => floatCheck_ok (h.2 r hr x hx)

theorem e2e_float : FloatAll (e2eK.sims id) e2eSol :=
  ⟨floatSims_of (by decide +kernel), floatSims_of (by decide +kernel), floatSims_of (by decide +kernel)⟩

/-- Undisturbed, the reduction removes `C`. -/
example : runView (fullRun e2eK .drg id id tornArgs noFiles.view 50 20 e2eWorld).1 = some (.ok (["A", "B", "D"], .fin 1)) := by
  decide +kernel

/-- the ignition delay of any model in that example -/
theorem e2e_metric (m : Mech) : (e2eK.sims id).ign.metric m () =
    .ok [.fin (if m.names.contains "B" then (if m.names.contains "C" then 100 else 99) else 50)] := by
  simp only [Cantera.sims, Cantera.ignSims, e2eK]
  generalize m.names = l
  unfold e2eReactor
  generalize l.map (fun _ => PyF.fin 0) = Y
  by_cases hB : l.contains "B" = true <;> by_cases hC : l.contains "C" = true <;>
    simp only [hB, hC, if_true, if_false, Bool.false_eq_true] <;> with_unfolding_all rfl

/-- After the process died at a certain character no method returns a model. -/
example : ∃ k, ∀ meth dfuel fuel w' r evs,
    fullRun e2eK meth id id tornArgs (tornDir k).view dfuel fuel e2eWorld ≠ ((some (.ok r), w'), evs) := by
  have hex : ∃ r, (e2eK.sims id).ign.run e2eSol () = .ok r := by
    have h : ((e2eK.sims id).ign.run e2eSol ()).toOption.isSome = true := by decide +kernel
    generalize (e2eK.sims id).ign.run e2eSol () = y at h
    rcases y with e | r
    · cases h
    · exact ⟨r, rfl⟩
  obtain ⟨r0, hr0⟩ := hex
  obtain ⟨a, x, rows, h1, h2⟩ := C123_method_refuted (b := .exact) (d := noFiles) (cs := tornArgs.conds) e2e_physical e2e_float
    (p := tornArgs.par) e2e_request.par (by decide) rfl rfl rfl (rs := [r0]) (.cons hr0 .nil)
  have hx : x = .fin 100 := by
    have h3 : ((sampleText (e2eK.sims id) e2eSol tornArgs.conds tornArgs.par noFiles).1.toOption.map (·.1.getLast?)) =
      some (some (.fin 100)) := by decide +kernel
    have h1 : (sampleText (e2eK.sims id) e2eSol tornArgs.conds tornArgs.par noFiles).1 = _ := h1
    rw [h1] at h3
    simpa [Except.toOption] using h3
  subst hx
  obtain ⟨k, hk⟩ := h2 100 rfl _ e2e_request.par
  refine ⟨k, fun meth dfuel fuel w' r evs h => ?_⟩
  obtain ⟨m, ms, m1, m2⟩ := (hk tornArgs meth id dfuel fuel e2eWorld w' r evs rfl rfl e2e_request.nodup e2e_request.targets
    e2e_request.noclash rfl h).2 (by decide)
  obtain ⟨t, t1, -, t2⟩ := metrics_ignite (S := e2eK.sims id) (cs := tornArgs.conds) (p' := tornArgs.par) e2e_request.par
    (by decide) rfl rfl (m := m) (d := applyEvs (tornDir k).view evs)
    (fun x _ => ⟨_, e2e_metric m, rfl, by split_ifs <;> decide +kernel⟩)
  have m1 : sampleMetrics (e2eK.sims id) m tornArgs.conds tornArgs.par false (applyEvs (tornDir k).view evs) = .ok ms := m1
  rw [t1] at m1
  cases m1
  exact t2 m2

end Verif
