import Verif.Props.FullMain
/-!
# Lemmas on sensitivity analysis without a method before it
-/
namespace Verif
open Spec

/-- a zero among the original metrics: the error is 100, infinite or undefined -/
theorem calculateError_zero_base {orig test : List PyF} {e : PyF} (hl : orig.length = test.length)
    (h0 : .fin 0 ∈ orig) (h : calculateError orig test = .ok e) :
    e = .fin 100 ∨ e = .inf ∨ e = .nan := by
  by_cases ht : .fin 0 ∈ test
  · rw [C41_zero hl ht] at h
    cases h; exact .inl rfl
  right
  by_cases hn : .nan ∈ (orig.zip test).map relDev
  · right
    unfold calculateError at h
    rw [broadcast_eq hl] at h
    dsimp only at h
    rcases hq : (orig.zip test).map relDev with _ | ⟨a, l⟩
    · rw [hq] at hn; simp at hn
    · rw [hq] at h hn
      simp only [npMax] at h
      rw [foldl_nmax_has_nan hn] at h
      split_ifs at h with hany
      · exfalso
        obtain ⟨t, ht1, ht2⟩ := List.any_eq_true.1 hany
        apply ht
        cases t with
        | fin q => have : q = 0 := by simpa [PyF.eq] using ht2
                   rw [this] at ht1; exact ht1
        | _ => simp [PyF.eq] at ht2
      · cases h; rfl
  · left
    obtain ⟨i, hi, e1⟩ := List.getElem_of_mem h0
    have hi' : i < test.length := by omega
    have hmem0 : (orig[i], test[i]) ∈ orig.zip test :=
      List.mem_iff_getElem.2 ⟨i, by simp; omega, by simp⟩
    have hrel : relDev (orig[i], test[i]) = .inf := by
      have h1 : relDev (orig[i], test[i]) ≠ .nan := fun hc => hn (List.mem_map.2 ⟨_, hmem0, hc⟩)
      have h2 : test[i] ≠ .fin 0 := fun hc => ht (hc ▸ List.getElem_mem _)
      rw [e1] at h1 ⊢
      generalize test[i] = y at h1 h2
      cases y with
      | fin q =>
        have hq : q ≠ 0 := fun hc => h2 (by rw [hc])
        have h3 : ¬ |q| < 0 := not_lt.2 (abs_nonneg q)
        simp [relDev, PyF.sub, PyF.neg, PyF.add, PyF.abs, PyF.div, PyF.sgn, PyF.ofSign, hq]
        rw [if_neg h3]; rfl
      | nan => simp [relDev, PyF.sub, PyF.neg, PyF.add, PyF.abs, PyF.div] at h1
      | inf => simp [relDev, PyF.sub, PyF.neg, PyF.add, PyF.abs, PyF.div, PyF.sgn, PyF.ofSign]
      | ninf => simp [relDev, PyF.sub, PyF.neg, PyF.add, PyF.abs, PyF.div, PyF.sgn, PyF.ofSign]
    have hmem : PyF.inf ∈ (orig.zip test).map relDev := List.mem_map.2 ⟨_, hmem0, hrel⟩
    unfold calculateError at h
    rw [broadcast_eq hl] at h
    dsimp only at h
    rcases hq : (orig.zip test).map relDev with _ | ⟨a, l⟩
    · rw [hq] at hmem; simp at hmem
    · rw [hq] at h hmem hn
      simp only [npMax] at h
      rw [foldl_nmax_inf (fun x hx hc => hn (hc ▸ hx)) hmem] at h
      split_ifs at h with hany
      · exfalso
        obtain ⟨t, ht1, ht2⟩ := List.any_eq_true.1 hany
        apply ht
        cases t with
        | fin q => have : q = 0 := by simpa [PyF.eq] using ht2
                   rw [this] at ht1; exact ht1
        | _ => simp [PyF.eq] at ht2
      · have : (PyF.fin 100).mul .inf = .inf := by decide +kernel
        rw [this] at h
        cases h; rfl

theorem foldl_nmax_not_nan {l : List PyF} {a : PyF} (h : ∀ x ∈ a :: l, x ≠ .nan) :
    l.foldl PyF.nmax a ≠ .nan := by
  induction l generalizing a with
  | nil => exact h a (by simp)
  | cons c l ih =>
    rw [List.foldl_cons]
    refine ih ?_
    have h1 := h a (by simp)
    have h2 := h c (by simp)
    intro x hx
    rcases List.mem_cons.1 hx with rfl | hx
    · unfold PyF.nmax
      rw [if_neg h1, if_neg h2]
      split_ifs <;> assumption
    · exact h x (by simp [hx])

variable {ι π φ : Type} {K : Cantera ι π φ} {sol : Mech} {d : Disk} {b : Arith} {c : Conds ι π φ} {p : Par}

/-- without saved metrics: zeros for ignition and flames, simulated reactor metrics -/
theorem clean_initial (hp : ParOk p) (hd : ∀ k, d ⟨k, true⟩ = none) {m : Mech} {ms : List PyF}
    (h : sampleMetrics (K.sims b.rnd) m c p true d = .ok ms) :
    ∃ rs, AllOk (K.psrSims.metric m) c.psr rs ∧
      ms = List.replicate c.ign.length (.fin 0) ++ rs.flatten ++
        List.replicate c.flame.length (.fin 0) := by
  have zero : ∀ {κ} (T : Sims κ) (hT : T.mets = 1) (cases : List κ),
      metricsPart T (fun n => List.replicate n (.fin 0)) m cases p true d =
        .ok (List.replicate cases.length (.fin 0)) := by
    intro κ T hT cases
    unfold metricsPart
    by_cases hc : cases = []
    · rw [if_pos hc, hc]; rfl
    · rw [if_neg hc, hd, hT]
      simp
  have hpsr : metricsPart K.psrSims (fun _ => []) m c.psr p true d =
      metricsPart K.psrSims (fun _ => []) m c.psr p false d := by
    unfold metricsPart
    by_cases hc : c.psr = []
    · rw [if_pos hc, if_pos hc]
    · rw [if_neg hc, if_neg hc, hd]
      have : 0 < c.psr.length := List.length_pos_of_ne_nil hc
      simp [Cantera.psrSims, hc]
  unfold sampleMetrics at h
  rw [show (K.sims b.rnd).ign = K.ignSims b.rnd from rfl, show (K.sims b.rnd).psr = K.psrSims from rfl,
    show (K.sims b.rnd).flame = K.flameSims b.rnd from rfl, zero _ rfl, zero _ rfl, hpsr] at h
  dsimp only at h
  split at h
  · cases h
  rename_i x hx
  obtain ⟨rs, h1, rfl⟩ := metricsPart_inv hp hx
  cases h
  exact ⟨rs, h1, rfl⟩

theorem AllOk.length_eq {κ α} {f : κ → Except Err α} {l : List κ} {rs : List α} (h : AllOk f l rs) :
    rs.length = l.length := (List.Forall₂.length_eq h).symm

theorem flatten_const_length {α} {l : List (List α)} {n : Nat} (h : ∀ x ∈ l, x.length = n) :
    l.flatten.length = n * l.length := by
  induction l with
  | nil => simp
  | cons x l ih =>
    rw [List.flatten_cons, List.length_append, ih (fun y hy => h y (by simp [hy])), h x (by simp),
      List.length_cons]
    ring

/-- the metrics of any model have the same number of entries -/
theorem metrics_length (hp : ParOk p) {m : Mech} {ms : List PyF}
    (h : sampleMetrics (K.sims b.rnd) m c p false d = .ok ms) :
    ms.length = c.ign.length + 3 * c.psr.length + c.flame.length := by
  obtain ⟨a, s, f, h1, h2, h3, rfl⟩ := sampleMetrics_inv hp h
  have k1 := flatten_const_length (AllOk.all h1 (fun x r h => ignMetric_length (b := b) h))
  have k2 := flatten_const_length (AllOk.all h2 (fun x r h => psrMetric_length h))
  have k3 := flatten_const_length (AllOk.all h3 (fun x r h => flameMetric_length (b := b) h))
  rw [List.length_append, List.length_append, k1, k2, k3, AllOk.length_eq h1, AllOk.length_eq h2,
    AllOk.length_eq h3]
  ring

end Verif
