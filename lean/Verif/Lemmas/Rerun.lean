import Verif.Props.EndToEnd
/-!
# Lemmas on repeated runs and on the number of processes
-/
namespace Verif
open Spec

/-- both give the same value, or both raise (perhaps different exceptions) -/
def SameValue {α} (x y : Except Err α) : Prop := x.toOption = y.toOption

theorem SameValue.ok {α} {x y : Except Err α} (h : SameValue x y) {v : α} (hx : x = .ok v) : y = .ok v := by
  unfold SameValue at h
  rw [hx] at h
  cases y with
  | error e => cases h
  | ok v' => cases h; rfl

theorem SameValue.symm {α} {x y : Except Err α} (h : SameValue x y) : SameValue y x := Eq.symm h

theorem SameValue.error {α} {x y : Except Err α} (h : SameValue x y) {e : Err} (hx : x = .error e) :
    ∃ e', y = .error e' := by
  unfold SameValue at h
  rw [hx] at h
  cases y with
  | error e => exact ⟨e, rfl⟩
  | ok v' => cases h

theorem SameValue.cases {α} {x y : Except Err α} (h : SameValue x y) :
    (∃ v, x = .ok v ∧ y = .ok v) ∨ ∃ e e', x = .error e ∧ y = .error e' := by
  rcases hx : x with e | v
  · obtain ⟨e', h'⟩ := h.error hx
    exact .inr ⟨e, e', rfl, h'⟩
  · exact .inl ⟨v, rfl, h.ok hx⟩

theorem runMetricJobs_same {κ} (worker : κ → Except Err (List PyF)) (cases : List κ)
    {t t' : Int} {o o' : List Nat} (ht : 1 ≤ t) (ht' : 1 ≤ t')
    (ho : o.Perm (List.range cases.length)) (ho' : o'.Perm (List.range cases.length)) :
    SameValue (runMetricJobs worker cases t o) (runMetricJobs worker cases t' o') := by
  rcases allOk_or_fail worker cases with ⟨rs, h⟩ | h
  · rw [runMetricJobs_ok ht ho h, runMetricJobs_ok ht' ho' h]; rfl
  · obtain ⟨_, _, e, -, h1⟩ := runWorkers_error ht ho h
    obtain ⟨_, _, e', -, h2⟩ := runWorkers_error ht' ho' h
    unfold runMetricJobs
    rw [h1, h2]; rfl

theorem runSamplingJobs_same {κ} (worker : κ → Except Err (List PyF × List Row)) (cases : List κ)
    {t t' : Int} {o o' : List Nat} (ht : 1 ≤ t) (ht' : 1 ≤ t')
    (ho : o.Perm (List.range cases.length)) (ho' : o'.Perm (List.range cases.length)) :
    SameValue (runSamplingJobs worker cases t o) (runSamplingJobs worker cases t' o') := by
  rcases allOk_or_fail worker cases with ⟨rs, h⟩ | h
  · rw [runSamplingJobs_ok ht ho h, runSamplingJobs_ok ht' ho' h]; rfl
  · obtain ⟨_, _, e, -, h1⟩ := runWorkers_error ht ho h
    obtain ⟨_, _, e', -, h2⟩ := runWorkers_error ht' ho' h
    unfold runSamplingJobs
    rw [h1, h2]; rfl

variable {ι π φ : Type} {S : AllSims ι π φ} {m : Mech} {c : Conds ι π φ} {p p' : Par} {d : Disk}

theorem samplePart_same {κ} (T : Sims κ) (m : Mech) (cases : List κ) (hp : ParOk p) (hp' : ParOk p')
    (d : Disk) :
    SameValue (samplePart T m cases p d).result (samplePart T m cases p' d).result ∧
      (samplePart T m cases p d).evs = (samplePart T m cases p' d).evs ∧
      (samplePart T m cases p d).simulated = (samplePart T m cases p' d).simulated := by
  unfold samplePart
  by_cases hc : cases = []
  · rw [if_pos hc, if_pos hc]; exact ⟨rfl, rfl, rfl⟩
  rw [if_neg hc, if_neg hc]
  rcases readCache T m cases.length d with _ | _ | _
  · exact ⟨rfl, rfl, rfl⟩
  rotate_left
  · exact ⟨rfl, rfl, rfl⟩
  · dsimp only
    rcases (runSamplingJobs_same (T.run m) cases hp.threads hp'.threads (hp.order T.kind _)
      (hp'.order T.kind _)).cases with ⟨v, h1, h2⟩ | ⟨e, e', h1, h2⟩ <;> rw [h1, h2]
    · exact ⟨rfl, rfl, rfl⟩
    · exact ⟨rfl, rfl, rfl⟩

theorem sample_same (hK : Kinds S) (hp : ParOk p) (hp' : ParOk p') (d : Disk) :
    SameValue (sample S m c p d).result (sample S m c p' d).result ∧
      (sample S m c p d).evs = (sample S m c p' d).evs ∧
      (sample S m c p d).simulated = (sample S m c p' d).simulated := by
  obtain ⟨a1, a2, a3⟩ := samplePart_same S.ign m c.ign hp hp' d
  obtain ⟨b1, b2, b3⟩ := samplePart_same S.psr m c.psr hp hp' d
  obtain ⟨f1, f2, f3⟩ := samplePart_same S.flame m c.flame hp hp' d
  rw [sample_eq hK, sample_eq hK, ← a2, ← a3, ← b2, ← b3, ← f2, ← f3]
  rcases a1.cases with ⟨v, h1, h2⟩ | ⟨e, e', h1, h2⟩ <;> rw [h1, h2]
  · dsimp only
    rcases b1.cases with ⟨v, h1, h2⟩ | ⟨e, e', h1, h2⟩ <;> rw [h1, h2]
    · dsimp only
      rcases f1.cases with ⟨v, h1, h2⟩ | ⟨e, e', h1, h2⟩ <;> rw [h1, h2]
      · exact ⟨rfl, rfl, rfl⟩
      · exact ⟨rfl, rfl, rfl⟩
    · exact ⟨rfl, rfl, rfl⟩
  · exact ⟨rfl, rfl, rfl⟩

theorem metricsPart_same {κ} (T : Sims κ) (init : Nat → List PyF) (m : Mech) (cases : List κ)
    (hp : ParOk p) (hp' : ParOk p') (d : Disk) :
    SameValue (metricsPart T init m cases p false d) (metricsPart T init m cases p' false d) := by
  unfold metricsPart
  by_cases hc : cases = []
  · rw [if_pos hc, if_pos hc]; rfl
  rw [if_neg hc, if_neg hc]
  exact runMetricJobs_same (T.metric m) cases hp.threads hp'.threads (hp.order T.kind _)
      (hp'.order T.kind _)

theorem sampleMetrics_same (hp : ParOk p) (hp' : ParOk p') (d : Disk) :
    SameValue (sampleMetrics S m c p false d) (sampleMetrics S m c p' false d) := by
  unfold sampleMetrics
  rcases (metricsPart_same S.ign (fun n => List.replicate n (.fin 0)) m c.ign hp hp' d).cases with
    ⟨v, h1, h2⟩ | ⟨e, e', h1, h2⟩ <;> rw [h1, h2]
  · dsimp only
    rcases (metricsPart_same S.psr (fun _ => []) m c.psr hp hp' d).cases with
      ⟨v, h1, h2⟩ | ⟨e, e', h1, h2⟩ <;> rw [h1, h2]
    · dsimp only
      rcases (metricsPart_same S.flame (fun n => List.replicate n (.fin 0)) m c.flame hp hp' d).cases with
        ⟨v, h1, h2⟩ | ⟨e, e', h1, h2⟩ <;> rw [h1, h2] <;> rfl
    · rfl
  · rfl

theorem evalSim_par {q : ReduceArgs ι π φ} (hp : ParOk q.par) (hp' : ParOk p') (d : Disk)
    (base : List PyF) (m : Mech) :
    SameValue (evalSim S q d base m) (evalSim S { q with par := p' } d base m) := by
  unfold evalSim
  rcases (sampleMetrics_same (S := S) (m := m) (c := q.conds) hp hp' d).cases with
    ⟨v, h1, h2⟩ | ⟨e, e', h1, h2⟩
  · rw [h1]
    have h2 : sampleMetrics S m ({ q with par := p' } : ReduceArgs ι π φ).conds
      ({ q with par := p' } : ReduceArgs ι π φ).par false d = .ok v := h2
    rw [h2]; rfl
  · rw [h1]
    have h2 : sampleMetrics S m ({ q with par := p' } : ReduceArgs ι π φ).conds
      ({ q with par := p' } : ReduceArgs ι π φ).par false d = .error e' := h2
    rw [h2]; rfl

theorem evalError_par {q : ReduceArgs ι π φ} (hp : ParOk q.par) (hp' : ParOk p') (d : Disk)
    (base : List PyF) :
    evalError S q d base = evalError S { q with par := p' } d base := by
  funext m
  unfold evalError simError
  rcases (evalSim_par (S := S) hp hp' d base m).cases with ⟨v, h1, h2⟩ | ⟨e, e', h1, h2⟩ <;> rw [h1, h2]

theorem fullCtx_par {K : Cantera ι π φ} {meth : Method} {rnd : ℚ → ℚ} {q : ReduceArgs ι π φ}
    (hp : ParOk q.par) (hp' : ParOk p') (d : Disk) (sol : Mech) (base : List PyF) (rows : List Row) :
    fullCtx K meth rnd q d sol base rows = fullCtx K meth rnd { q with par := p' } d sol base rows := by
  unfold fullCtx
  rw [evalError_par hp hp']

end Verif
