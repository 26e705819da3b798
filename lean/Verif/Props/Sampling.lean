import Verif.Lemmas.Saved
import Verif.Lemmas.Error
/-!
# Properties of sampling (C33, C35–C41, C69)
-/
namespace Verif
open Spec

/-! ### C38: worker processes -/

/-- **C38**: metrics are concatenated in case order for every number of processes and every
completion order. -/
theorem C38_metric_jobs {κ} {worker : κ → Except Err (List PyF)} {cases : List κ}
    {rs : List (List PyF)} (h : AllOk worker cases rs) {threads : Int} (ht : 1 ≤ threads)
    {order : List Nat} (ho : order.Perm (List.range cases.length)) :
    runMetricJobs worker cases threads order = .ok rs.flatten :=
  runMetricJobs_ok ht ho h

/-- **C38**: the same for sampled states (rows must have equal lengths). -/
theorem C38_sampling_jobs {κ} {worker : κ → Except Err (List PyF × List Row)} {cases : List κ}
    {rs : List (List PyF × List Row)} (h : AllOk worker cases rs) {w : Nat}
    (hw : ∀ r ∈ rs, ∀ x ∈ r.2, x.length = w) {threads : Int} (ht : 1 ≤ threads)
    {order : List Nat} (ho : order.Perm (List.range cases.length)) :
    runSamplingJobs worker cases threads order =
      .ok ((rs.map (·.1)).flatten, (rs.map (·.2)).flatten) := by
  rw [runSamplingJobs_ok ht ho h, if_pos]
  apply rectangular_of (w := w)
  intro x hx
  obtain ⟨l, hl, hx⟩ := List.mem_flatten.1 hx
  obtain ⟨r, hr, rfl⟩ := List.mem_map.1 hl
  exact hw r hr x hx

/-- **C38**: if a case fails, the exception of a failing case is raised, for every number of
processes and every completion order. -/
theorem C38_failure {κ} {worker : κ → Except Err (List PyF)} {cases : List κ}
    (h : ∃ c ∈ cases, ∃ e, worker c = .error e) {threads : Int} (ht : 1 ≤ threads)
    {order : List Nat} (ho : order.Perm (List.range cases.length)) :
    ∃ c ∈ cases, ∃ e, worker c = .error e ∧ runMetricJobs worker cases threads order = .error e := by
  obtain ⟨c, hc, e, he, h2⟩ := runWorkers_error ht ho h
  refine ⟨c, hc, e, he, ?_⟩
  unfold runMetricJobs
  rw [h2]

/-- **C38**: serially it is the exception of the first failing case. -/
theorem C38_serial_first {κ} {worker : κ → Except Err (List PyF)} (l : List κ) (c : κ)
    (l' : List κ) (hl : ∀ x ∈ l, ∃ r, worker x = .ok r) {e : Err} (hc : worker c = .error e)
    (order : List Nat) : runMetricJobs worker (l ++ c :: l') 1 order = .error e := by
  have key : ∀ n, serialMap (runJob worker) ((l ++ c :: l').zipIdx n) = .error e := by
    induction l with
    | nil =>
      intro n
      simp only [List.nil_append, List.zipIdx_cons, serialMap, runJob]
      rw [hc]
    | cons x l ih =>
      intro n
      obtain ⟨r, hr⟩ := hl x (by simp)
      simp only [List.cons_append, List.zipIdx_cons]
      unfold serialMap
      rw [show runJob worker (x, n) = .ok (n, r) by unfold runJob; rw [hr]]
      dsimp only
      rw [ih (fun y hy => hl y (by simp [hy]))]
  unfold runMetricJobs runWorkers
  dsimp only
  rw [if_pos rfl, key 0]

/-- three jobs finishing in reverse order -/
example : AllOk (fun n : Nat => .ok [PyF.fin n]) [5, 6, 7] [[.fin 5], [.fin 6], [.fin 7]] ∧
    [2, 1, 0].Perm (List.range 3) ∧
    runMetricJobs (fun n : Nat => .ok [PyF.fin n]) [5, 6, 7] 4 [2, 1, 0] =
      .ok [.fin 5, .fin 6, .fin 7] := by
  have h : AllOk (fun n : Nat => .ok [PyF.fin n]) [5, 6, 7] [[.fin 5], [.fin 6], [.fin 7]] := by
    unfold AllOk; simp
  have hp : [2, 1, 0].Perm (List.range 3) := by decide
  exact ⟨h, hp, C38_metric_jobs h (by norm_num) hp⟩

/-! ### C40, C41: the error -/

/-- **C40**: the error is the largest relative deviation in percent (up to rounding). -/
theorem C40_worst {os ts : List ℚ} (hl : os.length = ts.length) (hne : os ≠ [])
    (ho : ∀ o ∈ os, 0 < o) (ht : ∀ t ∈ ts, t ≠ 0) :
    ∃ e, calculateError (os.map .fin) (ts.map .fin) = .ok (.fin e) ∧
      IsGreatest {x | ∃ p ∈ os.zip ts, x = 100 * (|p.1 - p.2| / p.1)} e :=
  calculateError_fin hl hne (fun o h => (ho o h).ne') ht

/-- **C40**: the error meets a limit exactly when every metric does, and is zero exactly when
the metrics agree. -/
theorem C40_limit {os ts : List ℚ} (hl : os.length = ts.length) (hne : os ≠ [])
    (ho : ∀ o ∈ os, 0 < o) (ht : ∀ t ∈ ts, t ≠ 0) {e : PyF}
    (he : calculateError (os.map .fin) (ts.map .fin) = .ok e) :
    (∀ L : ℚ, e.le (.fin L) = true ↔ ∀ p ∈ os.zip ts, |p.1 - p.2| ≤ L / 100 * p.1) ∧
    (e = .fin 0 ↔ os = ts) ∧ (PyF.fin 0).le e = true := by
  obtain ⟨q, h1, h2, h3⟩ := C40_worst hl hne ho ht
  rw [h1] at he
  cases he
  have hpos : ∀ p ∈ os.zip ts, 0 < p.1 := fun p hp => ho p.1 (List.of_mem_zip hp).1
  have key : ∀ L : ℚ, q ≤ L ↔ ∀ p ∈ os.zip ts, |p.1 - p.2| ≤ L / 100 * p.1 := by
    intro L
    constructor
    · intro hq p hp
      have := (h3 ⟨p, hp, rfl⟩).trans hq
      have hp0 := hpos p hp
      rw [← div_le_iff₀ hp0]
      linarith
    · intro h
      obtain ⟨p, hp, rfl⟩ := h2
      have := h p hp
      rw [← div_le_iff₀ (hpos p hp)] at this
      linarith
  have hq0 : 0 ≤ q := by
    obtain ⟨p, hp, rfl⟩ := h2
    have := hpos p hp
    positivity
  refine ⟨fun L => by simp [PyF.le, key], ?_, by simp [PyF.le, hq0]⟩
  constructor
  · intro h
    have hq : q = 0 := by simpa using h
    have := (key 0).1 hq.le
    have h4 : ∀ p ∈ os.zip ts, p.1 = p.2 := by
      intro p hp
      have := this p hp
      simp only [zero_div, zero_mul] at this
      have := abs_eq_zero.1 (le_antisymm this (abs_nonneg _))
      linarith
    clear h1 h2 h3 key hq0 h hq this hne ho ht hpos
    induction os generalizing ts with
    | nil => simp at hl; exact (List.length_eq_zero_iff.1 hl.symm).symm
    | cons o os ih =>
      cases ts with
      | nil => simp at hl
      | cons t ts =>
        have := h4 (o, t) (by simp)
        rw [ih (by simpa using hl) (fun p hp => h4 p (by simp [hp]))]
        dsimp only at this
        rw [this]
  · rintro rfl
    congr 1
    refine le_antisymm ((key 0).2 ?_) hq0
    intro p hp
    have : p.1 = p.2 := by
      obtain ⟨i, hi, rfl⟩ := List.getElem_of_mem hp
      simp
    rw [this]
    simp

/-- **C40**: a NaN metric (of either model) makes the error NaN unless a candidate metric is
zero. -/
theorem C40_nan {orig test : List PyF} (hl : orig.length = test.length)
    (h : PyF.nan ∈ orig ∨ PyF.nan ∈ test) (ht : ∀ t ∈ test, t ≠ .fin 0) :
    calculateError orig test = .ok .nan := by
  have hm : PyF.nan ∈ (orig.zip test).map relDev := by
    rw [List.mem_map]
    rcases h with h | h
    · obtain ⟨i, hi, e⟩ := List.getElem_of_mem h
      refine ⟨(orig[i], test[i]'(by omega)), List.mem_iff_getElem.2 ⟨i, by simp; omega, by simp⟩, ?_⟩
      rw [e]; rcases test[i]'(by omega) with _ | _ | _ | _ <;> rfl
    · obtain ⟨i, hi, e⟩ := List.getElem_of_mem h
      refine ⟨(orig[i]'(by omega), test[i]), List.mem_iff_getElem.2 ⟨i, by simp; omega, by simp⟩, ?_⟩
      rw [e]; rcases orig[i]'(by omega) with _ | _ | _ | _ <;> rfl
  have hany : test.any (fun t => t.eq (.fin 0)) = false := by
    rw [List.any_eq_false]
    intro x hx
    have := ht x hx
    clear ht hx hm
    cases x <;> simp_all [PyF.eq]
  unfold calculateError
  rw [broadcast_eq hl]
  dsimp only
  rw [hany]
  rcases hq : (orig.zip test).map relDev with _ | ⟨a, l⟩ <;> rw [hq] at hm
  · simp at hm
  · unfold npMax
    dsimp only
    rw [foldl_nmax_has_nan hm]
    rfl

/-- **C40**: a zero baseline metric with a non-zero candidate metric gives an infinite error. -/
theorem C40_zero_baseline {n : Nat} {ts : List ℚ} (hl : ts.length = n) (hn : n ≠ 0)
    (ht : ∀ t ∈ ts, t ≠ 0) :
    calculateError (List.replicate n (.fin 0)) (ts.map .fin) = .ok .inf := by
  have hz : (List.map relDev ((List.replicate n (PyF.fin 0)).zip (ts.map PyF.fin))) =
      List.replicate n .inf := by
    subst hl
    clear hn
    induction ts with
    | nil => rfl
    | cons t ts ih =>
      rw [List.length_cons, List.replicate_succ, List.map_cons, List.zip_cons_cons, List.map_cons,
        List.replicate_succ, ih (fun t' h => ht t' (by simp [h]))]
      congr 1
      have : t ≠ 0 := ht t (by simp)
      have h1 : ¬ |t| < 0 := not_lt.2 (abs_nonneg t)
      have h2 : |t| ≠ 0 := abs_ne_zero.2 this
      simp [relDev, PyF.sub, PyF.neg, PyF.add, PyF.abs, PyF.div, PyF.ofSign, PyF.sgn, h1, this]
  have hany : (ts.map PyF.fin).any (fun t => t.eq (.fin 0)) = false := by
    rw [List.any_eq_false]
    intro x hx
    obtain ⟨t, h1, rfl⟩ := List.mem_map.1 hx
    simp [PyF.eq, ht t h1]
  unfold calculateError
  rw [broadcast_eq (by simp [hl])]
  dsimp only
  rw [hz, hany]
  obtain ⟨k, rfl⟩ := Nat.exists_eq_succ_of_ne_zero hn
  rw [Nat.succ_eq_add_one, List.replicate_succ]
  unfold npMax
  dsimp only
  rw [foldl_nmax_inf]
  · have : ¬ (100 : ℚ) < 0 := by norm_num
    simp [PyF.mul, PyF.ofSign, PyF.sgn, this]
  · intro x hx
    rw [← List.replicate_succ] at hx
    rw [List.eq_of_mem_replicate hx]
    simp
  · simp

/-- **C40**: metric vectors that cannot be compared raise; so does an empty pair. -/
theorem C40_incomparable {orig test : List PyF} (hl : orig.length ≠ test.length)
    (h1 : orig.length ≠ 1) (h2 : test.length ≠ 1) :
    calculateError orig test = .error .valueError ∧ calculateError [] [] = .error .valueError := by
  refine ⟨?_, rfl⟩
  have : broadcast orig test = .error .valueError := by
    unfold broadcast
    rw [if_neg hl]
    match orig, test with
    | [], [] => simp at hl
    | [], [_] => simp at h2
    | [], _ :: _ :: _ => rfl
    | [_], _ => simp at h1
    | _ :: _ :: _, [] => rfl
    | _ :: _ :: _, [_] => simp at h2
    | _ :: _ :: _, _ :: _ :: _ => rfl
  unfold calculateError
  rw [this]

/-- **C41**: a zero candidate metric gives exactly 100, whatever the other metrics. -/
theorem C41_zero {orig test : List PyF} (hl : orig.length = test.length)
    (h : .fin 0 ∈ test) : calculateError orig test = .ok (.fin 100) := by
  have hany : test.any (fun t => t.eq (.fin 0)) = true :=
    List.any_eq_true.2 ⟨_, h, by simp [PyF.eq]⟩
  unfold calculateError
  rw [broadcast_eq hl]
  dsimp only
  rcases hq : (orig.zip test).map relDev with _ | ⟨a, l⟩
  · exfalso
    have := congrArg List.length hq
    have h1 := List.length_pos_of_mem h
    simp at this
    rcases this with h | h
    · subst h; simp at hl; omega
    · subst h; simp at h1
  · unfold npMax
    dsimp only
    rw [if_pos hany]

/-- **C41**: such a candidate meets a limit exactly when the limit is at least 100. -/
theorem C41_limit {orig test : List PyF} (hl : orig.length = test.length)
    (h : .fin 0 ∈ test) {e : PyF} (he : calculateError orig test = .ok e) (L : ℚ) :
    e.le (.fin L) = true ↔ 100 ≤ L := by
  rw [C41_zero hl h] at he
  cases he
  simp [PyF.le]

example : calculateError ([2, 4].map .fin) ([1, 5].map .fin) = .ok (.fin 50) ∧
    calculateError ([2, 4].map .fin) ([2, 0].map .fin) = .ok (.fin 100) ∧
    calculateError [.fin 2, .nan] [.fin 1, .fin 3] = .ok .nan := by
  refine ⟨by decide +kernel, by decide +kernel, by decide +kernel⟩

/-! ### C35–C37: saved samples -/

section
variable {ι π φ : Type} {S : AllSims ι π φ} {m : Mech} {c : Conds ι π φ} {p : Par} {d : Disk}

/-- parts of a successful `sample` -/
theorem sample_ok (hK : Kinds S) {r : List PyF × List Row} (h : (sample S m c p d).result = .ok r) :
    ∃ a b f rows, (samplePart S.ign m c.ign p d).result = .ok a ∧
      (samplePart S.psr m c.psr p d).result = .ok b ∧
      (samplePart S.flame m c.flame p d).result = .ok f ∧
      vstack [a.2, b.2, f.2] = .ok rows ∧ r = (a.1 ++ b.1 ++ f.1, rows) ∧
      (sample S m c p d).evs = (samplePart S.ign m c.ign p d).evs ++
        (samplePart S.psr m c.psr p d).evs ++ (samplePart S.flame m c.flame p d).evs := by
  rw [sample_eq hK] at h ⊢
  rcases h1 : (samplePart S.ign m c.ign p d).result with _ | ⟨m1, r1⟩ <;> rw [h1] at h
  · cases h
  dsimp only at h ⊢
  rcases h2 : (samplePart S.psr m c.psr p d).result with _ | ⟨m2, r2⟩ <;> rw [h2] at h
  · cases h
  dsimp only at h ⊢
  rcases h3 : (samplePart S.flame m c.flame p d).result with _ | ⟨m3, r3⟩ <;> rw [h3] at h
  · cases h
  dsimp only at h ⊢
  rcases h4 : vstack [r1, r2, r3] with _ | rows <;> rw [h4] at h
  · cases h
  · cases h
    exact ⟨_, _, _, rows, rfl, rfl, rfl, h4, rfl, rfl⟩

/-- the files of each phenomenon after a successful `sample` -/
theorem sample_agree (hK : Kinds S) {r : List PyF × List Row}
    (h : (sample S m c p d).result = .ok r) :
    Agree S.ign.kind (applyEvs d (sample S m c p d).evs)
        (applyEvs d (samplePart S.ign m c.ign p d).evs) ∧
    Agree S.psr.kind (applyEvs d (sample S m c p d).evs)
        (applyEvs d (samplePart S.psr m c.psr p d).evs) ∧
    Agree S.flame.kind (applyEvs d (sample S m c p d).evs)
        (applyEvs d (samplePart S.flame m c.flame p d).evs) := by
  obtain ⟨_, _, _, _, -, -, -, -, -, he⟩ := sample_ok hK h
  have f1 := samplePart_files S.ign m c.ign p d
  have f2 := samplePart_files S.psr m c.psr p d
  have f3 := samplePart_files S.flame m c.flame p d
  rw [hK.ign] at f1
  rw [hK.psr] at f2
  rw [hK.flame] at f3
  rw [he, applyEvs_append, applyEvs_append, hK.ign, hK.psr, hK.flame]
  generalize (samplePart S.ign m c.ign p d).evs = e1 at f1
  generalize (samplePart S.psr m c.psr p d).evs = e2 at f2
  generalize (samplePart S.flame m c.flame p d).evs = e3 at f3
  refine ⟨fun o => ?_, fun o => ?_, fun o => ?_⟩
  · rw [applyEvs_untouched e3 _ _ (fun e he h => by have := f3 e he; rw [h] at this; cases this),
      applyEvs_untouched e2 _ _ (fun e he h => by have := f2 e he; rw [h] at this; cases this)]
  · rw [applyEvs_untouched e3 _ _ (fun e he h => by have := f3 e he; rw [h] at this; cases this)]
    apply applyEvs_congr
    rw [applyEvs_untouched e1 _ _ (fun e he h => by have := f1 e he; rw [h] at this; cases this)]
  · apply applyEvs_congr
    rw [applyEvs_untouched e2 _ _ (fun e he h => by have := f2 e he; rw [h] at this; cases this),
      applyEvs_untouched e1 _ _ (fun e he h => by have := f1 e he; rw [h] at this; cases this)]

/-- **C36** is false: whatever was sampled for one model and set of conditions is returned,
without any simulation, for every other model with as many species and every other set of
conditions with as many cases of each kind. -/
theorem C36_stale_refuted (hS : SimsOk S m) (hp : ParOk p) {r : List PyF × List Row}
    (h : (sample S m c p d).result = .ok r) (m' : Mech) (hm : m'.nSpecies = m.nSpecies)
    (c' : Conds ι π φ) (h1 : c'.ign.length = c.ign.length) (h2 : c'.psr.length = c.psr.length)
    (h3 : c'.flame.length = c.flame.length) (p' : Par) :
    let again := sample S m' c' p' (applyEvs d (sample S m c p d).evs)
    again.result = .ok r ∧ again.evs = [] ∧ again.simulated = false := by
  obtain ⟨a, b, f, rows, e1, e2, e3, e4, rfl, -⟩ := sample_ok hS.toKinds h
  obtain ⟨g1, g2, g3⟩ := sample_agree hS.toKinds h
  have k1 := samplePart_reuse hS.ignShape hp e1 g1 hm h1 p'
  have k2 := samplePart_reuse hS.psrShape hp e2 g2 hm h2 p'
  have k3 := samplePart_reuse hS.flameShape hp e3 g3 hm h3 p'
  dsimp only
  rw [sample_eq hS.toKinds, k1, k2, k3]
  dsimp only
  rw [e4]
  exact ⟨rfl, rfl, rfl⟩

/-- **C35**: a second call with the same model and conditions runs no simulation, writes
nothing and returns the same metrics and data, whatever the number of processes. -/
theorem C35_reuse (hS : SimsOk S m) (hp : ParOk p) {r : List PyF × List Row}
    (h : (sample S m c p d).result = .ok r) (p' : Par) :
    let again := sample S m c p' (applyEvs d (sample S m c p d).evs)
    again.result = .ok r ∧ again.evs = [] ∧ again.simulated = false :=
  C36_stale_refuted hS hp h m rfl c rfl rfl rfl p'

theorem vstack_shape {l : List (List Row)} {w : Nat} (h : ∀ x ∈ l, ∀ r ∈ x, r.length = w) :
    vstack l = .ok l.flatten := by
  unfold vstack
  rw [if_pos]
  apply rectangular_of (w := w)
  intro r hr
  obtain ⟨x, hx, hr⟩ := List.mem_filterMap.1 hr
  cases x with
  | nil => simp at hr
  | cons y ys => simp at hr; subst hr; exact h _ hx _ (by simp)

/-- one phenomenon without usable saved samples -/
theorem samplePart_fresh {κ} {T : Sims κ} (hT : Shaped T m) (hp : ParOk p) (cases : List κ)
    (hd : cases ≠ [] → Unusable T.kind T.rows T.mets m cases.length d) :
    (∃ rs, AllOk (T.run m) cases rs ∧ (samplePart T m cases p d).result =
        .ok ((rs.map (·.1)).flatten, (rs.map (·.2)).flatten) ∧
        ∀ r ∈ (rs.map (·.2)).flatten, r.length = 2 + m.nSpecies) ∨
    ∃ x ∈ cases, ∃ e, T.run m x = .error e ∧ (samplePart T m cases p d).result = .error e := by
  by_cases hc : cases = []
  · subst hc
    exact Or.inl ⟨[], .nil, by simp [samplePart], by simp⟩
  have hmiss : readCache T m cases.length d = .miss := readCache_unusable (hd hc)
  have e0 : (samplePart T m cases p d).result =
      runSamplingJobs (T.run m) cases p.eff (p.order T.kind cases.length) := by
    unfold samplePart
    rw [if_neg hc, hmiss]
    dsimp only
    rcases runSamplingJobs (T.run m) cases p.eff (p.order T.kind cases.length) with
      _ | ⟨_, _⟩ <;> rfl
  rw [e0]
  rcases allOk_or_fail (T.run m) cases with ⟨rs, hrs⟩ | hf
  · left
    have hw : ∀ r ∈ (rs.map (·.2)).flatten, r.length = 2 + m.nSpecies := by
      intro r hr
      obtain ⟨l, hl, hr⟩ := List.mem_flatten.1 hr
      obtain ⟨q, hq, rfl⟩ := List.mem_map.1 hl
      obtain ⟨i, hi, rfl⟩ := List.getElem_of_mem hq
      obtain ⟨r', e1, e2⟩ := hrs.get i (by rw [← hrs.length]; exact hi)
      rw [List.getElem?_eq_getElem hi] at e1
      cases e1
      exact (hT.run _ _ _ e2).2.2 r hr
    refine ⟨rs, hrs, ?_, hw⟩
    rw [runSamplingJobs_ok hp.threads (hp.order _ _) hrs, if_pos (rectangular_of hw)]
  · right
    obtain ⟨x, hx, e, he, h2⟩ := runWorkers_error hp.threads (hp.order T.kind cases.length) hf
    refine ⟨x, hx, e, he, ?_⟩
    unfold runSamplingJobs
    rw [h2]

/-- **C36**: when the saved files of each requested phenomenon cannot belong to the request (one is
missing, or the number of metrics, of states or of species is another one), the result is that of
simulating the requested model and conditions, or the exception of a failing simulation. -/
theorem C36_unusable_partial (hS : SimsOk S m) (hp : ParOk p)
    (h1 : c.ign ≠ [] → Unusable .ign S.ign.rows S.ign.mets m c.ign.length d)
    (h2 : c.psr ≠ [] → Unusable .psr S.psr.rows S.psr.mets m c.psr.length d)
    (h3 : c.flame ≠ [] → Unusable .flame S.flame.rows S.flame.mets m c.flame.length d) :
    (∃ ms rows, Simulated S m c ms rows ∧ (sample S m c p d).result = .ok (ms, rows)) ∨
    ∃ e, (sample S m c p d).result = .error e ∧ ((∃ x ∈ c.ign, S.ign.run m x = .error e) ∨
      (∃ x ∈ c.psr, S.psr.run m x = .error e) ∨ ∃ x ∈ c.flame, S.flame.run m x = .error e) := by
  have k1 := samplePart_fresh hS.ignShape hp c.ign (d := d) (by rw [hS.ign]; exact h1)
  have k2 := samplePart_fresh hS.psrShape hp c.psr (d := d) (by rw [hS.psr]; exact h2)
  have k3 := samplePart_fresh hS.flameShape hp c.flame (d := d) (by rw [hS.flame]; exact h3)
  rw [sample_eq hS.toKinds]
  rcases k1 with ⟨a, a1, a2, a3⟩ | ⟨x, hx, e, he, h⟩
  swap
  · right; rw [h]; exact ⟨e, rfl, Or.inl ⟨x, hx, he⟩⟩
  rw [a2]
  dsimp only
  rcases k2 with ⟨b, b1, b2, b3⟩ | ⟨x, hx, e, he, h⟩
  swap
  · right; rw [h]; exact ⟨e, rfl, Or.inr (Or.inl ⟨x, hx, he⟩)⟩
  rw [b2]
  dsimp only
  rcases k3 with ⟨f, f1, f2, f3⟩ | ⟨x, hx, e, he, h⟩
  swap
  · right; rw [h]; exact ⟨e, rfl, Or.inr (Or.inr ⟨x, hx, he⟩)⟩
  rw [f2]
  dsimp only
  left
  refine ⟨_, _, ⟨a, b, f, a1, b1, f1, rfl, rfl⟩, ?_⟩
  rw [vstack_shape (w := 2 + m.nSpecies)]
  · simp [Except.map]
  · intro x hx
    simp only [List.mem_cons, List.not_mem_nil, or_false] at hx
    rcases hx with rfl | rfl | rfl <;> assumption

/-- **C36**: in particular when for each requested phenomenon at least one of its two files is
missing -/
theorem C36_clean_partial (hS : SimsOk S m) (hp : ParOk p)
    (h1 : c.ign ≠ [] → d ⟨.ign, false⟩ = none ∨ d ⟨.ign, true⟩ = none)
    (h2 : c.psr ≠ [] → d ⟨.psr, false⟩ = none ∨ d ⟨.psr, true⟩ = none)
    (h3 : c.flame ≠ [] → d ⟨.flame, false⟩ = none ∨ d ⟨.flame, true⟩ = none) :
    (∃ ms rows, Simulated S m c ms rows ∧ (sample S m c p d).result = .ok (ms, rows)) ∨
    ∃ e, (sample S m c p d).result = .error e ∧ ((∃ x ∈ c.ign, S.ign.run m x = .error e) ∨
      (∃ x ∈ c.psr, S.psr.run m x = .error e) ∨ ∃ x ∈ c.flame, S.flame.run m x = .error e) :=
  C36_unusable_partial hS hp (fun h => (h1 h).imp id .inl) (fun h => (h2 h).imp id .inl)
    (fun h => (h3 h).imp id .inl)

/-- **C38**: a negative number of processes is refused with `ValueError` before anything is written,
for every request that needs a simulation. -/
theorem C38_negative (hK : Kinds S) (hneg : p.threads < 0)
    (hc : c.ign ≠ [] ∨ c.psr ≠ [] ∨ c.flame ≠ [])
    (h1 : c.ign ≠ [] → Unusable .ign S.ign.rows S.ign.mets m c.ign.length d)
    (h2 : c.psr ≠ [] → Unusable .psr S.psr.rows S.psr.mets m c.psr.length d)
    (h3 : c.flame ≠ [] → Unusable .flame S.flame.rows S.flame.mets m c.flame.length d) :
    (sample S m c p d).result = .error .valueError ∧ (sample S m c p d).evs = [] := by
  have heff : p.eff < 1 ∧ p.eff ≠ 1 := by
    unfold Par.eff resolveThreads
    rw [if_neg (by omega)]
    omega
  have key : ∀ {κ} (T : Sims κ) (cases : List κ) (d : Disk),
      (cases ≠ [] → Unusable T.kind T.rows T.mets m cases.length d) →
      (samplePart T m cases p d).result = (if cases = [] then .ok ([], []) else .error .valueError) ∧
      (samplePart T m cases p d).evs = [] := by
    intro κ T cases d h
    unfold samplePart
    by_cases h0 : cases = []
    · rw [if_pos h0, if_pos h0]; exact ⟨rfl, rfl⟩
    · rw [if_neg h0, if_neg h0, readCache_unusable (h h0)]
      have : runSamplingJobs (T.run m) cases p.eff (p.order T.kind cases.length) = .error .valueError := by
        unfold runSamplingJobs runWorkers
        simp only [heff.2, heff.1, if_true, if_false]
      dsimp only
      rw [this]
      exact ⟨rfl, rfl⟩
  obtain ⟨a1, a2⟩ := key S.ign c.ign d (by rw [hK.ign]; exact h1)
  obtain ⟨b1, b2⟩ := key S.psr c.psr d (by rw [hK.psr]; exact h2)
  obtain ⟨e1, e2⟩ := key S.flame c.flame d (by rw [hK.flame]; exact h3)
  unfold sample
  dsimp only
  rw [a1, a2]
  by_cases i0 : c.ign = []
  swap
  · rw [if_neg i0]; exact ⟨rfl, rfl⟩
  rw [if_pos i0]
  dsimp only [applyEvs, List.foldl_nil]
  rw [b1, b2]
  by_cases p0 : c.psr = []
  swap
  · rw [if_neg p0]; exact ⟨rfl, rfl⟩
  rw [if_pos p0]
  dsimp only [applyEvs, List.foldl_nil]
  rw [e1, e2]
  have f0 : c.flame ≠ [] := by
    rcases hc with h | h | h
    · exact absurd i0 h
    · exact absurd p0 h
    · exact h
  rw [if_neg f0]
  exact ⟨rfl, rfl⟩

/-- **C37**: if no metrics file is present for the phenomena that have to be simulated, then
after a crash at any point of the writing a later call returns what an undisturbed call
returns. -/
theorem C37_crash_partial (hS : SimsOk S m) (hp : ParOk p)
    (h1 : d ⟨.ign, true⟩ = none ∨ readCache S.ign m c.ign.length d ≠ .miss)
    (h2 : d ⟨.psr, true⟩ = none ∨ readCache S.psr m c.psr.length d ≠ .miss)
    (h3 : d ⟨.flame, true⟩ = none ∨ readCache S.flame m c.flame.length d ≠ .miss) (k : Nat) :
    (sample S m c p (crashAfter k d (sample S m c p d))).result = (sample S m c p d).result := by
  unfold crashAfter
  obtain ⟨i, j, l, g1, g2, g3⟩ := sample_prefix (m := m) (c := c) (p := p) hS.toKinds d k
  apply sample_result_congr hS.toKinds
  · rw [samplePart_congr _ _ _ _ g1]
    exact samplePart_crash hS.ignShape hp (by rw [hS.ign]; exact h1) i
  · rw [samplePart_congr _ _ _ _ g2]
    exact samplePart_crash hS.psrShape hp (by rw [hS.psr]; exact h2) j
  · rw [samplePart_congr _ _ _ _ g3]
    exact samplePart_crash hS.flameShape hp (by rw [hS.flame]; exact h3) l

/-- a `sample` with ignition cases only -/
theorem sample_ign_only (hK : Kinds S) (hc : c.psr = []) (hf : c.flame = []) :
    (sample S m c p d).evs = (samplePart S.ign m c.ign p d).evs ∧
    ∀ ms rows, (samplePart S.ign m c.ign p d).result = .ok (ms, rows) →
      (sample S m c p d).result = .ok (ms, rows) := by
  have q1 : samplePart S.psr m c.psr p d = ⟨.ok ([], []), [], false⟩ := by
    unfold samplePart; rw [if_pos hc]
  have q2 : samplePart S.flame m c.flame p d = ⟨.ok ([], []), [], false⟩ := by
    unfold samplePart; rw [if_pos hf]
  rw [sample_eq hK, q1, q2]
  refine ⟨?_, ?_⟩
  · rcases (samplePart S.ign m c.ign p d).result with _ | ⟨_, _⟩ <;> simp
  · intro ms rows h
    rw [h]
    dsimp only
    cases rows with
    | nil => rw [List.append_nil, List.append_nil]; rfl
    | cons r rs => simp [vstack, rectangular, Except.map]

/-- the writes when saved samples do not fit -/
theorem sample_ign_writes (hS : SimsOk S m) (hp : ParOk p) (hi : c.ign ≠ [])
    (hc : c.psr = []) (hf : c.flame = []) (hmiss : readCache S.ign m c.ign.length d = .miss)
    {rs : List (List PyF × List Row)} (hrs : AllOk (S.ign.run m) c.ign rs) :
    ∃ ms rows, ms = (rs.map (·.1)).flatten ∧ rows = (rs.map (·.2)).flatten ∧
      (sample S m c p d).evs = savetxt ⟨.ign, false⟩ rows ++ savetxt ⟨.ign, true⟩ (ms.map ([·])) ∧
      (sample S m c p d).result = .ok (ms, rows) ∧ ms.length = S.ign.mets * c.ign.length ∧
      rows.length = S.ign.rows * c.ign.length ∧ ∀ r ∈ rows, r.length = 2 + m.nSpecies := by
  have hw : ∀ r ∈ (rs.map (·.2)).flatten, r.length = 2 + m.nSpecies := by
    intro r hr
    obtain ⟨l, hl, hr⟩ := List.mem_flatten.1 hr
    obtain ⟨q, hq, rfl⟩ := List.mem_map.1 hl
    obtain ⟨i, hi, rfl⟩ := List.getElem_of_mem hq
    obtain ⟨r', e1, e2⟩ := hrs.get i (by rw [← hrs.length]; exact hi)
    rw [List.getElem?_eq_getElem hi] at e1
    cases e1
    exact (hS.ignShape.run _ _ _ e2).2.2 r hr
  have hj := runSamplingJobs_ok hp.threads (hp.order S.ign.kind c.ign.length) hrs
  rw [if_pos (rectangular_of hw)] at hj
  obtain ⟨e1, e2, -, -⟩ := runSamplingJobs_shape hS.ignShape hp hj
  have e0 : samplePart S.ign m c.ign p d = ⟨.ok ((rs.map (·.1)).flatten, (rs.map (·.2)).flatten),
      savetxt ⟨.ign, false⟩ (rs.map (·.2)).flatten ++
        savetxt ⟨.ign, true⟩ ((rs.map (·.1)).flatten.map ([·])), true⟩ := by
    unfold samplePart
    rw [if_neg hi, hmiss]
    dsimp only
    rw [hj]
    dsimp only
    rw [hS.ign]
  refine ⟨_, _, rfl, rfl, ?_, ?_, e1, e2, hw⟩
  · rw [(sample_ign_only hS.toKinds hc hf).1, e0]
  · apply (sample_ign_only hS.toKinds hc hf).2
    rw [e0]

/-- **C37** is false: if a metrics file is left from another run whose data no longer fit, a
crash just after the data file has been opened makes every later call raise `IndexError`. -/
theorem C37_crash_open_refuted (hS : SimsOk S m) (hp : ParOk p) (hi : c.ign ≠ [])
    (hc : c.psr = []) (hf : c.flame = []) (hmiss : readCache S.ign m c.ign.length d = .miss)
    {rs : List (List PyF × List Row)} (hrs : AllOk (S.ign.run m) c.ign rs) {old : List PyF}
    (ho : d ⟨.ign, true⟩ = some (old.map ([·]))) (p' : Par) :
    (sample S m c p' (crashAfter 1 d (sample S m c p d))).result = .error .indexError := by
  obtain ⟨ms, rows, -, -, e1, -⟩ := sample_ign_writes hS hp hi hc hf hmiss hrs
  unfold crashAfter
  rw [e1]
  have hD : applyEvs d ((savetxt ⟨.ign, false⟩ rows ++
      savetxt ⟨.ign, true⟩ (ms.map ([·]))).take 1) = applyEv d (.truncate ⟨.ign, false⟩) := rfl
  rw [hD]
  have hr : readCache S.ign m c.ign.length (applyEv d (.truncate ⟨.ign, false⟩)) =
      .fail .indexError := by
    obtain ⟨a, g1, g2⟩ := genfromtxt_column old
    unfold readCache
    rw [hS.ign]
    have t1 : applyEv d (.truncate ⟨.ign, false⟩) ⟨.ign, false⟩ = some [] := by simp [applyEv]
    have t2 : applyEv d (.truncate ⟨.ign, false⟩) ⟨.ign, true⟩ = some (old.map ([·])) := by
      simp [applyEv, ho]
    rw [t1, t2]
    dsimp only
    rw [g1]
    dsimp only [genfromtxt]
    split_ifs <;> simp [Arr.shape0, Arr.shape1, Except.map]
  rw [sample_eq hS.toKinds]
  have : samplePart S.ign m c.ign p' (applyEv d (.truncate ⟨.ign, false⟩)) =
      ⟨.error .indexError, [], false⟩ := by
    unfold samplePart
    rw [if_neg hi, hr]
  rw [this]

/-- **C37** is false: a crash between the two files pairs the new data with the metrics left
from the other run, and every later call returns them. -/
theorem C37_crash_between_refuted (hS : SimsOk S m) (hp : ParOk p) (hi : c.ign ≠ [])
    (hc : c.psr = []) (hf : c.flame = []) (hmiss : readCache S.ign m c.ign.length d = .miss)
    {rs : List (List PyF × List Row)} (hrs : AllOk (S.ign.run m) c.ign rs) {old : List PyF}
    (ho : d ⟨.ign, true⟩ = some (old.map ([·]))) (hl : old.length = S.ign.mets * c.ign.length)
    (p' : Par) :
    ∃ k rows, (sample S m c p' (crashAfter k d (sample S m c p d))).result = .ok (old, rows) := by
  obtain ⟨ms, rows, -, -, e1, -, -, e3, e4⟩ := sample_ign_writes hS hp hi hc hf hmiss hrs
  refine ⟨rows.length + 1, rows, ?_⟩
  unfold crashAfter
  rw [e1, List.take_append, savetxt_length, Nat.sub_self, List.take_zero, List.append_nil,
    List.take_of_length_le (by rw [savetxt_length])]
  have t1 : applyEvs d (savetxt ⟨.ign, false⟩ rows) ⟨.ign, false⟩ = some rows := by
    have := savetxt_take ⟨.ign, false⟩ rows d rows.length
    rwa [List.take_of_length_le (by rw [savetxt_length]), List.take_length] at this
  have t2 : applyEvs d (savetxt ⟨.ign, false⟩ rows) ⟨.ign, true⟩ = some (old.map ([·])) := by
    rw [applyEvs_untouched, ho]
    intro e he
    rw [savetxt_file _ _ e he]
    simp
  apply (sample_ign_only hS.toKinds hc hf).2
  unfold samplePart
  rw [if_neg hi, readCache_saved (by rw [hS.ign]; exact t1) (by rw [hS.ign]; exact t2) e4
    (rows_two hS.ignShape hi e3), if_pos ⟨hl, e3⟩]

/-- **C37** is false when a line can be torn: a crash inside the last line of the metrics file
leaves some number there, and every later call returns it. -/
theorem C37_torn_refuted (hS : SimsOk S m) (hp : ParOk p) (hi : c.ign ≠ [])
    (hc : c.psr = []) (hf : c.flame = []) (hmiss : readCache S.ign m c.ign.length d = .miss)
    {rs : List (List PyF × List Row)} (hrs : AllOk (S.ign.run m) c.ign rs)
    (hmets : 0 < S.ign.mets) (torn : PyF) (p' : Par) :
    ∃ ms rows, (sample S m c p d).result = .ok (ms, rows) ∧
      (sample S m c p' (applyEvs d ((sample S m c p d).evs.dropLast ++
        [.row ⟨.ign, true⟩ [torn]]))).result = .ok (ms.dropLast ++ [torn], rows) := by
  obtain ⟨ms, rows, -, -, e1, e2, e5, e3, e4⟩ := sample_ign_writes hS hp hi hc hf hmiss hrs
  refine ⟨ms, rows, e2, ?_⟩
  have hpos : 0 < ms.length := by
    rw [e5]; exact Nat.mul_pos hmets (List.length_pos_iff.2 hi)
  have hev : (savetxt ⟨.ign, false⟩ rows ++ savetxt ⟨.ign, true⟩ (ms.map ([·]))).dropLast ++
      [Ev.row ⟨.ign, true⟩ [torn]] =
      savetxt ⟨.ign, false⟩ rows ++ savetxt ⟨.ign, true⟩ ((ms.dropLast ++ [torn]).map ([·])) := by
    rw [List.dropLast_append_of_ne_nil (by simp [savetxt]), List.append_assoc]
    congr 1
    unfold savetxt
    rw [List.dropLast_cons_of_ne_nil (by
      intro h; have := congrArg List.length h; simp at this; subst this; simp at hpos)]
    simp [List.map_dropLast]
  rw [e1, hev]
  have hb := save_both .ign rows ((ms.dropLast ++ [torn]).map ([·])) d
    (rows.length + 2 + ms.length)
  dsimp only at hb
  rw [List.take_of_length_le (by simp [savetxt_length]; omega)] at hb
  rcases hb with ⟨-, hb⟩ | ⟨-, hb1, hb2⟩
  · omega
  · rw [List.take_of_length_le (by simp; omega)] at hb2
    apply (sample_ign_only hS.toKinds hc hf).2
    unfold samplePart
    rw [if_neg hi, readCache_saved (by rw [hS.ign]; exact hb1) (by rw [hS.ign]; exact hb2) e4
      (rows_two hS.ignShape hi e3), if_pos ⟨by simp; omega, e3⟩]

end

/-! ### C33, C39, C69: metrics -/

section
variable {ι π φ : Type} {S : AllSims ι π φ} {m : Mech} {c : Conds ι π φ} {p : Par} {d : Disk}

theorem metricsPart_run {κ} {T : Sims κ} {init : Nat → List PyF} (hp : ParOk p) {cases : List κ}
    {rs : List (List PyF)} (h : AllOk (T.metric m) cases rs) :
    metricsPart T init m cases p false d = .ok rs.flatten := by
  unfold metricsPart
  by_cases hc : cases = []
  · subst hc; cases h; rfl
  · rw [if_neg hc]
    simp only [Bool.false_eq_true, if_false, Bool.false_and]
    exact runMetricJobs_ok hp.threads (hp.order _ _) h

/-- **C39**: without reuse the metrics are the ignition delays, the reactor metrics and the
flame speeds in case order, whatever files are present. -/
theorem C39_layout (hp : ParOk p) {a b f : List (List PyF)}
    (ha : AllOk (S.ign.metric m) c.ign a) (hb : AllOk (S.psr.metric m) c.psr b)
    (hf : AllOk (S.flame.metric m) c.flame f) :
    sampleMetrics S m c p false d = .ok (a.flatten ++ b.flatten ++ f.flatten) := by
  unfold sampleMetrics
  rw [metricsPart_run hp ha]
  dsimp only
  rw [metricsPart_run hp hb]
  dsimp only
  rw [metricsPart_run hp hf]

/-- **C39**: the length is fixed by the conditions, so the metrics of two models can be
compared entry by entry. -/
theorem C39_length (hp : ParOk p) {a b f : List (List PyF)}
    (ha : AllOk (S.ign.metric m) c.ign a) (hb : AllOk (S.psr.metric m) c.psr b)
    (hf : AllOk (S.flame.metric m) c.flame f)
    (h1 : ∀ x r, S.ign.metric m x = .ok r → r.length = 1)
    (h2 : ∀ x r, S.psr.metric m x = .ok r → r.length = 3)
    (h3 : ∀ x r, S.flame.metric m x = .ok r → r.length = 1) :
    ∃ ms, sampleMetrics S m c p false d = .ok ms ∧
      ms.length = c.ign.length + 3 * c.psr.length + c.flame.length := by
  refine ⟨_, C39_layout hp ha hb hf, ?_⟩
  have l1 := sum_lengths ha id 1 h1
  have l2 := sum_lengths hb id 3 h2
  have l3 := sum_lengths hf id 1 h3
  simp only [List.map_id] at l1 l2 l3
  rw [List.length_append, List.length_append, l1, l2, l3]
  omega

/-- **C39**: a failing case raises its exception (ignition cases first). -/
theorem C39_failure (hp : ParOk p) (h : ∃ x ∈ c.ign, ∃ e, S.ign.metric m x = .error e) :
    ∃ x ∈ c.ign, ∃ e, S.ign.metric m x = .error e ∧
      sampleMetrics S m c p false d = .error e := by
  have hc : c.ign ≠ [] := by obtain ⟨x, hx, -⟩ := h; rintro h0; rw [h0] at hx; simp at hx
  obtain ⟨x, hx, e, he, h2⟩ := C38_failure h hp.threads (hp.order S.ign.kind c.ign.length)
  refine ⟨x, hx, e, he, ?_⟩
  unfold sampleMetrics metricsPart
  rw [if_neg hc]
  simp only [Bool.false_eq_true, if_false, Bool.false_and]
  rw [h2]

/-- **C33** is false: asked to reuse saved metrics when the ignition output file is missing,
the baseline consists of zeros, whatever a simulation would give. -/
theorem C33_zero_baseline_refuted (hK : Kinds S) (h1 : S.ign.mets = 1) (hi : c.ign ≠ [])
    (hc : c.psr = []) (hf : c.flame = []) (hd : d ⟨.ign, true⟩ = none) :
    sampleMetrics S m c p true d = .ok (List.replicate c.ign.length (.fin 0)) := by
  unfold sampleMetrics metricsPart
  rw [if_neg hi, if_pos hc, if_pos hf, hK.ign, hd, h1]
  simp

/-- **C33**: the same for flames. -/
theorem C33_zero_flame_refuted (hK : Kinds S) (h1 : S.flame.mets = 1) (hi : c.ign = [])
    (hc : c.psr = []) (hf : c.flame ≠ []) (hd : d ⟨.flame, true⟩ = none) :
    sampleMetrics S m c p true d = .ok (List.replicate c.flame.length (.fin 0)) := by
  unfold sampleMetrics metricsPart
  rw [if_pos hi, if_pos hc, if_neg hf, hK.flame, hd, h1]
  simp

/-- where the metrics of one phenomenon come from -/
theorem metricsPart_source {κ} {T : Sims κ} {init : Nat → List PyF} (hp : ParOk p)
    {cases : List κ} {reuse : Bool} {ms : List PyF}
    (hd : cases ≠ [] → d ⟨T.kind, true⟩ ≠ none ∨ ∀ n, 0 < n → (init n).length ≠ T.mets * n)
    (h : metricsPart T init m cases p reuse d = .ok ms) :
    (∃ rs, AllOk (T.metric m) cases rs ∧ ms = rs.flatten) ∨
    ∃ out a, d ⟨T.kind, true⟩ = some out ∧ genfromtxt out = .ok a ∧ ms = a.flat ∧
      ms.length = T.mets * cases.length := by
  by_cases hc : cases = []
  · subst hc
    simp [metricsPart] at h
    subst h
    exact Or.inl ⟨[], .nil, rfl⟩
  have hrun : runMetricJobs (T.metric m) cases p.eff (p.order T.kind cases.length) = .ok ms →
      ∃ rs, AllOk (T.metric m) cases rs ∧ ms = rs.flatten := by
    intro h
    rcases allOk_or_fail (T.metric m) cases with ⟨rs, hrs⟩ | hf
    · rw [runMetricJobs_ok hp.threads (hp.order _ _) hrs] at h
      cases h
      exact ⟨rs, hrs, rfl⟩
    · obtain ⟨_, _, _, _, h2⟩ := C38_failure hf hp.threads (hp.order T.kind cases.length)
      rw [h2] at h; cases h
  unfold metricsPart at h
  rw [if_neg hc] at h
  cases reuse with
  | false =>
    simp only [Bool.false_eq_true, if_false, Bool.false_and] at h
    exact Or.inl (hrun h)
  | true =>
    simp only [if_true, Bool.true_and] at h
    rcases ho : d ⟨T.kind, true⟩ with _ | out <;> rw [ho] at h <;> dsimp only at h
    · have hn : (init cases.length).length ≠ T.mets * cases.length :=
        ((hd hc).resolve_left (fun q => q ho)) _ (List.length_pos_iff.2 hc)
      rw [if_neg (by simpa using hn)] at h
      exact Or.inl (hrun h)
    · rcases hg : genfromtxt out with _ | a <;> rw [hg] at h
      · cases h
      · simp only [Except.map] at h
        split_ifs at h with hl
        · cases h
          exact Or.inr ⟨out, a, rfl, hg, rfl, by simpa using hl⟩
        · exact Or.inl (hrun h)

/-- **C33**: when the output files of the requested ignition and flame cases are present, the
metrics of each phenomenon are read from its file (with the right number of entries) or come
from simulating the model; reactor metrics always do. -/
theorem C33_source_partial (hK : Kinds S) (hp : ParOk p) (hm : 0 < S.psr.mets)
    (h1 : c.ign ≠ [] → d ⟨.ign, true⟩ ≠ none) (h3 : c.flame ≠ [] → d ⟨.flame, true⟩ ≠ none) {reuse : Bool} {ms : List PyF}
    (h : sampleMetrics S m c p reuse d = .ok ms) :
    ∃ a b f, ms = a ++ b ++ f ∧
      ((∃ rs, AllOk (S.ign.metric m) c.ign rs ∧ a = rs.flatten) ∨
        ∃ out x, d ⟨.ign, true⟩ = some out ∧ genfromtxt out = .ok x ∧ a = x.flat ∧
          a.length = S.ign.mets * c.ign.length) ∧
      ((∃ rs, AllOk (S.psr.metric m) c.psr rs ∧ b = rs.flatten) ∨
        ∃ out x, d ⟨.psr, true⟩ = some out ∧ genfromtxt out = .ok x ∧ b = x.flat ∧
          b.length = S.psr.mets * c.psr.length) ∧
      ((∃ rs, AllOk (S.flame.metric m) c.flame rs ∧ f = rs.flatten) ∨
        ∃ out x, d ⟨.flame, true⟩ = some out ∧ genfromtxt out = .ok x ∧ f = x.flat ∧
          f.length = S.flame.mets * c.flame.length) := by
  unfold sampleMetrics at h
  rcases e1 : metricsPart S.ign (fun n => List.replicate n (.fin 0)) m c.ign p reuse d with
    _ | a <;> rw [e1] at h
  · cases h
  dsimp only at h
  rcases e2 : metricsPart S.psr (fun _ => []) m c.psr p reuse d with _ | b <;> rw [e2] at h
  · cases h
  dsimp only at h
  rcases e3 : metricsPart S.flame (fun n => List.replicate n (.fin 0)) m c.flame p reuse d with
    _ | f <;> rw [e3] at h
  · cases h
  dsimp only at h
  cases h
  have k1 := metricsPart_source hp (fun q => Or.inl (by rw [hK.ign]; exact h1 q)) e1
  have k2 := metricsPart_source hp (fun _ => Or.inr (by
    intro n hn; simp only [List.length_nil]; exact (Nat.mul_pos hm hn).ne)) e2
  have k3 := metricsPart_source hp (fun q => Or.inl (by rw [hK.flame]; exact h3 q)) e3
  rw [hK.ign] at k1
  rw [hK.psr] at k2
  rw [hK.flame] at k3
  exact ⟨a, b, f, rfl, k1, k2, k3⟩

/-- the metrics file of one phenomenon after `sample` -/
theorem readPart_after {κ} {T : Sims κ} (hT : Shaped T m) (hp : ParOk p) {cases : List κ}
    {r : List PyF × List Row} (h : (samplePart T m cases p d).result = .ok r) {d' : Disk}
    (hd : Agree T.kind d' (applyEvs d (samplePart T m cases p d).evs)) :
    readPart T.kind cases d' = .ok r.1 ∧
      ∀ m' init p', metricsPart T init m' cases p' true d' = .ok r.1 := by
  by_cases hc : cases = []
  · subst hc
    simp [samplePart] at h
    subst h
    simp [readPart, metricsPart]
  · have hs := samplePart_saved hT hp hc (ms := r.1) (rows := r.2) h
    rw [← readCache_congr T m _ hd] at hs
    obtain ⟨out, a, e1, e2, e3, e4⟩ := readCache_hit hs
    constructor
    · unfold readPart
      rw [if_neg hc, e1]
      dsimp only
      rw [e2]
      simp [Except.map, e3]
    · intro m' init p'
      unfold metricsPart
      rw [if_neg hc, e1]
      dsimp only
      rw [e2]
      simp [Except.map, e3, e4]

/-- **C69**: in the directory in which `sample` has run, `read_metrics` and `sample_metrics`
with reuse return the metrics that `sample` returned (the latter whatever model it is called
with). -/
theorem C69_metrics_after_sample (hS : SimsOk S m) (hp : ParOk p) {r : List PyF × List Row}
    (h : (sample S m c p d).result = .ok r) :
    readMetrics c (applyEvs d (sample S m c p d).evs) = .ok r.1 ∧
    ∀ m' p', sampleMetrics S m' c p' true (applyEvs d (sample S m c p d).evs) = .ok r.1 := by
  obtain ⟨a, b, f, rows, e1, e2, e3, e4, rfl, -⟩ := sample_ok hS.toKinds h
  obtain ⟨g1, g2, g3⟩ := sample_agree hS.toKinds h
  have k1 := readPart_after hS.ignShape hp e1 g1
  have k2 := readPart_after hS.psrShape hp e2 g2
  have k3 := readPart_after hS.flameShape hp e3 g3
  constructor
  · unfold readMetrics
    rw [hS.ign] at k1
    rw [hS.psr] at k2
    rw [hS.flame] at k3
    rw [k1.1, k2.1, k3.1]
  · intro m' p'
    unfold sampleMetrics
    rw [k1.2, k2.2, k3.2]

/-- a file whose lines are of equal length can be read -/
theorem genfromtxt_readable {rows : List Row} {k : Nat} (h : ∀ r ∈ rows, r.length = k) :
    ∃ a, genfromtxt rows = .ok a := by
  unfold genfromtxt
  cases rows with
  | nil => exact ⟨_, rfl⟩
  | cons r rs =>
      have hr : rectangular (r :: rs) = true := by
        simp only [rectangular, List.all_eq_true, beq_iff_eq]
        intro x hx
        rw [h r (List.mem_cons_self ..), h x (List.mem_cons_of_mem _ hx)]
      simp only [hr, if_true]
      split <;> exact ⟨_, rfl⟩

theorem readPart_missing {κ : Type} {kind : Kind} {cases : List κ} (hi : cases ≠ [])
    (hd : d ⟨kind, true⟩ = none) : readPart kind cases d = .error .systemError := by
  unfold readPart
  rw [if_neg hi, hd]

theorem readPart_readable {κ : Type} {kind : Kind} {cases : List κ}
    (h : ∀ rows, d ⟨kind, true⟩ = some rows → ∃ k, ∀ r ∈ rows, r.length = k) :
    (∃ a, readPart kind cases d = .ok a) ∨ readPart kind cases d = .error .systemError := by
  unfold readPart
  split
  · exact .inl ⟨_, rfl⟩
  · cases hk : d ⟨kind, true⟩ with
    | none => exact .inr rfl
    | some rows =>
        obtain ⟨k, hr⟩ := h rows hk
        obtain ⟨a, ha⟩ := genfromtxt_readable hr
        exact .inl ⟨a.flat, by simp [ha, Except.map]⟩

/-- **C69**: a requested phenomenon without output file makes `read_metrics` raise, whatever the
other files hold; it raises `SystemError` if the lines of every output file that is there are of
equal length. -/
theorem C69_missing
    (hi : (c.ign ≠ [] ∧ d ⟨.ign, true⟩ = none) ∨ (c.psr ≠ [] ∧ d ⟨.psr, true⟩ = none) ∨
      (c.flame ≠ [] ∧ d ⟨.flame, true⟩ = none)) :
    (∃ e, readMetrics c d = .error e) ∧
    ((∀ kind rows, d ⟨kind, true⟩ = some rows → ∃ k, ∀ r ∈ rows, r.length = k) →
      readMetrics c d = .error .systemError) := by
  have h : readPart .ign c.ign d = .error .systemError ∨
      readPart .psr c.psr d = .error .systemError ∨
      readPart .flame c.flame d = .error .systemError := by
    rcases hi with ⟨h, g⟩ | ⟨h, g⟩ | ⟨h, g⟩
    · exact .inl (readPart_missing h g)
    · exact .inr (.inl (readPart_missing h g))
    · exact .inr (.inr (readPart_missing h g))
  constructor
  · unfold readMetrics
    rcases h with h | h | h
    · rw [h]; exact ⟨_, rfl⟩
    · rw [h]
      cases readPart .ign c.ign d <;> exact ⟨_, rfl⟩
    · rw [h]
      cases readPart .ign c.ign d with
      | error e => exact ⟨_, rfl⟩
      | ok a => cases readPart .psr c.psr d <;> exact ⟨_, rfl⟩
  · intro hr
    have g1 := readPart_readable (kind := .ign) (cases := c.ign) (hr .ign)
    have g2 := readPart_readable (kind := .psr) (cases := c.psr) (hr .psr)
    unfold readMetrics
    rcases g1 with ⟨a, g1⟩ | g1
    · rw [g1] at h ⊢
      rcases g2 with ⟨b, g2⟩ | g2
      · rw [g2] at h ⊢
        rcases h with h | h | h
        · cases h
        · cases h
        · rw [h]
      · rw [g2]
    · rw [g1]

/-- ignition delays were saved, stirred-reactor metrics were not -/
example : readMetrics (⟨[()], [()], []⟩ : Conds Unit Unit Unit)
    (fun f => if f = ⟨.ign, true⟩ then some [[.fin 1]] else none) = .error .systemError :=
  (C69_missing (.inr (.inl ⟨by simp, by simp⟩))).2 (fun kind rows h => ⟨1, by
    split at h
    · cases h; simp
    · cases h⟩)

end

/-! ### a concrete case -/

/-- simulations of a case `n` that give `n` everywhere -/
def exSims (k : Kind) (rows mets : Nat) : Sims Nat where
  kind := k
  rows := rows
  mets := mets
  run m n := .ok (List.replicate mets (.fin n),
    List.replicate rows (List.replicate (2 + m.nSpecies) (.fin n)))
  metric _ n := .ok (List.replicate mets (.fin n))

def exAllSims : AllSims Nat Nat Nat := ⟨exSims .ign 20 1, exSims .psr 3 3, exSims .flame 20 1⟩

theorem exSims_shaped (k : Kind) {rows : Nat} (h : 1 < rows) (mets : Nat) (m : Mech) :
    Shaped (exSims k rows mets) m where
  rows_pos := by show 0 < rows; omega
  two := h
  run c ms rs h := by
    simp only [exSims, Except.ok.injEq, Prod.mk.injEq] at h
    obtain ⟨rfl, rfl⟩ := h
    refine ⟨by simp [exSims], by simp [exSims], fun r hr => ?_⟩
    rw [List.eq_of_mem_replicate hr]
    simp

theorem exAllSims_ok (m : Mech) : SimsOk exAllSims m where
  ign := rfl
  psr := rfl
  flame := rfl
  ignShape := exSims_shaped _ (by norm_num) _ m
  psrShape := exSims_shaped _ (by norm_num) _ m
  flameShape := exSims_shaped _ (by norm_num) _ m

def exPar (t : Int) : Par := ⟨t, 4, fun _ n => (List.range n).reverse⟩

theorem exPar_ok {t : Int} (h : 0 ≤ t) : ParOk (exPar t) where
  threads := by
    unfold Par.eff resolveThreads exPar
    dsimp only
    split_ifs <;> omega
  order _ n := List.reverse_perm _

def exSampleMech : Mech := ⟨[⟨"A", 0⟩, ⟨"B", 0⟩], [], 0, 0, [], idealGas⟩

/-- a run on an empty directory succeeds, so that C35, C36, C69 apply to it -/
theorem exSample_ok : ∃ r, (sample exAllSims exSampleMech ⟨[7, 8], [5], [6]⟩ (exPar 0)
    (fun _ => none)).result = .ok r ∧
    r.1 = [.fin 7, .fin 8, .fin 5, .fin 5, .fin 5, .fin 6] := by
  have h := C36_clean_partial (c := ⟨[7, 8], [5], [6]⟩) (d := fun _ => none)
    (exAllSims_ok exSampleMech) (exPar_ok (t := 0) le_rfl)
    (fun _ => Or.inl rfl) (fun _ => Or.inl rfl) (fun _ => Or.inl rfl)
  rcases h with ⟨ms, rows, ⟨a, b, f, h1, h2, h3, rfl, -⟩, h⟩ | ⟨e, -, ⟨x, -, h⟩ | ⟨x, -, h⟩ | ⟨x, -, h⟩⟩
  · refine ⟨_, h, ?_⟩
    have q : ∀ k rows mets cases, AllOk ((exSims k rows mets).run exSampleMech) cases
        (cases.map fun n : Nat => (List.replicate mets (.fin n),
          List.replicate rows (List.replicate 4 (.fin n)))) := by
      intro k rows mets cases
      unfold AllOk
      induction cases with
      | nil => exact .nil
      | cons x xs ih => exact .cons rfl ih
    rw [h1.unique (q _ _ _ _), h2.unique (q _ _ _ _), h3.unique (q _ _ _ _)]
    rfl
  all_goals cases h

/-- C33, C39: the metrics with and without reuse in an empty directory -/
example : sampleMetrics exAllSims exSampleMech ⟨[7, 8], [], []⟩ (exPar 1) true (fun _ => none) =
      .ok [.fin 0, .fin 0] ∧
    sampleMetrics exAllSims exSampleMech ⟨[7, 8], [5], [6]⟩ (exPar 2) false (fun _ => none) =
      .ok [.fin 7, .fin 8, .fin 5, .fin 5, .fin 5, .fin 6] := by
  refine ⟨C33_zero_baseline_refuted (exAllSims_ok exSampleMech).toKinds rfl (by simp) rfl rfl rfl,
    C39_layout (a := [[.fin 7], [.fin 8]]) (b := [[.fin 5, .fin 5, .fin 5]]) (f := [[.fin 6]])
      (exPar_ok (by norm_num)) (.cons rfl (.cons rfl .nil)) (.cons rfl .nil) (.cons rfl .nil)⟩

/-- hypotheses of C37: stale metrics of the right number, data of another model -/
example : SimsOk exAllSims exSampleMech ∧
    readCache exAllSims.ign exSampleMech 1 (fun f => if f = ⟨.ign, true⟩ then some [[.fin 1]]
      else if f = ⟨.ign, false⟩ then some (List.replicate 20 (List.replicate 5 (.fin 1)))
      else none) = .miss ∧
    AllOk (exAllSims.ign.run exSampleMech) [7]
      [([.fin 7], List.replicate 20 (List.replicate 4 (.fin 7)))] := by
  refine ⟨exAllSims_ok _, by decide +kernel, .cons rfl .nil⟩

/-- C36, C38: samples of a model with another number of species are not taken for the request -/
example : Unusable .ign 20 1 exSampleMech 1 (fun f => if f = ⟨.ign, true⟩ then some [[.fin 1]]
      else if f = ⟨.ign, false⟩ then some (List.replicate 20 (List.replicate 5 (.fin 1)))
      else none) :=
  .inr (.inr ⟨List.replicate 20 (List.replicate 5 (.fin 1)), [.fin 1], 5, rfl, rfl, by simp, by norm_num,
    fun r hr => by rw [List.eq_of_mem_replicate hr]; simp, .inr (.inr (by decide))⟩)

example : (sample exAllSims exSampleMech ⟨[7, 8], [], [6]⟩ (exPar (-2)) (fun _ => none)).result =
    .error .valueError :=
  (C38_negative (exAllSims_ok exSampleMech).toKinds (by decide) (.inl (by simp)) (fun _ => .inl rfl)
    (fun _ => .inl rfl) (fun _ => .inl rfl)).1

end Verif
