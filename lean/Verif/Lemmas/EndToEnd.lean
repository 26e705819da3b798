import Verif.Model.EndToEnd
import Verif.Spec.EndToEnd
import Verif.Props.Sampling
import Verif.Props.Simulation
import Verif.Props.MatrixRound
import Verif.Lemmas.ReduceSame
/-!
# Lemmas for whole runs
-/
namespace Verif
open Spec

theorem exists_fin {l : List PyF} (h : ∀ x ∈ l, ∃ q : ℚ, x = .fin q) : ∃ qs : List ℚ, l = qs.map .fin := by
  induction l with
  | nil => exact ⟨[], rfl⟩
  | cons x l ih =>
    obtain ⟨q, rfl⟩ := h x (by simp)
    obtain ⟨qs, rfl⟩ := ih (fun y hy => h y (by simp [hy]))
    exact ⟨q :: qs, rfl⟩

/-- an error below 100 means that every metric is a number, not zero, and within that percentage -/
theorem calculateError_bound {os : List ℚ} {test : List PyF} {e : ℚ} (hl : os.length = test.length)
    (ho : ∀ o ∈ os, 0 < o) (h : calculateError (os.map .fin) test = .ok (.fin e)) (he : e < 100) :
    ∃ ts : List ℚ, test = ts.map .fin ∧
      List.Forall₂ (fun o t => t ≠ 0 ∧ |o - t| ≤ e / 100 * o) os ts := by
  have hl' : (os.map PyF.fin).length = test.length := by simpa using hl
  have h0 : ∀ t ∈ test, t ≠ .fin 0 := by
    rintro t ht rfl
    rw [C41_zero hl' ht] at h
    simp only [Except.ok.injEq, PyF.fin.injEq] at h
    linarith
  have hnan : .nan ∉ test := by
    intro ht
    rw [C40_nan hl' (.inr ht) h0] at h
    cases h
  have hfin : ∀ x ∈ test, ∃ q : ℚ, x = .fin q := by
    intro x hx
    by_contra hc
    obtain ⟨i, hi, e1⟩ := List.getElem_of_mem hx
    have hpos := ho (os[i]'(by omega)) (List.getElem_mem _)
    have hrel : ∀ o : ℚ, 0 < o → ∀ y : PyF, y ≠ .nan → relDev (.fin o, y) ≠ .nan := by
      intro o ho y hy
      have ho' : ¬ o < 0 := by linarith
      cases y <;> simp [relDev, PyF.sub, PyF.neg, PyF.add, PyF.abs, PyF.div, PyF.sgn, PyF.ofSign,
        ho.ne', ho'] at hy ⊢
    have hx' : relDev (.fin (os[i]'(by omega)), x) = .inf := by
      have ho' : ¬ os[i]'(by omega) < 0 := by linarith
      cases x with
      | fin q => exact absurd ⟨q, rfl⟩ hc
      | nan => exact absurd hx hnan
      | inf => simp [relDev, PyF.sub, PyF.neg, PyF.add, PyF.abs, PyF.div, PyF.sgn, PyF.ofSign, ho']
      | ninf => simp [relDev, PyF.sub, PyF.neg, PyF.add, PyF.abs, PyF.div, PyF.sgn, PyF.ofSign, ho']
    have hmem : PyF.inf ∈ ((os.map PyF.fin).zip test).map relDev := by
      rw [List.mem_map]
      exact ⟨(.fin (os[i]'(by omega)), x), List.mem_iff_getElem.2 ⟨i, by simp; omega, by simp [e1]⟩, hx'⟩
    have hno : ∀ y ∈ ((os.map PyF.fin).zip test).map relDev, y ≠ .nan := by
      intro y hy
      obtain ⟨⟨a, b⟩, hp, rfl⟩ := List.mem_map.1 hy
      obtain ⟨ha, hb⟩ := List.of_mem_zip hp
      obtain ⟨o, ho1, rfl⟩ := List.mem_map.1 ha
      exact hrel o (ho o ho1) b (fun hb' => hnan (hb' ▸ hb))
    unfold calculateError at h
    rw [broadcast_eq hl'] at h
    dsimp only at h
    rcases hq : ((os.map PyF.fin).zip test).map relDev with _ | ⟨a, l⟩
    · rw [hq] at hmem; simp at hmem
    · rw [hq] at h hmem hno
      have hany : test.any (fun t => t.eq (.fin 0)) = false := by
        rw [List.any_eq_false]
        intro y hy
        have := h0 y hy
        cases y with
        | fin q => simpa [PyF.eq] using this
        | _ => simp [PyF.eq]
      simp only [npMax, hany] at h
      rw [foldl_nmax_inf hno hmem] at h
      have hm : (PyF.fin 100).mul .inf = .inf := by decide +kernel
      rw [hm] at h
      cases h
  obtain ⟨ts, rfl⟩ := exists_fin hfin
  have hts : ∀ t ∈ ts, t ≠ 0 := by
    rintro t ht rfl
    exact h0 (.fin 0) (List.mem_map.2 ⟨0, ht, rfl⟩) rfl
  refine ⟨ts, rfl, ?_⟩
  have hlen : os.length = ts.length := by simpa using hl
  by_cases hne : os = []
  · subst hne
    cases ts with
    | nil => exact .nil
    | cons => simp at hlen
  · have := ((C40_limit hlen hne ho hts h).1 e).1 (by simp [PyF.le])
    rw [List.forall₂_iff_zip]
    exact ⟨hlen, fun {a b} hab => ⟨hts b (List.of_mem_zip hab).2, this (a, b) hab⟩⟩

/-- with positive originals the error is never minus infinity -/
theorem calculateError_ne_ninf {os : List ℚ} {test : List PyF} (ho : ∀ o ∈ os, 0 < o) :
    calculateError (os.map .fin) test ≠ .ok .ninf := by
  have hb : ∀ {a b : List PyF} {ps : List (PyF × PyF)}, broadcast a b = .ok ps → ∀ p ∈ ps, p.1 ∈ a := by
    intro a b ps h p hp
    unfold broadcast at h
    split_ifs at h with hl
    · cases h
      exact (List.of_mem_zip hp).1
    · split at h
      · cases h
        obtain ⟨y, -, rfl⟩ := List.mem_map.1 hp
        simp
      · cases h
        obtain ⟨y, hy, rfl⟩ := List.mem_map.1 hp
        exact hy
      · cases h
  have hrel : ∀ o : ℚ, 0 < o → ∀ y : PyF, relDev (.fin o, y) ≠ .ninf := by
    intro o ho y
    have ho' : ¬ o < 0 := by linarith
    cases y <;> simp [relDev, PyF.sub, PyF.neg, PyF.add, PyF.abs, PyF.div, PyF.sgn, PyF.ofSign,
      ho.ne', ho']
  have hfold : ∀ (l : List PyF) (a : PyF), a ≠ .ninf → (∀ x ∈ l, x ≠ .ninf) → l.foldl PyF.nmax a ≠ .ninf := by
    intro l
    induction l with
    | nil => intro a ha _; exact ha
    | cons x l ih =>
      intro a ha hl
      rw [List.foldl_cons]
      refine ih _ ?_ (fun y hy => hl y (by simp [hy]))
      unfold PyF.nmax
      split_ifs
      · simp
      · simp
      · exact hl x (by simp)
      · exact ha
  intro h
  unfold calculateError at h
  split at h
  · cases h
  rename_i ps hps
  split at h
  · cases h
  rename_i m hm
  have hm' : m ≠ .ninf := by
    have hall : ∀ x ∈ ps.map relDev, x ≠ .ninf := by
      intro x hx
      obtain ⟨⟨u, v⟩, hp, rfl⟩ := List.mem_map.1 hx
      obtain ⟨o, h1, h2⟩ := List.mem_map.1 (hb hps _ hp)
      dsimp only at h2
      rw [← h2]
      exact hrel o (ho o h1) v
    unfold npMax at hm
    split at hm
    · cases hm
    · rename_i y ys hy
      rw [hy] at hall
      cases hm
      exact hfold _ _ (hall y (by simp)) (fun x hx => hall x (by simp [hx]))
  split_ifs at h
  · cases h
  · cases m with
    | ninf => exact hm' rfl
    | inf => have : (PyF.fin 100).mul .inf = .inf := by decide +kernel
             rw [this] at h; cases h
    | nan => cases h
    | fin x => cases h

theorem forall₂_append_inv {α β} {R : α → β → Prop} {x : List α} {y : List β} {xs : List α} {ys : List β}
    (hl : x.length = y.length) (h : List.Forall₂ R (x ++ xs) (y ++ ys)) :
    List.Forall₂ R x y ∧ List.Forall₂ R xs ys := by
  induction x generalizing y with
  | nil =>
    cases y with
    | nil => exact ⟨.nil, h⟩
    | cons => simp at hl
  | cons a x ih =>
    cases y with
    | nil => simp at hl
    | cons b y =>
      cases h with
      | cons h1 h2 =>
        obtain ⟨h3, h4⟩ := ih (by simpa using hl) h2
        exact ⟨.cons h1 h3, h4⟩

theorem forall₂_flatten_inv {α β} {R : α → β → Prop} {a : List (List α)} {b : List (List β)}
    (hl : List.Forall₂ (fun x y => x.length = y.length) a b)
    (h : List.Forall₂ R a.flatten b.flatten) : List.Forall₂ (List.Forall₂ R) a b := by
  induction hl with
  | nil => exact .nil
  | cons h1 h2 ih =>
    rw [List.flatten_cons, List.flatten_cons] at h
    obtain ⟨h3, h4⟩ := forall₂_append_inv h1 h
    exact .cons h3 (ih h4)

section
variable {ι π φ : Type} {S : AllSims ι π φ} {m : Mech} {c : Conds ι π φ} {p : Par} {d : Disk}

/-- when the metrics of a phenomenon are simulated without exception, every case was -/
theorem metricsPart_inv {κ} {T : Sims κ} {init : Nat → List PyF} (hp : ParOk p) {cases : List κ}
    {ms : List PyF} (h : metricsPart T init m cases p false d = .ok ms) :
    ∃ rs, AllOk (T.metric m) cases rs ∧ ms = rs.flatten := by
  by_cases hf : ∃ x ∈ cases, ∃ e, T.metric m x = .error e
  · exfalso
    obtain ⟨x, hx, e, he, h2⟩ := C38_failure hf hp.threads (hp.order T.kind cases.length)
    unfold metricsPart at h
    have hc : cases ≠ [] := by
      obtain ⟨x, hx, -⟩ := hf
      rintro rfl
      simp at hx
    rw [if_neg hc] at h
    simp only [Bool.false_eq_true, if_false, Bool.false_and] at h
    rw [h2] at h
    cases h
  · have : ∃ rs, AllOk (T.metric m) cases rs := by
      clear h
      induction cases with
      | nil => exact ⟨[], .nil⟩
      | cons x l ih =>
        obtain ⟨rs, hrs⟩ := ih (by
          rintro ⟨y, hy, e, he⟩
          exact hf ⟨y, by simp [hy], e, he⟩)
        rcases hx : T.metric m x with e | r
        · exact absurd ⟨x, by simp, e, hx⟩ hf
        · exact ⟨r :: rs, .cons hx hrs⟩
    obtain ⟨rs, hrs⟩ := this
    refine ⟨rs, hrs, ?_⟩
    rw [metricsPart_run hp hrs] at h
    exact (Except.ok.inj h).symm

theorem sampleMetrics_inv (hp : ParOk p) {ms : List PyF}
    (h : sampleMetrics S m c p false d = .ok ms) :
    ∃ a b f, AllOk (S.ign.metric m) c.ign a ∧ AllOk (S.psr.metric m) c.psr b ∧
      AllOk (S.flame.metric m) c.flame f ∧ ms = a.flatten ++ b.flatten ++ f.flatten := by
  unfold sampleMetrics at h
  split at h
  · cases h
  rename_i a ha
  split at h
  · cases h
  rename_i b hb
  split at h
  · cases h
  rename_i f hf
  obtain ⟨a', h1, rfl⟩ := metricsPart_inv hp ha
  obtain ⟨b', h2, rfl⟩ := metricsPart_inv hp hb
  obtain ⟨f', h3, rfl⟩ := metricsPart_inv hp hf
  exact ⟨a', b', f', h1, h2, h3, (Except.ok.inj h).symm⟩

end

/-- two results per case, related entry by entry -/
theorem AllOk.pair {κ α β} {f : κ → Except Err α} {g : κ → Except Err β} {R : α → β → Prop}
    {cases : List κ} {a : List α} {b : List β} (ha : AllOk f cases a) (hb : AllOk g cases b)
    (h : List.Forall₂ R a b) {x : κ} (hx : x ∈ cases) :
    ∃ r s, f x = .ok r ∧ g x = .ok s ∧ R r s := by
  induction cases generalizing a b with
  | nil => simp at hx
  | cons y l ih =>
    cases ha with
    | cons h1 h2 =>
      cases hb with
      | cons h3 h4 =>
        cases h with
        | cons h5 h6 =>
          rcases List.mem_cons.1 hx with rfl | hx
          · exact ⟨_, _, h1, h3, h5⟩
          · exact ih h2 h4 h6 hx

/-! ### the workers -/

theorem deltas_length (b : Arith) : (deltas b.rnd 20).length = 20 := by
  cases b
  · show (deltas id 20).length = 20
    rw [deltas_exact 20 (by omega)]; simp
  · exact C42_binary64.1
  · show (deltas rnd754 20).length = 20
    rw [C42_ieee]; exact C42_binary64.1

theorem sampleProfile_shape {b : Arith} {pts : List Point} {rows : List Row} {w : Nat}
    (h : sampleProfile b.rnd 20 pts = .ok rows) (hw : ∀ p ∈ pts, p.Y.length = w) :
    rows.length = 20 ∧ ∀ r ∈ rows, r.length = 2 + w := by
  cases pts with
  | nil => unfold sampleProfile at h; rw [if_neg (by omega)] at h; cases h
  | cons p0 ps =>
    obtain ⟨is, -, hr, hl, -⟩ := C42_rows h
    refine ⟨by rw [hl, deltas_length], fun r hr' => ?_⟩
    rw [hr, List.mem_append] at hr'
    rcases hr' with hr' | hr'
    · unfold rowsAt at hr'
      obtain ⟨i, -, hi⟩ := List.mem_filterMap.1 hr'
      rcases hp : (p0 :: ps)[i]? with _ | p
      · rw [hp] at hi; cases hi
      · rw [hp] at hi
        cases hi
        have := hw p (List.mem_of_getElem? hp)
        simp only [Point.row, List.length_cons]
        omega
    · rw [(List.mem_replicate.1 hr').2, List.length_replicate, hw p0 (by simp)]

theorem ignSampleWorker_ok {rnd : ℚ → ℚ} {p : IgnProps} {R : Reactor} {fuel : Nat} {ms : List PyF}
    {rows : List Row} {f : Option (List Point)}
    (h : ignSampleWorker rnd p R fuel = some (.ok (ms, rows), f)) :
    (∃ d, ms = [d]) ∧ ∃ n, sampleProfile rnd 20 (recorded R n) = .ok rows := by
  have fin : ∀ {n q}, ignRunCase p R false fuel = some ⟨.ok q, some (recorded R n)⟩ →
      (∃ d, ms = [d]) ∧ ∃ n, sampleProfile rnd 20 (recorded R n) = .ok rows := by
    intro n q hr
    unfold ignSampleWorker at h
    rw [hr] at h
    dsimp only at h
    unfold ignProcess recorded at h
    dsimp only at h
    rcases h1 : sampleProfile rnd 20 (R.init :: (List.range n).filterMap R.step) with e | rows' <;>
      rw [h1] at h
    · cases h
    · cases h
      exact ⟨⟨_, rfl⟩, n, h1⟩
  have bad : ∀ {e g}, ignRunCase p R false fuel = some ⟨.error e, g⟩ → False := by
    intro e g hr
    unfold ignSampleWorker at h
    rw [hr] at h
    cases h
  rcases ht : p.timed with _ | _
  · by_cases hm : 0 < p.steps
    · rcases runCase_steady p R fuel ht hm with ⟨n, -, -, -, hr⟩ | ⟨n, hn, hs, hreach, ⟨hc, hr⟩ | ⟨k, hk, q, hq, hr⟩⟩ | ⟨-, -, hr⟩
      · exact (bad hr).elim
      · exact (bad hr).elim
      · exact fin hr
      · exact (bad hr).elim
    · have hr : ignRunCase p R false fuel = some ⟨.error .unboundLocal, none⟩ := by
        unfold ignRunCase
        rw [if_neg (by simp [ht])]
        unfold steadyPart
        rw [Int.toNat_of_nonpos (by omega)]
        rfl
      exact (bad hr).elim
  · rcases hrun : ignRunCase p R false fuel with _ | r
    · unfold ignSampleWorker at h
      rw [hrun] at h
      cases h
    · rcases runCase_timed ht hrun with ⟨n, -, -, rfl⟩ | ⟨n, -, -, ⟨hc, rfl⟩ | ⟨k, hk, q, hq, rfl⟩⟩
      · exact (bad hrun).elim
      · exact (bad hrun).elim
      · exact fin hrun

/-- the metric-only worker: what a delay other than zero means -/
theorem ignWorker_nonzero {p : IgnProps} {R : Reactor} {fuel : Nat} {ms : List PyF}
    (h : ignWorker p R fuel = some (.ok ms)) :
    ∃ d, ms = [d] ∧ (d ≠ .fin 0 →
      ∃ k q, Ignites R (p.temperature.add (.fin 400)) k q ∧ q.time = d) := by
  unfold ignWorker at h
  rcases hc : ignCalculate p R fuel with _ | x <;> rw [hc] at h
  · cases h
  rcases x with e | d
  · cases h
  · cases h
    refine ⟨d, rfl, fun hd => ?_⟩
    by_cases ht : p.endTime = .fin 0
    · by_cases hm : 0 ≤ p.maxSteps
      · obtain ⟨v, hv, H⟩ := C44_calculate_steps p R fuel ht hm
        rw [hc] at hv
        cases hv
        rcases H _ rfl with ⟨k, q, -, h1, h2⟩ | ⟨-, h2⟩
        · exact ⟨k, q, h1, h2.symm⟩
        · exact absurd h2 hd
      · have := (C44_negative_steps p R fuel ht (by omega)).1
        rw [hc] at this
        cases this
    · rcases C44_calculate_timed ht hc with ⟨k, q, h1, -, h2⟩ | ⟨n, -, -, h2⟩
      · exact ⟨k, q, h1, (Except.ok.inj h2).symm⟩
      · exact absurd (Except.ok.inj h2) hd

section
variable {ι π φ : Type} {K : Cantera ι π φ} {sol : Mech} {b : Arith}

/-- what a sampled ignition case gives -/
theorem ignRun_ok (P : Physical K sol) {x : ι} {r : List PyF × List Row}
    (h : (K.ignSims b.rnd).run sol x = .ok r) :
    ∃ R d k p, K.reactor sol x = .ok R ∧ r.1 = [d] ∧ Pos d ∧
      Ignites R ((K.ignProps x).temperature.add (.fin 400)) k p ∧ d = p.time ∧
      (K.ignSims b.rnd).metric sol x = .ok r.1 ∧ r.2.length = 20 ∧
      ∀ y ∈ r.2, y.length = 2 + sol.nSpecies := by
  obtain ⟨ms, rows⟩ := r
  simp only [Cantera.ignSims] at h ⊢
  rcases hR : K.reactor sol x with e | R <;> rw [hR] at h
  · cases h
  dsimp only at h ⊢
  rcases hw : ignSampleWorker b.rnd (K.ignProps x) R K.fuel with _ | ⟨y, f⟩ <;> rw [hw] at h
  · cases h
  dsimp only at h
  subst h
  obtain ⟨T, hT, h0⟩ := P.ignStart x R hR
  obtain ⟨⟨d, rfl⟩, n, hn⟩ := ignSampleWorker_ok hw
  obtain ⟨⟨k, p, hk, hp⟩, hm⟩ := C43_agree hT h0 hw
  obtain ⟨w1, w2⟩ := P.ignWidth x R hR
  have hsh := sampleProfile_shape (w := sol.nSpecies) hn (by
    intro p hp
    unfold recorded at hp
    rcases List.mem_cons.1 hp with rfl | hp
    · exact w1
    · obtain ⟨j, -, hj⟩ := List.mem_filterMap.1 hp
      exact w2 j p hj)
  refine ⟨R, d, k, p, rfl, rfl, hp ▸ P.ignTime x R k p hR hk.1, ?_, hp, ?_, hsh.1, hsh.2⟩
  · rw [hT]; exact hk
  · rw [hm]; rfl

theorem psrRun_ok (P : Physical K sol) {x : π} {r : List PyF × List Row}
    (h : K.psrSims.run sol x = .ok r) :
    ∃ c, K.psr sol x = .ok (.ok c) ∧ r.1 = [c.extinction.tau, c.logMid.T, c.near.T] ∧
      (∀ v ∈ r.1, Pos v) ∧ K.psrSims.metric sol x = .ok r.1 ∧ r.2.length = 3 ∧
      ∀ y ∈ r.2, y.length = 2 + sol.nSpecies := by
  simp only [Cantera.psrSims] at h ⊢
  rcases hR : K.psr sol x with e | t <;> rw [hR] at h
  · cases h
  dsimp only at h ⊢
  rcases t with e | c
  · rw [(C47_failure _ e).1.2] at h; cases h
  · obtain ⟨p1, p2, p3, y1, y2, y3⟩ := P.psr x c hR
    rw [(C47_points _ c).2.2] at h
    cases h
    refine ⟨c, rfl, rfl, ?_, rfl, rfl, ?_⟩
    · intro v hv
      simp only [List.mem_cons, List.not_mem_nil, or_false] at hv
      rcases hv with rfl | rfl | rfl <;> assumption
    · intro y hy
      simp only [List.mem_cons, List.not_mem_nil, or_false] at hy
      rcases hy with rfl | rfl | rfl <;> simp only [List.length_cons] <;> omega

theorem flameRun_ok (P : Physical K sol) {x : φ} {r : List PyF × List Row}
    (h : (K.flameSims b.rnd).run sol x = .ok r) :
    ∃ f, K.flame sol x = .ok (some f) ∧ r.1 = [f.speed] ∧ Pos f.speed ∧
      (K.flameSims b.rnd).metric sol x = .ok r.1 ∧ r.2.length = 20 ∧
      ∀ y ∈ r.2, y.length = 2 + sol.nSpecies := by
  simp only [Cantera.flameSims] at h ⊢
  rcases hR : K.flame sol x with e | s <;> rw [hR] at h
  · cases h
  dsimp only at h ⊢
  unfold flameProcess at h
  rcases C46_floor K.floor s with ⟨-, h1, -⟩ | ⟨f, rfl, -, h1, h2⟩
  · rw [h1] at h; cases h
  · obtain ⟨p1, -, p3⟩ := P.flame x f hR
    rw [h1] at h
    dsimp only at h
    rcases h3 : sampleProfile b.rnd 20 f.points with e | rows' <;> rw [h3] at h <;> cases h
    obtain ⟨s1, s2⟩ := sampleProfile_shape h3 p3
    exact ⟨f, rfl, rfl, p1, by rw [h2], s1, s2⟩

theorem simsOk (P : Physical K sol) : SimsOk (K.sims b.rnd) sol where
  ign := rfl
  psr := rfl
  flame := rfl
  ignShape := ⟨by show 0 < 20; omega, by show 1 < 20; omega, fun c ms rows h => by
    obtain ⟨_, d, _, _, -, h1, -, -, -, -, h2, h3⟩ := ignRun_ok P h
    exact ⟨congrArg List.length h1, h2, h3⟩⟩
  psrShape := ⟨by show 0 < 3; omega, by show 1 < 3; omega, fun c ms rows h => by
    obtain ⟨_, -, h1, -, -, h2, h3⟩ := psrRun_ok P h
    exact ⟨congrArg List.length h1, h2, h3⟩⟩
  flameShape := ⟨by show 0 < 20; omega, by show 1 < 20; omega, fun c ms rows h => by
    obtain ⟨_, -, h1, -, -, h2, h3⟩ := flameRun_ok P h
    exact ⟨congrArg List.length h1, h2, h3⟩⟩

/-- the metrics have a fixed number of entries per case -/
theorem ignMetric_length {m : Mech} {x : ι} {r : List PyF}
    (h : (K.ignSims b.rnd).metric m x = .ok r) : r.length = 1 := by
  simp only [Cantera.ignSims] at h
  rcases hR : K.reactor m x with e | R <;> rw [hR] at h
  · cases h
  dsimp only at h
  rcases hw : ignWorker (K.ignProps x) R K.fuel with _ | y <;> rw [hw] at h
  · cases h
  · rw [Option.getD_some] at h
    subst h
    obtain ⟨d, rfl, -⟩ := ignWorker_nonzero hw
    rfl

theorem psrMetric_length {m : Mech} {x : π} {r : List PyF}
    (h : K.psrSims.metric m x = .ok r) : r.length = 3 := by
  simp only [Cantera.psrSims] at h
  rcases hR : K.psr m x with e | t <;> rw [hR] at h
  · cases h
  dsimp only at h
  rcases t with e | c
  · by_cases he : e = .runtimeError
    · rw [(C47_failure (.fin 0) e).2.1 he] at h; cases h; rfl
    · rw [(C47_failure (.fin 0) e).2.2 he] at h; cases h
  · rw [(C47_points (.fin 0) c).2.1] at h; cases h; rfl

theorem flameMetric_length {m : Mech} {x : φ} {r : List PyF}
    (h : (K.flameSims b.rnd).metric m x = .ok r) : r.length = 1 := by
  simp only [Cantera.flameSims] at h
  rcases hR : K.flame m x with e | t <;> rw [hR] at h
  · cases h
  · cases h; rfl

theorem AllOk.forall₂ {κ α β} {f : κ → Except Err α} {g : κ → Except Err β} {R : α → β → Prop}
    {cases : List κ} {a : List α} {b : List β} (ha : AllOk f cases a) (hb : AllOk g cases b)
    (h : ∀ x r s, f x = .ok r → g x = .ok s → R r s) : List.Forall₂ R a b := by
  induction cases generalizing a b with
  | nil => cases ha; cases hb; exact .nil
  | cons y l ih =>
    cases ha with
    | cons h1 h2 =>
      cases hb with
      | cons h3 h4 => exact .cons (h _ _ _ h1 h3) (ih h2 h4)

theorem AllOk.all {κ α} {f : κ → Except Err α} {R : α → Prop} {cases : List κ} {a : List α}
    (ha : AllOk f cases a) (h : ∀ x r, f x = .ok r → R r) : ∀ r ∈ a, R r := by
  induction cases generalizing a with
  | nil => cases ha; simp
  | cons y l ih =>
    cases ha with
    | cons h1 h2 =>
      intro r hr
      rcases List.mem_cons.1 hr with rfl | hr
      · exact h _ _ h1
      · exact ih h2 r hr

/-- all metrics of the starting model are positive -/
theorem simulated_pos (P : Physical K sol) {c : Conds ι π φ} {ms : List PyF} {rows : List Row}
    (hs : Simulated (K.sims b.rnd) sol c ms rows) :
    ∃ os : List ℚ, ms = os.map .fin ∧ ∀ o ∈ os, 0 < o := by
  obtain ⟨a, p, f, ha, hp, hf, rfl, -⟩ := hs.ex
  have h1 : ∀ r ∈ a, ∀ v ∈ r.1, Pos v := AllOk.all ha (fun x r h => by
    obtain ⟨_, d, _, _, -, h1, h2, -⟩ := ignRun_ok P h
    rw [h1]; simpa using h2)
  have h2 : ∀ r ∈ p, ∀ v ∈ r.1, Pos v := AllOk.all hp (fun x r h => by
    obtain ⟨_, -, -, h1, -⟩ := psrRun_ok P h
    exact h1)
  have h3 : ∀ r ∈ f, ∀ v ∈ r.1, Pos v := AllOk.all hf (fun x r h => by
    obtain ⟨_, -, h1, h2, -⟩ := flameRun_ok P h
    rw [h1]; simpa using h2)
  have hall : ∀ v ∈ (a.map (·.1)).flatten ++ (p.map (·.1)).flatten ++ (f.map (·.1)).flatten, Pos v := by
    intro v hv
    simp only [List.mem_append, List.mem_flatten, List.mem_map, exists_exists_and_eq_and] at hv
    rcases hv with (⟨r, hr, hv⟩ | ⟨r, hr, hv⟩) | ⟨r, hr, hv⟩
    · exact h1 r hr v hv
    · exact h2 r hr v hv
    · exact h3 r hr v hv
  obtain ⟨os, hos⟩ := exists_fin (fun v hv => by
    obtain ⟨q, -, hq⟩ := hall v hv
    exact ⟨q, hq⟩)
  refine ⟨os, hos, fun o ho => ?_⟩
  obtain ⟨q, hq, e⟩ := hall (.fin o) (by rw [hos]; exact List.mem_map.2 ⟨o, ho, rfl⟩)
  cases e
  exact hq

theorem evalError_eq (S : AllSims ι π φ) (q : ReduceArgs ι π φ) (d : Disk) (base : List PyF) (m : Mech) :
    evalError S q d base m = (match sampleMetrics S m q.conds q.par false d with
      | .error _ => .nan
      | .ok t => match calculateError base t with
        | .error _ => .nan
        | .ok e => e) := by
  unfold evalError simError evalSim
  rcases sampleMetrics S m q.conds q.par false d with e | t
  · rfl
  · dsimp only
    rcases calculateError base t with e | e <;> rfl

/-- a model whose error is below 100 behaves like the starting model within that percentage -/
theorem reproduces_of_error (P : Physical K sol) {q : ReduceArgs ι π φ} (hp : ParOk q.par)
    {ms : List PyF} {rows : List Row} (hs : Simulated (K.sims b.rnd) sol q.conds ms rows)
    {d : Disk} {red : Mech} {e : ℚ} (he : evalError (K.sims b.rnd) q d ms red = .fin e)
    (h100 : e < 100) : Reproduces K q.conds sol red e := by
  obtain ⟨os, hos, hpos⟩ := simulated_pos P hs
  obtain ⟨a, p, f, ha, hpp, hf, hms, -⟩ := hs.ex
  rw [evalError_eq] at he
  split at he
  · cases he
  rename_i t ht
  split at he
  · cases he
  rename_i e' hce
  subst he
  obtain ⟨a', p', f', ha', hp', hf', htt⟩ := sampleMetrics_inv hp ht
  have la : List.Forall₂ (fun (x y : List PyF) => x.length = y.length) (a.map (·.1)) a' := by
    rw [List.forall₂_map_left_iff]
    refine AllOk.forall₂ ha ha' (fun x r s h h' => ?_)
    obtain ⟨_, d, _, _, -, h1, -⟩ := ignRun_ok P h
    rw [h1, ignMetric_length h']; rfl
  have lp : List.Forall₂ (fun (x y : List PyF) => x.length = y.length) (p.map (·.1)) p' := by
    rw [List.forall₂_map_left_iff]
    refine AllOk.forall₂ hpp hp' (fun x r s h h' => ?_)
    obtain ⟨_, -, h1, -⟩ := psrRun_ok P h
    rw [h1, psrMetric_length h']; rfl
  have lf : List.Forall₂ (fun (x y : List PyF) => x.length = y.length) (f.map (·.1)) f' := by
    rw [List.forall₂_map_left_iff]
    refine AllOk.forall₂ hf hf' (fun x r s h h' => ?_)
    obtain ⟨_, -, h1, -⟩ := flameRun_ok P h
    rw [h1, flameMetric_length h']; rfl
  have flat : ∀ {u v : List (List PyF)}, List.Forall₂ (fun (x y : List PyF) => x.length = y.length) u v →
      u.flatten.length = v.flatten.length := by
    intro u v h
    induction h with
    | nil => rfl
    | cons h1 h2 ih => rw [List.flatten_cons, List.flatten_cons, List.length_append, List.length_append, h1, ih]
  have hlen : ms.length = t.length := by
    rw [hms, htt]
    simp only [List.length_append, flat la, flat lp, flat lf]
  rw [hos] at hce hlen
  obtain ⟨ts, hts, hR⟩ := calculateError_bound (by simpa using hlen) hpos hce h100
  have hR' : List.Forall₂ (fun x y => y ≠ .fin 0 ∧ NearPct e x y) ms t := by
    rw [hos, hts, List.forall₂_map_left_iff, List.forall₂_map_right_iff]
    exact hR.imp (fun o t h => ⟨by simpa using h.1, o, t, rfl, rfl, h.2⟩)
  rw [hms, htt] at hR'
  obtain ⟨hR1, hR3⟩ := forall₂_append_inv (by
    simp only [List.length_append, flat la, flat lp]) hR'
  obtain ⟨hR1, hR2⟩ := forall₂_append_inv (flat la) hR1
  have A := forall₂_flatten_inv la hR1
  have B := forall₂_flatten_inv lp hR2
  have F := forall₂_flatten_inv lf hR3
  rw [List.forall₂_map_left_iff] at A B F
  refine ⟨fun x hx => ?_, fun x hx => ?_, fun x hx => ?_⟩
  · obtain ⟨r, s, h1, h2, h3⟩ := AllOk.pair ha ha' A hx
    obtain ⟨R, d, k, pt, g1, g2, -, g3, g4, -⟩ := ignRun_ok P h1
    simp only [Cantera.sims, Cantera.ignSims] at h2
    rcases hR : K.reactor red x with e1 | R' <;> rw [hR] at h2
    · cases h2
    dsimp only at h2
    rcases hw : ignWorker (K.ignProps x) R' K.fuel with _ | y <;> rw [hw] at h2
    · cases h2
    · rw [Option.getD_some] at h2
      subst h2
      obtain ⟨d', rfl, H⟩ := ignWorker_nonzero hw
      rw [g2] at h3
      cases h3 with
      | cons h4 _ =>
        obtain ⟨k', pt', i1, i2⟩ := H h4.1
        exact ⟨R, R', k, k', pt, pt', g1, rfl, g3, i1, by rw [← g4, i2]; exact h4.2⟩
  · obtain ⟨r, s, h1, h2, h3⟩ := AllOk.pair hpp hp' B hx
    obtain ⟨c, g1, g2, -⟩ := psrRun_ok P h1
    rw [g2] at h3
    simp only [Cantera.sims, Cantera.psrSims] at h2
    rcases hR : K.psr red x with e1 | c' <;> rw [hR] at h2
    · cases h2
    dsimp only at h2
    rcases c' with e1 | c'
    · by_cases he1 : e1 = .runtimeError
      · rw [(C47_failure (.fin 0) e1).2.1 he1] at h2
        cases h2
        cases h3 with
        | cons h4 _ => exact absurd rfl h4.1
      · rw [(C47_failure (.fin 0) e1).2.2 he1] at h2; cases h2
    · rw [(C47_points (.fin 0) c').2.1] at h2
      cases h2
      cases h3 with
      | cons h4 h3 => cases h3 with
        | cons h5 h3 => cases h3 with
          | cons h6 _ => exact ⟨c, c', g1, rfl, h4.2, h5.2, h6.2⟩
  · obtain ⟨r, s, h1, h2, h3⟩ := AllOk.pair hf hf' F hx
    obtain ⟨fl, g1, g2, -⟩ := flameRun_ok P h1
    rw [g2] at h3
    simp only [Cantera.sims, Cantera.flameSims] at h2
    rcases hR : K.flame red x with e1 | f1 <;> rw [hR] at h2
    · cases h2
    · cases h2
      cases h3 with
      | cons h4 _ =>
        rcases C46_floor K.floor f1 with ⟨-, -, i1⟩ | ⟨f2, rfl, i1, -, i2⟩
        · exact absurd i1 h4.1
        · rw [i2] at h4
          exact ⟨fl, f2, g1, rfl, i1, h4.2⟩

/-- all metrics are numbers when the simulations give numbers -/
theorem metrics_numbers (D : Numerical K) {c : Conds ι π φ} {p : Par} (hp : ParOk p) {d : Disk}
    {m : Mech} {t : List PyF} (h : sampleMetrics (K.sims b.rnd) m c p false d = .ok t) :
    ∀ v ∈ t, ∃ q : ℚ, v = .fin q := by
  obtain ⟨a', p', f', ha', hp', hf', rfl⟩ := sampleMetrics_inv hp h
  have h1 : ∀ r ∈ a', ∀ v ∈ r, ∃ q : ℚ, v = .fin q := AllOk.all ha' (fun x r h2 => by
    simp only [Cantera.sims, Cantera.ignSims] at h2
    rcases hR : K.reactor m x with e1 | R <;> rw [hR] at h2
    · cases h2
    dsimp only at h2
    rcases hw : ignWorker (K.ignProps x) R K.fuel with _ | y <;> rw [hw] at h2
    · cases h2
    · rw [Option.getD_some] at h2
      subst h2
      obtain ⟨d', rfl, H⟩ := ignWorker_nonzero hw
      intro v hv
      rw [List.mem_singleton] at hv
      subst hv
      by_cases h0 : v = .fin 0
      · exact ⟨0, h0⟩
      · obtain ⟨k, pt, i1, i2⟩ := H h0
        rw [← i2]
        exact D.ign m x R k pt hR i1.1)
  have h2 : ∀ r ∈ p', ∀ v ∈ r, ∃ q : ℚ, v = .fin q := AllOk.all hp' (fun x r h2 => by
    simp only [Cantera.sims, Cantera.psrSims] at h2
    rcases hR : K.psr m x with e1 | c' <;> rw [hR] at h2
    · cases h2
    dsimp only at h2
    rcases c' with e1 | c'
    · by_cases he1 : e1 = .runtimeError
      · rw [(C47_failure (.fin 0) e1).2.1 he1] at h2
        cases h2
        intro v hv
        simp only [List.mem_cons, List.not_mem_nil, or_false, or_self] at hv
        exact ⟨0, hv⟩
      · rw [(C47_failure (.fin 0) e1).2.2 he1] at h2; cases h2
    · rw [(C47_points (.fin 0) c').2.1] at h2
      cases h2
      obtain ⟨g1, g2, g3⟩ := D.psr m x c' hR
      intro v hv
      simp only [List.mem_cons, List.not_mem_nil, or_false] at hv
      rcases hv with rfl | rfl | rfl
      · exact g1
      · exact g2
      · exact g3)
  have h3 : ∀ r ∈ f', ∀ v ∈ r, ∃ q : ℚ, v = .fin q := AllOk.all hf' (fun x r h2 => by
    simp only [Cantera.sims, Cantera.flameSims] at h2
    rcases hR : K.flame m x with e1 | f1 <;> rw [hR] at h2
    · cases h2
    · cases h2
      intro v hv
      rw [List.mem_singleton] at hv
      subst hv
      rcases C46_floor K.floor f1 with ⟨-, -, i1⟩ | ⟨f2, rfl, i1, -, i2⟩
      · exact ⟨0, i1⟩
      · rw [i2]; exact D.flame m x f2 hR)
  intro v hv
  simp only [List.mem_append, List.mem_flatten] at hv
  rcases hv with (⟨r, hr, hv⟩ | ⟨r, hr, hv⟩) | ⟨r, hr, hv⟩
  · exact h1 r hr v hv
  · exact h2 r hr v hv
  · exact h3 r hr v hv

/-- the error of numbers with respect to positive numbers is a number -/
theorem calculateError_number {os : List ℚ} {test : List PyF} (ho : ∀ o ∈ os, 0 < o)
    (ht : ∀ v ∈ test, ∃ q : ℚ, v = .fin q) : calculateError (os.map .fin) test ≠ .ok .nan := by
  have hb : ∀ {a b : List PyF} {ps : List (PyF × PyF)}, broadcast a b = .ok ps →
      ∀ p ∈ ps, p.1 ∈ a ∧ p.2 ∈ b := by
    intro a b ps h p hp
    unfold broadcast at h
    split_ifs at h with hl
    · cases h
      exact List.of_mem_zip hp
    · split at h
      · cases h
        obtain ⟨y, hy, rfl⟩ := List.mem_map.1 hp
        exact ⟨by simp, hy⟩
      · cases h
        obtain ⟨y, hy, rfl⟩ := List.mem_map.1 hp
        exact ⟨hy, by simp⟩
      · cases h
  have hfold : ∀ (l : List PyF) (a : PyF), (∃ q : ℚ, a = .fin q) → (∀ x ∈ l, ∃ q : ℚ, x = .fin q) →
      ∃ q : ℚ, l.foldl PyF.nmax a = .fin q := by
    intro l
    induction l with
    | nil => intro a ha _; exact ha
    | cons x l ih =>
      intro a ha hl
      rw [List.foldl_cons]
      refine ih _ ?_ (fun y hy => hl y (by simp [hy]))
      obtain ⟨u, rfl⟩ := ha
      obtain ⟨v, rfl⟩ := hl x (by simp)
      unfold PyF.nmax
      split_ifs <;> simp_all
  intro h
  unfold calculateError at h
  split at h
  · cases h
  rename_i ps hps
  have hps' : ∀ x ∈ ps.map relDev, ∃ q : ℚ, x = .fin q := by
    intro x hx
    obtain ⟨⟨u, v⟩, hp, rfl⟩ := List.mem_map.1 hx
    obtain ⟨g1, g2⟩ := hb hps _ hp
    obtain ⟨o, ho', rfl⟩ := List.mem_map.1 g1
    obtain ⟨q, rfl⟩ := ht _ g2
    have := (ho o ho').ne'
    simp [relDev, PyF.sub, PyF.neg, PyF.add, PyF.abs, PyF.div, this]
  split at h
  · cases h
  rename_i mx hm
  have : ∃ q : ℚ, mx = .fin q := by
    unfold npMax at hm
    split at hm
    · cases hm
    · rename_i x l hl
      cases hm
      rw [hl] at hps'
      exact hfold l x (hps' x (by simp)) (fun y hy => hps' y (by simp [hy]))
  obtain ⟨q, rfl⟩ := this
  split_ifs at h
  · simp at h
  · simp [PyF.mul] at h

end

end Verif
