import Verif.Lemmas.EndToEnd
import Verif.Props.ReduceCases
/-!
# Whole runs: from the conditions to the returned model (C89)
-/
namespace Verif
open Spec

variable {ι π φ : Type} {K : Cantera ι π φ} {sol : Mech} {q : ReduceArgs ι π φ} {d : Disk}
  {meth : Method}

/-- what a successful sampling of the starting model gives, and that the loop can work with it -/
theorem fullCtx_usable (P : Physical K sol) (b : Arith) (Q : Request q sol d)
    {base : List PyF} {rows : List Row}
    (h : (sample (K.sims b.rnd) sol q.conds q.par d).result = .ok (base, rows)) (d' : Disk) :
    Simulated (K.sims b.rnd) sol q.conds base rows ∧ rows ≠ [] ∧
      Usable meth (fullCtx K meth b.rnd q d' sol base rows) sol := by
  have hS := simsOk (b := b) P
  have hsim : Simulated (K.sims b.rnd) sol q.conds base rows := by
    rcases C36_unusable_partial hS Q.par Q.freshIgn Q.freshPsr Q.freshFlame with
      ⟨ms, rows', h1, h2⟩ | ⟨e, h1, -⟩
    · rw [h] at h2
      cases h2
      exact h1
    · rw [h] at h1; cases h1
  have hrows : rows ≠ [] := by
    obtain ⟨a, p, f, ha, hp, hf, -, hrows⟩ := hsim.ex
    have key : ∀ {κ} {T : Sims κ} (_ : Shaped T sol) {cases : List κ} {l : List (List PyF × List Row)},
        AllOk (T.run sol) cases l → cases ≠ [] → (l.map (·.2)).flatten ≠ [] := by
      intro κ T hT cases l hl hc
      cases hl with
      | nil => exact absurd rfl hc
      | @cons x r _ _ h1 h2 =>
        intro h0
        have := (hT.run x r.1 r.2 h1).2.1
        simp only [List.map_cons, List.flatten_cons, List.append_eq_nil_iff] at h0
        rw [h0.1] at this
        have := hT.rows_pos
        simp at *
        omega
    rw [hrows]
    intro h0
    simp only [List.append_eq_nil_iff] at h0
    rcases Q.cond with hc | hc | hc
    · exact key hS.ignShape ha hc h0.1.1
    · exact key hS.psrShape hp hc h0.1.2
    · exact key hS.flameShape hf hc h0.2
  refine ⟨hsim, hrows, ⟨⟨Q.nodup, Q.targets, Q.noclash⟩, Q.target, ?_, fun _ => .inr ?_⟩⟩
  · rintro rfl
    have hb : RndOk b.rnd ∧ ∀ x, b.rnd (-x) = -b.rnd x := by
      cases b
      · exact ⟨rndOk_id, fun _ => rfl⟩
      · exact ⟨rnd64_usable.1, rnd64_usable.2.1⟩
      · exact ⟨rndOk_rnd754, rnd754_neg⟩
    refine ⟨hb.1, fun M hM => ?_⟩
    obtain ⟨r, -, rfl⟩ := List.mem_map.1 hM
    exact toN_unit _ (C84_drgep_range hb.1 hb.2 _)
  · simpa [fullCtx] using hrows

/-- the metrics of a model that behaves like the starting one are those of the starting one -/
theorem metrics_sameBehaviour (P : Physical K sol) (b : Arith) (Q : Request q sol d)
    {base : List PyF} {rows : List Row} (hs : Simulated (K.sims b.rnd) sol q.conds base rows)
    {m : Mech} (hm : SameBehaviour K sol m) (d' : Disk) :
    sampleMetrics (K.sims b.rnd) m q.conds q.par false d' = .ok base ∧
      ∃ os : List ℚ, base = os.map .fin ∧ os ≠ [] ∧ ∀ o ∈ os, 0 < o := by
  obtain ⟨os, hos, hpos⟩ := simulated_pos P hs
  obtain ⟨a, p, f, ha, hp, hf, hms, -⟩ := hs.ex
  have move : ∀ {κ} {T : Sims κ} {cases : List κ} {l : List (List PyF × List Row)},
      AllOk (T.run sol) cases l → (∀ x r, T.run sol x = .ok r → T.metric m x = .ok r.1) →
      AllOk (T.metric m) cases (l.map (·.1)) := by
    intro κ T cases l hl h
    unfold AllOk
    rw [List.forall₂_map_right_iff]
    exact hl.imp (fun x r hr => h x r hr)
  have h1 := move ha (fun x r hr => by
    obtain ⟨_, _, _, _, -, -, -, -, -, g, -⟩ := ignRun_ok P hr
    simp only [Cantera.sims, Cantera.ignSims] at g ⊢
    rw [hm.reactor]; exact g)
  have h2 := move hp (fun x r hr => by
    obtain ⟨_, -, -, -, g, -⟩ := psrRun_ok P hr
    simp only [Cantera.sims, Cantera.psrSims] at g ⊢
    rw [hm.psr]; exact g)
  have h3 := move hf (fun x r hr => by
    obtain ⟨_, -, -, -, g, -⟩ := flameRun_ok P hr
    simp only [Cantera.sims, Cantera.flameSims] at g ⊢
    rw [hm.flame]; exact g)
  have hne : os ≠ [] := by
    rintro rfl
    have hl : base.length = 0 := by rw [hos]; rfl
    have key : ∀ {κ} {T : Sims κ} (_ : Shaped T sol) {cases : List κ} {l : List (List PyF × List Row)},
        0 < T.mets → AllOk (T.run sol) cases l → cases ≠ [] → 0 < ((l.map (·.1)).flatten).length := by
      intro κ T hT cases l hpos hl hc
      cases hl with
      | nil => exact absurd rfl hc
      | @cons x r _ _ h1 h2 =>
        have := (hT.run x r.1 r.2 h1).1
        simp only [List.map_cons, List.flatten_cons, List.length_append]
        omega
    have hS := simsOk (b := b) P
    rw [hms] at hl
    simp only [List.length_append] at hl
    rcases Q.cond with hc | hc | hc
    · have := key hS.ignShape (by show 0 < 1; omega) ha hc; omega
    · have := key hS.psrShape (by show 0 < 3; omega) hp hc; omega
    · have := key hS.flameShape (by show 0 < 1; omega) hf hc; omega
  refine ⟨?_, os, hos, hne, hpos⟩
  rw [C39_layout Q.par h1 h2 h3, ← hms]

/-- the error of a model that behaves like the starting one is zero -/
theorem evalError_same (P : Physical K sol) (b : Arith) (Q : Request q sol d)
    {base : List PyF} {rows : List Row} (hs : Simulated (K.sims b.rnd) sol q.conds base rows)
    {m : Mech} (hm : SameBehaviour K sol m) (d' : Disk) :
    evalError (K.sims b.rnd) q d' base m = .fin 0 := by
  obtain ⟨h, os, hos, hne, hpos⟩ := metrics_sameBehaviour P b Q hs hm d'
  rw [evalError_eq, h, hos]
  dsimp only
  rw [C73_zero_error hne hpos]

/-- a run that returned has sampled the starting model and run the loop -/
theorem fullRun_ok {rnd rndThr : ℚ → ℚ} {dfuel fuel : Nat} {w w' : World} {r : RModel} {evs : List Ev}
    (hw : w.fs q.modelFile = some sol)
    (h : fullRun K meth rnd rndThr q d dfuel fuel w = ((some (.ok r), w'), evs)) :
    ∃ base rows, (sample (K.sims rnd) sol q.conds q.par d).result = .ok (base, rows) ∧
      evs = (sample (K.sims rnd) sol q.conds q.par d).evs ∧
      runMethod meth (fullCtx K meth rnd q (applyEvs d evs) sol base rows) rndThr q.limit dfuel fuel w
        = (some (.ok r), w') := by
  have hload : loadModel w q.modelFile = .ok sol := by unfold loadModel; rw [hw]
  unfold fullRun at h
  rw [hload] at h
  dsimp only at h
  by_cases ht : q.targets = []
  · rw [if_pos ht] at h; cases h
  rw [if_neg ht] at h
  rcases hs : (sample (K.sims rnd) sol q.conds q.par d).result with e | ⟨base, rows⟩ <;> rw [hs] at h
  · cases h
  · simp only [Prod.mk.injEq] at h
    obtain ⟨h1, h2⟩ := h
    refine ⟨base, rows, rfl, h2.symm, ?_⟩
    rw [← h2]
    exact runMethodS_ok h1

/-- **C89**: whatever the arithmetic of data, matrices and thresholds, when a whole run returns a
model and reports an error below 100 percent, that model reproduces the starting model under every
condition within the reported error: both ignite, burn and carry flames, and every delay,
extinction time, temperature and speed agrees within that percentage. -/
theorem C89_reported (P : Physical K sol) (Q : Request q sol d) (b a : Arith)
    (hlim : (PyF.fin 0).le q.limit = true)
    (hsame : SameBehaviour K sol (trim sol [] ("reduced_".toList ++ q.modelFile) q.phase)) :
    ∃ N, ∀ dfuel ≥ N, ∀ fuel w w' r evs e, w.fs q.modelFile = some sol →
      fullRun K meth b.rnd a.rnd q d dfuel fuel w = ((some (.ok r), w'), evs) →
      r.error = .fin e → e < 100 → Reproduces K q.conds sol r.model e := by
  rcases hs : (sample (K.sims b.rnd) sol q.conds q.par d).result with er | ⟨base, rows⟩
  · refine ⟨0, fun dfuel _ fuel w w' r evs e hw h => ?_⟩
    obtain ⟨base, rows, h1, -⟩ := fullRun_ok hw h
    rw [hs] at h1; cases h1
  · obtain ⟨hsim, -, U⟩ := fullCtx_usable (meth := meth) P b Q hs
      (applyEvs d (sample (K.sims b.rnd) sol q.conds q.par d).evs)
    have hl : LimitOk (fullCtx K meth b.rnd q
        (applyEvs d (sample (K.sims b.rnd) sol q.conds q.par d).evs) sol base rows) sol q.limit := by
      refine ⟨hlim, ?_⟩
      show (evalError (K.sims b.rnd) q _ base
        (trim sol [] ("reduced_".toList ++ q.modelFile) q.phase)).le q.limit = true
      rw [evalError_same P b Q hsim hsame]
      exact hlim
    obtain ⟨N, hN⟩ := C19_returned U hl a
    refine ⟨N, fun dfuel hd fuel w w' r evs e hw h he h100 => ?_⟩
    obtain ⟨base', rows', h1, h2, h3⟩ := fullRun_ok hw h
    rw [hs] at h1
    cases h1
    rw [h2] at h3
    obtain ⟨-, -, -, -, -, -, -, h4⟩ := hN dfuel hd fuel w r w' hw h3
    rw [he] at h4
    exact reproduces_of_error P Q.par hsim h4.symm h100

theorem Spec.Reproduces.mono (P : Physical K sol) {c : Conds ι π φ} {red : Mech} {e L : ℚ}
    (h : Reproduces K c sol red e) (hL : e ≤ L) : Reproduces K c sol red L := by
  have mono : ∀ {x y}, NearPct e x y → Pos x → NearPct L x y := by
    rintro x y ⟨o, t, rfl, rfl, h⟩ ⟨o', ho, h'⟩
    cases h'
    refine ⟨o, t, rfl, rfl, h.trans ?_⟩
    have : e / 100 ≤ L / 100 := by linarith
    exact mul_le_mul_of_nonneg_right this ho.le
  refine ⟨fun x hx => ?_, fun x hx => ?_, fun x hx => ?_⟩
  · obtain ⟨R, R', k, k', p, p', i1, i2, i3, i4, i5⟩ := h.ign x hx
    exact ⟨R, R', k, k', p, p', i1, i2, i3, i4, mono i5 (P.ignTime x R k p i1 i3.1)⟩
  · obtain ⟨r, r', i1, i2, i3, i4, i5⟩ := h.psr x hx
    obtain ⟨p1, p2, p3, -⟩ := P.psr x r i1
    exact ⟨r, r', i1, i2, mono i3 p1, mono i4 p2, mono i5 p3⟩
  · obtain ⟨f, f', i1, i2, i3, i4⟩ := h.flame x hx
    exact ⟨f, f', i1, i2, i3, mono i4 (P.flame x f i1).1⟩

/-- **C89**: with exact thresholds (data, matrices and path products in any of the two
arithmetics) and a limit below 100 percent, every returned model reproduces the starting model
under every condition within the limit. -/
theorem C89_within_limit (P : Physical K sol) (Q : Request q sol d) (b : Arith) {L : ℚ}
    (hL : q.limit = .fin L) (hL0 : 0 ≤ L) (hL1 : L < 100)
    (hsame : SameBehaviour K sol (trim sol [] ("reduced_".toList ++ q.modelFile) q.phase)) :
    ∃ N, ∀ dfuel ≥ N, ∀ fuel w w' r evs, w.fs q.modelFile = some sol →
      fullRun K meth b.rnd id q d dfuel fuel w = ((some (.ok r), w'), evs) →
      Reproduces K q.conds sol r.model L := by
  have hlim : (PyF.fin 0).le q.limit = true := by rw [hL]; simpa [PyF.le] using hL0
  rcases hs : (sample (K.sims b.rnd) sol q.conds q.par d).result with er | ⟨base, rows⟩
  · refine ⟨0, fun dfuel _ fuel w w' r evs hw h => ?_⟩
    obtain ⟨base, rows, h1, -⟩ := fullRun_ok hw h
    rw [hs] at h1; cases h1
  · obtain ⟨hsim, -, U⟩ := fullCtx_usable (meth := meth) P b Q hs
      (applyEvs d (sample (K.sims b.rnd) sol q.conds q.par d).evs)
    have hl : LimitOk (fullCtx K meth b.rnd q
        (applyEvs d (sample (K.sims b.rnd) sol q.conds q.par d).evs) sol base rows) sol q.limit := by
      refine ⟨hlim, ?_⟩
      show (evalError (K.sims b.rnd) q _ base
        (trim sol [] ("reduced_".toList ++ q.modelFile) q.phase)).le q.limit = true
      rw [evalError_same P b Q hsim hsame]
      exact hlim
    obtain ⟨N, hN⟩ := C19_within_limit_partial U hl
    refine ⟨N, fun dfuel hd fuel w w' r evs hw h => ?_⟩
    obtain ⟨base', rows', h1, h2, h3⟩ := fullRun_ok hw h
    rw [hs] at h1
    cases h1
    rw [h2] at h3
    obtain ⟨g1, g2, -⟩ := hN dfuel hd fuel w r w' hw h3
    rcases hr : r.error with e | _ | _ | _ <;> rw [hr, hL] at g1 <;> simp [PyF.le] at g1
    · rw [hr] at g2
      exact Spec.Reproduces.mono P (reproduces_of_error P Q.par hsim g2.symm (by linarith)) g1
    · rw [hr] at g2
      exfalso
      obtain ⟨os, hos, hpos⟩ := simulated_pos P hsim
      have g3 : PyF.ninf = evalError (K.sims b.rnd) q _ base r.model := g2
      rw [evalError_eq] at g3
      split at g3
      · cases g3
      split at g3
      · cases g3
      rename_i t ht e hce
      rw [hos, ← g3] at hce
      exact calculateError_ne_ninf hpos hce

/-! ### a concrete run -/

/-- `A → D`, `A → B`, `B → C` -/
def e2eSol : Mech where
  species := [⟨"A", 0⟩, ⟨"B", 1⟩, ⟨"C", 2⟩, ⟨"D", 3⟩]
  reactions := [⟨[("A", 1)], [("D", 1)], none, 0⟩, ⟨[("A", 1)], [("B", 1)], none, 1⟩,
    ⟨[("B", 1)], [("C", 1)], none, 2⟩]
  transport := 0
  tp := 0
  name := []

/-- ignition in the first step, one percent earlier without `C` and much earlier without `B` -/
def e2eReactor (names : List String) : Reactor where
  init := ⟨.fin 0, .fin 1000, .fin 1, names.map (fun _ => .fin 0)⟩
  step := fun k => some ⟨.fin ((if names.contains "B" then (if names.contains "C" then 100 else 99)
    else 50) + k), .fin 2000, .fin 1, names.map (fun _ => .fin 0)⟩
  settled := fun k => k = 1

def e2ePsr (names : List String) : PsrPoints :=
  let Y := names.map (fun _ => PyF.fin 0)
  ⟨⟨.fin 1, .fin 1500, Y⟩, ⟨.fin 2, .fin 1600, Y⟩, ⟨.fin 3, .fin (if names.contains "C" then 1000 else 1001), Y⟩⟩

def e2eFlame (names : List String) : FlameSol :=
  ⟨.fin 1, [⟨.fin 0, .fin 300, .fin 1, names.map (fun _ => .fin 0)⟩,
    ⟨.fin 0, .fin 1800, .fin 1, names.map (fun _ => .fin 0)⟩]⟩

def coefficient (l : List (String × ℚ)) (s : String) : ℚ :=
  ((l.filter (fun p => p.1 = s)).map (·.2)).sum

/-- the rates are 95, 5 and 1/8 whatever the state -/
def e2eK : Cantera Unit Unit Unit where
  ignProps := fun _ => ⟨.fin 1000, .fin 0, 0⟩
  reactor := fun m _ => .ok (e2eReactor m.names)
  fuel := 10
  psr := fun m _ => .ok (.ok (e2ePsr m.names))
  psrPressure := fun _ => .fin 1
  flame := fun m _ => .ok (some (e2eFlame m.names))
  floor := none
  chem := fun m _ =>
    { prod := fun a r => coefficient m.reactions[r].products m.names[a]
      reac := fun a r => coefficient m.reactions[r].reactants m.names[a]
      rop := fun r => ([95, 5, 1 / 8] : List ℚ).getD r 0 }

def e2eArgs : ReduceArgs Unit Unit Unit where
  modelFile := "m.yaml".toList
  limit := .fin 5
  targets := ["A"]
  safe := []
  upper := none
  phase := []
  path := []
  conds := ⟨[()], [()], [()]⟩
  par := ⟨1, 1, fun _ n => List.range n⟩

def e2eWorld : World := ⟨fun f => if f = "m.yaml".toList then some e2eSol else none, []⟩

/-- the run removes `C` and reports one percent, in exact and in binary64 arithmetic -/
example : runView (fullRun e2eK .drg id id e2eArgs (fun _ => none) 50 20 e2eWorld).1 =
    some (.ok (["A", "B", "D"], .fin 1)) ∧
    runView (fullRun e2eK .drgep rnd64 rnd64 e2eArgs (fun _ => none) 50 20 e2eWorld).1 =
    some (.ok (["A", "B", "D"], .fin 1)) := by
  decide +kernel

theorem e2e_physical : Physical e2eK e2eSol where
  ignStart := by
    intro x R h
    cases h
    exact ⟨1000, rfl, rfl⟩
  ignTime := by
    intro x R k p h hp
    cases h
    cases hp
    refine ⟨100 + k, by positivity, ?_⟩
    show PyF.fin ((if e2eSol.names.contains "B" then (if e2eSol.names.contains "C" then 100 else 99)
      else 50) + (k : ℚ)) = _
    rw [if_pos (by decide), if_pos (by decide)]
  ignWidth := by
    intro x R h
    cases h
    refine ⟨rfl, ?_⟩
    intro k p hp
    cases hp
    rfl
  psr := by
    intro x r h
    cases h
    exact ⟨⟨1, by norm_num, rfl⟩, ⟨1000, by norm_num, rfl⟩, ⟨1600, by norm_num, rfl⟩, rfl, rfl, rfl⟩
  flame := by
    intro x f h
    cases h
    refine ⟨⟨1, by norm_num, rfl⟩, by simp [e2eFlame], ?_⟩
    intro p hp
    simp only [e2eFlame, List.mem_cons, List.not_mem_nil, or_false] at hp
    rcases hp with rfl | rfl <;> rfl

theorem e2e_request : Request e2eArgs e2eSol (fun _ => none) where
  nodup := by decide
  targets := by decide
  target := by decide
  noclash := by
    intro n h
    have := congrArg List.head? h
    rw [show e2eArgs.path = [] from rfl, joinPath_nil, reducedName_head] at this
    exact absurd this (by decide)
  cond := .inl (by decide)
  par := ⟨by decide, fun _ n => List.Perm.refl _⟩
  freshIgn := fun _ => .inl rfl
  freshPsr := fun _ => .inl rfl
  freshFlame := fun _ => .inl rfl

example : SameBehaviour e2eK e2eSol (trim e2eSol [] ("reduced_".toList ++ e2eArgs.modelFile) e2eArgs.phase) :=
  have h : (trim e2eSol [] ("reduced_".toList ++ e2eArgs.modelFile) e2eArgs.phase).names = e2eSol.names := by
    decide +kernel
  ⟨fun _ => by simp only [e2eK, h], fun _ => by simp only [e2eK, h], fun _ => by simp only [e2eK, h]⟩

end Verif
