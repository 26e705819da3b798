import Verif.Lemmas.CondOrder
import Verif.Props.Order
/-!
# C100 (files, simulations that raise) and C103: order and repetition of the conditions
-/
namespace Verif
open Spec

theorem Relisted.lists {c c' : Ctx} (h : Relisted c c') : SameLists c c' :=
  ⟨h.file, h.phase, h.path, h.targets, h.safe, h.matrices, h.upper, h.rndMul⟩

/-- **C100**: also when simulations raise and whatever the limit: with targets, retained species and
sampled states in another order or repeated, the run returns the same model, file name and error
or raises both times, after as many iterations, and leaves the same files with the same content. -/
theorem C100_files {m : Method} {c c' : Ctx} {sol : Mech} (h : Relisted c c') (U : Usable m c sol)
    (sim : Mech → Except Err PyF) (rnd : ℚ → ℚ) (limit : PyF) :
    ∃ N, ∀ dfuel ≥ N, ∀ fuel w w', w.fs = w'.fs → w.fs c.modelFile = some sol →
      RunAgree (runMethodS m c sim rnd limit dfuel fuel w)
        (runMethodS m c' sim rnd limit dfuel fuel w') :=
  runMethodS_lists h.lists U.toSetting U.unit (fun _ => rfl) rnd limit

/-- the same request with conditions, targets and retained species listed in another order or
repeated, and with any number of processes -/
structure SameRequest {ι π φ : Type} (q q' : ReduceArgs ι π φ) : Prop where
  file : q'.modelFile = q.modelFile
  limit : q'.limit = q.limit
  targets : ∀ t, t ∈ q'.targets ↔ t ∈ q.targets
  safe : ∀ s, s ∈ q'.safe ↔ s ∈ q.safe
  upper : q'.upper = q.upper
  phase : q'.phase = q.phase
  path : q'.path = q.path
  conds : SameConds q.conds q'.conds

section
variable {ι π φ : Type} {K : Cantera ι π φ} {sol : Mech} {q q' : ReduceArgs ι π φ} {d d' : Disk}
  {meth : Method}

/-- the sampled states are the same, possibly in another order or repeated -/
theorem simulated_rows {S : AllSims ι π φ} {c c' : Conds ι π φ} (h : SameConds c c') {ms ms' : List PyF}
    {rows rows' : List Row} (hs : Simulated S sol c ms rows) (hs' : Simulated S sol c' ms' rows') (r : Row) :
    r ∈ rows' ↔ r ∈ rows := by
  obtain ⟨a, b, f, ha, hb, hf, -, rfl⟩ := hs.ex
  obtain ⟨a', b', f', ha', hb', hf', -, rfl⟩ := hs'.ex
  have key : ∀ {κ} {T : κ → Except Err (List PyF × List Row)} {l l' : List κ} {x x' : List (List PyF × List Row)},
      SameCases l l' → AllOk T l x → AllOk T l' x' →
      (r ∈ (x'.map (·.2)).flatten ↔ r ∈ (x.map (·.2)).flatten) := by
    intro κ T l l' x x' hl h1 h2
    simp only [List.mem_flatten, List.mem_map, exists_exists_and_eq_and, AllOk.mem_iff h1, AllOk.mem_iff h2,
      hl _]
  rw [List.mem_append, List.mem_append, List.mem_append, List.mem_append, key h.ign ha ha',
    key h.psr hb hb', key h.flame hf hf']

/-- **C103**: without saved samples, a whole run, from sampling to the returned model, does not depend on the order in
which ignition, reactor and flame conditions, targets and retained species are listed, on
repetitions, or on the number of processes: it returns the same model, file name and error, or
raises both times, and leaves the same model files. -/
theorem C103_request_partial (P : Physical K sol) (h : SameRequest q q') (Q : Request q sol d)
    (Q' : Request q' sol d') (b : Arith) (rnd : ℚ → ℚ) :
    ∃ N, ∀ dfuel ≥ N, ∀ fuel w w', w.fs = w'.fs → w.fs q.modelFile = some sol →
      RunAgree (fullRun K meth b.rnd rnd q d dfuel fuel w).1
        (fullRun K meth b.rnd rnd q' d' dfuel fuel w').1 := by
  have hS := simsOk (b := b) P
  have load : ∀ {w w' : World}, w.fs = w'.fs → w.fs q.modelFile = some sol →
      loadModel w q.modelFile = .ok sol ∧ loadModel w' q'.modelFile = .ok sol := by
    intro w w' hw hf
    have h1 : loadModel w q.modelFile = .ok sol := by unfold loadModel; rw [hf]
    exact ⟨h1, by rw [h.file, ← loadModel_fs hw, h1]⟩
  rcases C36_unusable_partial hS Q.par Q.freshIgn Q.freshPsr Q.freshFlame with
    ⟨base, rows, s1, s2⟩ | ⟨e, s1, s2⟩
  · have hsim' : ∃ ms rows, Simulated (K.sims b.rnd) sol q'.conds ms rows := by
      obtain ⟨a, p, f, ha, hp, hf, -, -⟩ := s1.ex
      obtain ⟨a', ha'⟩ := AllOk.same h.conds.ign ha
      obtain ⟨p', hp'⟩ := AllOk.same h.conds.psr hp
      obtain ⟨f', hf'⟩ := AllOk.same h.conds.flame hf
      exact ⟨_, _, ⟨a', p', f', ha', hp', hf', rfl, rfl⟩⟩
    rcases C36_unusable_partial hS Q'.par Q'.freshIgn Q'.freshPsr Q'.freshFlame with
      ⟨base', rows', s1', s2'⟩ | ⟨e, -, s2'⟩
    swap
    · exfalso
      obtain ⟨_, _, ⟨a, p, f, ha, hp, hf, -, -⟩⟩ := hsim'
      rcases s2' with ⟨x, hx, he⟩ | ⟨x, hx, he⟩ | ⟨x, hx, he⟩
      · obtain ⟨_, -, h0⟩ := ha.not_fail hx; rw [he] at h0; cases h0
      · obtain ⟨_, -, h0⟩ := hp.not_fail hx; rw [he] at h0; cases h0
      · obtain ⟨_, -, h0⟩ := hf.not_fail hx; rw [he] at h0; cases h0
    obtain ⟨-, -, U⟩ := fullCtx_usable (meth := meth) P b Q s2
      (applyEvs d (sample (K.sims b.rnd) sol q.conds q.par d).evs)
    have L : SameLists
        (fullCtx K meth b.rnd q (applyEvs d (sample (K.sims b.rnd) sol q.conds q.par d).evs) sol base rows)
        (fullCtx K meth b.rnd q' (applyEvs d' (sample (K.sims b.rnd) sol q'.conds q'.par d').evs) sol
          base' rows') :=
      ⟨h.file, h.phase, h.path, h.targets, h.safe, fun M => by
        simp only [fullCtx, List.mem_map, simulated_rows h.conds s1 s1'], h.upper, rfl⟩
    obtain ⟨N, hN⟩ := runMethodS_lists L U.toSetting U.unit
      (evalSim_conds P Q.par Q'.par h.conds s1 s1'
        (applyEvs d (sample (K.sims b.rnd) sol q.conds q.par d).evs)
        (applyEvs d' (sample (K.sims b.rnd) sol q'.conds q'.par d').evs)) rnd q.limit
    refine ⟨N, fun dfuel hd fuel w w' hw hf => ?_⟩
    obtain ⟨l1, l2⟩ := load hw hf
    unfold fullRun
    rw [l1, l2]
    dsimp only
    rw [if_neg Q.target, if_neg Q'.target, s2, s2', h.limit]
    exact hN dfuel hd fuel w w' hw hf
  · refine ⟨0, fun dfuel _ fuel w w' hw hf => ?_⟩
    obtain ⟨l1, l2⟩ := load hw hf
    rcases C36_unusable_partial hS Q'.par Q'.freshIgn Q'.freshPsr Q'.freshFlame with
      ⟨base', rows', s1', s2'⟩ | ⟨e', s1', -⟩
    · exfalso
      obtain ⟨a, p, f, ha, hp, hf, -, -⟩ := s1'.ex
      rcases s2 with ⟨x, hx, he⟩ | ⟨x, hx, he⟩ | ⟨x, hx, he⟩
      · obtain ⟨_, -, h0⟩ := ha.not_fail ((h.conds.ign x).1 hx); rw [he] at h0; cases h0
      · obtain ⟨_, -, h0⟩ := hp.not_fail ((h.conds.psr x).1 hx); rw [he] at h0; cases h0
      · obtain ⟨_, -, h0⟩ := hf.not_fail ((h.conds.flame x).1 hx); rw [he] at h0; cases h0
    · unfold fullRun
      rw [l1, l2]
      dsimp only
      rw [if_neg Q.target, if_neg Q'.target, s1, s1']
      exact ⟨hw, rfl⟩

end

/-! ### two reactor conditions, listed in both orders and repeated -/

/-- temperatures 1000 and 2000 in the middle of the curve, one and four percent more without `C` -/
def coPsr (names : List String) (x : Bool) : PsrPoints :=
  let Y := names.map (fun _ => PyF.fin 0)
  ⟨⟨.fin 1, .fin 1500, Y⟩, ⟨.fin 2, .fin (if names.contains "B" then 1600 else 3200), Y⟩,
    ⟨.fin 3, .fin (if names.contains "C" then (if x then 2000 else 1000) else (if x then 2080 else 1010)), Y⟩⟩

def coK : Cantera Unit Bool Unit where
  ignProps := fun _ => ⟨.fin 1000, .fin 0, 0⟩
  reactor := fun m _ => .ok (e2eReactor m.names)
  fuel := 10
  psr := fun m x => .ok (.ok (coPsr m.names x))
  psrPressure := fun _ => .fin 1
  flame := fun m _ => .ok (some (e2eFlame m.names))
  floor := none
  chem := e2eK.chem

def coArgs (psr : List Bool) (n : Int) : ReduceArgs Unit Bool Unit where
  modelFile := "m.yaml".toList
  limit := .fin 5
  targets := ["A"]
  safe := []
  upper := none
  phase := []
  path := []
  conds := ⟨[], psr, []⟩
  par := ⟨n, 1, fun _ n => (List.range n).reverse⟩

theorem co_physical : Physical coK e2eSol where
  ignStart := fun x R h => e2e_physical.ignStart x R h
  ignTime := fun x R k p h hp => e2e_physical.ignTime x R k p h hp
  ignWidth := fun x R h => e2e_physical.ignWidth x R h
  psr := by
    intro x r h
    cases h
    exact ⟨⟨1, by norm_num, rfl⟩, ⟨if x then 2000 else 1000, by split_ifs <;> norm_num, rfl⟩,
      ⟨1600, by norm_num, rfl⟩, rfl, rfl, rfl⟩
  flame := fun x f h => e2e_physical.flame x f h

theorem co_request {psr : List Bool} (h : psr ≠ []) {n : Int} (hn : 1 ≤ n) :
    Request (coArgs psr n) e2eSol (fun _ => none) where
  nodup := by decide
  targets := e2e_request.targets
  target := e2e_request.target
  noclash := e2e_request.noclash
  cond := .inr (.inl h)
  par := by
    refine ⟨?_, fun _ n => List.reverse_perm _⟩
    show 1 ≤ resolveThreads n 1
    unfold resolveThreads
    rw [if_neg (by omega)]
    exact hn
  freshIgn := fun _ => .inl rfl
  freshPsr := fun _ => .inl rfl
  freshFlame := fun _ => .inl rfl

theorem co_same {l l' : List Bool} (h : ∀ x, x ∈ l ↔ x ∈ l') (n n' : Int) :
    SameRequest (coArgs l n) (coArgs l' n') :=
  ⟨rfl, rfl, fun _ => .rfl, fun _ => .rfl, rfl, rfl, rfl, ⟨fun _ => .rfl, h, fun _ => .rfl⟩⟩

/-- The hypotheses of `C103_request_partial` are met, and the runs return a model: the second
condition, four percent off, decides the error wherever it is listed. -/
example (meth : Method) : SameRequest (coArgs [false, true] 1) (coArgs [true, false, true] 3) ∧
    Request (coArgs [false, true] 1) e2eSol (fun _ => none) ∧
    Request (coArgs [true, false, true] 3) e2eSol (fun _ => none) ∧
    runView (fullRun coK meth rnd64 rnd64 (coArgs [false, true] 1) (fun _ => none) 50 20 e2eWorld).1 =
      some (.ok (["A", "B", "D"], .fin 4)) ∧
    runView (fullRun coK meth rnd64 rnd64 (coArgs [true, false, true] 3) (fun _ => none) 50 20 e2eWorld).1 =
      some (.ok (["A", "B", "D"], .fin 4)) :=
  ⟨co_same (by decide) 1 3, co_request (by simp) (by norm_num), co_request (by simp) (by norm_num),
    by cases meth <;> decide +kernel, by cases meth <;> decide +kernel⟩

/-- **C103** is false with the samples of an earlier run in place: a run with two reactor conditions
removes a species, but running again in the same directory with the two conditions exchanged
returns the model it started from, and reports an error of 100 percent.  The saved temperatures are
taken for those of the exchanged conditions (C36), so that every candidate is found to be off. -/
theorem C103_rerun_refuted (meth : Method) (b : Arith) :
    ∃ (K : Cantera Unit Bool Unit) (sol : Mech) (q q' : ReduceArgs Unit Bool Unit) (d : Disk) (w w' : World)
      (r : RModel) (evs : List Ev) (r' : RModel) (w2 : World), Physical K sol ∧ SameRequest q q' ∧
      Request q sol d ∧ w.fs q.modelFile = some sol ∧
      fullRun K meth b.rnd b.rnd q d 50 20 w = ((some (.ok r), w'), evs) ∧
      (fullRun K meth b.rnd b.rnd q' (applyEvs d evs) 50 20 w).1 = (some (.ok r'), w2) ∧
      r.error = .fin 4 ∧ r.model.names ≠ sol.names ∧ r'.error = .fin 100 ∧ r'.model.names = sol.names := by
  have h1 : runView (fullRun coK meth b.rnd b.rnd (coArgs [false, true] 1) (fun _ => none) 50 20 e2eWorld).1 =
      some (.ok (["A", "B", "D"], .fin 4)) := by
    cases meth <;> cases b <;> decide +kernel
  have h2 : runView (fullRun coK meth b.rnd b.rnd (coArgs [true, false] 1) (applyEvs (fun _ => none)
      (fullRun coK meth b.rnd b.rnd (coArgs [false, true] 1) (fun _ => none) 50 20 e2eWorld).2) 50 20 e2eWorld).1 =
      some (.ok (["A", "B", "C", "D"], .fin 100)) := by
    cases meth <;> cases b <;> decide +kernel
  obtain ⟨r, w', e1, f1⟩ := runView_ok h1
  obtain ⟨r', w2, e2, f2⟩ := runView_ok h2
  simp only [Prod.mk.injEq] at f1 f2
  exact ⟨coK, e2eSol, coArgs [false, true] 1, coArgs [true, false] 1, fun _ => none, e2eWorld, w', r, _, r', w2,
    co_physical, co_same (by decide) 1 1, co_request (by simp) (by norm_num), rfl, Prod.ext e1 rfl, e2,
    f1.2, by rw [f1.1]; decide, f2.2, by rw [f2.1]; decide⟩

end Verif
