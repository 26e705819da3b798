import Verif.Model.Main
import Verif.Lemmas.Parse
import Verif.Lemmas.ReduceRaise
import Verif.Props.SA
/-!
# Properties of the driver and the command line (C50, C51, C66, C77, C88)
-/
namespace Verif
open Spec

/-! ## C50: stages -/

/-- **C50**: requests that cannot be met raise and change nothing: a graph-based method without
target, and neither a method nor sensitivity analysis. -/
theorem C50_rejects (p : MainIn) (w : World) :
    (p.method ∈ [some "DRG", some "DRGEP", some "PFA"] → p.targets = [] →
      runMain p w = (some (.error .assertionError), w)) ∧
    (p.method = none ∨ p.method = some "" → p.sensitivity = false →
      runMain p w = (some (.error .valueError), w)) ∧
    (∀ s, p.method = some s → s ∉ ["", "DRG", "DRGEP", "PFA"] → p.sensitivity = false →
      ∃ e, runMain p w = (some (.error e), w)) := by
  refine ⟨fun h1 h2 => ?_, fun h1 h2 => ?_, fun s h1 h2 h3 => ?_⟩
  · simp only [List.mem_cons, List.not_mem_nil, or_false] at h1
    rcases h1 with h1 | h1 | h1 <;> simp [runMain, h1, h2, methodOf]
  · rcases h1 with h1 | h1 <;> simp [runMain, h1, h2, methodOf]
  · simp only [List.mem_cons, List.not_mem_nil, or_false, not_or] at h2
    obtain ⟨a, b, c, d⟩ := h2
    have hm : methodOf s = none := by
      unfold methodOf; split <;> simp_all
    exact ⟨.unboundLocal, by simp [runMain, h1, h3, hm, a]⟩

/-- the stage before the sensitivity analysis: a method's result, or the starting model -/
inductive Spec.FirstStage (p : MainIn) (w : World) : Text → PyF → List String → World → Prop
  | method {m : Method} {r : RModel} {w1 : World} : p.method.bind methodOf = some m →
      p.targets ≠ [] → runMethodS m (p.ctx m) p.sim p.rnd p.limit p.dfuel p.fuel w = (some (.ok r), w1) →
      FirstStage p w r.filename r.error (r.limboList w1) w1
  | none : p.method.bind methodOf = none → FirstStage p w p.modelFile (.fin 0) [] w

theorem saStage_ok {p : MainIn} {file : Text} {err : PyF} {limbo : List String} {b : Bool}
    {w w' : World} {rm : RModel} (h : saStage p file err limbo b w = (some (.ok rm), w')) :
    ∃ sr, runSA (p.saCtx file err) limbo p.saFuel w = some sr ∧ sr.result = .ok rm ∧
      w'.fs = sr.w.fs := by
  unfold saStage at h
  rcases hs : runSA (p.saCtx file err) limbo p.saFuel w with _ | sr <;> rw [hs] at h
  · simp at h
  · simp only [Prod.mk.injEq, Option.some.injEq] at h
    refine ⟨sr, rfl, h.1, ?_⟩
    rw [← h.2]
    split <;> rfl

/-- **C50**: what `main` returns is the result of the last stage asked for: the method on the
starting model, or the sensitivity analysis on the method's output file with its error and limbo
species (on the starting model with no limbo species when there is no method). -/
theorem C50_stages {p : MainIn} {w w' : World} {rm : RModel}
    (h : runMain p w = (some (.ok rm), w')) :
    (p.sensitivity = false ∧ ∃ m, p.method.bind methodOf = some m ∧ p.targets ≠ [] ∧
      runMethodS m (p.ctx m) p.sim p.rnd p.limit p.dfuel p.fuel w = (some (.ok rm), w')) ∨
    (p.sensitivity = true ∧ ∃ file err limbo w1 sr, Spec.FirstStage p w file err limbo w1 ∧
      runSA (p.saCtx file err) limbo p.saFuel w1 = some sr ∧ sr.result = .ok rm ∧
      w'.fs = sr.w.fs) := by
  unfold runMain at h
  by_cases h1 : ((p.method.bind methodOf).isSome && decide (p.targets = [])) = true
  · rw [if_pos h1] at h; simp at h
  rw [if_neg h1] at h
  by_cases h2 : ((decide (p.method = none) || decide (p.method = some "")) && !p.sensitivity) = true
  · rw [if_pos h2] at h; simp at h
  rw [if_neg h2] at h
  rcases hm : p.method.bind methodOf with _ | m <;> rw [hm] at h <;> dsimp only at h
  · by_cases hs : p.sensitivity = true
    · rw [if_pos hs] at h
      obtain ⟨sr, a, b, c⟩ := saStage_ok h
      exact .inr ⟨hs, _, _, _, _, sr, .none hm, a, b, c⟩
    · rw [if_neg hs] at h; simp at h
  · have ht : p.targets ≠ [] := by
      intro ht; rw [hm, ht] at h1; simp at h1
    rcases hr : runMethodS m (p.ctx m) p.sim p.rnd p.limit p.dfuel p.fuel w with ⟨_ | _ | r, w1⟩ <;>
      rw [hr] at h <;> dsimp only at h
    · simp at h
    · simp at h
    · by_cases hs : p.sensitivity = true
      · rw [if_pos hs] at h
        obtain ⟨sr, a, b, c⟩ := saStage_ok h
        exact .inr ⟨hs, _, _, _, _, sr, .method hm ht hr, a, b, c⟩
      · rw [if_neg hs] at h
        cases h
        exact .inl ⟨by simpa using hs, m, rfl, ht, hr⟩

/-- the temporary directories are usable for every reduced model file -/
def Spec.TmpDirs (p : MainIn) : Prop :=
  ∀ n e, TmpOk (p.saCtx (joinPath p.path (reducedName n)) e)

/-! ## C88: a method followed by sensitivity analysis -/

/-- **C88**: whatever the arithmetic of the thresholds, the model returned by a method followed
by sensitivity analysis is a candidate of the method with some limbo species removed one by one.
If none was removed it is the method's model with the method's error; otherwise its error is that
of its own metrics against those of the method's model, and is not above the limit.  It is stored
under its name. -/
theorem C88_two_stages {p : MainIn} {m : Method} {sol : Mech} (hm : p.method.bind methodOf = some m)
    (hs : p.sensitivity = true) (a : Arith) (hr : p.rnd = a.rnd) (U : Usable m (p.ctx m) sol)
    (hl : LimitOk (p.ctx m) sol p.limit) (T : Spec.TmpDirs p) :
    ∃ N, ∀ dfuel ≥ N, ∀ fuel saFuel w w' rm, w.fs p.modelFile = some sol →
      runMain { p with dfuel := dfuel, fuel := fuel, saFuel := saFuel } w = (some (.ok rm), w') →
      w'.fs (joinPath p.path rm.filename) = some rm.model ∧
      ∃ r w1 t, ∃ acc : List String,
        runMethodS m (p.ctx m) p.sim p.rnd p.limit dfuel fuel w = (some (.ok r), w1) ∧
        r.model = candidate (p.ctx m) sol (Spec.Kept m (p.ctx m) sol) t ∧
        p.sim r.model = .ok r.error ∧
        (∀ x ∈ acc, x ∈ saLimbo (p.targets ++ p.safe) r.model (r.limboList w1)) ∧
        rm.model.names = r.model.names.filter (fun x => !(acc.contains x)) ∧
        ((acc = [] ∧ rm.model = r.model ∧ rm.error = r.error) ∨
          (acc ≠ [] ∧ p.limit.lt rm.error = false ∧ ∃ initial metrics,
            p.initial r.model = .ok initial ∧ p.metrics rm.model = .ok metrics ∧
            p.errFun initial metrics = .ok rm.error)) := by
  obtain ⟨N, hN⟩ := C19_returned U hl a
  refine ⟨N, fun dfuel hd fuel saFuel w w' rm hw h => ?_⟩
  rcases C50_stages h with ⟨h1, -⟩ | ⟨-, file, err, limbo, w1, sr, hF, h2, h3, h4⟩
  · rw [show p.sensitivity = false from h1] at hs; cases hs
  · cases hF with
    | none h5 => rw [show p.method.bind methodOf = none from h5] at hm; cases hm
    | @method m' r _ h5 ht h6 =>
      have hmm : m' = m := by
        rw [show p.method.bind methodOf = some m' from h5] at hm; exact Option.some.inj hm
      subst hmm
      have h6' : runMethod m' (p.ctx m') a.rnd p.limit dfuel fuel w = (some (.ok r), w1) := by
        rw [← hr]; exact runMethodS_ok h6
      obtain ⟨j, k, -, -, -, -, e3, -⟩ := hN dfuel hd fuel w r w1 hw h6'
      obtain ⟨f1, f2⟩ := C22_file_holds_model h6'
      have T' : TmpOk (({ p with dfuel := dfuel, fuel := fuel, saFuel := saFuel } : MainIn).saCtx r.filename r.error) := by
        rw [f2]; exact T _ _
      obtain ⟨initial, acc, i1, q, q1, -, q2⟩ := runSA_course T' f1 h2 h3
      refine ⟨by rw [h4]; exact q2, r, w1, _, acc, h6, e3, runMethodS_simulated h6, ?_, q.removed, ?_⟩
      · intro x hx
        rcases q.perm with pp | ⟨y, pp⟩
        · exact pp.subset (by simp [hx])
        · exact pp.subset (by simp [hx])
      · rcases q.error with ⟨h6, h7, h8⟩ | ⟨h6, h7, h8⟩
        · exact .inl ⟨h6, h7, h8⟩
        · right
          refine ⟨h6, h8, initial, ?_⟩
          unfold saErr at h7
          rcases hmet : p.metrics rm.model with e | ms
          · have : (({ p with dfuel := dfuel, fuel := fuel, saFuel := saFuel } : MainIn).saCtx r.filename r.error).metrics rm.model
              = .error e := hmet
            rw [this] at h7; cases h7
          · have : (({ p with dfuel := dfuel, fuel := fuel, saFuel := saFuel } : MainIn).saCtx r.filename r.error).metrics rm.model
              = .ok ms := hmet
            rw [this] at h7
            exact ⟨ms, i1, rfl, h7⟩

/-- **C88**: with exact thresholds the error of the model returned is not above the limit. -/
theorem C88_within_limit {p : MainIn} {m : Method} {sol : Mech} (hm : p.method.bind methodOf = some m)
    (hs : p.sensitivity = true) (hr : p.rnd = id) (U : Usable m (p.ctx m) sol)
    (hl : LimitOk (p.ctx m) sol p.limit) (T : Spec.TmpDirs p) :
    ∃ N, ∀ dfuel ≥ N, ∀ fuel saFuel w w' rm, w.fs p.modelFile = some sol →
      runMain { p with dfuel := dfuel, fuel := fuel, saFuel := saFuel } w = (some (.ok rm), w') →
      p.limit.lt rm.error = false := by
  obtain ⟨N, hN⟩ := C88_two_stages hm hs .exact hr U hl T
  obtain ⟨N', hN'⟩ := C19_within_limit_partial U hl
  refine ⟨max N N', fun dfuel hd fuel saFuel w w' rm hw h => ?_⟩
  obtain ⟨-, r, w1, t, acc, g1, -, -, -, -, H⟩ := hN dfuel (le_trans (le_max_left _ _) hd) fuel saFuel w w' rm hw h
  rcases H with ⟨-, -, h8⟩ | ⟨-, h8, -⟩
  · rw [h8]
    have g1 := runMethodS_ok g1
    rw [hr] at g1
    exact PyF.not_lt_of_le (hN' dfuel (le_trans (le_max_right _ _) hd) fuel w r w1 hw g1).1
  · exact h8

/-! ## C28: the shared list after sensitivity analysis -/

/-- **C28**: when the method handed over the shared list, sensitivity analysis takes from it every
species it removes, and the one it rejects at the end, and leaves the rest for the next run in the
process. -/
theorem C28_after_sa {p : MainIn} {m : Method} {w w' : World} {rm : RModel}
    (hm : p.method.bind methodOf = some m) (hs : p.sensitivity = true) (T : Spec.TmpDirs p)
    (h : runMain p w = (some (.ok rm), w')) :
    ∃ r w1, runMethodS m (p.ctx m) p.sim p.rnd p.limit p.dfuel p.fuel w = (some (.ok r), w1) ∧
      (r.limbo = none → w1.limbo ≠ [] → ∃ acc : List String,
        rm.model.names = r.model.names.filter (fun x => !(acc.contains x)) ∧
        ((acc ++ w'.limbo).Perm w1.limbo ∨ ∃ x, (x :: (acc ++ w'.limbo)).Perm w1.limbo)) := by
  unfold runMain at h
  by_cases h1 : ((p.method.bind methodOf).isSome && decide (p.targets = [])) = true
  · rw [if_pos h1] at h; simp at h
  rw [if_neg h1] at h
  by_cases h2 : ((decide (p.method = none) || decide (p.method = some "")) && !p.sensitivity) = true
  · rw [if_pos h2] at h; simp at h
  rw [if_neg h2, hm] at h
  dsimp only at h
  rcases hr : runMethodS m (p.ctx m) p.sim p.rnd p.limit p.dfuel p.fuel w with ⟨_ | _ | r, w1⟩ <;>
    rw [hr] at h <;> dsimp only at h
  · simp at h
  · simp at h
  rw [if_pos hs] at h
  refine ⟨r, w1, rfl, fun hn hne => ?_⟩
  have hl : r.limboList w1 = w1.limbo := by unfold RModel.limboList; rw [hn]; rfl
  unfold saStage at h
  rcases hsa : runSA (p.saCtx r.filename r.error) (r.limboList w1) p.saFuel w1 with _ | sr <;> rw [hsa] at h
  · simp at h
  simp only [Prod.mk.injEq, Option.some.injEq] at h
  obtain ⟨h3, h4⟩ := h
  rw [if_pos (by simp [hn, hl, hne])] at h4
  obtain ⟨f1, f2⟩ := C22_file_holds_model (runMethodS_ok hr)
  have T' : TmpOk (p.saCtx r.filename r.error) := by rw [f2]; exact T _ _
  obtain ⟨acc, a1, -, a2, -⟩ := C30_only_candidates T' f1 hsa h3
  refine ⟨acc, a1, ?_⟩
  have e1 : w'.limbo = sr.limbo := by rw [← h4]
  have e2 : saLimbo (p.saCtx r.filename r.error).safe r.model (r.limboList w1) = w1.limbo := by
    unfold saLimbo
    rw [hl, if_neg hne]
  rw [e2] at a2
  rw [e1]
  exact a2

/-! ## C51: protected species -/

/-- names kept by the sensitivity stage: everything that is not a candidate -/
theorem saStage_keeps {p : MainIn} {file : Text} {err : PyF} {limbo : List String} {w : World}
    {sr : SAResult} {rm : RModel} {sol : Mech} (T : TmpOk (p.saCtx file err))
    (hw : w.fs file = some sol) (h : runSA (p.saCtx file err) limbo p.saFuel w = some sr)
    (hr : sr.result = .ok rm) {s : String} (h1 : s ∈ sol.names)
    (h2 : s ∉ saLimbo (p.targets ++ p.safe) sol limbo) : s ∈ rm.model.names := by
  obtain ⟨acc, h3, -, -, h4⟩ := C30_only_candidates T hw h hr
  rw [h3, List.mem_filter]
  refine ⟨h1, ?_⟩
  simp only [Bool.not_eq_true', List.contains_eq_mem, decide_eq_false_iff_not]
  exact fun ha => h2 (h4 s ha)

/-- **C51** (partial): sensitivity analysis alone keeps every target and retained species. -/
theorem C51_sa_only_partial {p : MainIn} {w w' : World} {rm : RModel} {sol : Mech}
    (hm : p.method.bind methodOf = none) (T : TmpOk (p.saCtx p.modelFile (.fin 0)))
    (hw : w.fs p.modelFile = some sol) (h : runMain p w = (some (.ok rm), w')) :
    ∀ s ∈ sol.names, s ∈ p.targets ∨ s ∈ p.safe → s ∈ rm.model.names := by
  rcases C50_stages h with ⟨-, m, h1, -⟩ | ⟨-, file, err, limbo, w1, sr, hF, h2, h3, -⟩
  · rw [hm] at h1; cases h1
  · cases hF with
    | method h1 => rw [hm] at h1; cases h1
    | none =>
      intro s hs hp
      refine saStage_keeps T hw h2 h3 hs ?_
      simp only [saLimbo, if_true, List.mem_filter, not_and]
      intro _
      simpa [or_iff_not_imp_left] using hp

/-- **C51** (partial): a method without sensitivity analysis keeps every target and retained
species. -/
theorem C51_method_only_partial {p : MainIn} {m : Method} {sol : Mech}
    (hm : p.method.bind methodOf = some m) (hs : p.sensitivity = false)
    (U : Usable m (p.ctx m) sol) (hM : p.matrices ≠ [])
    (hep : m = .drgep → ∃ a : Arith, p.rnd = a.rnd) :
    ∃ N, ∀ dfuel ≥ N, ∀ w w' rm, w.fs p.modelFile = some sol →
      runMain { p with dfuel := dfuel } w = (some (.ok rm), w') →
      ∀ s ∈ sol.names, s ∈ p.targets ∨ s ∈ p.safe → s ∈ rm.model.names := by
  have key : ∀ dfuel w w' rm, runMain { p with dfuel := dfuel } w = (some (.ok rm), w') →
      runMethod m (p.ctx m) p.rnd p.limit dfuel p.fuel w = (some (.ok rm), w') := by
    intro dfuel w w' rm h
    rcases C50_stages h with ⟨-, m', h1, -, h2⟩ | ⟨h1, -⟩
    · have : m' = m := by
        rw [show p.method.bind methodOf = some m' from h1] at hm; exact Option.some.inj hm
      subst this; exact runMethodS_ok h2
    · rw [show p.sensitivity = true from h1] at hs; cases hs
  by_cases he : m = .drgep
  · subst he
    obtain ⟨a, hrnd⟩ := hep rfl
    obtain ⟨N, hN⟩ := C20_drgep_targets U hM a p.limit
    refine ⟨N, fun dfuel hd w w' rm hw h s hsn hp => ?_⟩
    have h' := key dfuel w w' rm h
    rcases hp with hp | hp
    · rw [hrnd] at h'
      exact hN dfuel hd p.fuel w rm w' hw h' s hp
    · exact C20_drgep_safe U.toSetting hw h' s hsn hp
  · exact ⟨0, fun dfuel _ w w' rm hw h => C20_drg_pfa he U hM hw (key dfuel w w' rm h)⟩

/-- **C51** (partial): PFA followed by sensitivity analysis keeps every target and retained
species, since PFA hands over no limbo species. -/
theorem C51_pfa_sa_partial {p : MainIn} {sol : Mech} {w w' : World} {rm : RModel}
    (hm : p.method = some "PFA") (hs : p.sensitivity = true)
    (U : Usable .pfa (p.ctx .pfa) sol) (hM : p.matrices ≠ []) (T : Spec.TmpDirs p)
    (hw : w.fs p.modelFile = some sol) (h : runMain p w = (some (.ok rm), w')) :
    ∀ s ∈ sol.names, s ∈ p.targets ∨ s ∈ p.safe → s ∈ rm.model.names := by
  have hm' : p.method.bind methodOf = some .pfa := by rw [hm]; rfl
  rcases C50_stages h with ⟨h1, -⟩ | ⟨-, file, err, limbo, w1, sr, hF, h2, h3, -⟩
  · rw [hs] at h1; cases h1
  · cases hF with
    | none h1 => rw [hm'] at h1; cases h1
    | @method m r _ h1 ht h4 =>
      rw [hm'] at h1
      obtain rfl := Option.some.inj h1
      replace h4 := runMethodS_ok h4
      intro s hsn hp
      have k1 := C20_drg_pfa (by decide) U hM hw h4 s hsn hp
      obtain ⟨f1, f2⟩ := C22_file_holds_model h4
      have hlimbo : r.limboList w1 = [] := by
        obtain ⟨t, v1, v2, g1, g2⟩ := runMethod_fresh U.toSetting hw h4
        have g2 : reducePfa (p.ctx .pfa) t none v1 = (.ok r, v2) := g2
        rw [reducePfa_fresh U.toSetting (.inl rfl) t v1 g1 none (by simp)] at g2
        simp only [Prod.mk.injEq, Except.ok.injEq] at g2
        rw [← g2.1]; rfl
      rw [hlimbo] at h2
      refine saStage_keeps (by rw [f2]; exact T _ _) f1 h2 h3 k1 ?_
      simp only [saLimbo, if_true, List.mem_filter, not_and]
      intro _
      simpa [or_iff_not_imp_left] using hp

/-- **C51** (partial): in a process in which no earlier DRGEP run left limbo species behind, DRGEP
followed by sensitivity analysis keeps every target and retained species, with an upper threshold
of at most one (or none). -/
theorem C51_drgep_sa_partial {p : MainIn} {sol : Mech} (hm : p.method = some "DRGEP")
    (hs : p.sensitivity = true) {a : Arith} (hrnd : p.rnd = a.rnd)
    (U : Usable .drgep (p.ctx .drgep) sol) (hM : p.matrices ≠ []) (T : Spec.TmpDirs p)
    (hu : ∀ u, p.upper = some u → u ≤ 1) :
    ∃ N, ∀ dfuel ≥ N, ∀ fuel saFuel w w' rm, w.fs p.modelFile = some sol → w.limbo = [] →
      runMain { p with dfuel := dfuel, fuel := fuel, saFuel := saFuel } w = (some (.ok rm), w') →
      ∀ s ∈ sol.names, s ∈ p.targets ∨ s ∈ p.safe → s ∈ rm.model.names := by
  have hm' : p.method.bind methodOf = some .drgep := by rw [hm]; rfl
  obtain ⟨N1, hN1⟩ := C20_drgep_targets U hM a p.limit
  have hlim : ∃ N, ∀ dfuel ≥ N, ∀ fuel w r w1, w.fs p.modelFile = some sol → w.limbo = [] →
      runMethod .drgep (p.ctx .drgep) a.rnd p.limit dfuel fuel w = (some (.ok r), w1) →
      ∀ s ∈ sol.names, s ∈ p.targets ∨ s ∈ p.safe → s ∉ r.limboList w1 := by
    by_cases h0 : truthy p.upper = none
    · refine ⟨0, fun dfuel _ fuel w r w1 hw hwl hrun s _ _ => ?_⟩
      obtain ⟨imp, -, g1, -⟩ := runDrgep_limbo U.toSetting hw hrun
      have : truthy (p.ctx .drgep).upper = none := h0
      rw [g1, hwl, limboDrgep, this]
      simp
    · rcases hup : p.upper with _ | u
      · rw [hup] at h0; exact absurd rfl h0
      · have hu0 : u ≠ 0 := by
          intro hz; rw [hup, hz] at h0; simp [truthy] at h0
        obtain ⟨N, hN⟩ := C28_first_run_partial (rnd := a.rnd) (limit := p.limit) U (u := u) hup hu0
        refine ⟨N, fun dfuel hd fuel w r w1 hw hwl hrun s hsn hp hmem => ?_⟩
        obtain ⟨-, g1, g2⟩ := (hN dfuel hd fuel w r w1 hw hwl hrun s).1 hmem
        rcases hp with hp | hp
        · obtain ⟨M, hMm⟩ := List.exists_mem_of_ne_nil _ hM
          have := g2 1 (Or.inr ⟨M, hMm, s, hp, .nil hsn⟩)
          exact absurd this (not_lt.2 (hu u hup))
        · exact g1 hp
  obtain ⟨N2, hN2⟩ := hlim
  refine ⟨max N1 N2, fun dfuel hd fuel saFuel w w' rm hw hwl h s hsn hp => ?_⟩
  rcases C50_stages h with ⟨h1, -⟩ | ⟨-, file, err, limbo, w1, sr, hF, h2, h3, -⟩
  · rw [show p.sensitivity = false from h1] at hs; cases hs
  · cases hF with
    | none h1 => rw [show p.method.bind methodOf = none from h1] at hm'; cases hm'
    | @method m r _ h1 ht h4 =>
      rw [show p.method.bind methodOf = some m from h1] at hm'
      obtain rfl := Option.some.inj hm'
      have h4' : runMethod .drgep (p.ctx .drgep) a.rnd p.limit dfuel fuel w = (some (.ok r), w1) := by
        rw [← hrnd]; exact runMethodS_ok h4
      have k1 : s ∈ r.model.names := by
        rcases hp with hp | hp
        · exact hN1 dfuel (le_trans (le_max_left _ _) hd) fuel w r w1 hw h4' s hp
        · exact C20_drgep_safe U.toSetting hw h4' s hsn hp
      have k2 := hN2 dfuel (le_trans (le_max_right _ _) hd) fuel w r w1 hw hwl h4' s hsn hp
      obtain ⟨f1, f2⟩ := C22_file_holds_model h4'
      refine saStage_keeps (p := { p with dfuel := dfuel, fuel := fuel, saFuel := saFuel }) (by rw [f2]; exact T _ _) f1 h2 h3 k1 ?_
      unfold saLimbo
      split
      · simp only [List.mem_filter, not_and]
        intro _
        simpa [or_iff_not_imp_left] using hp
      · exact k2

/-- removing any of the given species from `sol` is harmless, and the sensitivity stage has fuel
for them -/
structure Spec.Harmless (p : MainIn) (sol : Mech) (limbo : List String) : Prop where
  initial : ∃ i, p.initial sol = .ok i ∧ ∀ (m : Mech) (l : List String), (∀ x ∈ l, x ∈ limbo) →
    m.names = sol.names.filter (fun x => !(l.contains x)) → ∃ t e, p.metrics m = .ok t ∧
    p.errFun i t = .ok e ∧ p.limit.lt e = false
  fuel : limbo.length < p.saFuel

theorem foldl_without_names (c : SACtx) (l : List String) (m : Mech) :
    (l.foldl (without c) m).names = m.names.filter (fun x => !(l.contains x)) := by
  induction l generalizing m with
  | nil => simp
  | cons x l ih =>
    rw [List.foldl_cons, ih, without, trim_names, List.filter_filter]
    congr 1
    funext y
    by_cases h : y = x <;> simp [h]

theorem saStage_all {p : MainIn} {file : Text} {err : PyF} {limbo : List String} {b : Bool} {w : World}
    {sol : Mech} (T : TmpOk (p.saCtx file err)) (hw : w.fs file = some sol) (hl : limbo ≠ [])
    (hg : p.sensitivityType ≠ "" ∧ p.sensitivityType ≠ "greedy") (H : Spec.Harmless p sol limbo) :
    ∃ rm w', saStage p file err limbo b w = (some (.ok rm), w') ∧ ∀ s ∈ limbo, s ∉ rm.model.names := by
  obtain ⟨i, hi, hall⟩ := H.initial
  have hlim : saLimbo (p.saCtx file err).safe sol limbo = limbo := by rw [saLimbo, if_neg hl]
  obtain ⟨r, rm, h1, h2, -, h3⟩ := C31_initial_all (c := p.saCtx file err) (limbo := limbo) (fuel := p.saFuel) T hw hi
    (by simp [MainIn.saCtx, hg.1, hg.2])
    (fun l h4 _ => by
      obtain ⟨t, e, a1, a2, a3⟩ := hall (l.foldl (without (p.saCtx file err)) sol) l
        (by rw [hlim] at h4; exact h4) (foldl_without_names _ _ _)
      refine ⟨e, ?_, a3⟩
      unfold saErr
      rw [show (p.saCtx file err).metrics = p.metrics from rfl, a1]
      exact a2)
    (by rw [hlim]; exact H.fuel)
  refine ⟨rm, _, by unfold saStage; rw [h1]; dsimp only; rw [h2], fun s hs => ?_⟩
  rw [h3, hlim]
  simp [hs]

/-- **C51** is false for DRG followed by sensitivity analysis: DRG hands over its targets as limbo
species and a given list is not checked against the protected species.  If removing limbo species
is harmless, the `initial` algorithm removes every target. -/
theorem C51_drg_sa_refuted {p : MainIn} {sol : Mech} {w w1 : World} {r : RModel} {u : ℚ}
    (hm : p.method = some "DRG") (hs : p.sensitivity = true)
    (hg : p.sensitivityType ≠ "" ∧ p.sensitivityType ≠ "greedy")
    (S : Setting (p.ctx .drg) sol) (hM : p.matrices ≠ []) (ht : p.targets ≠ [])
    (hu : p.upper = some u) (h0 : u ≠ 0) (hw : w.fs p.modelFile = some sol)
    (hrun : runMethodS .drg (p.ctx .drg) p.sim p.rnd p.limit p.dfuel p.fuel w = (some (.ok r), w1))
    (T : Spec.TmpDirs p) (H : Spec.Harmless p r.model (r.limboList w1)) :
    ∃ rm w', runMain p w = (some (.ok rm), w') ∧ ∀ s ∈ p.targets, s ∉ rm.model.names := by
  have hm' : p.method.bind methodOf = some .drg := by rw [hm]; rfl
  have hrun' : runMethod .drg (p.ctx .drg) p.rnd p.limit p.dfuel p.fuel w = (some (.ok r), w1) :=
    runMethodS_ok hrun
  obtain ⟨t, v1, v2, g1, g2⟩ := runMethod_fresh S hw hrun'
  obtain ⟨r', w'', l, k1, k2, k3, -⟩ := C27_limbo_refuted S hM hu h0 t g1
  have g2 : reduceDrg (p.ctx .drg) t none v1 = (.ok r, v2) := g2
  rw [g2] at k1
  simp only [Prod.mk.injEq, Except.ok.injEq] at k1
  obtain ⟨rfl, -⟩ := k1
  have hlimbo : r.limboList w1 = l := by unfold RModel.limboList; rw [k2]; rfl
  have hne : r.limboList w1 ≠ [] := by
    rw [hlimbo]
    obtain ⟨x, hx⟩ := List.exists_mem_of_ne_nil _ ht
    exact List.ne_nil_of_mem (k3 x hx)
  obtain ⟨f1, f2⟩ := C22_file_holds_model hrun'
  obtain ⟨rm, w', q1, q2⟩ := saStage_all (err := r.error) (b := r.limbo.isNone)
    (by rw [f2]; exact T _ _) f1 hne hg H
  refine ⟨rm, w', ?_, fun s hs' => q2 s (by rw [hlimbo]; exact k3 s hs')⟩
  unfold runMain
  rw [hm']
  simp only [Option.isSome_some, ht, hm, hs, hrun]
  simpa using q1

/-- **C51** is false for DRGEP followed by sensitivity analysis in a process that has run DRGEP
before: a limbo species left in the shared default list is removed although it is protected now. -/
theorem C51_drgep_history_refuted {p : MainIn} {sol : Mech} {w w1 : World} {r : RModel} {s : String}
    (hm : p.method = some "DRGEP") (hs : p.sensitivity = true)
    (hg : p.sensitivityType ≠ "" ∧ p.sensitivityType ≠ "greedy")
    (S : Setting (p.ctx .drgep) sol) (ht : p.targets ≠ [])
    (hw : w.fs p.modelFile = some sol) (hold : s ∈ w.limbo)
    (hrun : runMethodS .drgep (p.ctx .drgep) p.sim p.rnd p.limit p.dfuel p.fuel w = (some (.ok r), w1))
    (T : Spec.TmpDirs p) (H : Spec.Harmless p r.model (r.limboList w1)) :
    ∃ rm w', runMain p w = (some (.ok rm), w') ∧ s ∉ rm.model.names := by
  have hm' : p.method.bind methodOf = some .drgep := by rw [hm]; rfl
  have hrun' : runMethod .drgep (p.ctx .drgep) p.rnd p.limit p.dfuel p.fuel w = (some (.ok r), w1) :=
    runMethodS_ok hrun
  obtain ⟨imp, -, g1, -⟩ := runDrgep_limbo S hw hrun'
  have hmem : s ∈ r.limboList w1 := by rw [g1]; simp [hold]
  obtain ⟨f1, f2⟩ := C22_file_holds_model hrun'
  obtain ⟨rm, w', q1, q2⟩ := saStage_all (err := r.error) (b := r.limbo.isNone)
    (by rw [f2]; exact T _ _) f1 (List.ne_nil_of_mem hmem) hg H
  refine ⟨rm, w', ?_, q2 s hmem⟩
  unfold runMain
  rw [hm']
  simp only [Option.isSome_some, ht, hm, hs, hrun]
  simpa using q1

def exMainMech (l : List String) : Mech := { bsSol with species := l.map (fun s => ⟨s, 0⟩) }

/-- one metric, which changes when `C` is removed -/
def exMetrics (m : Mech) : List PyF := [if m.names.contains "C" then .fin 1 else .fin 2]

/-- a request for a method and sensitivity analysis, both of which simulate in the same way -/
def exMain (method : String) (safe : List String) : MainIn where
  modelFile := "m.yaml".toList
  limit := .fin 1
  method := some method
  targets := ["A"]
  safe := safe
  phase := []
  sensitivity := true
  upper := some (1 / 2)
  sensitivityType := "initial"
  path := []
  matrices := [bsM]
  sim := fun m => calculateError (exMetrics bsSol) (exMetrics m)
  initial := fun _ => .ok (exMetrics bsSol)
  metrics := fun m => .ok (exMetrics m)
  tmpDir := "/tmp/a".toList
  evalDir := fun _ => "/tmp/b".toList
  rnd := id
  dfuel := 20
  fuel := 20
  saFuel := 20

/-- DRG loses its target, PFA and DRGEP keep it; DRGEP with an old list loses a retained species -/
example : runView (runMain (exMain "DRG" []) bsWorld) = some (.ok (["C"], .fin 0)) ∧
    runView (runMain (exMain "PFA" []) bsWorld) = some (.ok (["A", "C"], .fin 0)) ∧
    runView (runMain (exMain "DRGEP" ["D"]) bsWorld) = some (.ok (["A", "C", "D"], .fin 0)) ∧
    runView (runMain (exMain "DRGEP" ["D"]) { bsWorld with limbo := ["D"] }) =
      some (.ok (["A", "C"], .fin 0)) := by
  decide +kernel

/-- C28: the shared list before and after sensitivity analysis, which removes `D` and rejects `C` -/
example : (runMain (exMain "DRGEP" ["D"]) { bsWorld with limbo := ["D"] }).2.limbo = [] ∧
    (runMethodS .drgep ((exMain "DRGEP" ["D"]).ctx .drgep) (exMain "DRGEP" ["D"]).sim id (.fin 1) 20 20
      { bsWorld with limbo := ["D"] }).2.limbo = ["D", "C"] := by
  decide +kernel

theorem exMain_tmp (s : String) (l : List String) : Spec.TmpDirs (exMain s l) := by
  intro n e
  have hpre : ∀ (d : Text), d.head? = some '/' → ¬ d ++ ['/'] <+: joinPath [] (reducedName n) := by
    rintro d hd ⟨x, hx⟩
    have := congrArg List.head? hx
    rw [joinPath_nil, reducedName_head] at this
    cases d with
    | nil => simp at hd
    | cons c d => simp at hd this; rw [hd] at this; exact absurd this (by decide)
  exact
  { tmp_ne := by show "/tmp/a".toList ≠ []; decide
    tmp_last := by show "/tmp/a".toList.getLast? ≠ some '/'; decide
    eval_ne := fun _ => by show "/tmp/b".toList ≠ []; decide
    eval_last := fun _ => by show "/tmp/b".toList.getLast? ≠ some '/'; decide
    model_tmp := hpre _ rfl
    model_eval := fun _ => hpre _ rfl
    apart := (exSA_tmp (.fin 0) false []).apart }

example (m : Method) : Usable m ((exMain "DRG" []).ctx m) bsSol :=
  let U := bsCtx_usable m (.fin 100)
  { nodup := U.nodup, targets := U.targets, noclash := U.noclash, target := U.target, unit := U.unit,
    upper := fun _ => .inr (by simp [exMain, MainIn.ctx]) }

/-- the hypotheses of C88 hold here, and the result above is what `main` returns -/
example : (exMain "DRG" []).method.bind methodOf = some .drg ∧ (exMain "DRG" []).sensitivity = true ∧
    (exMain "DRG" []).rnd = Arith.exact.rnd ∧
    LimitOk ((exMain "DRG" []).ctx .drg) bsSol (exMain "DRG" []).limit :=
  ⟨rfl, rfl, rfl, by decide +kernel, by decide +kernel⟩

/-- removing the limbo species of the DRG run (the target `A`) or an old one (`D`) is harmless -/
example : Spec.Harmless (exMain "DRG" []) (exMainMech ["A", "C"]) ["A", "D"] := by
  refine ⟨⟨[.fin 1], rfl, fun m l hl hm => ⟨[.fin 1], .fin 0, ?_, by decide +kernel, by decide +kernel⟩⟩, by decide⟩
  show Except.ok (exMetrics m) = _
  have : "C" ∈ m.names := by
    rw [hm, List.mem_filter]
    refine ⟨by decide, ?_⟩
    simp only [Bool.not_eq_true', List.contains_eq_mem, decide_eq_false_iff_not]
    intro h
    exact absurd (hl _ h) (by decide)
  unfold exMetrics
  rw [if_pos (by simpa using this)]

/-! ## C66, C77: the command line -/

variable {parseArgs : List String → Except Err CliArgs} {openYaml : String → Except Err InputDict}
  {load : String → String → Except Err (List String)} {conv : String → Except Err Unit}

/-- **C66** is false: an input whose model file does not end in `.yaml` or `.yml` is never
reduced, whatever the conversion does. -/
theorem C66_chemkin_refuted (argv args : List String) (a : CliArgs) (d : InputDict)
    (ha : parseArgs args = .ok a) (hd : openYaml (a.input.getD "") = .ok d)
    (hext : (splitext d.model.toList).2 ≠ ".yaml".toList ∧ (splitext d.model.toList).2 ≠ ".yml".toList)
    (r : ReductionInputs) (path : String) (n : Int) :
    cli parseArgs openYaml load conv argv args ≠ .ok (.reduce r path n) := by
  intro h
  simp only [cli, bind_ok] at h
  obtain ⟨_, _, a', ha', _, _, h⟩ := h
  rw [ha] at ha'
  obtain rfl := Except.ok.inj ha'
  by_cases hc : a.convert = true
  · rw [if_pos hc] at h
    simp only [bind_ok, pure_ok] at h
    obtain ⟨_, _, h⟩ := h
    cases h
  · rw [if_neg hc] at h
    simp only [bind_ok, pure_ok] at h
    obtain ⟨_, _, d', hd', ⟨r', d''⟩, hp, _, hw, h⟩ := h
    rw [hd] at hd'
    obtain rfl := Except.ok.inj hd'
    have hm : r'.model = d.model := by
      simp only [parseInputs, bind_ok, pure_ok] at hp
      obtain ⟨_, _, _, _, _, _, _, _, _, _, _, _, _, _, _, _, _, _, _, _, _, _, _, _, hr⟩ := hp
      rw [← (Prod.mk.inj hr).1]
    rw [hm] at hw
    have : (!(decide ((splitext d.model.toList).2 = ".yaml".toList) ||
        decide ((splitext d.model.toList).2 = ".yml".toList))) = true := by
      rw [decide_eq_false hext.1, decide_eq_false hext.2]; rfl
    rw [this, pyWhen_true, bind_ok] at hw
    obtain ⟨_, _, hw⟩ := hw
    cases hw

/-- **C66** (partial): a YAML model is reduced as it is, with the parsed inputs. -/
theorem C66_yaml_partial (argv args : List String) (a : CliArgs) (d d' : InputDict)
    (r : ReductionInputs) (hv : argv ≠ []) (ha : parseArgs args = .ok a) (hver : a.version = false)
    (hcv : a.convert = false) {i : String} (hi : a.input = some i) (hi0 : i ≠ "")
    (hd : openYaml i = .ok d) (hp : parseInputs load d = .ok (r, d'))
    (hext : (splitext d.model.toList).2 = ".yaml".toList ∨ (splitext d.model.toList).2 = ".yml".toList) :
    cli parseArgs openYaml load conv argv args = .ok (.reduce r a.path a.threads) := by
  have hm : r.model = d.model := by
    have hp' := hp
    simp only [parseInputs, bind_ok, pure_ok] at hp'
    obtain ⟨_, _, _, _, _, _, _, _, _, _, _, _, _, _, _, _, _, _, _, _, _, _, _, _, hr⟩ := hp'
    rw [← (Prod.mk.inj hr).1]
  simp only [cli, bind_ok]
  refine ⟨(), by simp [hv, pyWhen], a, ha, (), by simp [hver, pyWhen], ?_⟩
  rw [if_neg (by simp [hcv])]
  simp only [bind_ok, pure_ok]
  refine ⟨(), by simp [hi, givenText, hi0, pyWhen], d, by rw [hi]; exact hd, (r, d'), hp, (), ?_, rfl⟩
  show pyWhen (!(decide ((splitext r.model.toList).2 = _) || decide ((splitext r.model.toList).2 = _))) _ = _
  rw [hm]
  rcases hext with h | h <;> simp [h, pyWhen]

/-- **C77** is false: apart from being empty or not, the arguments given to `pymars` are ignored in
favour of those of the process. -/
theorem C77_argv_refuted (argv argv' args : List String) (h : argv ≠ []) (h' : argv' ≠ []) :
    cli parseArgs openYaml load conv argv args = cli parseArgs openYaml load conv argv' args := by
  have e : ∀ l : List String, l ≠ [] → decide (l = []) = false := fun l hl => by simp [hl]
  simp only [cli, e argv h, e argv' h']

example : (splitext "chem.inp".toList).2 ≠ ".yaml".toList ∧ (splitext "chem.inp".toList).2 ≠ ".yml".toList ∧
    (splitext "mech.yaml".toList).2 = ".yaml".toList := by decide

end Verif
