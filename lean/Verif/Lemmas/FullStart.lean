import Verif.Lemmas.ReduceMethod
/-!
# Lemmas on thresholds at which nothing is removed

While the species of the starting model are all kept, the loop goes on with the starting model itself and the error 0.
-/
namespace Verif
open Spec

section
variable {c : Ctx} {sol : Mech} {reduce : ReduceFn} {kept : ℚ → String → Prop}
  {short : ℚ → Nat → Prop} {limbo : ℚ → Option (List String)} {rnd : ℚ → ℚ} {ex : ℚ} {limit : PyF}

/-- `i` thresholds have been passed with the starting model -/
structure Untouched (c : Ctx) (sol : Mech) (rnd : ℚ → ℚ) (i : Nat) (s : LoopState) : Prop where
  first : i ≠ 0 → s.first = false
  errCur : s.errCur = .fin 0
  thr : s.thr = gridThr rnd 0 i
  inc : s.inc = startThr rnd 0
  model : s.prev.model = sol
  error : s.prev.error = .fin 0
  fs : s.w.fs c.modelFile = some sol

theorem untouched_step (B : Behaves c sol reduce kept short limbo) (h0 : (PyF.fin 0).le limit = true) {i : Nat}
    (hs : short (gridThr rnd 0 i) sol.nSpecies) {s : LoopState} (h : Untouched c sol rnd i s) :
    ∃ s', loopStep reduce rnd ex limit s = .running s' ∧ Untouched c sol rnd (i + 1) s' := by
  have h1 : reduce s.thr (some s.prev) s.w = (.ok s.prev, s.w) :=
    B.reuse _ _ _ h.fs (by rw [h.thr, h.model]; exact hs)
  refine ⟨{ first := false, errCur := s.prev.error, thr := rnd (s.thr + s.inc), inc := s.inc, prev := s.prev,
            last := some s.prev, w := s.w }, ?_, ?_⟩
  · unfold loopStep
    rw [if_pos (by rw [h.errCur]; exact h0), h1]
    dsimp only
    rw [if_neg (by rw [h.error, PyF.not_lt_of_le h0]; simp), if_neg (by simp)]
  · exact ⟨fun _ => rfl, h.error, by show rnd (s.thr + s.inc) = _; rw [h.thr, h.inc]; rfl, h.inc, h.model, h.error, h.fs⟩

theorem untouched_run (B : Behaves c sol reduce kept short limbo) (h0 : (PyF.fin 0).le limit = true) {fuel k : Nat} :
    ∀ {n i : Nat}, i + n = k + 1 → (∀ j ≤ k, short (gridThr rnd 0 j) sol.nSpecies) → ∀ {s : LoopState},
      Untouched c sol rnd i s → ∃ s', Untouched c sol rnd (k + 1) s' ∧
        whileLoop reduce rnd ex limit (n + fuel) s = whileLoop reduce rnd ex limit fuel s'
  | 0, i, e, _, s, h => ⟨s, by rw [← e]; exact h, by rw [Nat.zero_add]⟩
  | n + 1, i, e, hs, s, h => by
    obtain ⟨s1, e1, h1⟩ := untouched_step (ex := ex) B h0 (hs i (by omega)) h
    obtain ⟨s', h2, e2⟩ := untouched_run B h0 (fuel := fuel) (n := n) (i := i + 1) (by omega) hs h1
    refine ⟨s', h2, ?_⟩
    rw [show n + 1 + fuel = (n + fuel) + 1 by omega]
    rw [whileLoop, e1]
    exact e2

/-- the loop that keeps everything at first and then goes beyond the limit ends with a new reduction, whatever its error -/
theorem run_untouched (B : Behaves c sol reduce kept short limbo) (h0 : (PyF.fin 0).le limit = true)
    {finish : LoopState → Except Err RModel × World} (hf : FinishOk reduce limit rnd c.path finish) {k : Nat}
    (hs : ∀ i ≤ k, short (gridThr rnd 0 i) sol.nSpecies) (hn : ¬ short (gridThr rnd 0 (k + 1)) sol.nSpecies)
    (hx : Exceeds c sol kept limit (gridThr rnd 0 (k + 1))) (fuel : Nat) {w : World} (hw : w.fs c.modelFile = some sol) :
    (runWith reduce finish rnd ex limit (k + 3 + fuel) (loopInit rnd sol c.modelFile w)).1 =
      some (.ok (freshResult c sol kept limbo (finalThr rnd 0 k))) := by
  obtain ⟨s, h, e⟩ := untouched_run (ex := ex) B h0 (fuel := fuel + 2) (k := k) (n := k + 1) (i := 0) (by omega) hs
    (s := loopInit rnd sol c.modelFile w) ⟨fun h => absurd rfl h, rfl, rfl, rfl, rfl, rfl, hw⟩
  unfold runWith
  rw [show k + 3 + fuel = k + 1 + (fuel + 2) by omega, e]
  have h1 : reduce s.thr (some s.prev) s.w = (.ok (freshResult c sol kept limbo s.thr),
      s.w.set (redFile c (candidate c sol kept s.thr).nSpecies) (some (candidate c sol kept s.thr))) :=
    (B.build _ _ _ h.fs (by rw [h.thr, h.model]; exact hn)).trans (B.fresh _ _ h.fs)
  have h2 : ∃ w', loopStep reduce rnd ex limit s = .running
      { first := false, errCur := (freshResult c sol kept limbo s.thr).error, thr := rnd (s.thr + s.inc), inc := s.inc,
        prev := freshResult c sol kept limbo s.thr, last := some (freshResult c sol kept limbo s.thr), w := w' } ∧
      w'.fs c.modelFile = some sol := by
    have hkeep : (s.w.set (redFile c (candidate c sol kept s.thr).nSpecies) (some (candidate c sol kept s.thr))).fs c.modelFile =
        some sol := by
      rw [World.set_fs_ne _ _ _ _ (B.noclash _).symm]; exact h.fs
    by_cases hd : s.prev.model.nSpecies ≠ (freshResult c sol kept limbo s.thr).model.nSpecies
    · refine ⟨(s.w.set (redFile c (candidate c sol kept s.thr).nSpecies) (some (candidate c sol kept s.thr))).set
        (redFile c (candidate c sol kept s.thr).nSpecies) none, ?_, ?_⟩
      · unfold loopStep
        rw [if_pos (by rw [h.errCur]; exact h0), h1]
        dsimp only
        rw [if_neg (by rw [h.first (by omega)]; simp), if_pos hd]
        have : removeFile (s.w.set (redFile c (candidate c sol kept s.thr).nSpecies) (some (candidate c sol kept s.thr)))
            (freshResult c sol kept limbo s.thr).filename = (.ok (),
              (s.w.set (redFile c (candidate c sol kept s.thr).nSpecies) (some (candidate c sol kept s.thr))).set
                (redFile c (candidate c sol kept s.thr).nSpecies) none) := by
          simp [removeFile, freshResult]
        rw [this]
      · rw [World.set_fs_ne _ _ _ _ (B.noclash _).symm]; exact hkeep
    · refine ⟨_, ?_, hkeep⟩
      unfold loopStep
      rw [if_pos (by rw [h.errCur]; exact h0), h1]
      dsimp only
      rw [if_neg (by rw [h.first (by omega)]; simp), if_neg hd]
  obtain ⟨w', e2, hw'⟩ := h2
  have hlt : limit.lt (freshResult c sol kept limbo s.thr).error = true := by
    rw [h.thr]; exact hx
  rw [whileLoop, e2]
  dsimp only
  rw [whileLoop]
  unfold loopStep
  dsimp only
  rw [if_neg (by
    intro hle
    rw [PyF.not_lt_of_le hle] at hlt
    cases hlt)]
  dsimp only
  rw [(hf _ rfl rfl).1 hlt, B.fresh _ _ hw']
  dsimp only [backStep]
  rw [h.thr, h.inc]
  rfl

end

/-- the methods, and when they go on with the starting model -/
theorem method_keepsAll {m : Method} {c : Ctx} {sol : Mech} (U : Usable m c sol) (hsafe : c.safe = []) :
    ∃ N, ∀ dfuel ≥ N, ∃ reduce finish short limbo, IsRun m c sol dfuel reduce finish short limbo ∧
      ∀ t, (∀ s ∈ sol.names, Kept m c sol t s) → short t sol.nSpecies := by
  have hdrg : ∀ t, (∀ s ∈ sol.names, KeptDrg c sol t s) → ShortDrg c sol t sol.nSpecies := by
    intro t h
    obtain ⟨l, e1, e2, e3⟩ := retained_spec t U.nodup U.targets c.matrices
    refine ⟨l, e1, ?_⟩
    have h1 : l.Perm sol.names := by
      rw [List.perm_ext_iff_of_nodup e2 U.nodup]
      intro s
      refine ⟨fun hs => ?_, fun hs => ?_⟩
      · obtain ⟨M, -, hl⟩ := (e3 s).1 hs
        exact hl.mem U.targets
      · rcases h s hs with h | h
        · exact (e3 s).2 h
        · rw [hsafe] at h; cases h
    rw [h1.length_eq, Mech.nSpecies_eq]
  cases m with
  | drg =>
    refine ⟨0, fun dfuel _ => ⟨_, fun rnd limit => finishDrg (reduceDrg c) rnd limit c.path, _, _,
      ⟨reduceDrg_behaves U.toSetting, fun rnd limit => finishDrg_ok _, ?_⟩, hdrg⟩⟩
    intro rnd limit fuel w hw
    show (runDrg c rnd limit fuel w).1 = _
    rw [runDrg_eq]
    rw [loadModel_ok hw]
    dsimp only
    rw [if_neg U.target]
    rfl
  | pfa =>
    refine ⟨0, fun dfuel _ => ⟨_, fun rnd limit => finishOther (reducePfa c) rnd limit c.path, _, _,
      ⟨reducePfa_behaves U.toSetting (U.upper rfl), fun rnd limit => finishOther_ok _, ?_⟩, hdrg⟩⟩
    intro rnd limit fuel w hw
    show (runPfa c rnd limit fuel w).1 = _
    rw [runPfa_eq]
    rw [loadModel_ok hw]
    dsimp only
    rw [if_neg U.target]
    rfl
  | drgep =>
    obtain ⟨N, imp, h1, -, h3⟩ := C16_importance (U.unit rfl).1 U.nodup U.targets (U.unit rfl).2
    have hi : ∀ s ∈ sol.names, (imp s).isSome := by
      intro s hs
      obtain ⟨x, hx, -⟩ := h3 s hs
      rw [hx]; rfl
    have hk : ∀ t, ∀ s ∈ sol.names, KeptDrgep c imp t s ↔ Kept .drgep c sol t s := by
      intro t s hs
      obtain ⟨x, hx, hg⟩ := h3 s hs
      exact keptDrgep_iff hx hg t
    refine ⟨N, fun dfuel hd => ⟨_, fun rnd limit => finishOther (reduceDrgep c imp) rnd limit c.path,
      _, _, ⟨(reduceDrgep_behaves U.toSetting (imp := imp) hi).congr hk ?_,
      fun rnd limit => finishOther_ok _, ?_⟩, ?_⟩⟩
    · rintro t t' s hle (⟨y, hy, hl⟩ | h2)
      · exact Or.inl ⟨y, hy, hle.trans hl⟩
      · exact Or.inr h2
    · intro rnd limit fuel w hw
      exact runDrgep_fst U.noclash U.target (h1 dfuel hd) rnd limit fuel w hw
    · intro t h
      classical
      refine ⟨_, removedDrgep_spec c imp t _ hi, ?_⟩
      rw [List.filter_eq_nil_iff.2]
      · simp
      · intro s hs
        simpa using (hk t s hs).2 (h s hs)

end Verif
