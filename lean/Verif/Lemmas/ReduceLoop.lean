import Verif.Lemmas.Reduce
/-!
Behaviour of the threshold loop for a reduction step that behaves as specified.
-/
namespace Verif
open Spec

theorem candidate_eq (c : Ctx) (sol : Mech) (kept : ℚ → String → Prop) (t : ℚ) :
    candidate c sol kept t = trimmed c sol (open Classical in
      sol.names.filter (fun s => ¬ kept t s)) := rfl

theorem candidate_congr (c : Ctx) (sol : Mech) (kept : ℚ → String → Prop) (t t' : ℚ)
    (h : ∀ s ∈ sol.names, (kept t s ↔ kept t' s)) :
    candidate c sol kept t = candidate c sol kept t' := by
  classical
  rw [candidate_eq, candidate_eq]
  congr 1
  apply List.filter_congr
  intro s hs
  simp [h s hs]

/-- a fresh reduction at threshold `t` -/
noncomputable def freshResult (c : Ctx) (sol : Mech) (kept : ℚ → String → Prop)
    (limbo : ℚ → Option (List String)) (t : ℚ) : RModel :=
  ⟨candidate c sol kept t, redFile c (candidate c sol kept t).nSpecies,
    c.errOf (candidate c sol kept t), limbo t⟩

/-- what a reduction step does when the starting file is in place -/
structure Behaves (c : Ctx) (sol : Mech) (reduce : ReduceFn) (kept : ℚ → String → Prop)
    (short : ℚ → Nat → Prop) (limbo : ℚ → Option (List String)) : Prop where
  fresh : ∀ t w, w.fs c.modelFile = some sol →
    reduce t none w = (.ok (freshResult c sol kept limbo t),
      w.set (redFile c (candidate c sol kept t).nSpecies) (some (candidate c sol kept t)))
  reuse : ∀ t w p, w.fs c.modelFile = some sol → short t p.model.nSpecies →
    reduce t (some p) w = (.ok p, w)
  build : ∀ t w p, w.fs c.modelFile = some sol → ¬ short t p.model.nSpecies →
    reduce t (some p) w = reduce t none w
  anti : ∀ t t' s, t ≤ t' → kept t' s → kept t s
  short_full : ∀ t, short t sol.nSpecies → ∀ s ∈ sol.names, kept t s
  short_prev : ∀ t t', t' ≤ t → short t (candidate c sol kept t').nSpecies →
    ∀ s ∈ sol.names, kept t' s → kept t s
  noclash : ∀ n, redFile c n ≠ c.modelFile

section loop
variable {c : Ctx} {sol : Mech} {reduce : ReduceFn} {kept : ℚ → String → Prop}
  {short : ℚ → Nat → Prop} {limbo : ℚ → Option (List String)}

/-- `r` stands for the candidate at `t`: it is that candidate, or the starting model when
nothing is removed -/
def Rep (c : Ctx) (sol : Mech) (kept : ℚ → String → Prop) (r : RModel) (t : ℚ) : Prop :=
  (r.model = candidate c sol kept t ∧ r.error = c.errOf (candidate c sol kept t)) ∨
  (r.model = sol ∧ r.error = .fin 0 ∧ ∀ s ∈ sol.names, kept t s)

/-- `p` may be passed as previous model at threshold `t` -/
def PrevOk (c : Ctx) (sol : Mech) (kept : ℚ → String → Prop) (p : RModel) (t : ℚ) : Prop :=
  (∃ t' ≤ t, p.model = candidate c sol kept t' ∧ p.error = c.errOf (candidate c sol kept t')) ∨
  (p.model = sol ∧ p.error = .fin 0)

theorem Rep.prevOk {r : RModel} {t t' : ℚ} (h : Rep c sol kept r t) (hle : t ≤ t') :
    PrevOk c sol kept r t' := by
  rcases h with ⟨h1, h2⟩ | ⟨h1, h2, -⟩
  · exact Or.inl ⟨t, hle, h1, h2⟩
  · exact Or.inr ⟨h1, h2⟩

/-- one reduction inside the loop -/
theorem Behaves.step (B : Behaves c sol reduce kept short limbo) {p : RModel} {t : ℚ} {w : World}
    (hp : PrevOk c sol kept p t) (hw : w.fs c.modelFile = some sol) :
    ∃ r w', reduce t (some p) w = (.ok r, w') ∧ Rep c sol kept r t ∧
      w'.fs c.modelFile = some sol ∧
      ((r = p ∧ w' = w) ∨ (r.filename = redFile c r.model.nSpecies ∧
        w'.fs r.filename = some r.model)) := by
  by_cases hs : short t p.model.nSpecies
  · refine ⟨p, w, B.reuse t w p hw hs, ?_, hw, Or.inl ⟨rfl, rfl⟩⟩
    rcases hp with ⟨t', hle, h1, h2⟩ | ⟨h1, h2⟩
    · left
      rw [h1] at hs
      have : candidate c sol kept t' = candidate c sol kept t := by
        apply candidate_congr
        intro s hsn
        exact ⟨B.short_prev t t' hle hs s hsn, B.anti t' t s hle⟩
      rw [← this]
      exact ⟨h1, h2⟩
    · right
      rw [h1] at hs
      exact ⟨h1, h2, B.short_full t hs⟩
  · refine ⟨freshResult c sol kept limbo t, _, (B.build t w p hw hs).trans (B.fresh t w hw), Or.inl ⟨rfl, rfl⟩, ?_, Or.inr ⟨rfl, ?_⟩⟩
    · rw [World.set_fs_ne _ _ _ _ (B.noclash _).symm]; exact hw
    · simp [freshResult]

/-- in the loop with starting thresholds; `j` of them failed -/
structure Phase1 (c : Ctx) (sol : Mech) (rnd : ℚ → ℚ) (j : Nat) (s : LoopState) : Prop where
  first : s.first = true
  errCur : s.errCur = .fin 0
  thr : s.thr = startThr rnd j
  inc : s.inc = startThr rnd j
  prevm : s.prev.model = sol
  preve : s.prev.error = .fin 0
  fs : s.w.fs c.modelFile = some sol

/-- in the loop with `k` accepted increments above the `j`-th starting threshold; the last
reduction was at `gridThr rnd j k` -/
structure Phase2 (c : Ctx) (sol : Mech) (kept : ℚ → String → Prop) (rnd : ℚ → ℚ) (j k : Nat)
    (s : LoopState) : Prop where
  first : s.first = false
  errCur : s.errCur = s.prev.error
  thr : s.thr = gridThr rnd j (k + 1)
  inc : s.inc = startThr rnd j
  last : s.last = some s.prev
  rep : Rep c sol kept s.prev (gridThr rnd j k)
  fs : s.w.fs c.modelFile = some sol

theorem candidate_full (h : ∀ s ∈ sol.names, kept t s) :
    candidate c sol kept t = trim sol [] ("reduced_".toList ++ c.modelFile) c.phase := by
  classical
  rw [candidate_eq]
  unfold trimmed
  congr 1
  apply List.filter_eq_nil_iff.2
  intro s hs
  simp [h s hs]

theorem Rep.le_iff {r : RModel} {t : ℚ} {limit : PyF} (h : Rep c sol kept r t)
    (hl : LimitOk c sol limit) : r.error.le limit = true ↔ Meets c sol kept limit t := by
  rcases h with ⟨-, h2⟩ | ⟨-, h2, h3⟩
  · rw [h2]; rfl
  · rw [h2, Meets, candidate_full h3]
    exact ⟨fun _ => hl.full, fun _ => hl.nonneg⟩

theorem Rep.lt_iff {r : RModel} {t : ℚ} {limit : PyF} (h : Rep c sol kept r t)
    (hl : LimitOk c sol limit) : limit.lt r.error = true ↔ Exceeds c sol kept limit t := by
  rcases h with ⟨-, h2⟩ | ⟨-, h2, h3⟩
  · rw [h2]; rfl
  · rw [h2, Exceeds, candidate_full h3, PyF.not_lt_of_le hl.full, PyF.not_lt_of_le hl.nonneg]

theorem Spec.Meets.not_exceeds {limit : PyF} {t : ℚ} (h : Meets c sol kept limit t) :
    ¬ Exceeds c sol kept limit t := by
  unfold Exceeds
  rw [PyF.not_lt_of_le h]; simp

variable {rnd : ℚ → ℚ} {ex : ℚ} {limit : PyF}

theorem phase1_step (B : Behaves c sol reduce kept short limbo) (hl : LimitOk c sol limit) {j : Nat}
    {s : LoopState} (h : Phase1 c sol rnd j s) :
    (Exceeds c sol kept limit (startThr rnd j) → startThr rnd (j + 1) ≤ ex →
      ∃ w, loopStep reduce rnd ex limit s = .raised .systemExit w) ∧
    (Exceeds c sol kept limit (startThr rnd j) → ¬ startThr rnd (j + 1) ≤ ex →
      ∃ s', loopStep reduce rnd ex limit s = .running s' ∧ Phase1 c sol rnd (j + 1) s') ∧
    (¬ Exceeds c sol kept limit (startThr rnd j) →
      ∃ s', loopStep reduce rnd ex limit s = .running s' ∧ Phase2 c sol kept rnd j 0 s') := by
  obtain ⟨r, w', h1, h2, h3, h4⟩ := B.step (p := s.prev) (t := s.thr) (w := s.w)
    (Or.inr ⟨h.prevm, h.preve⟩) h.fs
  have hthr := h.thr
  have hlt := h2.lt_iff hl
  rw [hthr] at hlt
  have hle : s.errCur.le limit = true := by rw [h.errCur]; exact hl.nonneg
  refine ⟨?_, ?_, ?_⟩
  · intro he hx
    refine ⟨w', ?_⟩
    unfold loopStep
    rw [if_pos hle, h1]
    dsimp only
    rw [if_pos (by rw [h.first, hlt.2 he]; rfl), if_pos (by rw [hthr]; exact hx)]
  · intro he hx
    refine ⟨{ s with errCur := .fin 0, thr := rnd (s.thr / 10), inc := rnd (s.inc / 10),
                     last := some r, w := w' }, ?_, ?_⟩
    · unfold loopStep
      rw [if_pos hle, h1]
      dsimp only
      rw [if_pos (by rw [h.first, hlt.2 he]; rfl), if_neg (by rw [hthr]; exact hx)]
    · exact ⟨h.first, rfl, by rw [hthr]; rfl, by rw [h.inc]; rfl, h.prevm, h.preve, h3⟩
  · intro he
    have hnot : (s.first && limit.lt r.error) = false := by
      rw [Bool.and_eq_false_iff]; right
      rw [← Bool.not_eq_true, hlt]; exact he
    by_cases hn : s.prev.model.nSpecies ≠ r.model.nSpecies
    · rcases h4 with ⟨hrp, -⟩ | ⟨hf, hfs⟩
      · rw [hrp] at hn; exact absurd rfl hn
      · refine ⟨{ first := false, errCur := r.error, thr := rnd (s.thr + s.inc),
                  inc := s.inc, prev := r, last := some r, w := w'.set r.filename none }, ?_, ?_⟩
        · unfold loopStep
          rw [if_pos hle, h1]
          dsimp only
          rw [hnot, if_neg (by simp), if_pos hn]
          have : removeFile w' r.filename = (.ok (), w'.set r.filename none) := by
            simp [removeFile, hfs]
          rw [this]
        · refine ⟨rfl, rfl, ?_, h.inc, rfl, hthr ▸ h2, ?_⟩
          · simp [gridThr, hthr, h.inc]
          · dsimp only
            rw [World.set_fs_ne _ _ _ _ (by rw [hf]; exact (B.noclash _).symm)]; exact h3
    · refine ⟨{ first := false, errCur := r.error, thr := rnd (s.thr + s.inc),
                inc := s.inc, prev := r, last := some r, w := w' }, ?_, ?_⟩
      · unfold loopStep
        rw [if_pos hle, h1]
        dsimp only
        rw [hnot, if_neg (by simp), if_neg hn]
      · refine ⟨rfl, rfl, ?_, h.inc, rfl, hthr ▸ h2, h3⟩
        simp [gridThr, hthr, h.inc]

theorem phase2_step (B : Behaves c sol reduce kept short limbo) (hl : LimitOk c sol limit) {j k : Nat}
    (hmono : gridThr rnd j k ≤ gridThr rnd j (k + 1))
    {s : LoopState} (h : Phase2 c sol kept rnd j k s) :
    (Meets c sol kept limit (gridThr rnd j k) →
      ∃ s', loopStep reduce rnd ex limit s = .running s' ∧ Phase2 c sol kept rnd j (k + 1) s') ∧
    (¬ Meets c sol kept limit (gridThr rnd j k) → loopStep reduce rnd ex limit s = .left s) := by
  have hle := h.rep.le_iff hl
  constructor
  · intro hm
    have hle' : s.errCur.le limit = true := by rw [h.errCur]; exact hle.2 hm
    obtain ⟨r, w', h1, h2, h3, h4⟩ := B.step (p := s.prev) (t := s.thr) (w := s.w)
      (by rw [h.thr]; exact h.rep.prevOk hmono) h.fs
    have hthr := h.thr
    by_cases hn : s.prev.model.nSpecies ≠ r.model.nSpecies
    · rcases h4 with ⟨hrp, -⟩ | ⟨hf, hfs⟩
      · rw [hrp] at hn; exact absurd rfl hn
      · refine ⟨{ first := false, errCur := r.error, thr := rnd (s.thr + s.inc),
                  inc := s.inc, prev := r, last := some r, w := w'.set r.filename none }, ?_, ?_⟩
        · unfold loopStep
          rw [if_pos hle', h1]
          dsimp only
          rw [h.first, if_neg (by simp), if_pos hn]
          have : removeFile w' r.filename = (.ok (), w'.set r.filename none) := by
            simp [removeFile, hfs]
          rw [this]
        · refine ⟨rfl, rfl, ?_, h.inc, rfl, hthr ▸ h2, ?_⟩
          · simp [gridThr, hthr, h.inc]
          · dsimp only
            rw [World.set_fs_ne _ _ _ _ (by rw [hf]; exact (B.noclash _).symm)]; exact h3
    · refine ⟨{ first := false, errCur := r.error, thr := rnd (s.thr + s.inc),
                inc := s.inc, prev := r, last := some r, w := w' }, ?_, ?_⟩
      · unfold loopStep
        rw [if_pos hle', h1]
        dsimp only
        rw [h.first, if_neg (by simp), if_neg hn]
      · refine ⟨rfl, rfl, ?_, h.inc, rfl, hthr ▸ h2, h3⟩
        simp [gridThr, hthr, h.inc]
  · intro hm
    unfold loopStep
    rw [if_neg (by rw [h.errCur, hle]; exact hm)]

/-- what happens after the loop -/
def FinishOk (reduce : ReduceFn) (limit : PyF)
    (rnd : ℚ → ℚ) (path : Text) (finish : LoopState → Except Err RModel × World) : Prop :=
  ∀ s : LoopState, s.last = some s.prev → s.errCur = s.prev.error →
    (limit.lt s.prev.error = true → finish s = reduce (backStep rnd s) none s.w) ∧
    (limit.lt s.prev.error = false → (finish s).1 = .error .attributeError)

theorem finishDrg_ok (path : Text) : FinishOk reduce limit rnd path (finishDrg reduce rnd limit path) := by
  intro s h1 h2
  unfold finishDrg
  constructor
  · intro h; rw [h2, if_pos h]
  · intro h; rw [h2, if_neg (by simp [h]), h1]; rfl

theorem finishOther_ok (path : Text) : FinishOk reduce limit rnd path (finishOther reduce rnd limit path) := by
  intro s h1 h2
  unfold finishOther
  rw [h1]
  constructor
  · intro h; dsimp only; rw [if_pos h]
  · intro h; dsimp only; rw [if_neg (by simp [h])]; rfl

/-- how a run ends -/
inductive RunEnd (c : Ctx) (sol : Mech) (kept : ℚ → String → Prop)
    (limbo : ℚ → Option (List String)) (rnd : ℚ → ℚ) (ex : ℚ) (limit : PyF) : RunResult → Prop
  /-- still in the loop -/
  | running (w : World) : RunEnd c sol kept limbo rnd ex limit (none, w)
  /-- all starting thresholds fail -/
  | exit (j : Nat) (w : World) (h1 : ∀ i ≤ j, Exceeds c sol kept limit (startThr rnd i))
      (h2 : ∀ i ≤ j, i ≠ 0 → ¬ startThr rnd i ≤ ex) (h3 : startThr rnd (j + 1) ≤ ex) :
      RunEnd c sol kept limbo rnd ex limit (some (.error .systemExit), w)
  /-- first violation after `k + 1` accepted thresholds -/
  | done (j k : Nat) (w : World) (h1 : ∀ i < j, Exceeds c sol kept limit (startThr rnd i))
      (h2 : ∀ i ≤ k, Meets c sol kept limit (gridThr rnd j i))
      (h3 : Exceeds c sol kept limit (gridThr rnd j (k + 1)))
      (h4 : ∀ i ≤ j, i ≠ 0 → ¬ startThr rnd i ≤ ex) :
      RunEnd c sol kept limbo rnd ex limit
        (some (.ok (freshResult c sol kept limbo (finalThr rnd j k))), w)
  /-- an error that is not a number -/
  | undefined (j k : Nat) (w : World) (h1 : ∀ i < j, Exceeds c sol kept limit (startThr rnd i))
      (h2 : ∀ i < k, Meets c sol kept limit (gridThr rnd j i))
      (h3 : ¬ Meets c sol kept limit (gridThr rnd j k))
      (h4 : ¬ Exceeds c sol kept limit (gridThr rnd j k)) :
      RunEnd c sol kept limbo rnd ex limit (some (.error .attributeError), w)

theorem run_phase2 (B : Behaves c sol reduce kept short limbo) (hl : LimitOk c sol limit)
    (hmono : ∀ j k, gridThr rnd j k ≤ gridThr rnd j (k + 1))
    {finish : LoopState → Except Err RModel × World} (hf : FinishOk reduce limit rnd c.path finish)
    {j : Nat} (hx : ∀ i < j, Exceeds c sol kept limit (startThr rnd i))
    (hx2 : ∀ i ≤ j, i ≠ 0 → ¬ startThr rnd i ≤ ex)
    (hn : ¬ Exceeds c sol kept limit (startThr rnd j))
    (fuel : Nat) : ∀ (k : Nat) (s : LoopState), Phase2 c sol kept rnd j k s →
      (∀ i < k, Meets c sol kept limit (gridThr rnd j i)) →
      RunEnd c sol kept limbo rnd ex limit (runWith reduce finish rnd ex limit fuel s) := by
  induction fuel with
  | zero => intro k s _ _; exact .running _
  | succ fuel ih =>
    intro k s h hk
    obtain ⟨s1, s2⟩ := phase2_step (ex := ex) B hl (hmono j k) h
    by_cases hm : Meets c sol kept limit (gridThr rnd j k)
    · obtain ⟨s', e1, e2⟩ := s1 hm
      have := ih (k + 1) s' e2 (by
        intro i hi
        rcases Nat.lt_succ_iff_lt_or_eq.1 hi with h | rfl
        · exact hk i h
        · exact hm)
      unfold runWith whileLoop
      rw [e1]
      exact this
    · have e := s2 hm
      unfold runWith whileLoop
      rw [e]
      dsimp only
      obtain ⟨f1, f2⟩ := hf s h.last h.errCur
      by_cases he : Exceeds c sol kept limit (gridThr rnd j k)
      · obtain ⟨k', rfl⟩ : ∃ k', k = k' + 1 := by
          rcases k with _ | k'
          · exact absurd he hn
          · exact ⟨k', rfl⟩
        rw [f1 ((h.rep.lt_iff hl).2 he), B.fresh _ _ h.fs]
        have hb : backStep rnd s = finalThr rnd j k' := by
          simp [backStep, finalThr, h.thr, h.inc]
        rw [hb]
        exact .done j k' _ hx (fun i hi => hk i (by omega)) he hx2
      · rw [f2 (by rw [← Bool.not_eq_true, h.rep.lt_iff hl]; exact he)]
        exact .undefined j k _ hx hk hm he

theorem run_phase1 (B : Behaves c sol reduce kept short limbo) (hl : LimitOk c sol limit)
    (hmono : ∀ j k, gridThr rnd j k ≤ gridThr rnd j (k + 1))
    {finish : LoopState → Except Err RModel × World} (hf : FinishOk reduce limit rnd c.path finish)
    (fuel : Nat) : ∀ (j : Nat) (s : LoopState), Phase1 c sol rnd j s →
      (∀ i < j, Exceeds c sol kept limit (startThr rnd i)) →
      (∀ i ≤ j, i ≠ 0 → ¬ startThr rnd i ≤ ex) →
      RunEnd c sol kept limbo rnd ex limit (runWith reduce finish rnd ex limit fuel s) := by
  induction fuel with
  | zero => intro j s _ _ _; exact .running _
  | succ fuel ih =>
    intro j s h hj hj2
    obtain ⟨s1, s2, s3⟩ := phase1_step (ex := ex) (rnd := rnd) B hl h
    by_cases he : Exceeds c sol kept limit (startThr rnd j)
    · by_cases hx : startThr rnd (j + 1) ≤ ex
      · obtain ⟨w, e⟩ := s1 he hx
        unfold runWith whileLoop
        rw [e]
        refine .exit j _ ?_ hj2 hx
        intro i hi
        rcases Nat.lt_or_eq_of_le hi with h | rfl
        · exact hj i h
        · exact he
      · obtain ⟨s', e1, e2⟩ := s2 he hx
        have := ih (j + 1) s' e2 (by
          intro i hi
          rcases Nat.lt_succ_iff_lt_or_eq.1 hi with h | rfl
          · exact hj i h
          · exact he) (by
          intro i hi hi0
          rcases Nat.lt_or_eq_of_le hi with h | rfl
          · exact hj2 i (by omega) hi0
          · exact hx)
        unfold runWith whileLoop
        rw [e1]
        exact this
    · obtain ⟨s', e1, e2⟩ := s3 he
      have := run_phase2 (ex := ex) B hl hmono hf hj hj2 he fuel 0 s' e2 (by intro i hi; omega)
      unfold runWith whileLoop
      rw [e1]
      exact this

theorem phase1_init (B : Behaves c sol reduce kept short limbo) {w : World}
    (hw : w.fs c.modelFile = some sol) : Phase1 c sol rnd 0 (loopInit rnd sol c.modelFile w) :=
  ⟨rfl, rfl, rfl, rfl, rfl, rfl, hw⟩

/-- every run ends in one of the four ways -/
theorem run_end (B : Behaves c sol reduce kept short limbo) (hl : LimitOk c sol limit)
    (hmono : ∀ j k, gridThr rnd j k ≤ gridThr rnd j (k + 1))
    {finish : LoopState → Except Err RModel × World} (hf : FinishOk reduce limit rnd c.path finish)
    (fuel : Nat) {w : World} (hw : w.fs c.modelFile = some sol) :
    RunEnd c sol kept limbo rnd ex limit
      (runWith reduce finish rnd ex limit fuel (loopInit rnd sol c.modelFile w)) :=
  run_phase1 B hl hmono hf fuel 0 _ (phase1_init B hw) (by intro i hi; omega)
    (by intro i hi h; omega)

/-! ### progress -/

theorem whileLoop_phase2 (B : Behaves c sol reduce kept short limbo) (hl : LimitOk c sol limit)
    (hmono : ∀ j k, gridThr rnd j k ≤ gridThr rnd j (k + 1)) {j : Nat} (n : Nat) :
    ∀ (k : Nat) (s : LoopState), Phase2 c sol kept rnd j k s →
      (∀ i < n, Meets c sol kept limit (gridThr rnd j (k + i))) →
      ∃ s', whileLoop reduce rnd ex limit n s = .running s' ∧
        (∀ m, whileLoop reduce rnd ex limit (n + m) s = whileLoop reduce rnd ex limit m s') ∧
        Phase2 c sol kept rnd j (k + n) s' := by
  induction n with
  | zero => intro k s h _; exact ⟨s, rfl, fun m => by rw [Nat.zero_add], h⟩
  | succ n ih =>
    intro k s h hk
    obtain ⟨s', e1, e2⟩ := (phase2_step (ex := ex) B hl (hmono j k) h).1 (hk 0 (by omega))
    obtain ⟨s'', f1, f2, f3⟩ := ih (k + 1) s' e2 (by
      intro i hi
      have := hk (i + 1) (by omega)
      rwa [show k + (i + 1) = k + 1 + i by omega] at this)
    refine ⟨s'', ?_, ?_, ?_⟩
    · unfold whileLoop; rw [e1]; exact f1
    · intro m
      rw [show n + 1 + m = (n + m) + 1 by omega]
      conv_lhs => unfold whileLoop
      rw [e1]; exact f2 m
    · rw [show k + (n + 1) = k + 1 + n by omega]; exact f3

theorem whileLoop_phase1 (B : Behaves c sol reduce kept short limbo) (hl : LimitOk c sol limit)
    (n : Nat) :
    ∀ (j : Nat) (s : LoopState), Phase1 c sol rnd j s →
      (∀ i < n, Exceeds c sol kept limit (startThr rnd (j + i)) ∧ ¬ startThr rnd (j + i + 1) ≤ ex) →
      ∃ s', whileLoop reduce rnd ex limit n s = .running s' ∧
        (∀ m, whileLoop reduce rnd ex limit (n + m) s = whileLoop reduce rnd ex limit m s') ∧
        Phase1 c sol rnd (j + n) s' := by
  induction n with
  | zero => intro j s h _; exact ⟨s, rfl, fun m => by rw [Nat.zero_add], h⟩
  | succ n ih =>
    intro j s h hk
    obtain ⟨s', e1, e2⟩ := (phase1_step (ex := ex) (rnd := rnd) B hl h).2.1 (hk 0 (by omega)).1
      (hk 0 (by omega)).2
    obtain ⟨s'', f1, f2, f3⟩ := ih (j + 1) s' e2 (by
      intro i hi
      have := hk (i + 1) (by omega)
      rwa [show j + (i + 1) = j + 1 + i by omega] at this)
    refine ⟨s'', ?_, ?_, ?_⟩
    · unfold whileLoop; rw [e1]; exact f1
    · intro m
      rw [show n + 1 + m = (n + m) + 1 by omega]
      conv_lhs => unfold whileLoop
      rw [e1]; exact f2 m
    · rw [show j + (n + 1) = j + 1 + n by omega]; exact f3

end loop
end Verif
