import Verif.Props.ReduceCases
/-!
# C99: a looser error limit

What a returned model has to do with the model returned for a tighter limit.
-/
namespace Verif
open Spec

theorem PyF.le_trans {a b c : PyF} (h : a.le b = true) (h' : b.le c = true) : a.le c = true := by
  cases a <;> cases b <;> cases c <;> simp [PyF.le] at h h' ⊢
  exact _root_.le_trans h h'

theorem PyF.lt_of_le_of_lt {a b c : PyF} (h : a.le b = true) (h' : b.lt c = true) : a.lt c = true := by
  cases a <;> cases b <;> cases c <;> simp [PyF.le, PyF.lt] at h h' ⊢
  exact _root_.lt_of_le_of_lt h h'

section
variable {c : Ctx} {sol : Mech} {kept : ℚ → String → Prop} {limit limit' : PyF}

theorem Spec.Meets.looser {t : ℚ} (h : Meets c sol kept limit t) (hl : limit.le limit' = true) :
    Meets c sol kept limit' t := PyF.le_trans h hl

theorem Spec.Exceeds.tighter {t : ℚ} (h : Exceeds c sol kept limit' t) (hl : limit.le limit' = true) :
    Exceeds c sol kept limit t := PyF.lt_of_le_of_lt hl h

theorem Spec.LimitOk.looser (h : LimitOk c sol limit) (hl : limit.le limit' = true) :
    LimitOk c sol limit' := ⟨PyF.le_trans h.nonneg hl, PyF.le_trans h.full hl⟩

end

/-- the starting threshold of the looser run is not smaller -/
theorem looser_start {c : Ctx} {sol : Mech} {kept : ℚ → String → Prop} {limit limit' : PyF}
    {rnd : ℚ → ℚ} (hl : limit.le limit' = true) {j j' : Nat}
    (h : Meets c sol kept limit (startThr rnd j))
    (h' : ∀ i < j', Exceeds c sol kept limit' (startThr rnd i)) : j' ≤ j := by
  by_contra hc
  exact Spec.Meets.not_exceeds (Spec.Meets.looser h hl) (h' j (by omega))

/-- **C99** (exact thresholds): a looser limit never gives a model with a species that the model
for the tighter limit does not have, and it does not make a run hopeless. -/
theorem C99_exact_partial {m : Method} {c : Ctx} {sol : Mech} (U : Usable m c sol) {limit limit' : PyF}
    (hl : LimitOk c sol limit) (hle : limit.le limit' = true) :
    ∃ N, ∀ dfuel ≥ N, ∀ fuel fuel' w w2 r w',
      w.fs c.modelFile = some sol → w2.fs c.modelFile = some sol →
      runMethod m c id limit dfuel fuel w = (some (.ok r), w') →
      (runMethod m c id limit' dfuel fuel' w2).1 ≠ some (.error .systemExit) ∧
      ∀ r' w2', runMethod m c id limit' dfuel fuel' w2 = (some (.ok r'), w2') →
        r'.model.names.Sublist r.model.names := by
  obtain ⟨N, hN⟩ := C19_returned U hl .exact
  obtain ⟨N', hN'⟩ := C19_returned U (Spec.LimitOk.looser hl hle) .exact
  obtain ⟨N2, hN2⟩ := method_isRun U
  refine ⟨max N (max N' N2), fun dfuel hd fuel fuel' w w2 r w' hw hw2 hrun => ?_⟩
  simp only [ge_iff_le, max_le_iff] at hd
  obtain ⟨j, k, hj, h1, h2, h3, h4, -⟩ := hN dfuel hd.1 fuel w r w' hw hrun
  obtain ⟨reduce, finish, short, limbo, R⟩ := hN2 dfuel hd.2.2
  have h0 : Meets c sol (Kept m c sol) limit (startThr id j) := h2 0 (by omega)
  constructor
  · intro he
    have hend := run_end (ex := exitThr m id) R.behaves (Spec.LimitOk.looser hl hle)
      (gridThr_mono rndOk_id) (R.finishOk id limit') fuel' hw2
    rw [R.eq id limit' fuel' w2 hw2] at he
    generalize runWith reduce (finish id limit') id (exitThr m id) limit' fuel'
      (loopInit id sol c.modelFile w2) = x at he hend
    cases hend with
    | running w => simp at he
    | done => simp at he
    | undefined => simp at he
    | exit i w g1 g2 g3 =>
      have hi : i + 1 ≤ j := looser_start hle h0 (fun i' hi' => g1 i' (by omega))
      exact (exit_facts m .exact).1 (i + 1) (by omega) (by omega) g3
  · intro r' w2' hrun'
    obtain ⟨j', k', hj', h1', h2', h3', h4', -⟩ := hN' dfuel hd.2.1 fuel' w2 r' w2' hw2 hrun'
    have e : finalThr Arith.exact.rnd j k = gridThr id j k := finalThr_exact j k
    have e' : finalThr Arith.exact.rnd j' k' = gridThr id j' k' := finalThr_exact j' k'
    have hjj : j' ≤ j := looser_start hle h0 h1'
    have ht : gridThr id j k ≤ gridThr id j' k' := by
      rcases Nat.lt_or_ge j' j with hlt | hge
      · obtain ⟨d, rfl⟩ := Nat.exists_eq_add_of_lt hlt
        have hx := h1 j' hlt
        have hg : gridThr id (j' + d + 1) (10 ^ (d + 1) - 1) = startThr id j' := by
          rw [gridThr_exact, startThr_exact, startThr_exact]
          have : 1 ≤ 10 ^ (d + 1) := Nat.one_le_pow _ _ (by norm_num)
          push_cast [Nat.cast_sub this]
          rw [add_assoc j' d 1, pow_add]
          field_simp
          ring
        have hk : k < 10 ^ (d + 1) - 1 := by
          by_contra hc
          have := h2 (10 ^ (d + 1) - 1) (by omega)
          rw [show Arith.exact.rnd = id from rfl, hg] at this
          exact Spec.Meets.not_exceeds this hx
        calc gridThr id (j' + d + 1) k
            ≤ gridThr id (j' + d + 1) (10 ^ (d + 1) - 1) :=
              monotone_nat_of_le_succ (gridThr_mono rndOk_id _) hk.le
          _ = gridThr id j' 0 := hg
          _ ≤ gridThr id j' k' := monotone_nat_of_le_succ (gridThr_mono rndOk_id _) (Nat.zero_le _)
      · obtain rfl : j = j' := by omega
        refine monotone_nat_of_le_succ (gridThr_mono rndOk_id _) ?_
        by_contra hc
        exact Spec.Meets.not_exceeds (Spec.Meets.looser (h2 (k' + 1) (by omega)) hle) h3'
    rw [h4, h4', e, e', candidate_names, candidate_names]
    classical
    refine List.monotone_filter_right _ (fun s hs => ?_)
    have := R.behaves.anti _ _ s ht (by simpa using hs)
    simpa using this

/-- **C99** (exact and binary64 thresholds): the same when both runs start from the same
threshold, that is when the looser limit is also exceeded where the tighter run tried larger
starting thresholds. -/
theorem C99_same_start_partial {m : Method} {c : Ctx} {sol : Mech} (U : Usable m c sol)
    {limit limit' : PyF} (hl : LimitOk c sol limit) (hle : limit.le limit' = true) (a : Arith)
    (hs : ∀ j, Exceeds c sol (Kept m c sol) limit (startThr a.rnd j) →
      Exceeds c sol (Kept m c sol) limit' (startThr a.rnd j)) :
    ∃ N, ∀ dfuel ≥ N, ∀ fuel fuel' w w2 r w' r' w2',
      w.fs c.modelFile = some sol → w2.fs c.modelFile = some sol →
      runMethod m c a.rnd limit dfuel fuel w = (some (.ok r), w') →
      runMethod m c a.rnd limit' dfuel fuel' w2 = (some (.ok r'), w2') →
      r'.model.names.Sublist r.model.names := by
  obtain ⟨N, hN⟩ := C19_returned U hl a
  obtain ⟨N', hN'⟩ := C19_returned U (Spec.LimitOk.looser hl hle) a
  obtain ⟨N2, hN2⟩ := method_isRun U
  refine ⟨max N (max N' N2), fun dfuel hd fuel fuel' w w2 r w' r' w2' hw hw2 hrun hrun' => ?_⟩
  simp only [ge_iff_le, max_le_iff] at hd
  obtain ⟨j, k, hj, h1, h2, h3, h4, -⟩ := hN dfuel hd.1 fuel w r w' hw hrun
  obtain ⟨j', k', hj', h1', h2', h3', h4', -⟩ := hN' dfuel hd.2.1 fuel' w2 r' w2' hw2 hrun'
  obtain ⟨reduce, finish, short, limbo, R⟩ := hN2 dfuel hd.2.2
  have h0 : Meets c sol (Kept m c sol) limit (startThr a.rnd j) := h2 0 (by omega)
  have h0' : Meets c sol (Kept m c sol) limit' (startThr a.rnd j') := h2' 0 (by omega)
  have hjj : j' ≤ j := looser_start hle h0 h1'
  obtain rfl : j = j' := by
    by_contra hc
    exact Spec.Meets.not_exceeds h0' (hs _ (h1 j' (by omega)))
  have hk : k ≤ k' := by
    by_contra hc
    exact Spec.Meets.not_exceeds (Spec.Meets.looser (h2 (k' + 1) (by omega)) hle) h3'
  have ht : finalThr a.rnd j k ≤ finalThr a.rnd j k' := by
    refine a.ok.mono _ _ ?_
    have := monotone_nat_of_le_succ (gridThr_mono a.ok j) (show k + 2 ≤ k' + 2 by omega)
    linarith
  rw [h4, h4', candidate_names, candidate_names]
  classical
  refine List.monotone_filter_right _ (fun s hs => ?_)
  have := R.behaves.anti _ _ s ht (by simpa using hs)
  simpa using this

/-! ### binary64 -/

/-- five species without reactions -/
def llSol : Mech where
  species := [⟨"A", 0⟩, ⟨"B", 0⟩, ⟨"C", 0⟩, ⟨"D", 0⟩, ⟨"E", 0⟩]
  reactions := []
  transport := 0
  tp := 0
  name := []

/-- `A` needs `B` with 0.0095, `C` with the binary64 number nearest 0.01, `D` with 0.043 and `E`
with 0.0455 -/
def llM : NMat := fun i j =>
  if i ≠ 0 then 0 else
  if j = 1 then 95/10000 else if j = 2 then rnd64 (1/100) else if j = 3 then 43/1000
  else if j = 4 then 455/10000 else 0

/-- `{A, C, D, E}` has error 5, `{A}` has error 100, all others are perfect -/
def llErr (m : Mech) : PyF :=
  if m.names = ["A", "C", "D", "E"] then .fin 5 else if m.names = ["A"] then .fin 100 else .fin 0

def llCtx : Ctx where
  modelFile := "m.yaml".toList
  targets := ["A"]
  safe := []
  matrices := [llM]
  errOf := llErr
  phase := []
  path := []
  upper := none

def llWorld : World where
  fs := fun f => if f = "m.yaml".toList then some llSol else none
  limbo := []

theorem llCtx_usable (m : Method) : Usable m llCtx llSol where
  nodup := by decide
  targets := by simp [llCtx, llSol, Mech.names]
  noclash n := by
    show joinPath [] (reducedName n) ≠ "m.yaml".toList
    rw [joinPath_nil]
    apply ne_of_head
    rw [reducedName_head]
    decide
  target := by simp [llCtx]
  unit _ := by
    refine ⟨rndOk_id, ?_⟩
    intro M hM i hi j hj
    obtain rfl : M = llM := by simpa [llCtx] using hM
    have : ∀ i < 5, ∀ j < 5, 0 ≤ llM i j ∧ llM i j ≤ 1 := by decide +kernel
    exact this i hi j hj
  upper _ := Or.inl rfl

theorem llCtx_limit : LimitOk llCtx llSol (.fin 1) := ⟨by decide +kernel, by decide +kernel⟩

/-- **C99** is false in binary64 arithmetic, for each method: with a limit of 1 % a species is
removed that is kept with a limit of 10 %, because the finer grid of the tighter run misses the
threshold 0.01. -/
theorem C99_binary64_refuted (m : Method) :
    ∃ c sol w limit limit' r r' w' w2', Usable m c sol ∧ LimitOk c sol limit ∧
      limit.le limit' = true ∧ w.fs c.modelFile = some sol ∧
      runMethod m c rnd64 limit 20 60 w = (some (.ok r), w') ∧
      runMethod m c rnd64 limit' 20 60 w = (some (.ok r'), w2') ∧
      ¬ ∀ s ∈ r'.model.names, s ∈ r.model.names := by
  have h : runView (runMethod m llCtx rnd64 (.fin 1) 20 60 llWorld) =
      some (.ok (["A", "E"], .fin 0)) := by
    cases m <;> decide +kernel
  have h' : runView (runMethod m llCtx rnd64 (.fin 10) 20 60 llWorld) =
      some (.ok (["A", "D", "E"], .fin 0)) := by
    cases m <;> decide +kernel
  obtain ⟨r, w', h1, h2⟩ := runView_ok h
  obtain ⟨r', w2', h1', h2'⟩ := runView_ok h'
  refine ⟨llCtx, llSol, llWorld, .fin 1, .fin 10, r, r', w', w2', llCtx_usable m, llCtx_limit,
    by decide +kernel, rfl, h1, h1', ?_⟩
  simp only [Prod.mk.injEq] at h2 h2'
  rw [h2.1, h2'.1]
  decide

/-- In exact arithmetic the same two runs return models of which one contains the other: the
hypotheses of `C99_exact_partial` are met. -/
example (m : Method) : Usable m llCtx llSol ∧ LimitOk llCtx llSol (.fin 1) ∧
    (PyF.fin 1).le (.fin 10) = true ∧
    runView (runMethod m llCtx id (.fin 1) 20 60 llWorld) = some (.ok (["A", "B", "C", "D", "E"], .fin 0)) ∧
    runView (runMethod m llCtx id (.fin 10) 20 60 llWorld) = some (.ok (["A", "D", "E"], .fin 0)) :=
  ⟨llCtx_usable m, llCtx_limit, by decide +kernel, by cases m <;> decide +kernel,
    by cases m <;> decide +kernel⟩

/-- Limits of 1 % and 2 % start from the same threshold and binary64 runs return the same model:
the hypotheses of `C99_same_start_partial` are met. -/
example (m : Method) (a : Arith) : Usable m llCtx llSol ∧ LimitOk llCtx llSol (.fin 1) ∧
    (PyF.fin 1).le (.fin 2) = true ∧
    (∀ j, Exceeds llCtx llSol (Kept m llCtx llSol) (.fin 1) (startThr a.rnd j) →
      Exceeds llCtx llSol (Kept m llCtx llSol) (.fin 2) (startThr a.rnd j)) ∧
    runView (runMethod m llCtx rnd64 (.fin 2) 20 60 llWorld) = some (.ok (["A", "E"], .fin 0)) := by
  refine ⟨llCtx_usable m, llCtx_limit, by decide +kernel, fun j h => ?_, by cases m <;> decide +kernel⟩
  unfold Exceeds at h ⊢
  generalize candidate llCtx llSol (Kept m llCtx llSol) (startThr a.rnd j) = x at h
  revert h
  simp only [llCtx, llErr]
  split
  · decide +kernel
  · split <;> decide +kernel

end Verif
