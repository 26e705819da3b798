import Verif.Lemmas.Calls
import Verif.Lemmas.ErrorStep
import Verif.Props.Files
/-!
# C129: how many candidates a reduction simulates
-/
namespace Verif
open Spec

/-- a call depends on the errors of at most one model -/
theorem stepOf_shape (m : Method) (c : Ctx) (imp : String → Option ℚ) (t : ℚ) (p : Option RModel) (w : World) :
    (∃ X, ∀ e : Mech → PyF, stepOf m { c with errOf := e } imp t p w = X) ∨
    ∃ (x : Mech) (G : PyF → Except Err RModel × World), ∀ e : Mech → PyF, stepOf m { c with errOf := e } imp t p w = G (e x) := by
  have hb : ∀ (sol : Mech) (removed : List String) (e : Mech → PyF),
      buildCandidate { c with errOf := e } ({ c with errOf := e } : Ctx).sim sol removed w =
        (.ok (trimmed c sol removed, redFile c (trimmed c sol removed).nSpecies, e (trimmed c sol removed)),
          w.set (redFile c (trimmed c sol removed).nSpecies) (some (trimmed c sol removed))) := by
    intro sol removed e
    rw [buildCandidate_cases]
    rfl
  cases m with
  | drg =>
    unfold stepOf
    dsimp only
    simp only [reduceDrg_eq, hb]
    rcases loadModel w c.modelFile with e | sol
    · exact .inl ⟨_, fun _ => rfl⟩
    dsimp only
    rcases retained c.matrices sol.names c.targets t with e | ret
    · exact .inl ⟨_, fun _ => rfl⟩
    dsimp only
    rcases sameCount p ret.length with _ | q
    · dsimp only
      generalize trimmed c sol (sol.names.filter (fun sp => !(ret ++ c.safe).contains sp)) = x
      generalize w.set (redFile c x.nSpecies) (some x) = w1
      have hg : ∀ l, ∃ (x' : Mech) (G : PyF → Except Err RModel × World), ∀ e : Mech → PyF,
          ((.ok ⟨x, redFile c x.nSpecies, e x, l⟩, w1) : Except Err RModel × World) = G (e x') :=
        fun l => ⟨x, fun y => (.ok ⟨x, redFile c x.nSpecies, y, l⟩, w1), fun e => rfl⟩
      rcases truthy c.upper with _ | u
      · exact .inr (hg _)
      dsimp only
      rcases retained c.matrices sol.names c.targets u with er | l
      · exact .inl ⟨_, fun _ => rfl⟩
      · exact .inr (hg _)
    · exact .inl ⟨_, fun _ => rfl⟩
  | pfa =>
    unfold stepOf
    dsimp only
    simp only [reducePfa_eq, hb]
    rcases loadModel w c.modelFile with e | sol
    · exact .inl ⟨_, fun _ => rfl⟩
    dsimp only
    rcases retained c.matrices sol.names c.targets t with e | ret
    · exact .inl ⟨_, fun _ => rfl⟩
    dsimp only
    rcases sameCount p ret.length with _ | q
    · dsimp only
      generalize trimmed c sol (sol.names.filter (fun sp => !(ret ++ c.safe).contains sp)) = x
      generalize w.set (redFile c x.nSpecies) (some x) = w1
      have hg : ∀ l, ∃ (x' : Mech) (G : PyF → Except Err RModel × World), ∀ e : Mech → PyF,
          ((.ok ⟨x, redFile c x.nSpecies, e x, l⟩, w1) : Except Err RModel × World) = G (e x') :=
        fun l => ⟨x, fun y => (.ok ⟨x, redFile c x.nSpecies, y, l⟩, w1), fun e => rfl⟩
      rcases truthy c.upper with _ | u
      · exact .inr (hg _)
      dsimp only
      rcases c.matrices.getLast? with _ | M
      · exact .inl ⟨_, fun _ => rfl⟩
      dsimp only
      rcases trimDrg M sol.names c.targets u with er | l
      · exact .inl ⟨_, fun _ => rfl⟩
      · exact .inr (hg _)
    · exact .inl ⟨_, fun _ => rfl⟩
  | drgep =>
    unfold stepOf
    dsimp only
    simp only [reduceDrgep_eq, hb]
    rcases loadModel w c.modelFile with e | sol
    · exact .inl ⟨_, fun _ => rfl⟩
    dsimp only
    rcases removedDrgep imp c.safe t sol.names with e | ret
    · exact .inl ⟨_, fun _ => rfl⟩
    dsimp only
    rcases p with _ | q
    · exact .inr ⟨trimmed c sol ret, fun y => (.ok ⟨trimmed c sol ret, redFile c (trimmed c sol ret).nSpecies, y, none⟩,
        w.set (redFile c (trimmed c sol ret).nSpecies) (some (trimmed c sol ret))), fun e => rfl⟩
    · dsimp only
      split_ifs
      · exact .inl ⟨_, fun _ => rfl⟩
      · exact .inr ⟨trimmed c sol ret, fun y => (.ok ⟨trimmed c sol ret, redFile c (trimmed c sol ret).nSpecies, y, none⟩,
          w.set (redFile c (trimmed c sol ret).nSpecies) (some (trimmed c sol ret))), fun e => rfl⟩

/-- one call simulates at most one model -/
theorem Spec.Simulates.unique {m : Method} {c : Ctx} {imp : String → Option ℚ} {cl : Call} {x y : Mech}
    (hx : Simulates m c imp cl x) (hy : Simulates m c imp cl y) : x = y := by
  have key : ∀ {x : Mech}, Simulates m c imp cl x → ∀ (x0 : Mech) (G : PyF → Except Err RModel × World), (∀ e : Mech → PyF, stepOf m { c with errOf := e } imp cl.thr cl.prev cl.w =
      G (e x0)) → x = x0 := by
    rintro x ⟨e, e', h1, h2⟩ x0 G hG
    by_contra hne
    rw [hG, hG, h1 x0 (fun h => hne h.symm)] at h2
    exact h2 rfl
  rcases stepOf_shape m c imp cl.thr cl.prev cl.w with ⟨X, h⟩ | ⟨x0, G, h⟩
  · obtain ⟨e, e', -, h2⟩ := hx
    exact absurd ((h e).trans (h e').symm) h2
  · exact (key hx x0 G h).trans (key hy x0 G h).symm

/-- errors that agree on the model a call simulates give the same result -/
theorem stepOf_agree {m : Method} {c : Ctx} {imp : String → Option ℚ} {cl : Call} {e e' : Mech → PyF}
    (h : ∀ x, Simulates m c imp cl x → e x = e' x) :
    stepOf m { c with errOf := e } imp cl.thr cl.prev cl.w = stepOf m { c with errOf := e' } imp cl.thr cl.prev cl.w := by
  classical
  rcases stepOf_shape m c imp cl.thr cl.prev cl.w with ⟨X, hX⟩ | ⟨x0, G, hG⟩
  · rw [hX, hX]
  · by_contra hne
    refine hne ?_
    rw [hG, hG, h x0]
    refine ⟨e, Function.update e x0 (e' x0), ?_, ?_⟩
    · intro y hy
      rw [Function.update_of_ne hy]
    · rw [hG, hG, Function.update_self, ← hG e, ← hG e']
      exact hne

theorem whileLoop_agree {reduce reduce' : ReduceFn} {rnd : ℚ → ℚ} {ex : ℚ} {limit : PyF} : ∀ {fuel : Nat} {s : LoopState},
    (∀ cl ∈ loopCalls reduce rnd ex limit fuel s, reduce' cl.thr cl.prev cl.w = reduce cl.thr cl.prev cl.w) →
    whileLoop reduce' rnd ex limit fuel s = whileLoop reduce rnd ex limit fuel s
  | 0, _, _ => rfl
  | fuel + 1, s, h => by
    unfold loopCalls at h
    have hstep : loopStep reduce' rnd ex limit s = loopStep reduce rnd ex limit s := by
      unfold loopStep
      by_cases hle : s.errCur.le limit = true
      · rw [if_pos hle] at h
        rw [if_pos hle, if_pos hle, h ⟨s.thr, some s.prev, s.w⟩ (by simp)]
      · rw [if_neg hle, if_neg hle]
    have h2 : ∀ t, loopStep reduce rnd ex limit s = .running t →
        whileLoop reduce' rnd ex limit fuel t = whileLoop reduce rnd ex limit fuel t := by
      intro t ht
      by_cases hle : s.errCur.le limit = true
      · rw [if_pos hle, ht] at h
        exact whileLoop_agree (fun cl hcl => h cl (by simp [hcl]))
      · unfold loopStep at ht
        rw [if_neg hle] at ht
        cases ht
    unfold whileLoop
    rw [hstep]
    cases hs : loopStep reduce rnd ex limit s with
    | running t => exact h2 t hs
    | left t => rfl
    | raised e w => rfl

/-- the recorded calls are all there are: a run depends on nothing else of the reduction step -/
theorem runWith_agree {m : Method} {reduce reduce' : ReduceFn} {rnd : ℚ → ℚ} {ex : ℚ} {limit : PyF} {path : Text}
    {fuel : Nat} {s : LoopState}
    (h : ∀ cl ∈ callsFrom m reduce rnd ex limit fuel s, reduce' cl.thr cl.prev cl.w = reduce cl.thr cl.prev cl.w) :
    runWith reduce' (finishOf m reduce' rnd limit path) rnd ex limit fuel s =
      runWith reduce (finishOf m reduce rnd limit path) rnd ex limit fuel s := by
  unfold callsFrom at h
  have hw := whileLoop_agree (reduce' := reduce') (fun cl hcl => h cl (List.mem_append_left _ hcl))
  unfold runWith
  rw [hw]
  cases hs : whileLoop reduce rnd ex limit fuel s with
  | running t => rfl
  | raised e w => rfl
  | left t =>
    rw [hs] at h
    have h : ∀ cl ∈ finishCalls m rnd limit t, reduce' cl.thr cl.prev cl.w = reduce cl.thr cl.prev cl.w :=
      fun cl hcl => h cl (List.mem_append_right _ hcl)
    have hf : finishOf m reduce' rnd limit path t = finishOf m reduce rnd limit path t := by
      unfold finishCalls at h
      cases m with
      | drg =>
        dsimp only at h
        show finishDrg _ _ _ _ _ = finishDrg _ _ _ _ _
        unfold finishDrg
        by_cases hl : limit.lt t.errCur = true
        · rw [if_pos hl] at h
          rw [if_pos hl, if_pos hl, h ⟨backStep rnd t, none, t.w⟩ (by simp)]
        · rw [if_neg hl, if_neg hl]
      | drgep =>
        dsimp only at h
        show finishOther _ _ _ _ _ = finishOther _ _ _ _ _
        unfold finishOther
        cases hla : t.last with
        | none => rfl
        | some r =>
          rw [hla] at h
          dsimp only at h ⊢
          by_cases hl : limit.lt r.error = true
          · rw [if_pos hl] at h
            rw [if_pos hl, if_pos hl, h ⟨backStep rnd t, none, t.w⟩ (by simp)]
          · rw [if_neg hl, if_neg hl]
      | pfa =>
        dsimp only at h
        show finishOther _ _ _ _ _ = finishOther _ _ _ _ _
        unfold finishOther
        cases hla : t.last with
        | none => rfl
        | some r =>
          rw [hla] at h
          dsimp only at h ⊢
          by_cases hl : limit.lt r.error = true
          · rw [if_pos hl] at h
            rw [if_pos hl, if_pos hl, h ⟨backStep rnd t, none, t.w⟩ (by simp)]
          · rw [if_neg hl, if_neg hl]
    dsimp only
    rw [hf]

/-- **C129** (nothing is left out): a run is not affected by the error of any model that none of its
recorded calls simulates. -/
theorem C129_calls (m : Method) (c : Ctx) (rnd : ℚ → ℚ) (limit : PyF) (dfuel fuel : Nat) (w : World) {e : Mech → PyF}
    (h : ∀ cl ∈ (methodCalls m c rnd limit dfuel fuel w).2, ∀ x,
      Simulates m c (methodCalls m c rnd limit dfuel fuel w).1 cl x → e x = c.errOf x) :
    runMethod m { c with errOf := e } rnd limit dfuel fuel w = runMethod m c rnd limit dfuel fuel w := by
  unfold methodCalls at h
  cases m with
  | drg =>
    show runDrg _ _ _ _ _ = runDrg _ _ _ _ _
    rw [runDrg_eq, runDrg_eq]
    dsimp only at h ⊢
    generalize loadModel w c.modelFile = L at h ⊢
    rcases L with er | sol
    · rfl
    dsimp only at h ⊢
    by_cases ht : c.targets = []
    · rw [if_pos ht, if_pos ht]
    · simp only [if_neg ht] at h
      rw [if_neg ht, if_neg ht]
      exact runWith_agree (m := .drg) (path := c.path) (fun cl hcl => stepOf_agree (m := .drg) (c := c) (h cl hcl))
  | pfa =>
    show runPfa _ _ _ _ _ = runPfa _ _ _ _ _
    rw [runPfa_eq, runPfa_eq]
    dsimp only at h ⊢
    generalize loadModel w c.modelFile = L at h ⊢
    rcases L with er | sol
    · rfl
    dsimp only at h ⊢
    by_cases ht : c.targets = []
    · rw [if_pos ht, if_pos ht]
    · simp only [if_neg ht] at h
      rw [if_neg ht, if_neg ht]
      exact runWith_agree (m := .pfa) (path := c.path) (fun cl hcl => stepOf_agree (m := .pfa) (c := c) (h cl hcl))
  | drgep =>
    show runDrgep _ _ _ _ _ _ = runDrgep _ _ _ _ _ _
    rw [runDrgep_eq, runDrgep_eq]
    unfold impAt at h
    dsimp only at h ⊢
    generalize loadModel w c.modelFile = L at h ⊢
    rcases L with er | sol
    · rfl
    dsimp only at h ⊢
    by_cases ht : c.targets = []
    · rw [if_pos ht, if_pos ht]
    · simp only [if_neg ht] at h
      rw [if_neg ht, if_neg ht]
      generalize getImportanceCoeffs c.rndMul sol.names c.targets c.matrices dfuel = I at h ⊢
      rcases I with er | imp
      · rfl
      dsimp only at h ⊢
      have := runWith_agree (m := .drgep) (path := c.path) (fun cl hcl => stepOf_agree (m := .drgep) (c := c) (h cl hcl))
      have this : runWith (reduceDrgep { c with errOf := e } imp)
          (finishOther (reduceDrgep { c with errOf := e } imp) rnd limit c.path) rnd (rnd (1 / 1000000)) limit fuel
          (loopInit rnd sol c.modelFile w) = runWith (reduceDrgep c imp)
          (finishOther (reduceDrgep c imp) rnd limit c.path) rnd (rnd (1 / 1000000)) limit fuel
          (loopInit rnd sol c.modelFile w) := this
      rw [this]
      rfl

/-- **C129** (bound): the simulations of a run that returns a model are at most the rejected starting
thresholds, one for each species removed on the way to the candidate that ends the search, and the last one;
however many thresholds are tried.  For DRG and PFA the species the user asked to keep must not matter. -/
theorem C129_bound_partial {m : Method} {c : Ctx} {sol : Mech} (U : StartAgain m c sol) {limit : PyF}
    (hl : LimitOk c sol limit) (a : Arith) {j k : Nat} (hj : j ≤ lastStart m a) (W : Went m c sol limit a.rnd j k)
    (hx : ∀ i ≤ k + 1, NoExtra m c sol (gridThr a.rnd j i)) :
    ∃ N, ∀ dfuel ≥ N, ∀ fuel ≥ j + k + 3, ∀ w, w.fs c.modelFile = some sol →
      simulations m c a.rnd limit dfuel fuel w + candSize m c sol (gridThr a.rnd j (k + 1)) ≤ j + sol.nSpecies + 1 := by
  obtain ⟨N, hN⟩ := method_allSteps U.toAnyStart
  refine ⟨N, fun dfuel hd fuel hfu w hw => ?_⟩
  obtain ⟨imp, short, limbo, A, R, e⟩ := hN dfuel hd
  unfold simulations
  rw [e _ _ _ _ hw]
  have hc := calls_done (ex := exitThr m a.rnd) A hl (gridThr_mono a.ok) hw U.named W.rejected
    (fun i hi => (exit_facts m a).1 i (by omega)) W.accepted W.stop hfu
  unfold simCount at hc
  dsimp only
  rw [hc]
  have hb := built_le (c := c) (sol := sol) (kept := Kept m c sol) (short := short) (rnd := a.rnd) A.self.anti
    (fun k => gridThr_mono a.ok j k) (I := k + 2) (fun i hi he => by
      exact reused_of_noExtra U.toAnyStart R (hx i (by omega)) he)
  have hp : prevSize c sol (Kept m c sol) a.rnd j (k + 2) = candSize m c sol (gridThr a.rnd j (k + 1)) := rfl
  rw [hp] at hb
  omega

/-- **C129** is false for DRG and PFA when a species the user asked to keep is not linked to a target at the
first accepted threshold: then every threshold tried costs a simulation, also when the candidate is the
one simulated just before. -/
theorem C129_repeats_refuted {m : Method} {c : Ctx} {sol : Mech} (U : StartAgain m c sol) {limit : PyF}
    (hl : LimitOk c sol limit) (a : Arith) {j k : Nat} (hj : j ≤ lastStart m a) (W : Went m c sol limit a.rnd j k)
    (hx : ¬ NoExtra m c sol (gridThr a.rnd j 0)) :
    ∃ N, ∀ dfuel ≥ N, ∀ fuel ≥ j + k + 3, ∀ w, w.fs c.modelFile = some sol →
      simulations m c a.rnd limit dfuel fuel w = j + (k + 2) + 1 := by
  obtain ⟨N, hN⟩ := method_allSteps U.toAnyStart
  refine ⟨N, fun dfuel hd fuel hfu w hw => ?_⟩
  obtain ⟨imp, short, limbo, A, R, e⟩ := hN dfuel hd
  unfold simulations
  rw [e _ _ _ _ hw]
  have hc := calls_done (ex := exitThr m a.rnd) A hl (gridThr_mono a.ok) hw U.named W.rejected
    (fun i hi => (exit_facts m a).1 i (by omega)) W.accepted W.stop hfu
  unfold simCount at hc
  dsimp only
  rw [hc, built_all]
  intro i _ hs
  have hmono : ∀ i, gridThr a.rnd j 0 ≤ gridThr a.rnd j i := by
    intro i
    induction i with
    | zero => exact le_refl _
    | succ i ih => exact ih.trans (gridThr_mono a.ok j i)
  refine not_reused_of_extra U.toAnyStart R (t := gridThr a.rnd j i) ?_
    (A.self.short_size (fun k => gridThr_mono a.ok j k) hs) hs
  intro hn
  apply hx
  rcases hn with h | h
  · exact Or.inl h
  · refine Or.inr (fun s hs hsn => ?_)
    obtain ⟨M, hM, hL⟩ := h s hs hsn
    exact ⟨M, hM, hL.anti (hmono i)⟩

/-! ### examples -/

/-- `A` needs `C` with 0.045 -/
def nsM : NMat := fun i j => if (i, j) = (0, 2) then 45/1000 else 0

/-- with `D` to be kept: candidates `A`, `C`, `D` at four thresholds, then `A`, `D` -/
abbrev nsKeep : Ctx := nfCtx "reduced_4.yaml".toList nsM ["D"] (nfErr 3)

/-- without: candidates `A`, `C` at four thresholds, then `A` -/
abbrev nsFree : Ctx := nfCtx "reduced_4.yaml".toList nsM [] (nfErr 2)

theorem nsKeep_went : Went .drg nsKeep bsSol (.fin 1) id 0 3 where
  rejected i hi := absurd hi (Nat.not_lt_zero i)
  accepted i hi := by
    have : i = 0 ∨ i = 1 ∨ i = 2 ∨ i = 3 := by omega
    rcases this with rfl | rfl | rfl | rfl <;> exact nfMeets (n := 3) (by decide +kernel)
  stop := nfExceeds (n := 2) (by decide +kernel)

theorem nsFree_went : Went .drg nsFree bsSol (.fin 1) id 0 3 where
  rejected i hi := absurd hi (Nat.not_lt_zero i)
  accepted i hi := by
    have : i = 0 ∨ i = 1 ∨ i = 2 ∨ i = 3 := by omega
    rcases this with rfl | rfl | rfl | rfl <;> exact nfMeets (n := 2) (by decide +kernel)
  stop := nfExceeds (n := 1) (by decide +kernel)

/-- the bound allows four simulations for five thresholds and the last reduction -/
example : ∃ N, ∀ dfuel ≥ N, ∀ fuel ≥ 6, ∀ w, w.fs nsFree.modelFile = some bsSol →
    simulations .drg nsFree id (.fin 1) dfuel fuel w ≤ 4 := by
  obtain ⟨N, hN⟩ := C129_bound_partial (nfCtx_again : StartAgain .drg nsFree bsSol) (nfCtx_limit (by decide)) .exact
    (j := 0) (k := 3) (by decide) nsFree_went (fun i _ => Or.inr (by simp [nfCtx]))
  refine ⟨N, fun dfuel hd fuel hfu w hw => ?_⟩
  have := hN dfuel hd fuel (by omega) w hw
  have h1 : candSize .drg nsFree bsSol (gridThr id 0 4) = 1 := (nfView_spec (e := .fin 100) (by decide +kernel)).1
  have h2 : bsSol.nSpecies = 4 := rfl
  rw [show Arith.exact.rnd = id from rfl, show 3 + 1 = 4 from rfl, h1, h2] at this
  exact Nat.le_of_add_le_add_right this

/-- with `D` to be kept there are six -/
example : ∃ N, ∀ dfuel ≥ N, ∀ fuel ≥ 6, ∀ w, w.fs nsKeep.modelFile = some bsSol →
    simulations .drg nsKeep id (.fin 1) dfuel fuel w = 6 := by
  refine C129_repeats_refuted (nfCtx_again : StartAgain .drg nsKeep bsSol) (nfCtx_limit (by decide)) .exact
    (j := 0) (k := 3) (by decide) nsKeep_went ?_
  rintro (h | h)
  · cases h
  · have h0 : candSize .drg nsFree bsSol (gridThr id 0 0) = 2 := (nfView_spec (e := .fin 0) (by decide +kernel)).1
    obtain ⟨M, hM, hL⟩ := h "D" (by simp [nfCtx]) (by decide)
    have hk : ∀ s ∈ ["A", "C", "D"], s ∈ (candidate nsFree bsSol (Kept .drg nsFree bsSol) (gridThr id 0 0)).names := by
      have hA : "A" ∈ (candidate nsFree bsSol (Kept .drg nsFree bsSol) (gridThr id 0 0)).names ∧
          "C" ∈ (candidate nsFree bsSol (Kept .drg nsFree bsSol) (gridThr id 0 0)).names := by
        obtain ⟨r, w', h1, h2, -⟩ := nfCtx_candidate (file := "reduced_4.yaml".toList) (M := nsM) (safe := []) (err := nfErr 2) (gridThr id 0 0)
        have h3 : (match (reduceDrg nsFree (gridThr id 0 0) none (nfWorld "reduced_4.yaml".toList)).1 with
          | .ok r => decide (r.model.names = ["A", "C"]) | .error _ => false) = true := by decide +kernel
        rw [h1] at h3
        have h4 : r.model.names = ["A", "C"] := by simpa using h3
        rw [← h2, h4]
        simp
      intro s hs
      simp only [List.mem_cons, List.not_mem_nil, or_false] at hs
      rcases hs with rfl | rfl | rfl
      · exact hA.1
      · exact hA.2
      · exact mem_candidate_names.2 ⟨by decide, Or.inl ⟨M, hM, hL⟩⟩
    have := (List.subperm_of_subset (by decide) hk).length_le
    rw [← Mech.nSpecies_eq] at this
    unfold candSize at h0
    rw [h0] at this
    simp at this

end Verif
