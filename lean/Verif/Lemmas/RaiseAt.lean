import Verif.Lemmas.ReduceRaise
/-!
# The run up to the first candidate whose simulation raises
-/
namespace Verif
open Spec

section prev
variable (c : Ctx) (sim : Mech → Except Err PyF)

theorem reduceDrgS_prev (t : ℚ) (p : RModel) (w : World) :
    (∃ r w1, reduceDrgS c sim t (some p) w = (.ok r, w1) ∧ r = p) ∨
      reduceDrgS c sim t (some p) w = reduceDrgS c sim t none w := by
  unfold reduceDrgS
  rcases loadModel w c.modelFile with e | sol
  · exact .inr rfl
  dsimp only
  rcases retained c.matrices sol.names c.targets t with e | ret
  · exact .inr rfl
  dsimp only [sameCount]
  by_cases h : ret.length = p.model.nSpecies
  · rw [if_pos h]; exact .inl ⟨_, _, rfl, rfl⟩
  · rw [if_neg h]; exact .inr rfl

theorem reducePfaS_prev (t : ℚ) (p : RModel) (w : World) :
    (∃ r w1, reducePfaS c sim t (some p) w = (.ok r, w1) ∧ r = p) ∨
      reducePfaS c sim t (some p) w = reducePfaS c sim t none w := by
  unfold reducePfaS
  rcases loadModel w c.modelFile with e | sol
  · exact .inr rfl
  dsimp only
  rcases retained c.matrices sol.names c.targets t with e | ret
  · exact .inr rfl
  dsimp only [sameCount]
  by_cases h : ret.length = p.model.nSpecies
  · rw [if_pos h]; exact .inl ⟨_, _, rfl, rfl⟩
  · rw [if_neg h]; exact .inr rfl

theorem reduceDrgepS_prev (imp : String → Option ℚ) (t : ℚ) (p : RModel) (w : World) :
    (∃ r w1, reduceDrgepS c sim imp t (some p) w = (.ok r, w1) ∧ r = p) ∨
      reduceDrgepS c sim imp t (some p) w = reduceDrgepS c sim imp t none w := by
  unfold reduceDrgepS
  rcases loadModel w c.modelFile with e | sol
  · exact .inr rfl
  dsimp only
  rcases removedDrgep imp c.safe t sol.names with e | rem
  · exact .inr rfl
  dsimp only
  by_cases h : (rem.length : Int) = (sol.nSpecies : Int) - p.model.nSpecies
  · rw [if_pos h]; exact .inl ⟨_, _, rfl, rfl⟩
  · rw [if_neg h]; exact .inr rfl

end prev

/-- a step returns the previous model, or one that was simulated -/
def Simulates (sim : Mech → Except Err PyF) (reduce' : ReduceFn) : Prop :=
  ∀ t p w r w', reduce' t (some p) w = (.ok r, w') → r = p ∨ sim r.model = .ok r.error

theorem reduceDrgS_simulates (c : Ctx) (sim : Mech → Except Err PyF) :
    Simulates sim (reduceDrgS c sim) := by
  intro t p w r w' h
  rcases reduceDrgS_prev c sim t p w with ⟨r', w1, h1, h2⟩ | h1
  · rw [h] at h1; cases h1; exact .inl h2
  · rw [h1] at h; exact .inr (reduceDrgS_sim h)

theorem reducePfaS_simulates (c : Ctx) (sim : Mech → Except Err PyF) :
    Simulates sim (reducePfaS c sim) := by
  intro t p w r w' h
  rcases reducePfaS_prev c sim t p w with ⟨r', w1, h1, h2⟩ | h1
  · rw [h] at h1; cases h1; exact .inl h2
  · rw [h1] at h; exact .inr (reducePfaS_sim h)

theorem reduceDrgepS_simulates (c : Ctx) (sim : Mech → Except Err PyF) (imp : String → Option ℚ) :
    Simulates sim (reduceDrgepS c sim imp) := by
  intro t p w r w' h
  rcases reduceDrgepS_prev c sim imp t p w with ⟨r', w1, h1, h2⟩ | h1
  · rw [h] at h1; cases h1; exact .inl h2
  · rw [h1] at h; exact .inr (reduceDrgepS_sim h)

/-- as long as no simulation raises, both loops are in the same state -/
theorem whileLoop_rel {c : Ctx} {sim : Mech → Except Err PyF} {reduce' reduce : ReduceFn}
    (h : StepRel c sim reduce' reduce) (rnd : ℚ → ℚ) (ex : ℚ) (limit : PyF) (n : Nat) (s : LoopState) :
    whileLoop reduce' rnd ex limit n s = whileLoop reduce rnd ex limit n s ∨
      ∀ t, whileLoop reduce rnd ex limit n s = .running t → t.errCur = .nan := by
  induction n generalizing s with
  | zero => exact .inl rfl
  | succ n ih =>
    by_cases hle : s.errCur.le limit = true
    · rcases h s.thr (some s.prev) s.w with heq | ⟨e, w1, h1, h2, h3, h4⟩
      · have hst : loopStep reduce' rnd ex limit s = loopStep reduce rnd ex limit s := by
          unfold loopStep
          rw [heq]
        rw [whileLoop, whileLoop, hst]
        rcases loopStep reduce rnd ex limit s with t | t | ⟨e, w⟩
        · exact ih t
        · exact .inl rfl
        · exact .inl rfl
      · right
        intro t ht
        rw [whileLoop] at ht
        rcases hr : reduce s.thr (some s.prev) s.w with ⟨x, w2⟩
        rw [hr] at h4
        rcases h4 with ⟨r, h4, h5, -⟩ | ⟨e', h4⟩ <;> dsimp only at h4 <;> subst h4
        · have hnan : limit.lt .nan = false := by cases limit <;> rfl
          unfold loopStep at ht
          rw [if_pos hle, hr] at ht
          dsimp only at ht
          rw [h5, hnan, Bool.and_false, if_neg (by simp)] at ht
          split at ht
          · rename_i u hu
            have hu' : u.errCur = .nan := by
              split at hu
              · cases hu
              · cases hu; rfl
            cases n with
            | zero => cases ht; exact hu'
            | succ n =>
              rw [whileLoop] at ht
              have : loopStep reduce rnd ex limit u = .left u := by
                unfold loopStep
                rw [hu', if_neg (by cases limit <;> simp [PyF.le])]
              rw [this] at ht
              cases ht
          · rename_i hu
            rw [ht] at hu
            exact absurd rfl (hu t)
        · have : loopStep reduce rnd ex limit s = .raised e' w2 := by
            unfold loopStep
            rw [if_pos hle, hr]
          rw [this] at ht
          cases ht
    · left
      have hl : ∀ red : ReduceFn, loopStep red rnd ex limit s = .left s := by
        intro red
        unfold loopStep
        rw [if_neg hle]
      rw [whileLoop, whileLoop, hl, hl]

section
variable {c : Ctx} {sol : Mech} {sim : Mech → Except Err PyF} {reduce' reduce : ReduceFn}
  {kept : ℚ → String → Prop} {short : ℚ → Nat → Prop} {limbo : ℚ → Option (List String)}
  {rnd : ℚ → ℚ} {ex : ℚ} {limit : PyF} {finish' : LoopState → Except Err RModel × World}

/-- the step at a candidate whose simulation raises -/
theorem loopStep_raises (h : StepRel c sim reduce' reduce) (hS : Simulates sim reduce')
    (B : Behaves (c.total sim) sol reduce kept short limbo) (hl : LimitOk (c.total sim) sol limit)
    {s : LoopState} (hp : PrevOk (c.total sim) sol kept s.prev s.thr)
    (hw : s.w.fs c.modelFile = some sol) (hle : s.errCur.le limit = true)
    (hprev : s.prev.error.le limit = true) {e : Err}
    (he : sim (candidate c sol kept s.thr) = .error e) :
    ∃ w1, loopStep reduce' rnd ex limit s = .raised e w1 ∧
      w1.fs (redFile c (candidate c sol kept s.thr).nSpecies) = some (candidate c sol kept s.thr) := by
  have hnan : (c.total sim).errOf (candidate (c.total sim) sol kept s.thr) = .nan := by
    show simError sim (candidate c sol kept s.thr) = .nan
    unfold simError
    rw [he]
  obtain ⟨r, w', h1, h2, h3, h4⟩ := B.step hp hw
  have hr : r.model = candidate c sol kept s.thr ∧ r.error = .nan := by
    rcases h2 with ⟨g1, g2⟩ | ⟨g1, g2, g3⟩
    · exact ⟨g1, g2.trans hnan⟩
    · exfalso
      have := hl.full
      rw [← candidate_full g3, hnan] at this
      simp [PyF.le] at this
  have hne : r ≠ s.prev := by
    rintro rfl
    rw [hr.2] at hprev
    simp [PyF.le] at hprev
  have hfile : w'.fs (redFile c (candidate c sol kept s.thr).nSpecies) = some (candidate c sol kept s.thr) := by
    rcases h4 with ⟨g, -⟩ | ⟨g1, g2⟩
    · exact absurd g hne
    · rw [g1, hr.1] at g2; exact g2
  rcases h s.thr (some s.prev) s.w with heq | ⟨e', w1, g1, g2, -, g3⟩
  · exfalso
    rw [h1] at heq
    rcases hS _ _ _ _ _ heq with g | g
    · exact hne g
    · rw [hr.1, he] at g; cases g
  · rw [h1] at g2 g3
    dsimp only at g2 g3
    subst g2
    refine ⟨w', ?_, hfile⟩
    rcases g3 with ⟨r', g3, -, g5⟩ | ⟨_, g3⟩
    · cases g3
      rw [hr.1, he] at g5
      cases g5
      unfold loopStep
      rw [if_pos hle, g1]
    · cases g3

/-- the run ends at the first candidate whose simulation raises, with that exception -/
theorem runWith_raises (h : StepRel c sim reduce' reduce) (hS : Simulates sim reduce')
    (B : Behaves (c.total sim) sol reduce kept short limbo) (hl : LimitOk (c.total sim) sol limit)
    (hr : RndOk rnd) {w : World} (hw : w.fs c.modelFile = some sol) {j k : Nat} {e : Err}
    (h1 : ∀ i < j, Exceeds (c.total sim) sol kept limit (startThr rnd i))
    (h2 : ∀ i ≤ j, i ≠ 0 → ¬ startThr rnd i ≤ ex)
    (h4 : ∀ i < k, Meets (c.total sim) sol kept limit (gridThr rnd j i))
    (h5 : sim (candidate c sol kept (gridThr rnd j k)) = .error e) :
    ∃ w1, w1.fs (redFile c (candidate c sol kept (gridThr rnd j k)).nSpecies) =
        some (candidate c sol kept (gridThr rnd j k)) ∧
      ∀ fuel ≥ j + 1 + k, runWith reduce' finish' rnd ex limit fuel (loopInit rnd sol c.modelFile w) =
        (some (.error e), w1) := by
  have fin : ∀ n (s : LoopState),
      whileLoop reduce rnd ex limit n (loopInit rnd sol c.modelFile w) = .running s →
      s.errCur.le limit = true → s.prev.error.le limit = true → s.w.fs c.modelFile = some sol →
      PrevOk (c.total sim) sol kept s.prev s.thr → s.thr = gridThr rnd j k → n = j + k →
      ∃ w1, w1.fs (redFile c (candidate c sol kept (gridThr rnd j k)).nSpecies) =
        some (candidate c sol kept (gridThr rnd j k)) ∧
      ∀ fuel ≥ j + 1 + k, runWith reduce' finish' rnd ex limit fuel (loopInit rnd sol c.modelFile w) =
        (some (.error e), w1) := by
    intro n s a1 a2 a3 a4 a5 a6 a7
    have b1 : whileLoop reduce' rnd ex limit n (loopInit rnd sol c.modelFile w) = .running s := by
      rcases whileLoop_rel h rnd ex limit n (loopInit rnd sol c.modelFile w) with g | g
      · rw [g, a1]
      · have := g s a1
        rw [this] at a2
        cases limit <;> simp [PyF.le] at a2
    obtain ⟨w1, c1, c2⟩ := loopStep_raises (rnd := rnd) (ex := ex) h hS B hl a5 a4 a2 a3 (e := e)
      (by rw [a6]; exact h5)
    rw [a6] at c2
    refine ⟨w1, c2, fun fuel hf => ?_⟩
    obtain ⟨m, rfl⟩ : ∃ m, fuel = n + (m + 1) := ⟨fuel - (n + 1), by omega⟩
    have key : ∀ n u, whileLoop reduce' rnd ex limit n u = .running s →
        whileLoop reduce' rnd ex limit (n + (m + 1)) u = .raised e w1 := by
      intro n
      induction n with
      | zero =>
        intro u hu
        cases hu
        rw [Nat.zero_add, whileLoop, c1]
      | succ n ih =>
        intro u hu
        rw [whileLoop] at hu
        rw [show n + 1 + (m + 1) = (n + (m + 1)) + 1 by omega, whileLoop]
        rcases hst : loopStep reduce' rnd ex limit u with v | v | ⟨e', w'⟩ <;> rw [hst] at hu
        · exact ih v hu
        · cases hu
        · cases hu
    unfold runWith
    rw [key n _ b1]
  obtain ⟨s1, a1, a2, a3⟩ := whileLoop_phase1 (ex := ex) (rnd := rnd) (limit := limit) B hl j 0
    (loopInit rnd sol c.modelFile w) (phase1_init B hw) (by
      intro i hi
      rw [Nat.zero_add]
      exact ⟨h1 i hi, h2 (i + 1) (by omega) (by omega)⟩)
  rw [Nat.zero_add] at a3
  rcases k with _ | k
  · exact fin j s1 a1 (by rw [a3.errCur]; exact hl.nonneg) (by rw [a3.preve]; exact hl.nonneg) a3.fs
      (Or.inr ⟨a3.prevm, a3.preve⟩) a3.thr rfl
  · have h3 : ¬ Exceeds (c.total sim) sol kept limit (startThr rnd j) :=
      Spec.Meets.not_exceeds (h4 0 (by omega))
    obtain ⟨s, p, a⟩ := run_reaches (ex := ex) B hl hr hw (k := k) h1 h2 h3
      (fun i hi => h4 i (by omega))
    have hm : s.prev.error.le limit = true := (p.rep.le_iff hl).2 (h4 k (by omega))
    refine fin (j + 1 + k) s (a 0) (by rw [p.errCur]; exact hm) hm p.fs ?_ p.thr (by omega)
    rw [p.thr]
    exact p.rep.prevOk (gridThr_mono hr j k)

end

/-- **the first candidate that cannot be simulated ends the run of a method with its exception** -/
theorem runMethodS_raises {m : Method} {c : Ctx} {sol : Mech} {sim : Mech → Except Err PyF}
    (U : Usable m (c.total sim) sol) {limit : PyF} (hl : LimitOk (c.total sim) sol limit) (a : Arith) :
    ∃ N, ∀ dfuel ≥ N, ∀ j k e w, w.fs c.modelFile = some sol → j ≤ lastStart m a →
      (∀ i < j, Exceeds (c.total sim) sol (Kept m c sol) limit (startThr a.rnd i)) →
      (∀ i < k, Meets (c.total sim) sol (Kept m c sol) limit (gridThr a.rnd j i)) →
      sim (candidate c sol (Kept m c sol) (gridThr a.rnd j k)) = .error e →
      ∃ w1, w1.fs (redFile c (candidate c sol (Kept m c sol) (gridThr a.rnd j k)).nSpecies) =
          some (candidate c sol (Kept m c sol) (gridThr a.rnd j k)) ∧
        ∀ fuel ≥ j + 1 + k, runMethodS m c sim a.rnd limit dfuel fuel w = (some (.error e), w1) := by
  have hK : ∀ m, Kept m (c.total sim) sol = Kept m c sol := fun m => by cases m <;> rfl
  cases m with
  | drg =>
    refine ⟨0, fun dfuel _ j k e w hw hj h1 h4 h5 => ?_⟩
    obtain ⟨w1, g1, g2⟩ := runWith_raises (finish' := finishDrg (reduceDrgS c sim) a.rnd limit c.path)
      (ex := exitThr .drg a.rnd) (reduceDrg_rel c sim)
      (reduceDrgS_simulates c sim) (reduceDrg_behaves U.toSetting) hl a.ok hw h1
      (fun i hi => (exit_facts .drg a).1 i (by omega)) h4 h5
    refine ⟨w1, g1, fun fuel hf => ?_⟩
    show runDrgS c sim a.rnd limit fuel w = _
    unfold runDrgS
    rw [loadModel_ok hw]
    dsimp only
    rw [if_neg (show ¬ c.targets = [] from U.target)]
    exact g2 fuel hf
  | pfa =>
    refine ⟨0, fun dfuel _ j k e w hw hj h1 h4 h5 => ?_⟩
    obtain ⟨w1, g1, g2⟩ := runWith_raises (finish' := finishOther (reducePfaS c sim) a.rnd limit c.path)
      (ex := exitThr .pfa a.rnd) (reducePfa_rel c sim)
      (reducePfaS_simulates c sim) (reducePfa_behaves U.toSetting (U.upper rfl)) hl a.ok hw h1
      (fun i hi => (exit_facts .pfa a).1 i (by omega)) h4 h5
    refine ⟨w1, g1, fun fuel hf => ?_⟩
    show runPfaS c sim a.rnd limit fuel w = _
    unfold runPfaS
    rw [loadModel_ok hw]
    dsimp only
    rw [if_neg (show ¬ c.targets = [] from U.target)]
    exact g2 fuel hf
  | drgep =>
    obtain ⟨N, imp, i1, -, i3⟩ := C16_importance (U.unit rfl).1 U.nodup U.targets (U.unit rfl).2
    refine ⟨N, fun dfuel hd j k e w hw hj h1 h4 h5 => ?_⟩
    have B := (reduceDrgep_behaves U.toSetting (imp := imp) (by
      intro s hs
      obtain ⟨x, hx, -⟩ := i3 s hs
      rw [hx]; rfl)).congr (kept' := Kept .drgep c sol) (by
      intro t s hs
      obtain ⟨x, hx, hg⟩ := i3 s hs
      exact keptDrgep_iff hx hg t) (by
      rintro t t' s hle (⟨y, hy, hl⟩ | h2)
      · exact Or.inl ⟨y, hy, hle.trans hl⟩
      · exact Or.inr h2)
    obtain ⟨w1, g1, g2⟩ := runWith_raises
      (finish' := finishOther (reduceDrgepS c sim imp) a.rnd limit c.path)
      (ex := exitThr .drgep a.rnd) (reduceDrgep_rel c sim imp)
      (reduceDrgepS_simulates c sim imp) B hl a.ok hw h1
      (fun i hi => (exit_facts .drgep a).1 i (by omega)) h4 h5
    refine ⟨w1, g1, fun fuel hf => ?_⟩
    show runDrgepS c sim a.rnd limit dfuel fuel w = _
    unfold runDrgepS
    rw [loadModel_ok hw]
    dsimp only
    rw [if_neg (show ¬ c.targets = [] from U.target)]
    have i1' : getImportanceCoeffs c.rndMul sol.names c.targets c.matrices dfuel = .ok imp := i1 dfuel hd
    rw [i1']
    dsimp only
    have := g2 fuel hf
    rw [show exitThr .drgep a.rnd = a.rnd (1 / 1000000) from rfl] at this
    rw [this]

end Verif
