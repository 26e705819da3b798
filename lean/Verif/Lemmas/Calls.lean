import Verif.Spec.Calls
import Verif.Lemmas.NumberedFiles
/-!
# The calls of a run, and which of them simulate
-/
namespace Verif
open Spec

theorem exitOf_eq (m : Method) (rnd : ℚ → ℚ) : exitOf m rnd = exitThr m rnd := by cases m <;> rfl

/-- the function a run calls after the loop -/
def finishOf (m : Method) (reduce : ReduceFn) (rnd : ℚ → ℚ) (limit : PyF) (path : Text) :
    LoopState → Except Err RModel × World :=
  match m with
  | .drg => finishDrg reduce rnd limit path
  | _ => finishOther reduce rnd limit path

section
variable {c : Ctx} {sol : Mech} {kept : ℚ → String → Prop} {short : ℚ → Nat → Prop}
  {limbo : ℚ → Option (List String)} {m : Method} {imp : String → Option ℚ}

/-- the family of steps with other errors -/
def AllSteps (m : Method) (c : Ctx) (sol : Mech) (imp : String → Option ℚ) (kept : ℚ → String → Prop)
    (short : ℚ → Nat → Prop) (limbo : ℚ → Option (List String)) : Prop :=
  ∀ e : Mech → PyF, FileSteps { c with errOf := e } sol (stepOf m { c with errOf := e } imp) kept short limbo

theorem AllSteps.self (A : AllSteps m c sol imp kept short limbo) :
    FileSteps c sol (stepOf m c imp) kept short limbo := A c.errOf

theorem AllSteps.fresh (A : AllSteps m c sol imp kept short limbo) {t : ℚ} {p : Option RModel} {w : World}
    (hw : StillThere c sol w) (hs : ∀ q, p = some q → ¬ short t q.model.nSpecies) (e : Mech → PyF) :
    stepOf m { c with errOf := e } imp t p w = (.ok (freshResult { c with errOf := e } sol kept limbo t),
      w.set (redFile c (candidate c sol kept t).nSpecies) (some (candidate c sol kept t))) := by
  cases p with
  | none => exact (A e).fresh t w hw
  | some q => exact ((A e).build t w q hw (hs q rfl)).trans ((A e).fresh t w hw)

/-- a call simulates the candidate of its threshold, unless it takes the previous model -/
theorem AllSteps.simulates (A : AllSteps m c sol imp kept short limbo) {t : ℚ} {p : Option RModel} {w : World}
    (hw : StillThere c sol w) (hs : ∀ q, p = some q → ¬ short t q.model.nSpecies) (x : Mech) :
    Simulates m c imp ⟨t, p, w⟩ x ↔ x = candidate c sol kept t := by
  constructor
  · rintro ⟨e, e', h1, h2⟩
    by_contra hne
    apply h2
    dsimp only
    rw [A.fresh hw hs e, A.fresh hw hs e']
    have := h1 (candidate c sol kept t) (fun h => hne h.symm)
    unfold freshResult
    show _ = _
    have h3 : ({ c with errOf := e } : Ctx).errOf (candidate { c with errOf := e } sol kept t) =
        ({ c with errOf := e' } : Ctx).errOf (candidate { c with errOf := e' } sol kept t) := this
    rw [h3]
    rfl
  · rintro rfl
    refine ⟨fun _ => .fin 0, fun y => if y = candidate c sol kept t then .fin 1 else .fin 0, ?_, ?_⟩
    · intro y hy
      dsimp only
      rw [if_neg hy]
    · dsimp only
      rw [A.fresh hw hs, A.fresh hw hs]
      intro h
      have h1 := congrArg Prod.fst h
      have h2 := congrArg RModel.error (Except.ok.inj h1)
      have h3 : PyF.fin 0 = (if candidate c sol kept t = candidate c sol kept t then PyF.fin 1 else .fin 0) := h2
      rw [if_pos rfl] at h3
      simp at h3

theorem AllSteps.not_simulates (A : AllSteps m c sol imp kept short limbo) {t : ℚ} {p : RModel} {w : World}
    (hw : StillThere c sol w) (hs : short t p.model.nSpecies) (x : Mech) :
    ¬ Simulates m c imp ⟨t, some p, w⟩ x := by
  rintro ⟨e, e', -, h⟩
  apply h
  dsimp only
  rw [(A e).reuse t w p hw hs, (A e').reuse t w p hw hs]

open Classical in
/-- number of calls in a list that simulate -/
noncomputable def simCount (m : Method) (c : Ctx) (imp : String → Option ℚ) (l : List Call) : Nat :=
  l.countP (fun cl => decide (∃ x, Simulates m c imp cl x))

open Classical in
theorem AllSteps.simCount_cons (A : AllSteps m c sol imp kept short limbo) {t : ℚ} {p : RModel} {w : World}
    (hw : StillThere c sol w) (l : List Call) : simCount m c imp (⟨t, some p, w⟩ :: l) =
      (if short t p.model.nSpecies then 0 else 1) + simCount m c imp l := by
  unfold simCount
  rw [List.countP_cons, add_comm]
  congr 1
  by_cases hs : short t p.model.nSpecies
  · rw [if_pos hs, if_neg]
    simp only [decide_eq_true_eq, not_exists]
    exact A.not_simulates hw hs
  · rw [if_neg hs, if_pos]
    simp only [decide_eq_true_eq]
    exact ⟨_, (A.simulates hw (by rintro q hq; cases hq; exact hs) _).2 rfl⟩

variable {rnd : ℚ → ℚ} {ex : ℚ} {limit : PyF}

theorem loopCalls_one {reduce : ReduceFn} {s s' : LoopState} (hle : s.errCur.le limit = true)
    (h : loopStep reduce rnd ex limit s = .running s') (k : Nat) :
    loopCalls reduce rnd ex limit (1 + k) s = ⟨s.thr, some s.prev, s.w⟩ :: loopCalls reduce rnd ex limit k s' := by
  rw [Nat.add_comm, loopCalls, if_pos hle, h]

/-- rejected starting thresholds -/
theorem calls_reach1 (A : AllSteps m c sol imp kept short limbo) (hl : LimitOk c sol limit) {w : World}
    (hw : w.fs c.modelFile = some sol) (hnm : ∀ n, redFile c n = c.modelFile → n = sol.nSpecies) : ∀ {j : Nat},
    (∀ i < j, Exceeds c sol kept limit (startThr rnd i)) → (∀ i ≤ j, i ≠ 0 → ¬ startThr rnd i ≤ ex) →
    ∃ s, Files1 c sol kept rnd w.fs j s ∧ ∀ k,
      whileLoop (stepOf m c imp) rnd ex limit (j + k) (loopInit rnd sol c.modelFile w) =
        whileLoop (stepOf m c imp) rnd ex limit k s ∧
      simCount m c imp (loopCalls (stepOf m c imp) rnd ex limit (j + k) (loopInit rnd sol c.modelFile w)) =
        j + simCount m c imp (loopCalls (stepOf m c imp) rnd ex limit k s)
  | 0, _, _ => ⟨_, ⟨rfl, rfl, rfl, rfl, rfl, rfl, ⟨sol.name, sol.thermo, Or.inl rfl, hw⟩, rfl⟩, fun k => by
      rw [Nat.zero_add]; exact ⟨rfl, (Nat.zero_add _).symm⟩⟩
  | j + 1, h1, h2 => by
    obtain ⟨s, f, e⟩ := calls_reach1 A hl hw hnm (j := j) (fun i hi => h1 i (by omega)) (fun i hi => h2 i (by omega))
    obtain ⟨s', e', f'⟩ := (files1_reject (ex := ex) A.self hl f (h1 j (by omega)) (hnm _)).2
      (h2 (j + 1) (le_refl _) (by omega))
    refine ⟨s', f', fun k => ?_⟩
    rw [show j + 1 + k = j + (1 + k) by omega, (e _).1, (e _).2, whileLoop_one e']
    refine ⟨rfl, ?_⟩
    have hle : s.errCur.le limit = true := by rw [f.errCur]; exact hl.nonneg
    rw [loopCalls_one hle e', A.simCount_cons f.there, if_neg]
    · omega
    · intro hs
      obtain ⟨-, hr⟩ := (A.self.step (Or.inr ⟨f.prevm, f.preve⟩) f.there).1 hs
      rw [f.thr] at hr
      have := (hr.lt_iff hl).2 (h1 j (by omega))
      rw [f.preve, PyF.not_lt_of_le hl.nonneg] at this
      cases this

open Classical in
/-- how many of the first `I` thresholds above the accepted start do not take the previous model -/
noncomputable def built (c : Ctx) (sol : Mech) (kept : ℚ → String → Prop) (short : ℚ → Nat → Prop)
    (rnd : ℚ → ℚ) (j : Nat) : Nat → Nat
  | 0 => 0
  | i + 1 => built c sol kept short rnd j i +
      (if short (gridThr rnd j i) (prevSize c sol kept rnd j i) then 0 else 1)

open Classical in
/-- accepted thresholds -/
theorem calls_reach2 (A : AllSteps m c sol imp kept short limbo) (hl : LimitOk c sol limit)
    (hmono : ∀ j k, gridThr rnd j k ≤ gridThr rnd j (k + 1)) {w : World}
    (hw : w.fs c.modelFile = some sol) (hnm : ∀ n, redFile c n = c.modelFile → n = sol.nSpecies) {j : Nat}
    (h1 : ∀ i < j, Exceeds c sol kept limit (startThr rnd i)) (h2 : ∀ i ≤ j, i ≠ 0 → ¬ startThr rnd i ≤ ex)
    (h3 : ¬ Exceeds c sol kept limit (startThr rnd j)) : ∀ {k : Nat},
    (∀ i < k, Meets c sol kept limit (gridThr rnd j i)) →
    ∃ s, Files2 c sol kept short rnd w.fs j k s ∧ ∀ n,
      whileLoop (stepOf m c imp) rnd ex limit (j + 1 + k + n) (loopInit rnd sol c.modelFile w) =
        whileLoop (stepOf m c imp) rnd ex limit n s ∧
      simCount m c imp (loopCalls (stepOf m c imp) rnd ex limit (j + 1 + k + n) (loopInit rnd sol c.modelFile w)) =
        j + built c sol kept short rnd j (k + 1) + simCount m c imp (loopCalls (stepOf m c imp) rnd ex limit n s)
  | 0, _ => by
    obtain ⟨s, f, e⟩ := calls_reach1 (ex := ex) A hl hw hnm h1 h2
    obtain ⟨s', e', f'⟩ := files1_accept (ex := ex) (short := short) A.self hl f h3 (hnm _)
    refine ⟨s', f', fun n => ?_⟩
    rw [show j + 1 + 0 + n = j + (1 + n) by omega, (e _).1, (e _).2, whileLoop_one e']
    refine ⟨rfl, ?_⟩
    have hle : s.errCur.le limit = true := by rw [f.errCur]; exact hl.nonneg
    rw [loopCalls_one hle e', A.simCount_cons f.there, f.thr, f.prevm]
    show _ = j + (0 + (if short (gridThr rnd j 0) sol.nSpecies then 0 else 1)) + _
    have : gridThr rnd j 0 = startThr rnd j := rfl
    rw [this]
    omega
  | k + 1, h4 => by
    obtain ⟨s, f, e⟩ := calls_reach2 A hl hmono hw hnm h1 h2 h3 (k := k) (fun i hi => h4 i (by omega))
    obtain ⟨s', e', f'⟩ := files2_accept (ex := ex) A.self hl (hmono j k) f (h4 k (by omega)) (hnm _)
    refine ⟨s', f', fun n => ?_⟩
    rw [show j + 1 + (k + 1) + n = j + 1 + k + (1 + n) by omega, (e _).1, (e _).2, whileLoop_one e']
    refine ⟨rfl, ?_⟩
    have hle : s.errCur.le limit = true := by
      rw [f.errCur]; exact (f.rep.le_iff hl).2 (h4 k (by omega))
    rw [loopCalls_one hle e', A.simCount_cons f.there, f.thr, f.rep.size]
    show _ = j + (built c sol kept short rnd j (k + 1) + (if short (gridThr rnd j (k + 1))
      (candidate c sol kept (gridThr rnd j k)).nSpecies then 0 else 1)) + _
    omega

/-- the simulations of a run that ends with a model -/
theorem calls_done (A : AllSteps m c sol imp kept short limbo) (hl : LimitOk c sol limit)
    (hmono : ∀ j k, gridThr rnd j k ≤ gridThr rnd j (k + 1)) {w : World}
    (hw : w.fs c.modelFile = some sol) (hnm : ∀ n, redFile c n = c.modelFile → n = sol.nSpecies) {j k : Nat}
    (h1 : ∀ i < j, Exceeds c sol kept limit (startThr rnd i)) (h2 : ∀ i ≤ j, i ≠ 0 → ¬ startThr rnd i ≤ ex)
    (h4 : ∀ i ≤ k, Meets c sol kept limit (gridThr rnd j i))
    (h5 : Exceeds c sol kept limit (gridThr rnd j (k + 1))) {fuel : Nat} (hfu : fuel ≥ j + k + 3) :
    simCount m c imp (callsFrom m (stepOf m c imp) rnd ex limit fuel (loopInit rnd sol c.modelFile w)) =
      j + built c sol kept short rnd j (k + 2) + 1 := by
  obtain ⟨s, f, e⟩ := calls_reach2 (ex := ex) A hl hmono hw hnm h1 h2
    (Spec.Meets.not_exceeds (h4 0 (by omega))) (k := k + 1) (fun i hi => h4 i (by omega))
  obtain ⟨n, rfl⟩ : ∃ n, fuel = j + 1 + (k + 1) + (n + 1) := ⟨fuel - (j + k + 3), by omega⟩
  have hnot : ¬ Meets c sol kept limit (gridThr rnd j (k + 1)) := fun hm => Spec.Meets.not_exceeds hm h5
  have hend : loopCalls (stepOf m c imp) rnd ex limit (n + 1) s = [] := by
    unfold loopCalls
    rw [if_neg (by rw [f.errCur, f.rep.le_iff hl]; exact hnot)]
  have hsplit : ∀ l l' : List Call, simCount m c imp (l ++ l') = simCount m c imp l + simCount m c imp l' :=
    fun l l' => List.countP_append
  unfold callsFrom
  rw [hsplit, (e _).2, (e _).1, hend]
  have hwl : whileLoop (stepOf m c imp) rnd ex limit (n + 1) s = .left s := by
    unfold whileLoop
    rw [files2_left (reduce := stepOf m c imp) (ex := ex) hl f hnot]
  rw [hwl]
  dsimp only
  have hlt : limit.lt s.errCur = true := by rw [f.errCur]; exact (f.rep.lt_iff hl).2 h5
  have hfin : finishCalls m rnd limit s = [⟨backStep rnd s, none, s.w⟩] := by
    unfold finishCalls
    cases m with
    | drg => dsimp only; rw [if_pos hlt]
    | drgep => dsimp only; rw [f.last]; dsimp only; rw [f.errCur] at hlt; rw [if_pos hlt]
    | pfa => dsimp only; rw [f.last]; dsimp only; rw [f.errCur] at hlt; rw [if_pos hlt]
  rw [hfin]
  have hone : simCount m c imp [⟨backStep rnd s, none, s.w⟩] = 1 := by
    classical
    unfold simCount
    rw [List.countP_cons, List.countP_nil, if_pos]
    simp only [decide_eq_true_eq]
    exact ⟨_, (A.simulates f.there (by rintro q hq; cases hq) _).2 rfl⟩
  rw [hone]
  show j + built c sol kept short rnd j (k + 2) + 0 + 1 = _
  omega

/-- when the previous model is taken whenever it has the right size, each simulation removes a species -/
theorem built_le (hn : ∀ t t' s, t ≤ t' → kept t' s → kept t s) {j : Nat}
    (hmono : ∀ k, gridThr rnd j k ≤ gridThr rnd j (k + 1)) : ∀ {I : Nat},
    (∀ i < I, prevSize c sol kept rnd j i = (candidate c sol kept (gridThr rnd j i)).nSpecies →
      short (gridThr rnd j i) (prevSize c sol kept rnd j i)) →
    built c sol kept short rnd j I + prevSize c sol kept rnd j I ≤ sol.nSpecies
  | 0, _ => by simp [built, prevSize]
  | I + 1, h => by
    have ih := built_le hn hmono (I := I) (fun i hi => h i (by omega))
    have hle : (candidate c sol kept (gridThr rnd j I)).nSpecies ≤ prevSize c sol kept rnd j I := by
      cases I with
      | zero => exact candidate_le _
      | succ I => exact candidate_size_anti hn (hmono I)
    show built c sol kept short rnd j I + _ + (candidate c sol kept (gridThr rnd j I)).nSpecies ≤ _
    split_ifs with hs
    · omega
    · have : prevSize c sol kept rnd j I ≠ (candidate c sol kept (gridThr rnd j I)).nSpecies :=
        fun e => hs (h I (by omega) e)
      omega

theorem built_all {j : Nat} : ∀ {I : Nat},
    (∀ i < I, ¬ short (gridThr rnd j i) (prevSize c sol kept rnd j i)) → built c sol kept short rnd j I = I
  | 0, _ => rfl
  | I + 1, h => by
    show built c sol kept short rnd j I + _ = _
    rw [built_all (fun i hi => h i (by omega)), if_neg (h I (by omega))]

end

/-- the three methods -/
theorem method_allSteps {m : Method} {c : Ctx} {sol : Mech} (U : AnyStart m c sol) :
    ∃ N, ∀ dfuel ≥ N, ∃ imp short limbo, AllSteps m c sol imp (Kept m c sol) short limbo ∧
      ReusedAt m c sol short ∧ ∀ rnd limit fuel w, w.fs c.modelFile = some sol →
      methodCalls m c rnd limit dfuel fuel w =
        (imp, callsFrom m (stepOf m c imp) rnd (exitThr m rnd) limit fuel (loopInit rnd sol c.modelFile w)) := by
  cases m with
  | drg =>
    refine ⟨0, fun dfuel _ => ⟨fun _ => none, ShortDrg c sol, fun _ => limboDrg c sol,
      fun e => reduceDrg_steps (c := { c with errOf := e }) U.nodup U.targets U.closed, fun t n => Iff.rfl, ?_⟩⟩
    intro rnd limit fuel w hw
    unfold methodCalls
    rw [loadModel_ok hw]
    dsimp only
    rw [if_neg U.target, exitOf_eq]
  | pfa =>
    refine ⟨0, fun dfuel _ => ⟨fun _ => none, ShortDrg c sol, fun _ => some [],
      fun e => reducePfa_steps (c := { c with errOf := e }) U.nodup U.targets (U.upper rfl) U.closed, fun t n => Iff.rfl, ?_⟩⟩
    intro rnd limit fuel w hw
    unfold methodCalls
    rw [loadModel_ok hw]
    dsimp only
    rw [if_neg U.target, exitOf_eq]
  | drgep =>
    obtain ⟨N, imp, h1, -, h3⟩ := C16_importance (U.unit rfl).1 U.nodup U.targets (U.unit rfl).2
    have hi : ∀ s ∈ sol.names, (imp s).isSome := by
      intro s hs
      obtain ⟨x, hx, -⟩ := h3 s hs
      rw [hx]; rfl
    have hk : ∀ t, ∀ s ∈ sol.names, KeptDrgep c imp t s ↔ Kept .drgep c sol t s := by
      intro t s hs
      obtain ⟨x, hx, hg⟩ := h3 s hs
      exact keptDrgep_iff hx hg t
    refine ⟨N, fun dfuel hd => ⟨imp, ShortDrgep c sol imp, fun _ => none, fun e => ?_, ?_, ?_⟩⟩
    · exact (reduceDrgep_steps (c := { c with errOf := e }) U.nodup hi U.closed).congr hk (by
        rintro t t' s hle (⟨y, hy, hl⟩ | h2)
        · exact Or.inl ⟨y, hy, hle.trans hl⟩
        · exact Or.inr h2)
    · intro t n
      classical
      have hc : candidate c sol (KeptDrgep c imp) t = candidate c sol (Kept .drgep c sol) t := by
        rw [candidate_eq, candidate_eq]
        congr 1
        apply List.filter_congr
        intro s hs
        simp [hk t s hs]
      have hlen := removed_length c sol (KeptDrgep c imp) t
      unfold candSize
      rw [← hc]
      unfold ShortDrgep
      rw [removedDrgep_spec c imp t _ hi]
      constructor
      · rintro ⟨rem, e, h⟩
        simp only [Except.ok.injEq] at e
        rw [← e] at h
        omega
      · intro h
        refine ⟨_, rfl, ?_⟩
        omega
    · intro rnd limit fuel w hw
      unfold methodCalls impAt
      rw [loadModel_ok hw]
      dsimp only
      rw [if_neg U.target, h1 dfuel hd, exitOf_eq]

end Verif
