import Verif.Lemmas.ReduceFiles
/-!
The numbered files one by one, and runs that start from a numbered file.
-/
namespace Verif
open Spec

/-! ### names -/

theorem toString_nat_inj {a b : Nat} (h : (toString a).toList = (toString b).toList) : a = b := by
  rw [Nat.toString_eq_repr, Nat.toString_eq_repr, Nat.toList_repr, Nat.toList_repr] at h
  have := congrArg (fun l => Nat.ofDigitChars 10 l 0) h
  simpa [Nat.ofDigitChars_toDigits] using this

theorem reducedName_inj {a b : Nat} (h : reducedName a = reducedName b) : a = b := by
  unfold reducedName at h
  rw [List.append_assoc, List.append_assoc] at h
  exact toString_nat_inj (List.append_cancel_right (List.append_cancel_left h))

theorem redFile_prefix (c : Ctx) : ∃ p, ∀ n, redFile c n = p ++ reducedName n := by
  have hh : ∀ n, (reducedName n).head? ≠ some '/' := by
    intro n
    unfold reducedName
    simp
  by_cases h1 : c.path = []
  · exact ⟨[], fun n => by unfold redFile joinPath; rw [if_neg (hh n), if_pos h1]; rfl⟩
  · by_cases h2 : c.path.getLast? = some '/'
    · exact ⟨c.path, fun n => by unfold redFile joinPath; rw [if_neg (hh n), if_neg h1, if_pos h2]⟩
    · exact ⟨c.path ++ ['/'], fun n => by
        unfold redFile joinPath; rw [if_neg (hh n), if_neg h1, if_neg h2]; simp⟩

theorem redFile_inj {c : Ctx} {a b : Nat} (h : redFile c a = redFile c b) : a = b := by
  obtain ⟨p, hp⟩ := redFile_prefix c
  rw [hp, hp] at h
  exact reducedName_inj (List.append_cancel_left h)

theorem putFile_same (c : Ctx) (f : Text → Option Mech) (n : Nat) (x : Option Mech) :
    putFile c f n x (redFile c n) = x := by
  unfold putFile; rw [if_pos rfl]

theorem putFile_other (c : Ctx) (f : Text → Option Mech) {n n' : Nat} (h : n' ≠ n) (x : Option Mech) :
    putFile c f n x (redFile c n') = f (redFile c n') := by
  unfold putFile; rw [if_neg (fun e => h (redFile_inj e))]

section
variable {c : Ctx} {sol : Mech} {reduce : ReduceFn} {kept : ℚ → String → Prop}
  {short : ℚ → Nat → Prop} {limbo : ℚ → Option (List String)} {rnd : ℚ → ℚ} {fs : Text → Option Mech}
  {ex : ℚ} {limit : PyF}

/-! ### files of rejected starts -/

theorem afterStart_else {n : Nat} : ∀ {j : Nat},
    (∀ i < j, n ≠ (candidate c sol kept (startThr rnd i)).nSpecies) →
    afterStart c sol kept rnd fs j (redFile c n) = fs (redFile c n)
  | 0, _ => rfl
  | j + 1, h => by
    unfold afterStart
    rw [putFile_other _ _ (h j (by omega)), afterStart_else (fun i hi => h i (by omega))]

theorem afterStart_at (A : ∀ t t' s, t ≤ t' → kept t' s → kept t s) (hn : sol.names.Nodup) {n i : Nat}
    (hin : n = (candidate c sol kept (startThr rnd i)).nSpecies) : ∀ {j : Nat}, i < j →
    afterStart c sol kept rnd fs j (redFile c n) = some (candidate c sol kept (startThr rnd i))
  | j + 1, h => by
    unfold afterStart
    by_cases hj : n = (candidate c sol kept (startThr rnd j)).nSpecies
    · rw [hj, putFile_same, candidate_same_size A hn (hin.symm.trans hj)]
    · rw [putFile_other _ _ hj]
      refine afterStart_at A hn hin (Nat.lt_of_le_of_ne (by omega) ?_)
      rintro rfl
      exact hj hin

/-! ### files of the thresholds above -/

theorem FileSteps.short_size (B : FileSteps c sol reduce kept short limbo) {j i : Nat}
    (hmono : ∀ k, gridThr rnd j k ≤ gridThr rnd j (k + 1))
    (h : short (gridThr rnd j i) (prevSize c sol kept rnd j i)) :
    prevSize c sol kept rnd j i = (candidate c sol kept (gridThr rnd j i)).nSpecies := by
  cases i with
  | zero => exact ((candidate_full_iff _).2 (B.short_full _ h)).symm
  | succ i =>
    have h' : short (gridThr rnd j (i + 1)) (candidate c sol kept (gridThr rnd j i)).nSpecies := h
    have := B.short_prev _ _ (hmono i) h'
    show (candidate c sol kept (gridThr rnd j i)).nSpecies = _
    congr 1
    apply candidate_congr
    intro s hs
    exact ⟨this s hs, B.anti _ _ s (hmono i)⟩

theorem afterGrid_else {n j : Nat} : ∀ {I : Nat},
    (∀ i < I, n ≠ (candidate c sol kept (gridThr rnd j i)).nSpecies) →
    afterGrid c sol kept short rnd fs j I (redFile c n) = afterStart c sol kept rnd fs j (redFile c n)
  | 0, _ => rfl
  | I + 1, h => by
    unfold afterGrid
    dsimp only
    split_ifs <;> first
      | exact afterGrid_else (fun i hi => h i (by omega))
      | (rw [putFile_other _ _ (h I (by omega))]; exact afterGrid_else (fun i hi => h i (by omega)))

theorem afterGrid_at (B : FileSteps c sol reduce kept short limbo) (hn : sol.names.Nodup) {j : Nat}
    (hmono : ∀ k, gridThr rnd j k ≤ gridThr rnd j (k + 1)) {n : Nat} (hf : n ≠ sol.nSpecies) :
    ∀ {I i : Nat}, i < I → n = (candidate c sol kept (gridThr rnd j i)).nSpecies →
      afterGrid c sol kept short rnd fs j I (redFile c n) = none ∨
      afterGrid c sol kept short rnd fs j I (redFile c n) = some (candidate c sol kept (gridThr rnd j i))
  | I + 1, i, hi, hin => by
    unfold afterGrid
    dsimp only
    by_cases hI : n = (candidate c sol kept (gridThr rnd j I)).nSpecies
    · by_cases hs : short (gridThr rnd j I) (prevSize c sol kept rnd j I)
      · rw [if_pos hs]
        have hp := B.short_size hmono hs
        cases I with
        | zero => exact absurd (hI.trans hp.symm) hf
        | succ I =>
          have hp' : n = (candidate c sol kept (gridThr rnd j I)).nSpecies := hI.trans hp.symm
          rw [candidate_same_size B.anti hn (hin.symm.trans hp')]
          exact afterGrid_at B hn hmono hf (Nat.lt_succ_self I) hp'
      · rw [if_neg hs, hI, putFile_same, candidate_same_size B.anti hn (hin.symm.trans hI)]
        split_ifs
        · exact Or.inr rfl
        · exact Or.inl rfl
    · have hi' : i < I := Nat.lt_of_le_of_ne (by omega) (by rintro rfl; exact hI hin)
      split_ifs <;> first
        | exact afterGrid_at B hn hmono hf hi' hin
        | (rw [putFile_other _ _ hI]; exact afterGrid_at B hn hmono hf hi' hin)

/-- sizes along the grid do not grow -/
theorem grid_size_anti (A : ∀ t t' s, t ≤ t' → kept t' s → kept t s) {j : Nat}
    (hmono : ∀ k, gridThr rnd j k ≤ gridThr rnd j (k + 1)) {i i' : Nat} (h : i ≤ i') :
    (candidate c sol kept (gridThr rnd j i')).nSpecies ≤ (candidate c sol kept (gridThr rnd j i)).nSpecies :=
  candidate_size_anti A (monotone_nat_of_le_succ hmono h)

theorem prevSize_of_le (A : ∀ t t' s, t ≤ t' → kept t' s → kept t s) {j : Nat}
    (hmono : ∀ k, gridThr rnd j k ≤ gridThr rnd j (k + 1)) (i : Nat) :
    (candidate c sol kept (gridThr rnd j i)).nSpecies ≤ prevSize c sol kept rnd j i := by
  cases i with
  | zero => exact candidate_le _
  | succ i => exact grid_size_anti A hmono (Nat.le_succ i)

theorem afterGrid_clean (B : FileSteps c sol reduce kept short limbo) {j : Nat}
    (hmono : ∀ k, gridThr rnd j k ≤ gridThr rnd j (k + 1)) {n : Nat} (hf : n ≠ sol.nSpecies) :
    ∀ {I : Nat}, (∀ i < I, prevSize c sol kept rnd j i = (candidate c sol kept (gridThr rnd j i)).nSpecies →
        short (gridThr rnd j i) (prevSize c sol kept rnd j i)) → ∀ {i : Nat}, i < I →
      n = (candidate c sol kept (gridThr rnd j i)).nSpecies →
      afterGrid c sol kept short rnd fs j I (redFile c n) = none
  | I + 1, hx, i, hi, hin => by
    unfold afterGrid
    dsimp only
    have hx' := fun i (hi : i < I) => hx i (by omega)
    by_cases hI : n = (candidate c sol kept (gridThr rnd j I)).nSpecies
    · by_cases hs : short (gridThr rnd j I) (prevSize c sol kept rnd j I)
      · rw [if_pos hs]
        have hp := B.short_size hmono hs
        cases I with
        | zero => exact absurd (hI.trans hp.symm) hf
        | succ I =>
          have hp' : n = (candidate c sol kept (gridThr rnd j I)).nSpecies := hI.trans hp.symm
          exact afterGrid_clean B hmono hf hx' (Nat.lt_succ_self I) hp'
      · rw [if_neg hs, hI, putFile_same, if_neg (fun h => hs (hx I (by omega) h))]
    · have hi' : i < I := Nat.lt_of_le_of_ne (by omega) (by rintro rfl; exact hI hin)
      split_ifs <;> first
        | exact afterGrid_clean B hmono hf hx' hi' hin
        | (rw [putFile_other _ _ hI]; exact afterGrid_clean B hmono hf hx' hi' hin)

theorem afterGrid_full (B : FileSteps c sol reduce kept short limbo) {j : Nat}
    (hmono : ∀ k, gridThr rnd j k ≤ gridThr rnd j (k + 1)) :
    ∀ {I : Nat}, (∀ i < I, prevSize c sol kept rnd j i = (candidate c sol kept (gridThr rnd j i)).nSpecies →
        short (gridThr rnd j i) (prevSize c sol kept rnd j i)) →
      afterGrid c sol kept short rnd fs j I (redFile c sol.nSpecies) =
        afterStart c sol kept rnd fs j (redFile c sol.nSpecies)
  | 0, _ => rfl
  | I + 1, hx => by
    unfold afterGrid
    dsimp only
    have ih := afterGrid_full B hmono (I := I) (fun i hi => hx i (by omega))
    by_cases hI : sol.nSpecies = (candidate c sol kept (gridThr rnd j I)).nSpecies
    · rw [if_pos]
      · exact ih
      · apply hx I (by omega)
        have h1 := prevSize_of_le (c := c) (sol := sol) B.anti hmono I
        have h2 : prevSize c sol kept rnd j I ≤ sol.nSpecies := by
          cases I with
          | zero => exact le_refl _
          | succ I => exact candidate_le _
        omega
    · split_ifs <;> first
        | exact ih
        | (rw [putFile_other _ _ hI]; exact ih)

/-- a candidate rebuilt although it has the size of the previous one is left behind -/
theorem afterGrid_stray (B : FileSteps c sol reduce kept short limbo) (hn : sol.names.Nodup) {j i : Nat}
    (hmono : ∀ k, gridThr rnd j k ≤ gridThr rnd j (k + 1))
    (hs : ¬ short (gridThr rnd j i) (prevSize c sol kept rnd j i))
    (hp : prevSize c sol kept rnd j i = (candidate c sol kept (gridThr rnd j i)).nSpecies) :
    ∀ {I : Nat}, i < I → afterGrid c sol kept short rnd fs j I
      (redFile c (candidate c sol kept (gridThr rnd j i)).nSpecies) =
        some (candidate c sol kept (gridThr rnd j i))
  | I + 1, hi => by
    unfold afterGrid
    dsimp only
    rcases Nat.lt_or_eq_of_le (Nat.le_of_lt_succ hi) with hi | rfl
    · have ih := afterGrid_stray B hn hmono hs hp hi
      by_cases hI : (candidate c sol kept (gridThr rnd j i)).nSpecies =
          (candidate c sol kept (gridThr rnd j I)).nSpecies
      · split_ifs with h1 h2
        · exact ih
        · rw [hI, putFile_same, candidate_same_size B.anti hn hI]
        · exfalso
          apply h2
          cases I with
          | zero => omega
          | succ I =>
            show (candidate c sol kept (gridThr rnd j I)).nSpecies = _
            have h3 : (candidate c sol kept (gridThr rnd j (I + 1))).nSpecies ≤
              (candidate c sol kept (gridThr rnd j I)).nSpecies := grid_size_anti B.anti hmono (Nat.le_succ I)
            have h4 : (candidate c sol kept (gridThr rnd j I)).nSpecies ≤
              (candidate c sol kept (gridThr rnd j i)).nSpecies := grid_size_anti B.anti hmono (by omega)
            omega
      · split_ifs <;> first
          | exact ih
          | (rw [putFile_other _ _ hI]; exact ih)
    · rw [if_neg hs, putFile_same, if_pos hp]

/-! ### reaching a threshold -/

theorem files_reach1 (B : FileSteps c sol reduce kept short limbo) (hl : LimitOk c sol limit) {w : World}
    (hw : w.fs c.modelFile = some sol) : ∀ {j : Nat},
    (∀ i < j, Exceeds c sol kept limit (startThr rnd i)) → (∀ i ≤ j, i ≠ 0 → ¬ startThr rnd i ≤ ex) →
    (∀ i < j, redFile c (candidate c sol kept (startThr rnd i)).nSpecies = c.modelFile →
      (candidate c sol kept (startThr rnd i)).nSpecies = sol.nSpecies) →
    ∃ s, Files1 c sol kept rnd w.fs j s ∧ ∀ m,
      whileLoop reduce rnd ex limit (j + m) (loopInit rnd sol c.modelFile w) = whileLoop reduce rnd ex limit m s
  | 0, _, _, _ => ⟨_, ⟨rfl, rfl, rfl, rfl, rfl, rfl, ⟨sol.name, sol.thermo, Or.inl rfl, hw⟩, rfl⟩, fun m => by rw [Nat.zero_add]⟩
  | j + 1, h1, h2, h3 => by
    obtain ⟨s, f, e⟩ := files_reach1 B hl hw (j := j) (fun i hi => h1 i (by omega))
      (fun i hi => h2 i (by omega)) (fun i hi => h3 i (by omega))
    obtain ⟨s', e', f'⟩ := (files1_reject (ex := ex) B hl f (h1 j (by omega)) (h3 j (by omega))).2
      (h2 (j + 1) (le_refl _) (by omega))
    exact ⟨s', f', fun m => by rw [show j + 1 + m = j + (1 + m) by omega, e, whileLoop_one e']⟩

theorem files_reach2 (B : FileSteps c sol reduce kept short limbo) (hl : LimitOk c sol limit)
    (hmono : ∀ j k, gridThr rnd j k ≤ gridThr rnd j (k + 1)) {w : World}
    (hw : w.fs c.modelFile = some sol) {j : Nat}
    (h1 : ∀ i < j, Exceeds c sol kept limit (startThr rnd i)) (h2 : ∀ i ≤ j, i ≠ 0 → ¬ startThr rnd i ≤ ex)
    (n1 : ∀ i < j, redFile c (candidate c sol kept (startThr rnd i)).nSpecies = c.modelFile →
      (candidate c sol kept (startThr rnd i)).nSpecies = sol.nSpecies)
    (h3 : ¬ Exceeds c sol kept limit (startThr rnd j)) : ∀ {k : Nat},
    (∀ i < k, Meets c sol kept limit (gridThr rnd j i)) →
    (∀ i ≤ k, redFile c (candidate c sol kept (gridThr rnd j i)).nSpecies = c.modelFile →
      (candidate c sol kept (gridThr rnd j i)).nSpecies = sol.nSpecies) →
    ∃ s, Files2 c sol kept short rnd w.fs j k s ∧ ∀ m,
      whileLoop reduce rnd ex limit (j + 1 + k + m) (loopInit rnd sol c.modelFile w) =
        whileLoop reduce rnd ex limit m s
  | 0, _, n2 => by
    obtain ⟨s, f, e⟩ := files_reach1 (ex := ex) B hl hw h1 h2 n1
    obtain ⟨s', e', f'⟩ := files1_accept (ex := ex) (short := short) B hl f h3 (n2 0 (le_refl _))
    exact ⟨s', f', fun m => by rw [show j + 1 + 0 + m = j + (1 + m) by omega, e, whileLoop_one e']⟩
  | k + 1, h4, n2 => by
    obtain ⟨s, f, e⟩ := files_reach2 B hl hmono hw h1 h2 n1 h3 (k := k) (fun i hi => h4 i (by omega))
      (fun i hi => n2 i (by omega))
    obtain ⟨s', e', f'⟩ := files2_accept (ex := ex) B hl (hmono j k) f (h4 k (by omega)) (n2 (k + 1) (le_refl _))
    exact ⟨s', f', fun m => by
      rw [show j + 1 + (k + 1) + m = j + 1 + k + (1 + m) by omega, e, whileLoop_one e']⟩

/-- a run that has gone past the limit has ended -/
theorem files_stops (B : FileSteps c sol reduce kept short limbo) (hl : LimitOk c sol limit)
    (hmono : ∀ j k, gridThr rnd j k ≤ gridThr rnd j (k + 1))
    (hnm : ∀ n, redFile c n = c.modelFile → n = sol.nSpecies) {w : World}
    (hw : w.fs c.modelFile = some sol) {j k : Nat}
    (h1 : ∀ i < j, Exceeds c sol kept limit (startThr rnd i)) (h2 : ∀ i ≤ j, i ≠ 0 → ¬ startThr rnd i ≤ ex)
    (h4 : ∀ i ≤ k, Meets c sol kept limit (gridThr rnd j i))
    (h5 : Exceeds c sol kept limit (gridThr rnd j (k + 1)))
    {finish : LoopState → Except Err RModel × World} (hf : FinishOk reduce limit rnd c.path finish)
    {fuel : Nat} (hfu : fuel ≥ j + k + 3) :
    ∃ r, (runWith reduce finish rnd ex limit fuel (loopInit rnd sol c.modelFile w)).1 = some (.ok r) := by
  obtain ⟨s, f, e⟩ := files_reach2 (ex := ex) B hl hmono hw h1 h2 (fun i _ => hnm _)
    (Spec.Meets.not_exceeds (h4 0 (by omega))) (k := k + 1) (fun i hi => h4 i (by omega)) (fun i _ => hnm _)
  obtain ⟨m, rfl⟩ : ∃ m, fuel = j + 1 + (k + 1) + (m + 1) := ⟨fuel - (j + k + 3), by omega⟩
  unfold runWith
  rw [e]
  unfold whileLoop
  rw [files2_left (reduce := reduce) (ex := ex) hl f (fun hm => Spec.Meets.not_exceeds hm h5)]
  dsimp only
  rw [(hf s f.last f.errCur).1 ((f.rep.lt_iff hl).2 h5), B.fresh _ _ f.there]
  exact ⟨_, rfl⟩

/-- an accepted candidate that is written over the model file -/
theorem lost_step (B : FileSteps c sol reduce kept short limbo) {j i : Nat} {s : LoopState}
    (hmono : ∀ k, gridThr rnd j k ≤ gridThr rnd j (k + 1))
    (hle : s.errCur.le limit = true) (hthr : s.thr = gridThr rnd j i)
    (hp : PrevOk c sol kept s.prev (gridThr rnd j i)) (hps : s.prev.model.nSpecies = prevSize c sol kept rnd j i)
    (hw : StillThere c sol s.w)
    (hne : prevSize c sol kept rnd j i ≠ (candidate c sol kept (gridThr rnd j i)).nSpecies)
    (hfile : redFile c (candidate c sol kept (gridThr rnd j i)).nSpecies = c.modelFile)
    (hno : ∀ r, Rep c sol kept r (gridThr rnd j i) → (s.first && limit.lt r.error) = false) :
    ∃ s', loopStep reduce rnd ex limit s = .running s' ∧ s'.w.fs c.modelFile = none ∧
      s'.errCur = s'.prev.error ∧ s'.last = some s'.prev ∧ Rep c sol kept s'.prev (gridThr rnd j i) := by
  have hs : ¬ short (gridThr rnd j i) (prevSize c sol kept rnd j i) := fun h => hne (B.short_size hmono h)
  rw [← hps] at hs hne
  rw [← hthr] at hs hne hfile hno hp ⊢
  have e := (B.step hp hw).2 hs
  have hr : Rep c sol kept (freshResult c sol kept limbo s.thr) s.thr := Or.inl ⟨rfl, rfl⟩
  refine ⟨{ first := false, errCur := (freshResult c sol kept limbo s.thr).error,
            thr := rnd (s.thr + s.inc), inc := s.inc, prev := freshResult c sol kept limbo s.thr,
            last := some (freshResult c sol kept limbo s.thr),
            w := (s.w.set (redFile c (candidate c sol kept s.thr).nSpecies)
              (some (candidate c sol kept s.thr))).set (redFile c (candidate c sol kept s.thr).nSpecies) none },
            ?_, ?_, rfl, rfl, hr⟩
  · unfold loopStep
    rw [if_pos hle, e]
    dsimp only
    rw [hno _ hr, if_neg (by simp),
      if_pos (show s.prev.model.nSpecies ≠ (freshResult c sol kept limbo s.thr).model.nSpecies from hne)]
    have : removeFile (s.w.set (redFile c (candidate c sol kept s.thr).nSpecies)
        (some (candidate c sol kept s.thr))) (freshResult c sol kept limbo s.thr).filename = (.ok (),
        (s.w.set (redFile c (candidate c sol kept s.thr).nSpecies)
        (some (candidate c sol kept s.thr))).set (redFile c (candidate c sol kept s.thr).nSpecies) none) := by
      rw [removeFile, if_pos (by simp [freshResult])]
      rfl
    rw [this]
  · dsimp only
    rw [hfile]
    simp [World.set]

theorem files_lost (B : FileSteps c sol reduce kept short limbo) (hl : LimitOk c sol limit)
    (hmono : ∀ j k, gridThr rnd j k ≤ gridThr rnd j (k + 1)) {w : World}
    (hw : w.fs c.modelFile = some sol) {j k : Nat}
    (h1 : ∀ i < j, Exceeds c sol kept limit (startThr rnd i)) (h2 : ∀ i ≤ j, i ≠ 0 → ¬ startThr rnd i ≤ ex)
    (n1 : ∀ i < j, redFile c (candidate c sol kept (startThr rnd i)).nSpecies ≠ c.modelFile)
    (h3 : ∀ i < k, Meets c sol kept limit (gridThr rnd j i))
    (n2 : ∀ i < k, redFile c (candidate c sol kept (gridThr rnd j i)).nSpecies ≠ c.modelFile)
    (h4 : Meets c sol kept limit (gridThr rnd j k) ∨ k ≠ 0 ∧ Exceeds c sol kept limit (gridThr rnd j k))
    (n3 : redFile c (candidate c sol kept (gridThr rnd j k)).nSpecies = c.modelFile)
    (n4 : (candidate c sol kept (gridThr rnd j k)).nSpecies ≠ sol.nSpecies)
    {finish : LoopState → Except Err RModel × World} (hf : FinishOk reduce limit rnd c.path finish)
    {fuel : Nat} (hfu : fuel ≥ j + k + 2) :
    ∃ w', runWith reduce finish rnd ex limit fuel (loopInit rnd sol c.modelFile w) =
      (some (.error .runtimeError), w') ∧ w'.fs c.modelFile = none := by
  have hstep : ∃ s', (∀ m, whileLoop reduce rnd ex limit (j + k + (1 + m)) (loopInit rnd sol c.modelFile w) =
        whileLoop reduce rnd ex limit m s') ∧ s'.w.fs c.modelFile = none ∧ s'.errCur = s'.prev.error ∧
      s'.last = some s'.prev ∧ Rep c sol kept s'.prev (gridThr rnd j k) := by
    cases k with
    | zero =>
      have hm : Meets c sol kept limit (gridThr rnd j 0) := h4.elim id (fun h => absurd rfl h.1)
      obtain ⟨s, f, e⟩ := files_reach1 (ex := ex) B hl hw h1 h2 (fun i hi h => absurd h (n1 i hi))
      obtain ⟨s', a1, a2⟩ := lost_step (ex := ex) (limit := limit) (i := 0) B (hmono j)
        (by rw [f.errCur]; exact hl.nonneg) f.thr (Or.inr ⟨f.prevm, f.preve⟩) (by rw [f.prevm]; rfl) f.there
        (Ne.symm n4) n3 (by
          intro r hr
          rw [Bool.and_eq_false_iff]
          right
          rw [← Bool.not_eq_true, hr.lt_iff hl]
          exact Spec.Meets.not_exceeds hm)
      exact ⟨s', fun m => by rw [Nat.add_zero, e, whileLoop_one a1], a2⟩
    | succ k =>
      obtain ⟨s, f, e⟩ := files_reach2 (ex := ex) B hl hmono hw h1 h2 (fun i hi h => absurd h (n1 i hi))
        (Spec.Meets.not_exceeds (h3 0 (by omega))) (k := k) (fun i hi => h3 i (by omega))
        (fun i hi h => absurd h (n2 i (by omega)))
      have hne : prevSize c sol kept rnd j (k + 1) ≠ (candidate c sol kept (gridThr rnd j (k + 1))).nSpecies := by
        intro h
        have h : (candidate c sol kept (gridThr rnd j k)).nSpecies = _ := h
        rw [← h] at n3
        exact n2 k (by omega) n3
      obtain ⟨s', a1, a2⟩ := lost_step (ex := ex) (limit := limit) (i := k + 1) B (hmono j)
        (by rw [f.errCur]; exact (f.rep.le_iff hl).2 (h3 k (by omega))) f.thr (f.rep.prevOk (hmono j k))
        (by rw [f.rep.size]; rfl) f.there hne n3 (by intro r hr; rw [f.first]; rfl)
      exact ⟨s', fun m => by
        rw [show j + (k + 1) + (1 + m) = j + 1 + k + (1 + m) by omega, e, whileLoop_one a1], a2⟩
  obtain ⟨s', e, a1, a2, a3, a4⟩ := hstep
  obtain ⟨m, rfl⟩ : ∃ m, fuel = j + k + (1 + (m + 1)) := ⟨fuel - (j + k + 2), by omega⟩
  refine ⟨s'.w, ?_, a1⟩
  unfold runWith
  rw [e]
  unfold whileLoop loopStep
  by_cases hm : s'.errCur.le limit = true
  · rw [if_pos hm, B.missing _ _ _ a1]
  · rw [if_neg hm]
    dsimp only
    have hx : Exceeds c sol kept limit (gridThr rnd j k) := by
      rcases h4 with h | h
      · exact absurd ((a4.le_iff hl).2 h) (by rw [← a2]; exact hm)
      · exact h.2
    rw [(hf s' a3 a2).1 ((a4.lt_iff hl).2 hx), B.missing _ _ _ a1]

end

theorem FilesEnd.congr {c : Ctx} {sol : Mech} {kept : ℚ → String → Prop} {short : ℚ → Nat → Prop}
    {limbo : ℚ → Option (List String)} {rnd : ℚ → ℚ} {ex : ℚ} {limit : PyF} {fs : Text → Option Mech}
    {x y : RunResult} (h : FilesEnd c sol kept short limbo rnd ex limit fs x) (h1 : y.1 = x.1)
    (h2 : y.2.fs = x.2.fs) : FilesEnd c sol kept short limbo rnd ex limit fs y := by
  obtain ⟨y1, y2⟩ := y
  dsimp only at h1 h2
  subst h1
  cases h with
  | running w => exact .running _
  | exit j w a b hw => exact .exit j _ a b (h2.trans hw)
  | done j k w a b d e hs hw =>
    refine .done j k _ a b d e ?_ (h2.trans hw)
    obtain ⟨x, hx⟩ := hs
    exact ⟨x, by rw [h2]; exact hx⟩
  | undefined j k w => exact .undefined j k _

theorem Spec.Went.unique {m : Method} {c : Ctx} {sol : Mech} {limit : PyF} {rnd : ℚ → ℚ} {j k j' k' : Nat}
    (h : Went m c sol limit rnd j k) (h' : Went m c sol limit rnd j' k') : j = j' ∧ k = k' := by
  have key : ∀ {j k j' k' : Nat}, Went m c sol limit rnd j k → Went m c sol limit rnd j' k' → ¬ j < j' :=
    fun a b hlt => Spec.Meets.not_exceeds (a.accepted 0 (Nat.zero_le _)) (b.rejected _ hlt)
  have hj : j = j' := by
    have h1 := key h h'
    have h2 := key h' h
    omega
  subst hj
  have key : ∀ {k k' : Nat}, Went m c sol limit rnd j k → Went m c sol limit rnd j k' → ¬ k < k' :=
    fun a b hlt => Spec.Meets.not_exceeds (b.accepted _ hlt) a.stop
  have h1 := key h h'
  have h2 := key h' h
  exact ⟨rfl, by omega⟩

/-- every run of a method, files included -/
theorem method_files {m : Method} {c : Ctx} {sol : Mech} (U : StartAgain m c sol) {limit : PyF}
    (hl : LimitOk c sol limit) (a : Arith) :
    ∃ N, ∀ dfuel ≥ N, ∃ reduce short limbo, FileSteps c sol reduce (Kept m c sol) short limbo ∧
      ReusedAt m c sol short ∧ (∀ fuel w, w.fs c.modelFile = some sol →
        FilesEnd c sol (Kept m c sol) short limbo a.rnd (exitThr m a.rnd) limit w.fs
          (runMethod m c a.rnd limit dfuel fuel w)) ∧
      ∀ {j k fuel : Nat} {w : World}, w.fs c.modelFile = some sol → j ≤ lastStart m a →
        Went m c sol limit a.rnd j k → fuel ≥ j + k + 3 →
        ∃ r, (runMethod m c a.rnd limit dfuel fuel w).1 = some (.ok r) := by
  obtain ⟨N, hN⟩ := method_isFileRun U.toAnyStart
  refine ⟨N, fun dfuel hd => ?_⟩
  obtain ⟨reduce, finish, short, limbo, R⟩ := hN dfuel hd
  refine ⟨reduce, short, limbo, R.steps, R.reused, fun fuel w hw => ?_, fun hw hj W hfu => ?_⟩
  · obtain ⟨e1, e2⟩ := R.eq U.named a.rnd limit hl (gridThr_mono a.ok) fuel w hw
    exact (files_end R.steps hl U.named (gridThr_mono a.ok) (R.finishOk a.rnd limit) fuel hw).congr e1 e2
  · rw [(R.eq U.named a.rnd limit hl (gridThr_mono a.ok) _ _ hw).1]
    exact files_stops R.steps hl (gridThr_mono a.ok) U.named hw W.rejected
      (fun i hi => (exit_facts m a).1 i (by omega)) W.accepted W.stop (R.finishOk a.rnd limit) hfu

theorem reused_of_noExtra {m : Method} {c : Ctx} {sol : Mech} (U : AnyStart m c sol) {short : ℚ → Nat → Prop}
    (R : ReusedAt m c sol short) {t : ℚ} (hx : NoExtra m c sol t) {n : Nat} (hn : n = candSize m c sol t) :
    short t n := by
  subst hn
  have key : ∀ m : Method, (∀ t n, short t n ↔ ∃ ret, retained c.matrices sol.names c.targets t = .ok ret ∧
      ret.length = n) → (∀ s ∈ c.safe, s ∈ sol.names → ∃ M ∈ c.matrices, Linked M sol.names c.targets t s) →
      short t (candidate c sol (KeptDrg c sol) t).nSpecies := by
    intro m R hx
    obtain ⟨l, e1, e2, e3⟩ := retained_spec t U.nodup U.targets c.matrices
    rw [R]
    refine ⟨l, e1, ?_⟩
    rw [Mech.nSpecies_eq]
    apply List.Perm.length_eq
    rw [List.perm_ext_iff_of_nodup e2 (candidate_names_nodup _ _ U.nodup)]
    intro s
    rw [e3, mem_candidate_names]
    constructor
    · rintro ⟨M, hM, hs⟩
      exact ⟨hs.mem U.targets, Or.inl ⟨M, hM, hs⟩⟩
    · rintro ⟨hs, hk | hk⟩
      · exact hk
      · exact hx s hk hs
  rcases hx with rfl | hx
  · exact (R t _).2 rfl
  · cases m with
    | drgep => exact (R t _).2 rfl
    | drg => exact key .drg R hx
    | pfa => exact key .pfa R hx

theorem not_reused_of_extra {m : Method} {c : Ctx} {sol : Mech} (U : AnyStart m c sol) {short : ℚ → Nat → Prop}
    (R : ReusedAt m c sol short) {t : ℚ} (hx : ¬ NoExtra m c sol t) {n : Nat} (hn : n = candSize m c sol t) :
    ¬ short t n := by
  subst hn
  have key : (∀ t n, short t n ↔ ∃ ret, retained c.matrices sol.names c.targets t = .ok ret ∧
      ret.length = n) → (¬ ∀ s ∈ c.safe, s ∈ sol.names → ∃ M ∈ c.matrices, Linked M sol.names c.targets t s) →
      ¬ short t (candidate c sol (KeptDrg c sol) t).nSpecies := by
    intro R hx h
    obtain ⟨l, e1, e2, e3⟩ := retained_spec t U.nodup U.targets c.matrices
    rw [R] at h
    obtain ⟨ret, h1, h2⟩ := h
    obtain rfl : ret = l := by rw [h1] at e1; cases e1; rfl
    apply hx
    intro s hs hsn
    have hsub : ret ⊆ (candidate c sol (KeptDrg c sol) t).names := by
      intro s hs
      obtain ⟨M, hM, hl⟩ := (e3 s).1 hs
      exact mem_candidate_names.2 ⟨hl.mem U.targets, Or.inl ⟨M, hM, hl⟩⟩
    have := subset_of_length e2 hsub (by rw [h2, Mech.nSpecies_eq])
    exact (e3 s).1 (this (mem_candidate_names.2 ⟨hsn, Or.inr hs⟩))
  cases m with
  | drgep => exact absurd (Or.inl rfl) hx
  | drg => exact key R (fun h => hx (Or.inr h))
  | pfa => exact key R (fun h => hx (Or.inr h))

theorem Spec.Usable.startAgain {m : Method} {c : Ctx} {sol : Mech} (U : Usable m c sol) (h : Closed sol) :
    StartAgain m c sol :=
  ⟨⟨U.nodup, U.targets, U.target, U.unit, U.upper, h⟩, fun n hn => absurd hn (U.noclash n)⟩

end Verif
