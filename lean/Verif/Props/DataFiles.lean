import Verif.Model.DataFiles
import Verif.Props.Simulation
import Verif.Lemmas.Concurrent
import Verif.Lemmas.NumberedFiles
/-!
# C142: the data files of simulations
-/
namespace Verif
open Verif.Spec

variable {ι : Type} [DecidableEq ι] {α : Type}

theorem DataDir.put_same (d : DataDir) (f : Text) (c : Option (List Point)) : d.put f c f = c := by
  unfold DataDir.put; rw [if_pos rfl]

theorem DataDir.put_other (d : DataDir) {f g : Text} (c : Option (List Point)) (h : g ≠ f) : d.put f c g = d g := by
  unfold DataDir.put; rw [if_neg h]

/-- the program works on one file only -/
inductive OneFile (f : Text) : DProg α → Prop
  | done (a : α) : OneFile f (.done a)
  | write {pts : List Point} {k : DProg α} : OneFile f k → OneFile f (.write f pts k)
  | read {k : Option (List Point) → DProg α} : (∀ o, OneFile f (k o)) → OneFile f (.read f k)
  | remove {k : DProg α} : OneFile f k → OneFile f (.remove f k)

theorem OneFile.step {f : Text} {p : DProg α} (h : OneFile f p) (d : DataDir) : OneFile f (p.step d).1 := by
  cases h with
  | done => exact .done _
  | write h => exact h
  | read h => exact h _
  | remove h => exact h

theorem OneFile.step_other {f g : Text} {p : DProg α} (h : OneFile f p) (d : DataDir) (hg : g ≠ f) : (p.step d).2 g = d g := by
  cases h with
  | done => rfl
  | read h => rfl
  | write h => exact d.put_other _ hg
  | remove h => exact d.put_other _ hg

theorem OneFile.step_local {f : Text} {p : DProg α} (h : OneFile f p) {d d' : DataDir} (hd : d f = d' f) :
    (p.step d).1 = (p.step d').1 ∧ (p.step d).2 f = (p.step d').2 f := by
  cases h with
  | done => exact ⟨rfl, hd⟩
  | write h => exact ⟨rfl, by simp only [DProg.step, DataDir.put_same]⟩
  | read h => simp only [DProg.step]; rw [hd]; exact ⟨rfl, rfl⟩
  | remove h => exact ⟨rfl, by simp only [DProg.step, DataDir.put_same]⟩

/-- `n` operations of one program -/
def stepsOf : Nat → DProg α → DataDir → DProg α × DataDir
  | 0, p, d => (p, d)
  | n + 1, p, d => stepsOf n (p.step d).1 (p.step d).2

theorem stepsOf_local {f : Text} (n : Nat) {p : DProg α} (h : OneFile f p) {d d' : DataDir} (hd : d f = d' f) :
    (stepsOf n p d).1 = (stepsOf n p d').1 ∧ (stepsOf n p d).2 f = (stepsOf n p d').2 f := by
  induction n generalizing p d d' with
  | zero => exact ⟨rfl, hd⟩
  | succ n ih =>
    obtain ⟨h1, h2⟩ := h.step_local hd
    unfold stepsOf
    rw [← h1]
    exact ih (h.step d) h2

/-- processes with different files do not notice each other -/
theorem together_apart {file : ι → Text} (hinj : ∀ i j, file i = file j → i = j) (l : List ι) {ps : ι → DProg α}
    (hps : ∀ i, OneFile (file i) (ps i)) (d : DataDir) :
    (∀ i, (together l ps d).1 i = (stepsOf (l.count i) (ps i) d).1 ∧
      (together l ps d).2 (file i) = (stepsOf (l.count i) (ps i) d).2 (file i)) ∧
    ∀ f, (∀ i, f ≠ file i) → (together l ps d).2 f = d f := by
  induction l generalizing ps d with
  | nil => exact ⟨fun i => ⟨rfl, rfl⟩, fun f _ => rfl⟩
  | cons a l ih =>
    unfold together
    have hps' : ∀ i, OneFile (file i) ((fun j => if j = a then ((ps a).step d).1 else ps j) i) := by
      intro i
      dsimp only
      split
      · rename_i h; subst h; exact (hps i).step d
      · exact hps i
    obtain ⟨h1, h2⟩ := ih hps' ((ps a).step d).2
    refine ⟨fun i => ?_, fun f hf => (h2 f hf).trans ((hps a).step_other d (hf a))⟩
    obtain ⟨h3, h4⟩ := h1 i
    rw [h3, h4]
    by_cases h : i = a
    · subst h
      rw [if_pos rfl, List.count_cons_self]
      exact ⟨rfl, rfl⟩
    · rw [if_neg h, List.count_cons_of_ne (Ne.symm h)]
      exact stepsOf_local _ (hps i) ((hps a).step_other d (fun e => h (hinj _ _ e)))

theorem afterRun_oneFile (rnd : ℚ → ℚ) (file : Text) (r : IgnRun) : OneFile file (afterRun rnd file r) := by
  unfold afterRun
  obtain ⟨res, f⟩ := r
  have hrest : ∀ res : Except Err PyF, OneFile file (match res with
      | .error e => DProg.done (.error e)
      | .ok _ => .read file fun o =>
        match ignProcess rnd o with
        | .error e => .done (.error e)
        | .ok (t, rows) => .remove file (.done (Except.ok ([t], rows)))) := by
    intro res
    cases res with
    | error e => exact .done _
    | ok v =>
      refine .read fun o => ?_
      cases ignProcess rnd o with
      | error e => exact .done _
      | ok x => exact .remove (.done _)
  cases f with
  | none => exact hrest res
  | some pts => exact .write (hrest res)

theorem stepsOf_done (n : Nat) (a : α) (d : DataDir) : stepsOf n (.done a) d = (.done a, d) := by
  induction n with
  | zero => rfl
  | succ n ih => exact ih

/-- a successful integration has written its file -/
theorem runCase_file {p : IgnProps} {R : Reactor} {stop : Bool} {fuel : Nat} {v : PyF} {f : Option (List Point)}
    (h : ignRunCase p R stop fuel = some ⟨.ok v, f⟩) : ∃ pts, f = some pts := by
  unfold ignRunCase at h
  dsimp only at h
  split at h
  · cases h
  · cases h
  · split at h
    · cases h
    · cases h; exact ⟨_, rfl⟩

/-- a case by itself: the result of `ignition_sample_worker`, and the file it leaves -/
theorem afterRun_alone {rnd : ℚ → ℚ} {p : IgnProps} {R : Reactor} {fuel : Nat} {r : IgnRun} (h : ignRunCase p R false fuel = some r)
    (file : Text) (d : DataDir) :
    ∃ a left, ignSampleWorker rnd p R fuel = some (a, left) ∧ ∃ n ≤ 3, (stepsOf n (afterRun rnd file r) d).1 = .done a ∧
      (stepsOf n (afterRun rnd file r) d).2 file = (match a with | .ok _ => none | .error _ => left.or (d file)) := by
  obtain ⟨res, f⟩ := r
  unfold ignSampleWorker
  rw [h]
  cases res with
  | error e =>
    refine ⟨.error e, f, rfl, ?_⟩
    cases f with
    | none => exact ⟨0, by omega, rfl, rfl⟩
    | some pts => exact ⟨1, by omega, rfl, DataDir.put_same _ _ _⟩
  | ok v =>
    obtain ⟨pts, rfl⟩ := runCase_file h
    dsimp only
    cases hp : ignProcess rnd (some pts) with
    | error e =>
      refine ⟨.error e, some pts, rfl, 2, by omega, ?_⟩
      simp only [afterRun, stepsOf, DProg.step, DataDir.put_same, hp]
      exact ⟨trivial, rfl⟩
    | ok x =>
      obtain ⟨t, rows⟩ := x
      refine ⟨.ok ([t], rows), none, rfl, 3, by omega, ?_⟩
      simp only [afterRun, stepsOf, DProg.step, DataDir.put_same, hp]
      exact ⟨trivial, trivial⟩

theorem stepsOf_add (n m : Nat) (p : DProg α) (d : DataDir) :
    stepsOf (n + m) p d = stepsOf m (stepsOf n p d).1 (stepsOf n p d).2 := by
  induction n generalizing p d with
  | zero => rw [Nat.zero_add]; rfl
  | succ n ih => rw [Nat.add_right_comm]; exact ih _ _

theorem stepsOf_end {n m : Nat} {p : DProg α} {d : DataDir} {a b : α} (h : (stepsOf n p d).1 = .done a)
    (h' : (stepsOf m p d).1 = .done b) : a = b ∧ (stepsOf n p d).2 = (stepsOf m p d).2 := by
  have key : ∀ {n m : Nat} {a b : α}, n ≤ m → (stepsOf n p d).1 = .done a → (stepsOf m p d).1 = .done b →
      a = b ∧ (stepsOf n p d).2 = (stepsOf m p d).2 := by
    intro n m a b hnm h h'
    obtain ⟨k, rfl⟩ := Nat.exists_eq_add_of_le hnm
    rw [stepsOf_add, h, stepsOf_done] at h' ⊢
    exact ⟨DProg.done.inj h', rfl⟩
  rcases Nat.le_total n m with hl | hl
  · exact key hl h h'
  · obtain ⟨h1, h2⟩ := key hl h' h
    exact ⟨h1.symm, h2.symm⟩

/-- C142: any number of cases with different files at the same time, the operations in any order.  A case that has ended has
the result it has by itself and leaves what it leaves by itself; each has ended after three operations; and no other file has
changed -/
theorem C142_parallel_partial {rnd : ℚ → ℚ} {p : ι → IgnProps} {R : ι → Reactor} {fuel : Nat} {file : ι → Text}
    {ps : ι → DProg (Except Err (List PyF × List Row))} (hps : ∀ i, caseP rnd (p i) (R i) fuel (file i) = some (ps i))
    (hinj : ∀ i j, file i = file j → i = j) (l : List ι) (d : DataDir) :
    (∀ i a, (together l ps d).1 i = .done a → ∃ left, ignSampleWorker rnd (p i) (R i) fuel = some (a, left) ∧
      (together l ps d).2 (file i) = (match a with | .ok _ => none | .error _ => left.or (d (file i)))) ∧
    (∀ i, 3 ≤ l.count i → ∃ a, (together l ps d).1 i = .done a) ∧
    ∀ f, (∀ i, f ≠ file i) → (together l ps d).2 f = d f := by
  have hone : ∀ i, ∃ r, ignRunCase (p i) (R i) false fuel = some r ∧ ps i = afterRun rnd (file i) r := by
    intro i
    have := hps i
    unfold caseP at this
    obtain ⟨r, h1, h2⟩ := Option.map_eq_some_iff.1 this
    exact ⟨r, h1, h2.symm⟩
  obtain ⟨h1, h2⟩ := together_apart hinj l (ps := ps) (fun i => by
    obtain ⟨r, -, h⟩ := hone i; rw [h]; exact afterRun_oneFile _ _ _) d
  refine ⟨fun i a ha => ?_, fun i hi => ?_, h2⟩
  · obtain ⟨r, hr, hp⟩ := hone i
    obtain ⟨a', left, g1, n, -, g2, g3⟩ := afterRun_alone (rnd := rnd) hr (file i) d
    obtain ⟨h3, h4⟩ := h1 i
    rw [h3, hp] at ha
    obtain ⟨rfl, e⟩ := stepsOf_end ha g2
    refine ⟨left, g1, ?_⟩
    rw [h4, hp, e, g3]
  · obtain ⟨r, hr, hp⟩ := hone i
    obtain ⟨a', left, g1, n, hn, g2, g3⟩ := afterRun_alone (rnd := rnd) hr (file i) d
    obtain ⟨k, hk⟩ := Nat.exists_eq_add_of_le (Nat.le_trans hn hi)
    refine ⟨a', ?_⟩
    rw [(h1 i).1, hp, hk, stepsOf_add, g2, stepsOf_done]

theorem dataName_noslash (i : Nat) : '/' ∉ (toString i).toList ++ ".h5".toList := by
  rw [Nat.toString_eq_repr, Nat.toList_repr]
  simp only [List.mem_append, not_or]
  refine ⟨fun h => ?_, by decide⟩
  have := Nat.isDigit_of_mem_toDigits (b := 10) (n := i) (by decide) (by decide) h
  exact absurd this (by decide)

theorem joinPath_dir {path n : Text} (hn : '/' ∉ n) (hp : DirName path) :
    joinPath path n = if path = [] then n else path ++ '/' :: n := by
  unfold joinPath
  rw [if_neg (fun h => hn (List.mem_of_head? h))]
  rcases hp with rfl | ⟨h1, h2⟩
  · rfl
  · rw [if_neg h1, if_neg h1, if_neg h2]

/-- C142: the cases of one run have different files, and so have those of runs in different directories -/
theorem C142_names {path path' : Text} (hp : DirName path) (hp' : DirName path') {i j : Nat} :
    dataName path i = dataName path' j ↔ path = path' ∧ i = j := by
  constructor
  · intro h
    unfold dataName at h
    rw [joinPath_dir (dataName_noslash i) hp, joinPath_dir (dataName_noslash j) hp'] at h
    by_cases h1 : path = []
    · rw [if_pos h1] at h
      by_cases h2 : path' = []
      · rw [if_pos h2] at h
        exact ⟨h1.trans h2.symm, toString_nat_inj (List.append_cancel_right h)⟩
      · rw [if_neg h2] at h
        exact absurd (h ▸ by simp) (dataName_noslash i)
    · rw [if_neg h1] at h
      by_cases h2 : path' = []
      · rw [if_pos h2] at h
        exact absurd (h ▸ by simp) (dataName_noslash j)
      · rw [if_neg h2] at h
        obtain rfl := append_slash_inj (dataName_noslash i) (dataName_noslash j) h
        exact ⟨rfl, toString_nat_inj (List.append_cancel_right (List.cons.inj (List.append_cancel_left h)).2)⟩
  · rintro ⟨rfl, rfl⟩
    rfl

/-- a case that succeeds by itself: its program -/
theorem case_program {rnd : ℚ → ℚ} {p : IgnProps} {R : Reactor} {fuel : Nat} {file : Text}
    {P : DProg (Except Err (List PyF × List Row))} (hP : caseP rnd p R fuel file = some P)
    {a : List PyF × List Row} {f : Option (List Point)} (ha : ignSampleWorker rnd p R fuel = some (.ok a, f)) :
    ∃ pts, ignProcess rnd (some pts) = .ok (a.1.headD .nan, a.2) ∧ a = ([a.1.headD .nan], a.2) ∧
      P = .write file pts (.read file fun o => match ignProcess rnd o with
        | .error e => .done (.error e)
        | .ok (t, rows) => .remove file (.done (.ok ([t], rows)))) := by
  unfold caseP at hP
  obtain ⟨r, h1, rfl⟩ := Option.map_eq_some_iff.1 hP
  unfold ignSampleWorker at ha
  rw [h1] at ha
  obtain ⟨res, f0⟩ := r
  cases res with
  | error e => cases ha
  | ok v =>
    obtain ⟨pts, rfl⟩ := runCase_file h1
    dsimp only at ha
    cases hp : ignProcess rnd (some pts) with
    | error e => rw [hp] at ha; cases ha
    | ok x =>
      obtain ⟨t, rows⟩ := x
      rw [hp] at ha
      cases ha
      exact ⟨pts, hp, rfl, rfl⟩

/-- C142 is false of two runs in one directory, for every pair of cases with the same number that succeed by themselves: there
is an order of the operations in which one case returns the delay and the states of the other, and one in which it does not
find its file -/
theorem C142_same_refuted {rnd : ℚ → ℚ} {p p' : IgnProps} {R R' : Reactor} {fuel fuel' : Nat} {file : Text}
    {P P' : DProg (Except Err (List PyF × List Row))} (hP : caseP rnd p R fuel file = some P)
    (hP' : caseP rnd p' R' fuel' file = some P') {a a' : List PyF × List Row} {f f' : Option (List Point)}
    (ha : ignSampleWorker rnd p R fuel = some (.ok a, f)) (ha' : ignSampleWorker rnd p' R' fuel' = some (.ok a', f')) (d : DataDir) :
    (∃ l, (together l (fun b => if b then P else P') d).1 true = .done (.ok a')) ∧
    ∃ l, (together l (fun b => if b then P else P') d).1 true = .done (.error .fileNotFound) ∧
      (together l (fun b => if b then P else P') d).1 false = .done (.ok a') := by
  obtain ⟨pts, h1, h2, rfl⟩ := case_program hP ha
  obtain ⟨pts', h1', h2', rfl⟩ := case_program hP' ha'
  refine ⟨⟨[true, false, true, true], ?_⟩, [true, false, false, false, true], ?_, ?_⟩
  · simp only [together, DProg.step, DataDir.put_same, h1', if_true, if_false, reduceCtorEq, Bool.false_eq_true]
    rw [← h2']
  · simp only [together, DProg.step, DataDir.put_same, h1', if_true, if_false, reduceCtorEq, Bool.false_eq_true]
    rfl
  · simp only [together, DProg.step, DataDir.put_same, h1', if_true, if_false, reduceCtorEq, Bool.false_eq_true]
    rw [← h2']

/-- C142: a file of the user with the name of a data file is gone after the case has succeeded -/
theorem C142_user_refuted {rnd : ℚ → ℚ} {p : IgnProps} {R : Reactor} {fuel : Nat} {path : Text} {i : Nat}
    {P : DProg (Except Err (List PyF × List Row))} (hP : caseP rnd p R fuel (dataName path i) = some P)
    {a : List PyF × List Row} {f : Option (List Point)} (ha : ignSampleWorker rnd p R fuel = some (.ok a, f)) (mine : List Point)
    (d : DataDir) (hd : d (dataName path i) = some mine) :
    (together [(), (), ()] (fun _ => P) d).1 () = .done (.ok a) ∧
      (together [(), (), ()] (fun _ => P) d).2 (dataName path i) ≠ d (dataName path i) := by
  have H := C142_parallel_partial (ι := Unit) (p := fun _ => p) (R := fun _ => R) (file := fun _ => dataName path i)
    (ps := fun _ => P) (fun _ => hP) (fun _ _ _ => rfl) [(), (), ()] d
  obtain ⟨b, hb⟩ := H.2.1 () (by decide)
  obtain ⟨left, h1, h2⟩ := H.1 () b hb
  rw [ha] at h1
  cases h1
  exact ⟨hb, by rw [h2, hd]; simp⟩

/-- the record of a run that is left at ignition -/
theorem note_left {R : Reactor} {hot : PyF} {k : Nat} {r : Rec} (hr : RecOk R hot k r) (hn : r.delay = none) {q : Point}
    (hq : R.step k = some q) :
    ((r.note hot q).2 = true ∧ Ignites R hot k q ∧ (r.note hot q).1 = ⟨some q.time, recorded R (k + 1)⟩) ∨
    ((r.note hot q).2 = false ∧ (r.note hot q).1.delay = none ∧ RecOk R hot (k + 1) (r.note hot q).1) := by
  have hnext := hr.next hq
  unfold Rec.note at hnext ⊢
  rw [hn] at hnext ⊢
  dsimp only at hnext ⊢
  by_cases hh : hot.le q.T = true
  · rw [if_pos hh] at hnext ⊢
    refine .inl ⟨rfl, ⟨hq, hh, fun j hj => ?_⟩, ?_⟩
    · obtain ⟨x, hx⟩ := hr.reached j hj
      exact ⟨x, hx, hr.cold hn j hj x hx⟩
    · rw [hr.points, recorded_succ hq]
  · rw [if_neg hh] at hnext ⊢
    exact .inr ⟨rfl, rfl, hnext⟩

theorem timedLoop_stop {R : Reactor} {hot tend : PyF} (fuel k : Nat) {cur : Point} {r r' : Rec} (hr : RecOk R hot k r)
    (hn : r.delay = none) (h : timedLoop R hot tend true fuel k cur r = some (.ok r')) {v : PyF} (hv : r'.delay = some v) :
    ∃ k q, Ignites R hot k q ∧ v = q.time ∧ r'.points = recorded R (k + 1) := by
  induction fuel generalizing k cur r with
  | zero => cases h
  | succ fuel ih =>
    unfold timedLoop at h
    split at h
    · cases hs : R.step k with
      | none => rw [hs] at h; cases h
      | some q =>
        rw [hs] at h
        dsimp only at h
        rcases note_left hr hn hs with ⟨h1, h2, h3⟩ | ⟨h1, h2, h3⟩
        · rw [h1] at h
          simp only [Bool.and_self, if_true, Option.some.injEq, Except.ok.injEq] at h
          subst h
          rw [h3] at hv ⊢
          exact ⟨k, q, h2, (Option.some.inj hv).symm, rfl⟩
        · rw [h1] at h
          exact ih (k + 1) h3 h2 (by simpa using h)
    · cases h
      rw [hn] at hv
      cases hv

theorem steadyLoop_stop {R : Reactor} {hot : PyF} (left k : Nat) {last last' : Option Nat} {r r' : Rec} (hr : RecOk R hot k r)
    (hn : r.delay = none) (h : steadyLoop R hot true left k last r = .ok (last', r')) {v : PyF} (hv : r'.delay = some v) :
    ∃ k q, Ignites R hot k q ∧ v = q.time ∧ r'.points = recorded R (k + 1) := by
  induction left generalizing k last r with
  | zero =>
    unfold steadyLoop at h
    cases h
    rw [hn] at hv
    cases hv
  | succ left ih =>
    unfold steadyLoop at h
    cases hs : R.step k with
    | none => rw [hs] at h; cases h
    | some q =>
      rw [hs] at h
      dsimp only at h
      rcases note_left hr hn hs with ⟨h1, h2, h3⟩ | ⟨h1, h2, h3⟩
      · rw [h1] at h
        simp only [Bool.and_self, if_true, Except.ok.injEq, Prod.mk.injEq] at h
        obtain ⟨-, rfl⟩ := h
        rw [h3] at hv ⊢
        exact ⟨k, q, h2, (Option.some.inj hv).symm, rfl⟩
      · rw [h1] at h
        simp only [Bool.and_true, Bool.false_eq_true, if_false] at h
        split at h
        · cases h
          rw [h2] at hv
          cases hv
        · exact ih (k + 1) h3 h2 h

/-- C142 is false of a run that is to stop at ignition and, as documented, not to save data: whenever it returns a delay it has
written the trajectory up to ignition -/
theorem C142_stop_refuted {p : IgnProps} {R : Reactor} {fuel : Nat} {v : PyF} {f : Option (List Point)}
    (h : ignRunCase p R true fuel = some ⟨.ok v, f⟩) :
    ∃ k q, Ignites R (p.temperature.add (.fin 400)) k q ∧ v = q.time ∧ f = some (recorded R (k + 1)) := by
  have key : ∀ {r : Rec}, (if p.timed then timedLoop R p.hot p.endTime true fuel 0 R.init ⟨none, [R.init]⟩
      else some (steadyPart R p.hot true p.steps)) = some (.ok r) → ∀ {v}, r.delay = some v →
      ∃ k q, Ignites R p.hot k q ∧ v = q.time ∧ r.points = recorded R (k + 1) := by
    intro r h v hv
    split at h
    · exact timedLoop_stop _ 0 (RecOk.start R p.hot) rfl h hv
    · unfold steadyPart at h
      rw [Option.some.injEq] at h
      split at h
      · cases h
      · cases h
      · rename_i hs
        split at h
        · cases h
        · cases h
          exact steadyLoop_stop _ 0 (RecOk.start R p.hot) rfl hs hv
  unfold ignRunCase at h
  dsimp only at h
  split at h
  · cases h
  · cases h
  · rename_i r hr
    cases hd : r.delay with
    | none => rw [hd] at h; cases h
    | some v' =>
      rw [hd] at h
      cases h
      obtain ⟨k, q, h1, h2, h3⟩ := key hr hd
      exact ⟨k, q, h1, h2, by rw [h3]⟩

/-! ### not vacuous -/

/-- a reactor heating 200 K per step, settled from step 9 on -/
def exReactor2 : Reactor where
  init := ⟨.fin 0, .fin 1000, .fin 1, [.fin 1]⟩
  step k := if k < 50 then some ⟨.fin (k + 1), .fin (1000 + 200 * (k + 1)), .fin 1, [.fin 1]⟩ else none
  settled k := decide (9 ≤ k)

/-- the delay of a case that has ended -/
def delayDone : DProg (Except Err (List PyF × List Row)) → Option (Except Err (List PyF))
  | .done a => some (a.map (·.1))
  | _ => none

/-- C142: two cases with different files, and with the same file in an order that makes the first return the delay of the
second -/
example :
    let P := (caseP id ⟨.fin 1000, .fin 0, 0⟩ exReactor 0 (dataName [] 0)).getD (.done (.ok ([], [])))
    let P' := fun i => (caseP id ⟨.fin 1000, .fin 0, 0⟩ exReactor2 0 (dataName [] i)).getD (.done (.ok ([], [])))
    let delay := fun i => delayDone ((together [true, false, true, true, false, false] (fun b => if b then P else P' i)
      (fun _ => none)).1 true)
    delay 1 = some (.ok [.fin 4]) ∧ delay 0 = some (.ok [.fin 2]) := by
  decide +kernel

/-- C142: a run that stops at ignition, with its file -/
example : (ignRunCase ⟨.fin 1000, .fin 0, 0⟩ exReactor2 true 0).map (fun r => (r.result.toOption, r.file.map List.length)) =
    some (some (.fin 2), some 3) := by decide +kernel

end Verif
