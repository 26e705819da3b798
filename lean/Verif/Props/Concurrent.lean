import Verif.Lemmas.Concurrent
import Verif.Props.ReduceCases
/-!
# C138: reductions at the same time
-/
namespace Verif
open Spec FsProg

/-- The programs of file operations are the runs: without another process, the same result,
the same files and the same shared list. -/
theorem C138_alone (m : Method) (c : Ctx) (sim : Mech → Except Err PyF) (rnd : ℚ → ℚ) (limit : PyF)
    (dfuel fuel : Nat) (w : World) :
    (methodP m c sim rnd limit dfuel fuel w.limbo).alone w.fs =
      (((runMethodS m c sim rnd limit dfuel fuel w).1, (runMethodS m c sim rnd limit dfuel fuel w).2.limbo),
        (runMethodS m c sim rnd limit dfuel fuel w).2.fs) := by
  unfold methodP
  cases m with
  | drg =>
    unfold runMethodS runDrgS loadModel
    simp only [alone]
    rcases w.fs c.modelFile with _ | sol
    · rfl
    · dsimp only
      by_cases ht : c.targets = []
      · rw [if_pos ht, if_pos ht]; rfl
      · rw [if_neg ht, if_neg ht, alone_bind]
        have := alone_loop (m := .drg) (c := c) (same_drg c sim) rnd (rnd (1 / 100000)) limit fuel
          (loopInit rnd sol c.modelFile w)
        unfold finishFnOf at this
        rw [this]
        rfl
  | pfa =>
    unfold runMethodS runPfaS loadModel
    simp only [alone]
    rcases w.fs c.modelFile with _ | sol
    · rfl
    · dsimp only
      by_cases ht : c.targets = []
      · rw [if_pos ht, if_pos ht]; rfl
      · rw [if_neg ht, if_neg ht, alone_bind]
        have := alone_loop (m := .pfa) (c := c) (same_pfa c sim) rnd (rnd (1 / 100000)) limit fuel
          (loopInit rnd sol c.modelFile w)
        unfold finishFnOf at this
        rw [this]
        rfl
  | drgep =>
    unfold runMethodS runDrgepS loadModel
    simp only [alone]
    rcases w.fs c.modelFile with _ | sol
    · rfl
    · dsimp only
      by_cases ht : c.targets = []
      · rw [if_pos ht, if_pos ht]; rfl
      · rw [if_neg ht, if_neg ht]
        rcases getImportanceCoeffs c.rndMul sol.names c.targets c.matrices dfuel with e | imp
        · rfl
        · dsimp only
          rw [alone_bind]
          have := alone_loop (m := .drgep) (c := c) (same_drgep c sim imp) rnd (rnd (1 / 1000000)) limit fuel
            (loopInit rnd sol c.modelFile w)
          unfold finishFnOf at this
          rw [this]
          have hv : (loopInit rnd sol c.modelFile w).vars = varsInit rnd sol c.modelFile := rfl
          have hw : (loopInit rnd sol c.modelFile w).w = w := rfl
          rw [hv, hw]
          generalize (loopP .drgep c (reduceP c sim (drgepPlan c imp)) rnd (rnd (1 / 1000000)) limit fuel
            (varsInit rnd sol c.modelFile)).alone w.fs = A
          obtain ⟨a, fs1⟩ := A
          rcases a with _ | _ | r
          · rfl
          · rfl
          · dsimp only [appendLimbo]
            rcases r.limbo with _ | l <;> rfl

/-- **C138.** Two reductions at the same time in different directories do not disturb each
other, however their operations are interleaved: each ends with the result it has by
itself, its files are those it leaves by itself, and all other files are untouched. -/
theorem C138_apart_partial (m m' : Method) (c c' : Ctx) (sim sim' : Mech → Except Err PyF) (rnd rnd' : ℚ → ℚ)
    (limit limit' : PyF) (dfuel dfuel' fuel fuel' : Nat) (w w' : World) (hfs : w'.fs = w.fs)
    (hd : DirName c.path) (hd' : DirName c'.path) (hne : c.path ≠ c'.path)
    (hm : ¬ OwnFile c'.path c.modelFile) (hm' : ¬ OwnFile c.path c'.modelFile) (l : List Bool) :
    let R := runMethodS m c sim rnd limit dfuel fuel w
    let R' := runMethodS m' c' sim' rnd' limit' dfuel' fuel' w'
    let x := both l (methodP m c sim rnd limit dfuel fuel w.limbo)
      (methodP m' c' sim' rnd' limit' dfuel' fuel' w'.limbo) w.fs
    (∀ a, x.1 = .done a → a = (R.1, R.2.limbo) ∧ ∀ f, OwnFile c.path f → x.2.2 f = R.2.fs f) ∧
    (∀ a, x.2.1 = .done a → a = (R'.1, R'.2.limbo) ∧ ∀ f, OwnFile c'.path f → x.2.2 f = R'.2.fs f) ∧
    ∀ f, ¬ OwnFile c.path f → ¬ OwnFile c'.path f → x.2.2 f = w.fs f := by
  intro R R' x
  have hp := within_methodP m c sim rnd limit dfuel fuel w.limbo
  have hq := within_methodP m' c' sim' rnd' limit' dfuel' fuel' w'.limbo
  have h1 : ∀ f, ReadsOf c f ∨ OwnFile c.path f → ¬ OwnFile c'.path f := by
    rintro f ((rfl | h) | h)
    · exact hm
    · exact ownFile_disjoint hd hd' hne h
    · exact ownFile_disjoint hd hd' hne h
  have h2 : ∀ f, ReadsOf c' f ∨ OwnFile c'.path f → ¬ OwnFile c.path f := by
    rintro f ((rfl | h) | h)
    · exact hm'
    · exact ownFile_disjoint hd' hd (Ne.symm hne) h
    · exact ownFile_disjoint hd' hd (Ne.symm hne) h
  obtain ⟨a1, a2⟩ := both_fst h1 l hp hq w.fs
  obtain ⟨b1, b2⟩ := both_snd h2 l hp hq w.fs
  have e1 := C138_alone m c sim rnd limit dfuel fuel w
  have e2 := C138_alone m' c' sim' rnd' limit' dfuel' fuel' w'
  rw [hfs] at e2
  refine ⟨?_, ?_, both_others l hp hq w.fs⟩
  · intro a ha
    rw [e1] at a1 a2
    change (x.1.alone x.2.2).1 = _ at a1
    change ∀ f, _ → (x.1.alone x.2.2).2 f = _ at a2
    rw [ha] at a1 a2
    exact ⟨a1, fun f hf => a2 f (.inr hf)⟩
  · intro a ha
    rw [e2] at b1 b2
    change (x.2.1.alone x.2.2).1 = _ at b1
    change ∀ f, _ → (x.2.1.alone x.2.2).2 f = _ at b2
    rw [ha] at b1 b2
    exact ⟨b1, fun f hf => b2 f (.inr hf)⟩

/-! ### progress -/

/-- **C138.** Nor does one keep the other from ending: there is a number of turns after
which a reduction has ended, whatever the other one does in the meantime. -/
theorem C138_ends_partial (m m' : Method) (c c' : Ctx) (sim sim' : Mech → Except Err PyF) (rnd rnd' : ℚ → ℚ)
    (limit limit' : PyF) (dfuel dfuel' fuel fuel' : Nat) (limbo limbo' : List String) (fs : Fs)
    (hd : DirName c.path) (hd' : DirName c'.path) (hne : c.path ≠ c'.path)
    (hm : ¬ OwnFile c'.path c.modelFile) :
    ∃ N, ∀ l : List Bool, N ≤ l.count true → ∃ a,
      (both l (methodP m c sim rnd limit dfuel fuel limbo)
        (methodP m' c' sim' rnd' limit' dfuel' fuel' limbo') fs).1 = .done a := by
  refine ⟨_, fun l hl => both_ends ?_ l (within_methodP m c sim rnd limit dfuel fuel limbo)
    (within_methodP m' c' sim' rnd' limit' dfuel' fuel' limbo') fs hl⟩
  rintro f ((rfl | h) | h)
  · exact hm
  · exact ownFile_disjoint hd hd' hne h
  · exact ownFile_disjoint hd hd' hne h

/-! ### the same directory -/

/-- **C138** is false in one directory: whenever two runs accept their first candidates, and
these have equally many species, there is an interleaving in which the first run ends with
the exception `FileNotFoundError`: between its writing a candidate and its removing it, the
other run writes and removes a candidate of its own under the same name. -/
theorem C138_same_refuted (m m' : Method) (c c' : Ctx) (sim sim' : Mech → Except Err PyF) (rnd rnd' : ℚ → ℚ)
    (limit limit' : PyF) (dfuel dfuel' fuel fuel' : Nat) (limbo limbo' : List String) (fs : Fs) (r r' : RModel)
    (hd : c.path = c'.path) (hm' : ¬ OwnFile c'.path c'.modelFile)
    (h : FirstAccepted m c sim rnd limit dfuel fs r) (h' : FirstAccepted m' c' sim' rnd' limit' dfuel' fs r')
    (hn : r.model.nSpecies = r'.model.nSpecies) :
    ∃ l, (both l (methodP m c sim rnd limit dfuel (fuel + 1) limbo)
      (methodP m' c' sim' rnd' limit' dfuel' (fuel' + 1) limbo') fs).1 =
        .done (some (.error .fileNotFound), limbo) := by
  obtain ⟨k, fs1, hk, ho, h1⟩ := first_remove h fuel limbo fs rfl
  obtain ⟨l1, e1⟩ := both_true h1 (methodP m' c' sim' rnd' limit' dfuel' (fuel' + 1) limbo')
  obtain ⟨k', fs2, -, -, h2⟩ := first_remove h' fuel' limbo' fs1 (ho _ (by rw [hd]; exact hm'))
  obtain ⟨l2, e2⟩ := both_false (h2.trans (Reaches.one _ _)) (.remove (joinPath c.path (reducedName r.model.nSpecies)) k)
  refine ⟨l1 ++ (l2 ++ [true]), ?_⟩
  rw [e1, e2]
  simp only [both, step, Fs.put_apply, hn, hd, if_true, Option.isSome_none, hk]

/-- **C138** is false in one directory, in another way: whenever two steps make new models
with equally many species there is an interleaving in which the first step ends without an
exception and reports, for its own model, the error of the other one. -/
theorem C138_mixed_refuted (m m' : Method) (c c' : Ctx) (sim sim' : Mech → Except Err PyF) (sol sol' : Mech)
    (dfuel dfuel' : Nat) (plan plan' : Plan) (thr thr' : ℚ) (prev prev' : Option RModel) (fs : Fs) (r r' : RModel)
    (e : PyF) (hplan : planOf m c sol dfuel = .ok plan) (hplan' : planOf m' c' sol' dfuel' = .ok plan')
    (hr : ((reduceP c sim plan thr prev).alone fs).1 = .ok r)
    (hr' : ((reduceP c' sim' plan' thr' prev').alone fs).1 = .ok r')
    (hnew : prev ≠ some r) (hnew' : prev' ≠ some r') (hd : c.path = c'.path)
    (hm' : ¬ OwnFile c'.path c'.modelFile) (hn : r.model.nSpecies = r'.model.nSpecies)
    (he : sim r'.model = .ok e) :
    ∃ l, (both l (reduceP c sim plan thr prev) (reduceP c' sim' plan' thr' prev') fs).1 =
      .done (.ok { r with error := e }) := by
  obtain ⟨k, h1, hk⟩ := new_written (planOf_ok hplan) hr hnew fs rfl
  obtain ⟨l1, e1⟩ := both_true h1 (reduceP c' sim' plan' thr' prev')
  have h0 : (Fs.put fs (joinPath c.path (reducedName r.model.nSpecies)) (some r.model)) c'.modelFile =
      fs c'.modelFile := by
    rw [Fs.put_apply, if_neg]
    intro hh
    exact hm' ⟨_, by rw [hh, hd]⟩
  obtain ⟨k', h2, -⟩ := new_written (planOf_ok hplan') hr' hnew' _ h0
  obtain ⟨l2, e2⟩ := both_false h2 (.read (joinPath c.path (reducedName r.model.nSpecies)) k)
  refine ⟨l1 ++ (l2 ++ [true]), ?_⟩
  rw [e1, e2]
  simp only [both, step, Fs.put_apply, hn, hd, if_true]
  exact hk _ _ he

/-! ### a case -/

/-- the run of `Props/ReduceCases` in the directory `a` -/
def inDir (path : Text) : Ctx := { bsCtx (.fin 100) with path := path }

/-- the simulation of that run -/
def bsSim (m : Mech) : Except Err PyF := .ok (bsErr (.fin 100) m)

/-- species and error of a finished run -/
def doneView : FsProg (Option (Except Err RModel) × List String) → Option (Except Err (List String × PyF))
  | .done a => a.1.map (Except.map fun r => (r.model.names, r.error))
  | _ => none

theorem ownFile_head {path f : Text} (h : OwnFile path f) (hp : path.head? ≠ some 'm') : f.head? ≠ some 'm' := by
  obtain ⟨n, rfl⟩ := h
  rw [joinPath_reduced]
  split
  · rw [reducedName_head]; decide
  · rename_i hne
    cases path with
    | nil => exact absurd rfl hne
    | cons x xs => split <;> exact hp

/-- The hypotheses of `C138_apart_partial` are met in the directories `a` and `b`. -/
example : DirName (inDir "a".toList).path ∧ DirName (inDir "b".toList).path ∧
    (inDir "a".toList).path ≠ (inDir "b".toList).path ∧
    ¬ OwnFile (inDir "b".toList).path (inDir "a".toList).modelFile ∧
    ¬ OwnFile (inDir "a".toList).path (inDir "b".toList).modelFile :=
  ⟨.inr (by decide), .inr (by decide), by decide, fun h => ownFile_head h (by decide) (by decide),
    fun h => ownFile_head h (by decide) (by decide)⟩

/-- There both runs, taking turns, end with the model `{A, C}`. -/
example (m m' : Method) :
    let x := both ((List.replicate 40 [true, false]).flatten)
      (methodP m (inDir "a".toList) bsSim id (.fin 1) 20 20 [])
      (methodP m' (inDir "b".toList) bsSim id (.fin 1) 20 20 []) bsWorld.fs
    doneView x.1 = some (.ok (["A", "C"], .fin 0)) ∧ doneView x.2.1 = some (.ok (["A", "C"], .fin 0)) := by
  cases m <;> cases m' <;> decide +kernel

/-- In one directory, taking turns, one of them ends with `FileNotFoundError`. -/
example (m m' : Method) :
    let x := both ((List.replicate 40 [true, false]).flatten)
      (methodP m (inDir "a".toList) bsSim id (.fin 1) 20 20 [])
      (methodP m' (inDir "a".toList) bsSim id (.fin 1) 20 20 []) bsWorld.fs
    doneView x.1 = some (.error .fileNotFound) ∨ doneView x.2.1 = some (.error .fileNotFound) := by
  cases m <;> cases m' <;> decide +kernel

/-- The hypotheses of `C138_same_refuted` and `C138_mixed_refuted` are met there, with the
model `{A, C}` as the first candidate. -/
example (m : Method) : ∃ r, FirstAccepted m (inDir "a".toList) bsSim id (.fin 1) 20 bsWorld.fs r := by
  have key : ∀ x : Except Err RModel × World,
      (match x.1 with | .ok r => (decide (r.model.nSpecies = 2) && decide (r.error = .fin 0)) | _ => false) = true →
      ∃ r w', x = (.ok r, w') ∧ r.model.nSpecies = 2 ∧ r.error = .fin 0 := by
    rintro ⟨_ | r, w'⟩ h
    · cases h
    · simp only [Bool.and_eq_true, decide_eq_true_eq] at h
      exact ⟨r, w', rfl, h⟩
  have go : ∀ f : ReduceFn, reduceFnOf m (inDir "a".toList) bsSim bsSol 20 = .ok f →
      (match (f (id (1 / 100)) (some ⟨bsSol, "m.yaml".toList, .fin 0, none⟩) ⟨bsWorld.fs, []⟩).1 with
        | .ok r => (decide (r.model.nSpecies = 2) && decide (r.error = .fin 0)) | _ => false) = true →
      ∃ r, FirstAccepted m (inDir "a".toList) bsSim id (.fin 1) 20 bsWorld.fs r := by
    intro f hf h
    obtain ⟨r, w', e, h1, h2⟩ := key _ h
    exact ⟨r, bsSol, f, w', rfl, by decide, hf, e, by decide +kernel, by rw [h2]; decide +kernel,
      by rw [h1]; decide +kernel⟩
  cases m with
  | drg => exact go _ rfl (by decide +kernel)
  | pfa => exact go _ rfl (by decide +kernel)
  | drgep =>
    have h : (match reduceFnOf .drgep (inDir "a".toList) bsSim bsSol 20 with
        | .ok f => (match (f (id (1 / 100)) (some ⟨bsSol, "m.yaml".toList, .fin 0, none⟩) ⟨bsWorld.fs, []⟩).1 with
          | .ok r => (decide (r.model.nSpecies = 2) && decide (r.error = .fin 0)) | _ => false)
        | _ => false) = true := by decide +kernel
    rcases hf : reduceFnOf .drgep (inDir "a".toList) bsSim bsSol 20 with e | f
    · rw [hf] at h; cases h
    · rw [hf] at h; exact go f hf h

/-- the context with the other targets `D` -/
def inDirD (path : Text) : Ctx := { inDir path with targets := ["D"], safe := ["B"] }

/-- Two steps that make `{A, C}` and `{B, D}`: the first one reports the error of the second
model, 100 %, for its own, whose error is 0 %. -/
example : (match (both ([true, true, true] ++ [false, false, false, false] ++ [true])
      (reduceP (inDir "a".toList) bsSim (drgPlan (inDir "a".toList)) (1 / 100) none)
      (reduceP (inDirD "a".toList) bsSim (drgPlan (inDirD "a".toList)) (1 / 100) none) bsWorld.fs).1 with
    | .done (.ok r) => some (r.model.names, r.error)
    | _ => none) = some (["A", "C"], .fin 100) := by decide +kernel

end Verif
