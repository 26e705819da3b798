import Verif.Lemmas.NumberedFiles
import Verif.Props.ReduceCases
/-!
# C124-C126: the numbered files of the output directory

What a reduction writes, leaves behind and deletes among the files `reduced_<n>.yaml`, and what
happens when the model to reduce is one of them.
-/
namespace Verif
open Spec

/-- the returned candidate and the files, from the end of a run -/
theorem files_of_ok {m : Method} {c : Ctx} {sol : Mech} {short : ℚ → Nat → Prop}
    {limbo : ℚ → Option (List String)} {rnd : ℚ → ℚ} {ex : ℚ} {limit : PyF} {fs : Text → Option Mech}
    {x : RunResult} (h : FilesEnd c sol (Kept m c sol) short limbo rnd ex limit fs x) {r : RModel} {w' : World}
    (e : x = (some (.ok r), w')) :
    ∃ j k, Went m c sol limit rnd j k ∧ (∀ i ≤ j, i ≠ 0 → ¬ startThr rnd i ≤ ex) ∧
      r.model = candidate c sol (Kept m c sol) (finalThr rnd j k) ∧ r.error = c.errOf r.model ∧
      StillThere c sol w' ∧
      w'.fs = putFile c (afterGrid c sol (Kept m c sol) short rnd fs j (k + 2)) r.model.nSpecies (some r.model) := by
  cases h with
  | running w => simp at e
  | exit j w => simp at e
  | undefined j k w => simp at e
  | done j k w h1 h2 h3 h4 hs hw =>
    simp only [Prod.mk.injEq, Option.some.injEq, Except.ok.injEq] at e
    obtain ⟨rfl, rfl⟩ := e
    exact ⟨j, k, ⟨h1, h2, h3⟩, h4, rfl, rfl, hs, hw⟩

/-- the full model is never a rejected candidate -/
theorem rejected_not_full {m : Method} {c : Ctx} {sol : Mech} {limit : PyF} (hl : LimitOk c sol limit) {t : ℚ}
    (h : Exceeds c sol (Kept m c sol) limit t) : candSize m c sol t ≠ sol.nSpecies := by
  intro hf
  have h1 := candidate_full (c := c) ((candidate_full_iff t).1 hf)
  unfold Exceeds at h
  rw [h1, PyF.not_lt_of_le hl.full] at h
  cases h

/-- **C124** (files after a run): among the files `reduced_<n>.yaml`, a run that rejected `j` starting
thresholds, accepted `k + 1` thresholds above the next one and then stopped writes the returned model,
deletes every other size it met above the accepted start, leaves the candidates of rejected starts of
any other size, and touches nothing else.  Partial: the species the user asked to keep must not matter. -/
theorem C124_files_partial {m : Method} {c : Ctx} {sol : Mech} (U : StartAgain m c sol) {limit : PyF}
    (hl : LimitOk c sol limit) (a : Arith) {j k : Nat} (W : Went m c sol limit a.rnd j k)
    (hx : ∀ i ≤ k + 1, NoExtra m c sol (gridThr a.rnd j i)) :
    ∃ N, ∀ dfuel ≥ N, ∀ fuel w r w', w.fs c.modelFile = some sol →
      runMethod m c a.rnd limit dfuel fuel w = (some (.ok r), w') →
      w'.fs (numbered c r.model.nSpecies) = some r.model ∧
      ∀ n ≠ r.model.nSpecies,
        (∀ i ≤ k + 1, n ≠ sol.nSpecies → n = candSize m c sol (gridThr a.rnd j i) →
          w'.fs (numbered c n) = none) ∧
        ((∀ i ≤ k + 1, n ≠ candSize m c sol (gridThr a.rnd j i)) → ∀ i < j,
          n = candSize m c sol (startThr a.rnd i) →
          w'.fs (numbered c n) = some (candidate c sol (Kept m c sol) (startThr a.rnd i))) ∧
        (n = sol.nSpecies ∨ (∀ i ≤ k + 1, n ≠ candSize m c sol (gridThr a.rnd j i)) ∧
            (∀ i < j, n ≠ candSize m c sol (startThr a.rnd i)) →
          w'.fs (numbered c n) = w.fs (numbered c n)) := by
  obtain ⟨N, hN⟩ := method_files U hl a
  refine ⟨N, fun dfuel hd fuel w r w' hw hrun => ?_⟩
  obtain ⟨reduce, short, limbo, B, R, hF, -⟩ := hN dfuel hd
  obtain ⟨j', k', W', -, hr, -, -, hfs⟩ := files_of_ok (hF fuel w hw) hrun
  obtain ⟨rfl, rfl⟩ := W.unique W'
  have hmono := gridThr_mono a.ok j
  have hshort : ∀ i < k + 2, prevSize c sol (Kept m c sol) a.rnd j i =
      (candidate c sol (Kept m c sol) (gridThr a.rnd j i)).nSpecies →
      short (gridThr a.rnd j i) (prevSize c sol (Kept m c sol) a.rnd j i) :=
    fun i hi h => reused_of_noExtra U.toAnyStart R (hx i (by omega)) h
  have hput : ∀ n ≠ r.model.nSpecies, w'.fs (numbered c n) =
      afterGrid c sol (Kept m c sol) short a.rnd w.fs j (k + 2) (redFile c n) := by
    intro n hn
    rw [hfs]
    exact putFile_other _ _ hn _
  refine ⟨by rw [hfs]; exact putFile_same _ _ _ _, fun n hn => ⟨?_, ?_, ?_⟩⟩
  · intro i hi hf hin
    rw [hput n hn]
    exact afterGrid_clean B hmono hf hshort (i := i) (by omega) hin
  · intro hg i hi hin
    rw [hput n hn, afterGrid_else (fun i hi => hg i (by omega))]
    exact afterStart_at B.anti U.nodup hin hi
  · rintro (rfl | ⟨hg, hs⟩)
    · rw [hput _ hn, afterGrid_full B hmono hshort]
      exact afterStart_else (fun i hi => Ne.symm (rejected_not_full hl (W.rejected i hi)))
    · rw [hput _ hn, afterGrid_else (fun i hi => hg i (by omega))]
      exact afterStart_else hs

/-- **C124** (partial): when the first starting threshold is accepted and the species the user asked to
keep do not matter, every numbered file in the directory after the run is the returned model's or was
there before, unchanged. -/
theorem C124_clean_partial {m : Method} {c : Ctx} {sol : Mech} (U : StartAgain m c sol) {limit : PyF}
    (hl : LimitOk c sol limit) (a : Arith) {k : Nat} (W : Went m c sol limit a.rnd 0 k)
    (hx : ∀ i ≤ k + 1, NoExtra m c sol (gridThr a.rnd 0 i)) :
    ∃ N, ∀ dfuel ≥ N, ∀ fuel w r w', w.fs c.modelFile = some sol →
      runMethod m c a.rnd limit dfuel fuel w = (some (.ok r), w') → ∀ n x,
      w'.fs (numbered c n) = some x → n = r.model.nSpecies ∧ x = r.model ∨ w.fs (numbered c n) = some x := by
  obtain ⟨N, hN⟩ := C124_files_partial U hl a W hx
  refine ⟨N, fun dfuel hd fuel w r w' hw hrun n x hnx => ?_⟩
  obtain ⟨h1, h2⟩ := hN dfuel hd fuel w r w' hw hrun
  by_cases hn : n = r.model.nSpecies
  · subst hn
    rw [h1] at hnx
    exact Or.inl ⟨rfl, (Option.some.inj hnx).symm⟩
  · obtain ⟨c1, -, c3⟩ := h2 n hn
    right
    by_cases hf : n = sol.nSpecies
    · rw [← c3 (Or.inl hf)]; exact hnx
    · rw [← c3 (Or.inr ⟨fun i hi hin => ?_, fun i hi => absurd hi (Nat.not_lt_zero i)⟩)]
      · exact hnx
      · rw [c1 i hi hf hin] at hnx
        cases hnx

/-- **C124** is false: the candidate of a rejected starting threshold stays in the directory next to the
returned model, if no threshold tried afterwards gives a candidate of its size. -/
theorem C124_rejected_refuted {m : Method} {c : Ctx} {sol : Mech} (U : StartAgain m c sol) {limit : PyF}
    (hl : LimitOk c sol limit) (a : Arith) {j k i : Nat} (W : Went m c sol limit a.rnd j k) (hi : i < j)
    (hg : ∀ i' ≤ k + 1, candSize m c sol (startThr a.rnd i) ≠ candSize m c sol (gridThr a.rnd j i')) :
    ∃ N, ∀ dfuel ≥ N, ∀ fuel w r w', w.fs c.modelFile = some sol →
      runMethod m c a.rnd limit dfuel fuel w = (some (.ok r), w') →
      candSize m c sol (startThr a.rnd i) ≠ r.model.nSpecies →
      w'.fs (numbered c (candSize m c sol (startThr a.rnd i))) =
        some (candidate c sol (Kept m c sol) (startThr a.rnd i)) := by
  obtain ⟨N, hN⟩ := method_files U hl a
  refine ⟨N, fun dfuel hd fuel w r w' hw hrun hn => ?_⟩
  obtain ⟨reduce, short, limbo, B, R, hF, -⟩ := hN dfuel hd
  obtain ⟨j', k', W', -, hr, -, -, hfs⟩ := files_of_ok (hF fuel w hw) hrun
  obtain ⟨rfl, rfl⟩ := W.unique W'
  rw [hfs]
  exact (putFile_other _ _ hn _).trans ((afterGrid_else (fun i' hi' => hg i' (by omega))).trans
    (afterStart_at B.anti U.nodup rfl hi))

/-- **C124** is false when a run finds nothing: if the run exits because every starting threshold is
rejected, all the rejected candidates are left in the directory. -/
theorem C124_exit_refuted {m : Method} {c : Ctx} {sol : Mech} (U : StartAgain m c sol) {limit : PyF}
    (hl : LimitOk c sol limit) (a : Arith) :
    ∃ N, ∀ dfuel ≥ N, ∀ fuel w w', w.fs c.modelFile = some sol →
      runMethod m c a.rnd limit dfuel fuel w = (some (.error .systemExit), w') →
      ∀ i ≤ lastStart m a, w'.fs (numbered c (candSize m c sol (startThr a.rnd i))) =
        some (candidate c sol (Kept m c sol) (startThr a.rnd i)) := by
  obtain ⟨N, hN⟩ := method_files U hl a
  refine ⟨N, fun dfuel hd fuel w w' hw hrun => ?_⟩
  obtain ⟨reduce, short, limbo, B, R, hF, -⟩ := hN dfuel hd
  have h := hF fuel w hw
  rw [hrun] at h
  cases h with
  | exit j w h1 h3 hfs =>
    intro i hi
    have hj : lastStart m a < j + 1 := by
      by_contra hlt
      exact (exit_facts m a).1 (j + 1) (by omega) (by omega) h3
    rw [hfs]
    exact afterStart_at B.anti U.nodup rfl (by omega)

/-- **C124** is false for DRG and PFA when a species the user asked to keep is not reached from the
targets: two accepted thresholds in a row with the same candidate leave it in the directory. -/
theorem C124_retained_refuted {m : Method} {c : Ctx} {sol : Mech} (U : StartAgain m c sol) {limit : PyF}
    (hl : LimitOk c sol limit) (a : Arith) {j k i : Nat} (W : Went m c sol limit a.rnd j k) (hi : i ≤ k)
    (hx : ¬ NoExtra m c sol (gridThr a.rnd j (i + 1)))
    (hs : candSize m c sol (gridThr a.rnd j i) = candSize m c sol (gridThr a.rnd j (i + 1))) :
    ∃ N, ∀ dfuel ≥ N, ∀ fuel w r w', w.fs c.modelFile = some sol →
      runMethod m c a.rnd limit dfuel fuel w = (some (.ok r), w') →
      candSize m c sol (gridThr a.rnd j i) ≠ r.model.nSpecies →
      w'.fs (numbered c (candSize m c sol (gridThr a.rnd j i))) =
        some (candidate c sol (Kept m c sol) (gridThr a.rnd j i)) := by
  obtain ⟨N, hN⟩ := method_files U hl a
  refine ⟨N, fun dfuel hd fuel w r w' hw hrun hn => ?_⟩
  obtain ⟨reduce, short, limbo, B, R, hF, -⟩ := hN dfuel hd
  obtain ⟨j', k', W', -, hr, -, -, hfs⟩ := files_of_ok (hF fuel w hw) hrun
  obtain ⟨rfl, rfl⟩ := W.unique W'
  have hns : ¬ short (gridThr a.rnd j (i + 1)) (prevSize c sol (Kept m c sol) a.rnd j (i + 1)) :=
    not_reused_of_extra U.toAnyStart R hx hs
  rw [hfs, candidate_same_size B.anti U.nodup hs]
  rw [hs] at hn ⊢
  exact (putFile_other _ _ hn _).trans
    (afterGrid_stray B U.nodup (gridThr_mono a.ok j) hns hs (I := k + 2) (by omega))

/-- **C125** is false: a model an earlier run left in a file `reduced_<n>.yaml` is gone or overwritten
after a later run that met a candidate with `n` species, even if its result has another size. -/
theorem C125_lost_refuted {m : Method} {c : Ctx} {sol : Mech} (U : StartAgain m c sol) {limit : PyF}
    (hl : LimitOk c sol limit) (a : Arith) {j k : Nat} (W : Went m c sol limit a.rnd j k) {t : ℚ}
    (ht : Tried a.rnd j k t) (hf : candSize m c sol t ≠ sol.nSpecies) :
    ∃ N, ∀ dfuel ≥ N, ∀ fuel w r w', w.fs c.modelFile = some sol →
      runMethod m c a.rnd limit dfuel fuel w = (some (.ok r), w') →
      w'.fs (numbered c (candSize m c sol t)) = none ∨
        w'.fs (numbered c (candSize m c sol t)) = some (candidate c sol (Kept m c sol) t) := by
  obtain ⟨N, hN⟩ := method_files U hl a
  refine ⟨N, fun dfuel hd fuel w r w' hw hrun => ?_⟩
  obtain ⟨reduce, short, limbo, B, R, hF, -⟩ := hN dfuel hd
  obtain ⟨j', k', W', -, hr, -, -, hfs⟩ := files_of_ok (hF fuel w hw) hrun
  obtain ⟨rfl, rfl⟩ := W.unique W'
  have hmono := gridThr_mono a.ok j
  by_cases hn : candSize m c sol t = r.model.nSpecies
  · right
    rw [hfs, hn]
    refine (putFile_same _ _ _ _).trans ?_
    rw [hr]
    rw [hr] at hn
    rw [candidate_same_size B.anti U.nodup hn.symm]
  · have hput : w'.fs (numbered c (candSize m c sol t)) =
        afterGrid c sol (Kept m c sol) short a.rnd w.fs j (k + 2) (redFile c (candSize m c sol t)) := by
      rw [hfs]
      exact putFile_other _ _ hn _
    rw [hput]
    by_cases hg : ∃ i < k + 2, candSize m c sol t = candSize m c sol (gridThr a.rnd j i)
    · obtain ⟨i, hi, hin⟩ := hg
      rw [candidate_same_size (t' := t) (t := gridThr a.rnd j i) B.anti U.nodup hin]
      exact afterGrid_at B U.nodup hmono hf hi hin
    · right
      push Not at hg
      rcases ht with ⟨i, hi, rfl⟩ | ⟨i, hi, rfl⟩
      · rw [afterGrid_else hg]
        exact afterStart_at B.anti U.nodup rfl hi
      · exact absurd rfl (hg i (by omega))

/-- **C125** (partial): a numbered file is left alone when no threshold tried gives a candidate of that
size and the returned model has another size. -/
theorem C125_kept_partial {m : Method} {c : Ctx} {sol : Mech} (U : StartAgain m c sol) {limit : PyF}
    (hl : LimitOk c sol limit) (a : Arith) {j k n : Nat} (W : Went m c sol limit a.rnd j k)
    (ht : ∀ t, Tried a.rnd j k t → n ≠ candSize m c sol t) :
    ∃ N, ∀ dfuel ≥ N, ∀ fuel w r w', w.fs c.modelFile = some sol →
      runMethod m c a.rnd limit dfuel fuel w = (some (.ok r), w') → n ≠ r.model.nSpecies →
      w'.fs (numbered c n) = w.fs (numbered c n) := by
  obtain ⟨N, hN⟩ := method_files U hl a
  refine ⟨N, fun dfuel hd fuel w r w' hw hrun hn => ?_⟩
  obtain ⟨reduce, short, limbo, B, R, hF, -⟩ := hN dfuel hd
  obtain ⟨j', k', W', -, hr, -, -, hfs⟩ := files_of_ok (hF fuel w hw) hrun
  obtain ⟨rfl, rfl⟩ := W.unique W'
  rw [hfs]
  exact (putFile_other _ _ hn _).trans ((afterGrid_else (fun i hi => ht _ (Or.inr ⟨i, by omega, rfl⟩))).trans
    (afterStart_else (fun i hi => ht _ (Or.inl ⟨i, hi, rfl⟩))))

/-- **C126** (result): reducing again from a numbered file of the same directory, the run returns the
candidate at the final threshold with its own error, as from any other file, and the model it started
from is still in its file afterwards (as an ideal gas, if all species were kept at some threshold). -/
theorem C126_returned_partial {m : Method} {c : Ctx} {sol : Mech} (U : StartAgain m c sol) {limit : PyF}
    (hl : LimitOk c sol limit) (a : Arith) :
    ∃ N, ∀ dfuel ≥ N, ∀ fuel w r w', w.fs c.modelFile = some sol →
      runMethod m c a.rnd limit dfuel fuel w = (some (.ok r), w') →
      (∃ j k, j ≤ lastStart m a ∧ Went m c sol limit a.rnd j k ∧
        r.model = candidate c sol (Kept m c sol) (finalThr a.rnd j k) ∧ r.error = c.errOf r.model) ∧
      ∃ x y, (y = sol.thermo ∨ y = idealGas) ∧ w'.fs c.modelFile = some { sol with name := x, thermo := y } := by
  obtain ⟨N, hN⟩ := method_files U hl a
  refine ⟨N, fun dfuel hd fuel w r w' hw hrun => ?_⟩
  obtain ⟨reduce, short, limbo, B, R, hF, -⟩ := hN dfuel hd
  obtain ⟨j, k, W, h4, hr, he, hs, -⟩ := files_of_ok (hF fuel w hw) hrun
  refine ⟨⟨j, k, ?_, W, hr, he⟩, hs⟩
  by_contra hlt
  exact h4 (lastStart m a + 1) (by omega) (by omega) (exit_facts m a).2

/-- **C126** (progress): such a run does return when a start is accepted and the limit is met for a
while and then exceeded. -/
theorem C126_returns_partial {m : Method} {c : Ctx} {sol : Mech} (U : StartAgain m c sol) {limit : PyF}
    (hl : LimitOk c sol limit) (a : Arith) {j k : Nat} (hj : j ≤ lastStart m a)
    (W : Went m c sol limit a.rnd j k) :
    ∃ N, ∀ dfuel ≥ N, ∀ fuel ≥ j + k + 3, ∀ w, w.fs c.modelFile = some sol →
      ∃ r w', runMethod m c a.rnd limit dfuel fuel w = (some (.ok r), w') ∧
        r.model = candidate c sol (Kept m c sol) (finalThr a.rnd j k) := by
  obtain ⟨N, hN⟩ := method_files U hl a
  refine ⟨N, fun dfuel hd fuel hfu w hw => ?_⟩
  obtain ⟨reduce, short, limbo, B, R, hF, hP⟩ := hN dfuel hd
  obtain ⟨r, hr⟩ := hP hw hj W hfu
  obtain ⟨j', k', W', -, hm, -⟩ := files_of_ok (hF fuel w hw) (r := r) (Prod.ext hr rfl)
  obtain ⟨rfl, rfl⟩ := W.unique W'
  exact ⟨r, _, Prod.ext hr rfl, hm⟩

/-- **C126** is false when the number in the model's file name is not the number of its species: as soon
as a threshold is accepted whose candidate has that many species, the run has deleted the model it was
asked to reduce, and fails. -/
theorem C126_misnumbered_refuted {m : Method} {c : Ctx} {sol : Mech} (U : AnyStart m c sol) {limit : PyF}
    (hl : LimitOk c sol limit) (a : Arith) {j k n : Nat} (hj : j ≤ lastStart m a)
    (hfile : c.modelFile = numbered c n) (hn : n ≠ sol.nSpecies)
    (h1 : ∀ i < j, Exceeds c sol (Kept m c sol) limit (startThr a.rnd i) ∧
      candSize m c sol (startThr a.rnd i) ≠ n)
    (h2 : ∀ i < k, Meets c sol (Kept m c sol) limit (gridThr a.rnd j i) ∧
      candSize m c sol (gridThr a.rnd j i) ≠ n)
    (h3 : Meets c sol (Kept m c sol) limit (gridThr a.rnd j k) ∨
      k ≠ 0 ∧ Exceeds c sol (Kept m c sol) limit (gridThr a.rnd j k))
    (h4 : candSize m c sol (gridThr a.rnd j k) = n) :
    ∃ N, ∀ dfuel ≥ N, ∀ fuel ≥ j + k + 2, ∀ w, w.fs c.modelFile = some sol →
      ∃ w', runMethod m c a.rnd limit dfuel fuel w = (some (.error .runtimeError), w') ∧
        w'.fs c.modelFile = none := by
  obtain ⟨N, hN⟩ := method_isFileRun U
  refine ⟨N, fun dfuel hd fuel hfu w hw => ?_⟩
  obtain ⟨reduce, finish, short, limbo, R⟩ := hN dfuel hd
  have hne : ∀ n', n' ≠ n → redFile c n' ≠ c.modelFile := by
    intro n' h e
    rw [hfile] at e
    exact h (redFile_inj e)
  obtain ⟨w', e, hw'⟩ := files_lost (ex := exitThr m a.rnd) R.steps hl (gridThr_mono a.ok) hw
    (fun i hi => (h1 i hi).1) (fun i hi => (exit_facts m a).1 i (by omega)) (fun i hi => hne _ (h1 i hi).2)
    (fun i hi => (h2 i hi).1) (fun i hi => hne _ (h2 i hi).2) h3 (by rw [hfile, ← h4]; rfl)
    (by intro h; exact hn (h4.symm.trans h)) (R.finishOk a.rnd limit) hfu
  exact ⟨w', R.eqErr a.rnd limit fuel w _ _ hw e, hw'⟩

/-! ### examples -/

/-- `bsSol` in a file of the output directory that has the given name -/
def nfCtx (file : Text) (M : NMat) (safe : List String) (err : Mech → PyF) : Ctx where
  modelFile := file
  targets := ["A"]
  safe := safe
  matrices := [M]
  errOf := err
  phase := []
  path := []
  upper := none

theorem bsSol_closed : Closed bsSol := by
  intro r hr
  cases hr

theorem nfCtx_any {file : Text} {M : NMat} {safe : List String} {err : Mech → PyF} :
    AnyStart .drg (nfCtx file M safe err) bsSol where
  nodup := by decide
  targets := by simp [nfCtx, bsSol, Mech.names]
  target := by simp [nfCtx]
  unit h := by cases h
  upper h := by cases h
  closed := bsSol_closed

theorem nfCtx_again {M : NMat} {safe : List String} {err : Mech → PyF} :
    StartAgain .drg (nfCtx "reduced_4.yaml".toList M safe err) bsSol where
  toAnyStart := nfCtx_any
  named n h := by
    have h : joinPath [] (reducedName n) = "reduced_4.yaml".toList := h
    rw [joinPath_nil] at h
    exact reducedName_inj (a := n) (b := 4) (h.trans (by decide +kernel))

def nfWorld (file : Text) : World where
  fs := fun f => if f = file then some bsSol else none
  limbo := []

/-- the candidate of DRG is what a first reduction returns -/
theorem nfCtx_candidate {file : Text} {M : NMat} {safe : List String} {err : Mech → PyF} (t : ℚ) :
    ∃ r w', reduceDrg (nfCtx file M safe err) t none (nfWorld file) = (.ok r, w') ∧
      r.model = candidate (nfCtx file M safe err) bsSol (Kept .drg (nfCtx file M safe err) bsSol) t ∧
      r.error = (nfCtx file M safe err).errOf
        (candidate (nfCtx file M safe err) bsSol (Kept .drg (nfCtx file M safe err) bsSol) t) := by
  have U : AnyStart .drg (nfCtx file M safe err) bsSol := nfCtx_any
  exact ⟨_, _, (reduceDrg_steps U.nodup U.targets U.closed).fresh t _ ⟨[], by simp [nfWorld, nfCtx, bsSol]⟩,
    rfl, rfl⟩

/-- species and error of the candidate, computed -/
def nfView (file : Text) (M : NMat) (safe : List String) (err : Mech → PyF) (t : ℚ) : Option (Nat × PyF) :=
  match (reduceDrg (nfCtx file M safe err) t none (nfWorld file)).1 with
  | .ok r => some (r.model.nSpecies, r.error)
  | .error _ => none

theorem nfView_spec {file : Text} {M : NMat} {safe : List String} {err : Mech → PyF} {t : ℚ} {n : Nat} {e : PyF}
    (h : nfView file M safe err t = some (n, e)) :
    candSize .drg (nfCtx file M safe err) bsSol t = n ∧ (nfCtx file M safe err).errOf
      (candidate (nfCtx file M safe err) bsSol (Kept .drg (nfCtx file M safe err) bsSol) t) = e := by
  obtain ⟨r, w', h1, h2, h3⟩ := nfCtx_candidate (file := file) (M := M) (safe := safe) (err := err) t
  unfold nfView at h
  rw [h1] at h
  simp only [Option.some.injEq, Prod.mk.injEq] at h
  rw [← h3]
  unfold candSize
  rw [← h2]
  exact h

/-- models with at least `q` species are perfect, the others are not -/
def nfErr (q : Nat) (m : Mech) : PyF := if q ≤ m.names.length then .fin 0 else .fin 100

theorem nfCtx_limit {file : Text} {M : NMat} {safe : List String} {q : Nat} (hq : q ≤ 4) :
    LimitOk (nfCtx file M safe (nfErr q)) bsSol (.fin 1) where
  nonneg := by decide +kernel
  full := by
    have : (trim bsSol [] ("reduced_".toList ++ file) []).names.length = 4 := rfl
    show (nfErr q (trim bsSol [] ("reduced_".toList ++ file) [])).le (.fin 1) = true
    unfold nfErr
    rw [this, if_pos hq]
    decide +kernel

theorem nfMeets {file : Text} {M : NMat} {safe : List String} {q : Nat} {t : ℚ} {n : Nat}
    (h : nfView file M safe (nfErr q) t = some (n, .fin 0)) :
    Meets (nfCtx file M safe (nfErr q)) bsSol (Kept .drg (nfCtx file M safe (nfErr q)) bsSol) (.fin 1) t := by
  unfold Meets
  rw [(nfView_spec h).2]
  decide +kernel

theorem nfExceeds {file : Text} {M : NMat} {safe : List String} {q : Nat} {t : ℚ} {n : Nat}
    (h : nfView file M safe (nfErr q) t = some (n, .fin 100)) :
    Exceeds (nfCtx file M safe (nfErr q)) bsSol (Kept .drg (nfCtx file M safe (nfErr q)) bsSol) (.fin 1) t := by
  unfold Exceeds
  rw [(nfView_spec h).2]
  decide +kernel

/-- the model `reduced_4.yaml` is reduced to two species; the candidate with one species is rejected -/
abbrev nfOne : Ctx := nfCtx "reduced_4.yaml".toList bsM [] (nfErr 2)

theorem nfOne_went : Went .drg nfOne bsSol (.fin 1) id 0 0 where
  rejected i hi := absurd hi (Nat.not_lt_zero i)
  accepted i hi := by
    obtain rfl : i = 0 := by omega
    exact nfMeets (n := 2) (by decide +kernel)
  stop := nfExceeds (n := 1) (by decide +kernel)

/-- the hypotheses of `C124_files_partial`, `C124_clean_partial`, `C125_lost_refuted`, `C125_kept_partial`
and the first two theorems of C126 are met -/
example : StartAgain .drg nfOne bsSol ∧ LimitOk nfOne bsSol (.fin 1) ∧
    Went .drg nfOne bsSol (.fin 1) Arith.exact.rnd 0 0 ∧
    (∀ i ≤ 1, NoExtra .drg nfOne bsSol (gridThr Arith.exact.rnd 0 i)) ∧ 0 ≤ lastStart .drg .exact ∧
    Tried Arith.exact.rnd 0 0 (gridThr id 0 1) ∧ candSize .drg nfOne bsSol (gridThr id 0 1) = 1 ∧
    (∀ t, Tried Arith.exact.rnd 0 0 t → 3 ≠ candSize .drg nfOne bsSol t) ∧
    (nfWorld "reduced_4.yaml".toList).fs nfOne.modelFile = some bsSol := by
  refine ⟨nfCtx_again, nfCtx_limit (by decide), nfOne_went, fun i _ => Or.inr (by simp [nfCtx]), by decide,
    Or.inr ⟨1, le_refl _, rfl⟩, (nfView_spec (n := 1) (e := .fin 100) (by decide +kernel)).1, ?_, rfl⟩
  rintro t (⟨i, hi, -⟩ | ⟨i, hi, rfl⟩)
  · exact absurd hi (Nat.not_lt_zero i)
  · have h0 : candSize .drg nfOne bsSol (gridThr id 0 0) = 2 :=
      (nfView_spec (e := .fin 0) (by decide +kernel)).1
    have h1 : candSize .drg nfOne bsSol (gridThr id 0 1) = 1 :=
      (nfView_spec (e := .fin 100) (by decide +kernel)).1
    have : i = 0 ∨ i = 1 := by omega
    rcases this with rfl | rfl
    · show 3 ≠ candSize .drg nfOne bsSol (gridThr id 0 0)
      rw [h0]; decide
    · show 3 ≠ candSize .drg nfOne bsSol (gridThr id 0 1)
      rw [h1]; decide

/-- In that run an earlier result in `reduced_1.yaml` is deleted, one in `reduced_3.yaml` stays, the new
one is in `reduced_2.yaml`. -/
example : let w : World := ⟨fun f => if f ∈ ["reduced_1.yaml".toList, "reduced_3.yaml".toList,
      "reduced_4.yaml".toList] then some bsSol else none, []⟩
    let w' := (runMethod .drg nfOne id (.fin 1) 20 20 w).2
    (w'.fs "reduced_1.yaml".toList).isSome = false ∧ (w'.fs "reduced_2.yaml".toList).map Mech.names =
      some ["A", "C"] ∧ (w'.fs "reduced_3.yaml".toList).map Mech.names = some ["A", "B", "C", "D"] ∧
    (w'.fs "reduced_4.yaml".toList).map Mech.names = some ["A", "B", "C", "D"] := by
  decide +kernel

/-- `A` needs `B` with 0.0015 and `C` with 0.0055 -/
def nfM2 : NMat := fun i j =>
  if (i, j) = (0, 1) then 15/10000 else if (i, j) = (0, 2) then 55/10000 else 0

/-- the first starting threshold is rejected with one species, the run returns three -/
abbrev nfTwo : Ctx := nfCtx "reduced_4.yaml".toList nfM2 [] (nfErr 3)

/-- the hypotheses of `C124_rejected_refuted` are met -/
example : StartAgain .drg nfTwo bsSol ∧ LimitOk nfTwo bsSol (.fin 1) ∧
    Went .drg nfTwo bsSol (.fin 1) Arith.exact.rnd 1 0 ∧
    ∀ i' ≤ 1, candSize .drg nfTwo bsSol (startThr Arith.exact.rnd 0) ≠
      candSize .drg nfTwo bsSol (gridThr Arith.exact.rnd 1 i') := by
  have h0 : candSize .drg nfTwo bsSol (startThr id 0) = 1 :=
    (nfView_spec (e := .fin 100) (by decide +kernel)).1
  have h1 : candSize .drg nfTwo bsSol (gridThr id 1 0) = 3 :=
    (nfView_spec (e := .fin 0) (by decide +kernel)).1
  have h2 : candSize .drg nfTwo bsSol (gridThr id 1 1) = 2 :=
    (nfView_spec (e := .fin 100) (by decide +kernel)).1
  refine ⟨nfCtx_again, nfCtx_limit (by decide), ⟨fun i hi => ?_, fun i hi => ?_,
    nfExceeds (n := 2) (by decide +kernel)⟩, fun i hi => ?_⟩
  · obtain rfl : i = 0 := by omega
    exact nfExceeds (n := 1) (by decide +kernel)
  · obtain rfl : i = 0 := by omega
    exact nfMeets (n := 3) (by decide +kernel)
  · show candSize .drg nfTwo bsSol (startThr id 0) ≠ candSize .drg nfTwo bsSol (gridThr id 1 i)
    have : i = 0 ∨ i = 1 := by omega
    rcases this with rfl | rfl
    · rw [h0, h1]; decide
    · rw [h0, h2]; decide

/-- the rejected candidate is in `reduced_1.yaml` next to the result in `reduced_3.yaml` -/
example : let w' := (runMethod .drg nfTwo id (.fin 1) 20 20 (nfWorld "reduced_4.yaml".toList)).2
    (w'.fs "reduced_1.yaml".toList).map Mech.names = some ["A"] ∧
    (w'.fs "reduced_2.yaml".toList).isSome = false ∧
    (w'.fs "reduced_3.yaml".toList).map Mech.names = some ["A", "B", "C"] := by
  decide +kernel

/-- only the full model is good enough -/
abbrev nfThree : Ctx := nfCtx "reduced_4.yaml".toList nfM2 [] (nfErr 4)

/-- the run exits and leaves two candidates -/
example : let x := runMethod .drg nfThree id (.fin 1) 20 20 (nfWorld "reduced_4.yaml".toList)
    runView x = some (.error .systemExit) ∧
    (x.2.fs "reduced_1.yaml".toList).map Mech.names = some ["A"] ∧
    (x.2.fs "reduced_3.yaml".toList).map Mech.names = some ["A", "B", "C"] := by
  decide +kernel

/-- `A` needs `B` with 0.025 and `C` with 0.045; nothing needs `D` -/
def nfM4 : NMat := fun i j =>
  if (i, j) = (0, 1) then 25/1000 else if (i, j) = (0, 2) then 45/1000 else 0

/-- `D` is to be kept -/
abbrev nfFour : Ctx := nfCtx "reduced_4.yaml".toList nfM4 ["D"] (nfErr 3)

/-- the hypotheses of `C124_retained_refuted` are met -/
example : StartAgain .drg nfFour bsSol ∧ LimitOk nfFour bsSol (.fin 1) ∧
    Went .drg nfFour bsSol (.fin 1) Arith.exact.rnd 0 3 ∧
    ¬ NoExtra .drg nfFour bsSol (gridThr Arith.exact.rnd 0 3) ∧
    candSize .drg nfFour bsSol (gridThr Arith.exact.rnd 0 2) =
      candSize .drg nfFour bsSol (gridThr Arith.exact.rnd 0 3) ∧
    ¬ NoExtra .drg nfFour bsSol (gridThr Arith.exact.rnd 0 1) ∧
    candSize .drg nfFour bsSol (gridThr Arith.exact.rnd 0 0) = 4 ∧
    candSize .drg nfFour bsSol (gridThr Arith.exact.rnd 0 1) = 4 := by
  have hno : ∀ t, (match retained nfFour.matrices bsSol.names nfFour.targets t with
      | .ok l => l.contains "D"
      | .error _ => true) = false → ¬ NoExtra .drg nfFour bsSol t := by
    rintro t h (h' | h')
    · cases h'
    · obtain ⟨l, e1, -, e3⟩ := retained_spec t (nfCtx_again (M := nfM4) (safe := ["D"]) (err := nfErr 3)).nodup
        (nfCtx_again (M := nfM4) (safe := ["D"]) (err := nfErr 3)).targets nfFour.matrices
      have hD := (e3 "D").2 (h' "D" (by simp [nfCtx]) (by simp [bsSol, Mech.names]))
      rw [e1] at h
      simp [hD] at h
  have h2 : candSize .drg nfFour bsSol (gridThr id 0 2) = 3 :=
    (nfView_spec (e := .fin 0) (by decide +kernel)).1
  have h3 : candSize .drg nfFour bsSol (gridThr id 0 3) = 3 :=
    (nfView_spec (e := .fin 0) (by decide +kernel)).1
  refine ⟨nfCtx_again, nfCtx_limit (by decide), ⟨fun i hi => absurd hi (Nat.not_lt_zero i), fun i hi => ?_,
    nfExceeds (n := 2) (by decide +kernel)⟩, hno _ (by decide +kernel), h2.trans h3.symm, hno _ (by decide +kernel),
    (nfView_spec (e := .fin 0) (by decide +kernel)).1, (nfView_spec (e := .fin 0) (by decide +kernel)).1⟩
  · have : i = 0 ∨ i = 1 ∨ i = 2 ∨ i = 3 := by omega
    rcases this with rfl | rfl | rfl | rfl
    · exact nfMeets (n := 4) (by decide +kernel)
    · exact nfMeets (n := 4) (by decide +kernel)
    · exact nfMeets (n := 3) (by decide +kernel)
    · exact nfMeets (n := 3) (by decide +kernel)

/-- the model with four species in `reduced_2.yaml`: the first candidate has two -/
abbrev nfFive : Ctx := nfCtx "reduced_2.yaml".toList bsM [] (nfErr 2)

/-- the hypotheses of `C126_misnumbered_refuted` are met -/
example : AnyStart .drg nfFive bsSol ∧ LimitOk nfFive bsSol (.fin 1) ∧ 0 ≤ lastStart .drg .exact ∧
    nfFive.modelFile = numbered nfFive 2 ∧ 2 ≠ bsSol.nSpecies ∧
    Meets nfFive bsSol (Kept .drg nfFive bsSol) (.fin 1) (gridThr Arith.exact.rnd 0 0) ∧
    candSize .drg nfFive bsSol (gridThr Arith.exact.rnd 0 0) = 2 :=
  ⟨nfCtx_any, nfCtx_limit (by decide), by decide, by decide +kernel, by decide,
    nfMeets (n := 2) (by decide +kernel), (nfView_spec (e := .fin 0) (by decide +kernel)).1⟩

example : let x := runMethod .drg nfFive id (.fin 1) 20 20 (nfWorld "reduced_2.yaml".toList)
    runView x = some (.error .runtimeError) ∧ (x.2.fs "reduced_2.yaml".toList).isSome = false := by
  decide +kernel

end Verif
