import Verif.Props.Reduce
/-!
Two settings with the same candidates have the same outcome.
-/
namespace Verif
open Spec

/-- what a run returns, apart from the limbo species -/
def RModel.view (r : RModel) : Mech × Text × PyF := (r.model, r.filename, r.error)

def RunResult.view (x : RunResult) : Option (Except Err (Mech × Text × PyF)) :=
  x.1.map (Except.map RModel.view)

/-- settings that differ in targets, retained species, sampled states, upper threshold and the
rounding of products only -/
structure SameFrame (c c' : Ctx) : Prop where
  file : c'.modelFile = c.modelFile
  phase : c'.phase = c.phase
  path : c'.path = c.path
  err : c'.errOf = c.errOf

section
variable {m : Method} {c c' : Ctx} {sol : Mech}

theorem candidate_frame (F : SameFrame c c') (h : ∀ t, ∀ s ∈ sol.names, (Kept m c' sol t s ↔ Kept m c sol t s))
    (t : ℚ) : candidate c' sol (Kept m c' sol) t = candidate c sol (Kept m c sol) t := by
  classical
  unfold candidate
  rw [F.file, F.phase]
  congr 1
  apply List.filter_congr
  intro s hs
  simp [h t s hs]

theorem run_same_kept (U : Usable m c sol) (U' : Usable m c' sol) (F : SameFrame c c')
    (h : ∀ t, ∀ s ∈ sol.names, (Kept m c' sol t s ↔ Kept m c sol t s))
    {limit : PyF} (hl : LimitOk c sol limit) (a : Arith) :
    ∃ N, ∀ dfuel ≥ N, ∀ fuel w w', w.fs c.modelFile = some sol → w'.fs c.modelFile = some sol →
      RunResult.view (runMethod m c' a.rnd limit dfuel fuel w') =
        RunResult.view (runMethod m c a.rnd limit dfuel fuel w) := by
  obtain ⟨N, hN⟩ := method_isRun U
  obtain ⟨N', hN'⟩ := method_isRun U'
  have hl' : LimitOk c' sol limit := ⟨hl.nonneg, by rw [F.err, F.file, F.phase]; exact hl.full⟩
  refine ⟨max N N', fun dfuel hd fuel w w' hw hw' => ?_⟩
  simp only [ge_iff_le, max_le_iff] at hd
  obtain ⟨reduce, finish, short, limbo, R⟩ := hN dfuel hd.1
  obtain ⟨reduce', finish', short', limbo', R'⟩ := hN' dfuel hd.2
  rw [← F.file] at hw'
  unfold RunResult.view
  rw [R.eq a.rnd limit fuel w hw, R'.eq a.rnd limit fuel w' hw']
  have hcand := candidate_frame F h
  have hex : ∀ t, Exceeds c' sol (Kept m c' sol) limit t ↔ Exceeds c sol (Kept m c sol) limit t := by
    intro t; unfold Exceeds; rw [hcand, F.err]
  have hme : ∀ t, Meets c' sol (Kept m c' sol) limit t ↔ Meets c sol (Kept m c sol) limit t := by
    intro t; unfold Meets; rw [hcand, F.err]
  by_cases hall : ∀ i ≤ lastStart m a, Exceeds c sol (Kept m c sol) limit (startThr a.rnd i)
  · obtain ⟨g1, g2⟩ := run_exits (finish := finish a.rnd limit) (ex := exitThr m a.rnd) R.behaves hl
      hw hall (exit_facts m a).1 (exit_facts m a).2
    obtain ⟨g1', g2'⟩ := run_exits (finish := finish' a.rnd limit) (ex := exitThr m a.rnd) R'.behaves
      hl' hw' (fun i hi => (hex _).2 (hall i hi)) (exit_facts m a).1 (exit_facts m a).2
    rcases Nat.lt_or_ge (lastStart m a) fuel with hf | hf
    · rw [g2 fuel hf, g2' fuel hf]
    · rw [g1 fuel hf, g1' fuel hf]
  · push Not at hall
    have hfirst : ∃ j ≤ lastStart m a, ¬ Exceeds c sol (Kept m c sol) limit (startThr a.rnd j) ∧
        ∀ i < j, Exceeds c sol (Kept m c sol) limit (startThr a.rnd i) := by
      classical
      obtain ⟨j, hj, hne⟩ := hall
      have hex : ∃ j, ¬ Exceeds c sol (Kept m c sol) limit (startThr a.rnd j) := ⟨j, hne⟩
      exact ⟨Nat.find hex, (Nat.find_min' hex hne).trans hj, Nat.find_spec hex,
        fun i hi => not_not.1 (Nat.find_min hex hi)⟩
    obtain ⟨j, hj, hne, hlt⟩ := hfirst
    have hex2 : ∀ i ≤ j, i ≠ 0 → ¬ startThr a.rnd i ≤ exitThr m a.rnd :=
      fun i hi => (exit_facts m a).1 i (hi.trans hj)
    by_cases hmeet : ∀ k, Meets c sol (Kept m c sol) limit (gridThr a.rnd j k)
    · rw [run_never_stops R.behaves hl a.ok hw hlt hex2 hmeet fuel,
        run_never_stops R'.behaves hl' a.ok hw' (fun i hi => (hex _).2 (hlt i hi)) hex2
          (fun k => (hme _).2 (hmeet k)) fuel]
    · push Not at hmeet
      have hk : ∃ k, ¬ Meets c sol (Kept m c sol) limit (gridThr a.rnd j k) ∧
          ∀ i < k, Meets c sol (Kept m c sol) limit (gridThr a.rnd j i) := by
        classical
        exact ⟨Nat.find hmeet, Nat.find_spec hmeet, fun i hi => not_not.1 (Nat.find_min hmeet hi)⟩
      obtain ⟨k, hk1, hk2⟩ := hk
      obtain ⟨s1, s2, s3⟩ := run_stops (ex := exitThr m a.rnd) R.behaves hl a.ok
        (R.finishOk a.rnd limit) hw hlt hex2 hne hk2 hk1
      obtain ⟨s1', s2', s3'⟩ := run_stops (ex := exitThr m a.rnd) R'.behaves hl' a.ok
        (R'.finishOk a.rnd limit) hw' (fun i hi => (hex _).2 (hlt i hi)) hex2
        (fun g => hne ((hex _).1 g)) (fun i hi => (hme _).2 (hk2 i hi))
        (fun g => hk1 ((hme _).1 g))
      rcases Nat.lt_or_ge fuel (j + 1 + k + 1) with hf | hf
      · rw [s1 fuel hf, s1' fuel hf]
      · by_cases hE : Exceeds c sol (Kept m c sol) limit (gridThr a.rnd j k)
        · obtain ⟨k', rfl⟩ : ∃ k', k = k' + 1 := by
            rcases k with _ | k'
            · exact absurd hE hne
            · exact ⟨k', rfl⟩
          rw [s3 k' rfl hE fuel hf, s3' k' rfl ((hex _).2 hE) fuel hf]
          simp only [Option.map_some, Except.map, RModel.view, freshResult, hcand, F.err, redFile,
            F.path]
        · rw [s2 hE fuel hf, s2' (fun g => hE ((hex _).1 g)) fuel hf]

end
end Verif
