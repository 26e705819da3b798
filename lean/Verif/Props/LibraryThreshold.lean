import Verif.Props.Library
/-!
# The upper threshold left out (C151)
-/
namespace Verif
open Spec

/-- the condition of the file as the record to pass to `main` -/
def thrConds : List IgnInput :=
  match parseCases (parseIgnition e2eSol.names) [progCase] with | .ok l => l | .error _ => []

/-- DRG and sensitivity analysis of the stated type, without an upper threshold -/
def thrCall : LibraryCall :=
  { libCall none (some "initial") with method := some "DRG", conds := ⟨thrConds, [], []⟩ }

theorem thr_same : SaysSame thrCall (progInput "DRG" true) "" 1 e2eSol.names := by
  refine ⟨rfl, rfl, rfl, rfl, rfl, rfl, rfl, rfl, rfl, rfl, rfl, rfl, ?_, rfl, rfl⟩
  show parseCases (parseIgnition e2eSol.names) [progCase] = .ok thrConds
  decide +kernel

theorem thr_kept : MixturesKept thrCall := by
  have h : ∀ k ∈ thrConds, k.toCond.species = .ok ["A"] := by decide +kernel
  intro k hk
  have hk : k ∈ thrConds.map (·.toCond) := by simpa [thrCall] using hk
  obtain ⟨x, hx, rfl⟩ := List.mem_map.mp hk
  exact ⟨["A"], h x hx, fun sp hsp => .inl (by simpa [thrCall, libCall] using hsp)⟩

/-- **C151** is false when the upper threshold is left out, also with the type stated and the mixtures kept: there is a
request which the command, taking the threshold as 0.1, answers with a model without the target, and which the call,
taking no threshold, answers with another one that has it. -/
theorem C151_threshold_refuted :
    ∃ (K : Cantera IgnInput Cond FlameInput) (sh : Shell) (args : List String) (i path : String) (threads : Int)
      (dct : InputDict) (c : LibraryCall) (sol : Mech) (w : World) (n : Nat),
      Asks args i path threads ∧ sh.yaml i = .ok dct ∧ w.fs dct.model.toList = some sol ∧
      SaysSame c dct path threads sol.names ∧ MixturesKept c ∧ c.sensitivity = some true ∧ c.sensitivityType ≠ none ∧
      c.upper = none ∧ ∃ s ∈ c.targets.getD [], ∃ f, w.fs f = none ∧
        (∃ (w' : World) (evs : List Ev) (m : Mech),
          program K id sh args (fun _ => none) n n n w = .reduced (some (.ok ())) w' evs ∧
          w'.fs f = some m ∧ s ∉ m.names) ∧
        (∃ (w' : World) (evs : List Ev) (r : RModel),
          libraryRun K id sh c (fun _ => none) n n n w = ((some (.ok r), w'), evs) ∧ s ∈ r.model.names ∧
          w'.fs f = none) := by
  refine ⟨progK, progShell "DRG" true, ["-i", "in.yaml"], "in.yaml", "", 1, progInput "DRG" true, thrCall, e2eSol, e2eWorld, 50,
    prog_asks, by simp [progShell], rfl, thr_same, thr_kept, rfl, by simp [thrCall, libCall], rfl, "A",
    by simp [thrCall, libCall], "reduced_1.yaml".toList, by decide, ?_, ?_⟩
  · have h : progView "reduced_1.yaml" (program progK id (progShell "DRG" true) ["-i", "in.yaml"]
      (fun _ => none) 50 50 50 e2eWorld) = some (true, some ["B"]) := by decide +kernel
    generalize program progK id (progShell "DRG" true) ["-i", "in.yaml"] (fun _ => none) 50 50 50 e2eWorld = x at h ⊢
    unfold progView at h
    split at h
    · rename_i w' evs
      simp only [Option.some.injEq, Prod.mk.injEq, true_and, Option.map_eq_some_iff] at h
      obtain ⟨m, h1, h2⟩ := h
      exact ⟨w', evs, m, rfl, h1, by rw [h2]; decide⟩
    · simp at h
    · simp at h
  · have h : runView (libraryRun progK id (progShell "DRG" true) thrCall (fun _ => none) 50 50 50 e2eWorld).1 =
        some (.ok (["A", "B"], .fin 1)) ∧
        (libraryRun progK id (progShell "DRG" true) thrCall (fun _ => none) 50 50 50 e2eWorld).1.2.fs
          "reduced_1.yaml".toList = none := by decide +kernel
    generalize libraryRun progK id (progShell "DRG" true) thrCall (fun _ => none) 50 50 50 e2eWorld = x at h ⊢
    obtain ⟨x, evs⟩ := x
    obtain ⟨h, hf⟩ := h
    obtain ⟨r, w', rfl, h1⟩ := runView_ok h
    have h1 : r.model.names = ["A", "B"] := congrArg Prod.fst h1
    exact ⟨w', evs, r, rfl, by rw [h1]; decide, hf⟩

end Verif
