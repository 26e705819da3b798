import Verif.Model.RunFloat
import Verif.Lemmas.SearchFloat
import Verif.Lemmas.Order
/-!
Runs on floating-point matrices and runs on rational matrices.
-/
namespace Verif
open Spec

/-- every matrix is finite or says nothing -/
def Sorted (Ms : List NMatF) (n : Nat) : Prop := ∀ M ∈ Ms, FiniteMatrix M n ∨ BlankMatrix M n

theorem retainedF_plain {Ms : List NMatF} {names : List String} (h : Sorted Ms names.length)
    (targets : List String) (thr : ℚ) :
    retainedF Ms names targets thr = retained (Ms.map plain) names targets thr := by
  unfold retainedF retained
  congr 1
  generalize ([] : List String) = acc
  induction Ms generalizing acc with
  | nil => rfl
  | cons M Ms ih =>
      simp only [List.map_cons]
      unfold retainedLoopF retainedLoop
      rw [trimDrgF_plain (h M List.mem_cons_self)]
      cases trimDrg (plain M) names targets thr with
      | error e => rfl
      | ok l => exact ih (fun M' hM => h M' (List.mem_cons_of_mem _ hM)) _

theorem buildCandidate_matrices (c : Ctx) (Ms : List NMat) (sim : Mech → Except Err PyF) :
    buildCandidate { c with matrices := Ms } sim = buildCandidate c sim := rfl

theorem removedDrgepF_plain (imp : String → Option ℚ) (safe : List String) (thr : ℚ) (sps : List String) :
    removedDrgepF (fun sp => (imp sp).map .fin) safe thr sps = removedDrgep imp safe thr sps := by
  induction sps with
  | nil => rfl
  | cons sp sps ih =>
      unfold removedDrgepF removedDrgep
      rw [ih]
      rcases imp sp with _ | x
      · rfl
      · simp only [Option.map_some]
        cases removedDrgep imp safe thr sps with
        | error e => rfl
        | ok l => simp [PyF.lt]

section
variable {c : Ctx} {sim : Mech → Except Err PyF} {sol : Mech}

theorem reduceDrgF_plain {Ms : List NMatF} (h : ∀ n, Sorted Ms n)
    : reduceDrgF c Ms sim = reduceDrgS { c with matrices := Ms.map plain } sim := by
  funext thr prev w
  unfold reduceDrgF reduceDrgS
  dsimp only
  cases hl : loadModel w c.modelFile with
  | error e => rfl
  | ok sol =>
      simp only [retainedF_plain (h _), buildCandidate_matrices]
      rfl

theorem reducePfaF_plain {Ms : List NMatF} (h : ∀ n, Sorted Ms n)
    : reducePfaF c Ms sim = reducePfaS { c with matrices := Ms.map plain } sim := by
  funext thr prev w
  unfold reducePfaF reducePfaS
  dsimp only
  cases hl : loadModel w c.modelFile with
  | error e => rfl
  | ok sol =>
      simp only [retainedF_plain (h _), buildCandidate_matrices, List.getLast?_map]
      rcases hg : Ms.getLast? with _ | M
      · rfl
      · have := h sol.names.length M (List.mem_of_getLast? hg)
        simp only [Option.map_some, trimDrgF_plain this]
        rfl

theorem reduceDrgepF_plain {Ms : List NMat} (imp : String → Option ℚ) :
    reduceDrgepF c sim (fun sp => (imp sp).map .fin) =
      reduceDrgepS { c with matrices := Ms } sim imp := by
  funext thr prev w
  unfold reduceDrgepF reduceDrgepS
  dsimp only
  cases hl : loadModel w c.modelFile with
  | error e => rfl
  | ok sol =>
      simp only [removedDrgepF_plain, buildCandidate_matrices]
      rfl

theorem limboDrgepF_plain {Ms : List NMat} (imp : String → Option ℚ) (r : RModel) :
    limboDrgepF c (fun sp => (imp sp).map .fin) r = limboDrgep { c with matrices := Ms } imp r := by
  unfold limboDrgepF limboDrgep
  dsimp only
  rcases truthy c.upper with _ | u
  · rfl
  · apply List.filter_congr
    intro sp _
    rcases imp sp with _ | x <;> rfl

/-- a run on matrices that are finite or say nothing is a run on rational matrices, with zeros for
undefined entries -/
theorem runMethodF_plain {pop : Pop String} (hp1 : TakesOne pop) (hp2 : TakesLeast pop) (m : Method)
    {Ms : List NMatF} (h : ∀ n, Sorted Ms n) (rnd : ℚ → ℚ) (limit : PyF) {dfuel : Nat} (fuel : Nat)
    {w : World} {sol : Mech} (hw : w.fs c.modelFile = some sol) (hd : sol.names.length < dfuel) :
    runMethodF pop m c Ms sim rnd limit dfuel fuel w =
      runMethodS m { c with matrices := Ms.map plain } sim rnd limit dfuel fuel w := by
  have hl : loadModel w c.modelFile = .ok sol := by unfold loadModel; rw [hw]
  unfold runMethodF runMethodS
  rw [hl]
  cases m with
  | drg =>
      unfold runDrgS
      dsimp only
      rw [hl, reduceDrgF_plain h]
  | pfa =>
      unfold runPfaS
      dsimp only
      rw [hl, reducePfaF_plain h]
  | drgep =>
      unfold runDrgepS
      dsimp only
      rw [hl]
      dsimp only
      rw [importanceF_plain hp1 hp2 _ _ Ms (h _) hd]
      by_cases ht : c.targets = []
      · rw [if_pos ht, if_pos ht]
      · rw [if_neg ht, if_neg ht]
        cases getImportanceCoeffs c.rndMul sol.names c.targets (Ms.map plain) dfuel with
        | error e => rfl
        | ok imp =>
            simp only [Except.map, reduceDrgepF_plain (Ms := Ms.map plain),
              limboDrgepF_plain (Ms := Ms.map plain)]
            rfl

end
end Verif
