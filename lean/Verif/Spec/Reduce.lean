import Verif.Model.Reduce
import Verif.Spec.Graph
import Verif.Spec.Importance
import Verif.Spec.Rounding
/-!
# What a reduction at a given threshold should keep
-/
namespace Verif.Spec
open Verif

/-- a usable start: distinct species names, targets among them, and a model file that is not
itself called `reduced_<n>.yaml` in the output directory -/
structure Setting (c : Ctx) (sol : Mech) : Prop where
  nodup : sol.names.Nodup
  targets : ∀ t ∈ c.targets, t ∈ sol.names
  noclash : ∀ n, joinPath c.path (reducedName n) ≠ c.modelFile

/-- species a DRG or PFA reduction keeps at threshold `t`: linked to a target in some sampled
state, or protected -/
def KeptDrg (c : Ctx) (sol : Mech) (t : ℚ) (s : String) : Prop :=
  (∃ M ∈ c.matrices, Linked M sol.names c.targets t s) ∨ s ∈ c.safe

/-- species a DRGEP reduction keeps at threshold `t`: importance coefficient not below the
threshold, or protected -/
def KeptDrgep (c : Ctx) (imp : String → Option ℚ) (t : ℚ) (s : String) : Prop :=
  (∃ x, imp s = some x ∧ t ≤ x) ∨ s ∈ c.safe

/-- the same in terms of path products: some path from a target in some sampled state has a
product not below the threshold, or the threshold is not positive, or the species is
protected -/
def KeptPath (c : Ctx) (sol : Mech) (t : ℚ) (s : String) : Prop :=
  (∃ y ∈ Candidates c.rndMul sol.names c.targets c.matrices s, t ≤ y) ∨ s ∈ c.safe

/-- species kept at threshold `t` by a method -/
def Kept (m : Method) (c : Ctx) (sol : Mech) : ℚ → String → Prop :=
  match m with
  | .drg => KeptDrg c sol
  | .drgep => KeptPath c sol
  | .pfa => KeptDrg c sol

/-- The candidate model at threshold `t` when `kept t` says which species to keep: the
starting model trimmed by its other species. -/
noncomputable def candidate (c : Ctx) (sol : Mech) (kept : ℚ → String → Prop) (t : ℚ) : Mech :=
  open Classical in
  trim sol (sol.names.filter (fun s => ¬ kept t s)) ("reduced_".toList ++ c.modelFile) c.phase

/-- a start from which a method can run: usable setting and at least one target;
DRGEP needs coefficients in `[0,1]` and products rounded by a usable operator; PFA with an upper threshold needs a sampled state -/
structure Usable (m : Method) (c : Ctx) (sol : Mech) : Prop extends Setting c sol where
  target : c.targets ≠ []
  unit : m = .drgep → RndOk c.rndMul ∧ ∀ M ∈ c.matrices, UnitMatrix M sol.names.length
  upper : m = .pfa → truthy c.upper = none ∨ c.matrices ≠ []

/-- arithmetic of a run: exact, binary64 as if exponents had no lower end, and binary64 with gradual
underflow -/
inductive Arith where
  | exact
  | binary64
  | ieee
deriving DecidableEq

def Arith.rnd : Arith → ℚ → ℚ
  | .exact => id
  | .binary64 => rnd64
  | .ieee => rnd754

/-- index of the last starting threshold tried -/
def lastStart : Method → Arith → Nat
  | .drgep, .exact => 3
  | .drgep, _ => 4
  | _, _ => 2

/-- starting thresholds tried: 0.01 divided by ten `j` times -/
def startThr (rnd : ℚ → ℚ) : Nat → ℚ
  | 0 => rnd (1 / 100)
  | j + 1 => rnd (startThr rnd j / 10)

/-- thresholds reached from the `j`-th starting threshold after `k` increments -/
def gridThr (rnd : ℚ → ℚ) (j : Nat) : Nat → ℚ
  | 0 => startThr rnd j
  | k + 1 => rnd (gridThr rnd j k + startThr rnd j)

/-- threshold of the final reduction after acceptance at `gridThr rnd j k` and a violation at
the next one -/
def finalThr (rnd : ℚ → ℚ) (j k : Nat) : ℚ :=
  rnd (gridThr rnd j (k + 2) - rnd (2 * startThr rnd j))

/-- the candidate at `t` meets the limit -/
def Meets (c : Ctx) (sol : Mech) (kept : ℚ → String → Prop) (limit : PyF) (t : ℚ) : Prop :=
  (c.errOf (candidate c sol kept t)).le limit = true

/-- the candidate at `t` exceeds the limit (an undefined error neither meets nor exceeds) -/
def Exceeds (c : Ctx) (sol : Mech) (kept : ℚ → String → Prop) (limit : PyF) (t : ℚ) : Prop :=
  limit.lt (c.errOf (candidate c sol kept t)) = true

/-- the limit is not negative and the full model, simulated again, meets it -/
structure LimitOk (c : Ctx) (sol : Mech) (limit : PyF) : Prop where
  nonneg : (PyF.fin 0).le limit = true
  full : (c.errOf (trim sol [] ("reduced_".toList ++ c.modelFile) c.phase)).le limit = true

end Verif.Spec
