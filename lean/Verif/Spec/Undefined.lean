import Verif.Model.MatrixFloat
import Verif.Spec.Importance
/-!
Numbers that are not finite, and what is assumed of rounding and of the heap.
-/
namespace Verif.Spec

/-- an ordinary number -/
def Finite (x : PyF) : Prop := ∃ q, x = .fin q

/-- no information: an entry that is zero or undefined -/
def Blank (x : PyF) : Prop := x = .fin 0 ∨ x = .nan

/-- rounding that keeps zero and signs; large results may become infinite -/
structure FloatRound (R : ℚ → PyF) : Prop where
  zero : R 0 = .fin 0
  nonneg : ∀ q, 0 ≤ q → R q = .inf ∨ ∃ p, 0 ≤ p ∧ R q = .fin p

/-- some reaction has a net rate that is infinite or undefined -/
def BadRates {n m : Nat} (c : ChemF n m) : Prop := ∃ r, ¬ Finite (c.rop r)

/-- a function that takes one entry out of a heap, some entry if there is one -/
def TakesOne {α : Type} (pop : Pop α) : Prop :=
  pop [] = none ∧ ∀ l, l ≠ [] → ∃ e rest, pop l = some (e, rest) ∧ l.Perm (e :: rest)

/-- the entry with finite values in place of rational ones -/
def liftEntry {α : Type} (e : Entry α ℚ) : Entry α PyF := (.fin e.1, e.2)

/-- on finite numbers the smallest entry is taken -/
def TakesLeast {α : Type} [DecidableEq α] (pop : Pop α) : Prop :=
  ∀ l : List (Entry α ℚ), pop (l.map liftEntry) =
    (popMin l).map (fun x => (liftEntry x.1, x.2.map liftEntry))

/-- the matrix with zeros in place of entries that are not finite -/
def plain (M : NMatF) : NMat := fun i j =>
  match M i j with
  | .fin q => q
  | _ => 0

/-- all entries are finite -/
def FiniteMatrix (M : NMatF) (n : Nat) : Prop := ∀ i < n, ∀ j < n, Finite (M i j)

/-- no entry says anything -/
def BlankMatrix (M : NMatF) (n : Nat) : Prop := ∀ i < n, ∀ j < n, Blank (M i j)

/-- a state with ordinary coefficients: finite, for DRGEP in `[0,1]` -/
structure Ordinary {n m : Nat} (meth : Method) (R : ℚ → PyF) (c : ChemF n m) : Prop where
  finite : FiniteMatrix (matrixF meth R c).toN n
  unit : meth = .drgep → UnitMatrix (plain (matrixF meth R c).toN) n

end Verif.Spec
