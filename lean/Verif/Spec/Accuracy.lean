import Verif.Spec.Matrix
import Verif.Spec.Reduce
import Verif.Model.MatrixRound
/-!
# Roundings with a bounded relative error, and reductions by the published coefficients
-/
namespace Verif.Spec
open Verif

/-- rounding with relative error at most `u`, like binary64 without overflow and underflow -/
structure Rounds (rnd : ℚ → ℚ) (u : ℚ) : Prop extends RndOk rnd where
  u0 : 0 ≤ u
  u1 : u < 1
  odd : ∀ x, rnd (-x) = -rnd x
  rel : ∀ x, 0 ≤ x → (1 - u) * x ≤ rnd x ∧ rnd x ≤ (1 + u) * x

/-- the published coefficient of a method between two different species -/
def published {n m : Nat} (meth : Method) (c : Chem n m) : Mat n := fun a b =>
  if a = b then 0 else
    match meth with
    | .drg => drg c a b
    | .drgep => drgep c a b
    | .pfa => pfa c a b

/-- what a method keeps at threshold `t` when coefficients and path products are the published
ones, without any rounding: DRG and PFA keep what is linked to a target by a chain of coefficients
not below `t` in some state, DRGEP keeps what has a path from a target whose coefficients multiply
to `t` or more; protected species are kept in any case -/
def KeptPublished {m : Nat} (meth : Method) (names targets safe : List String)
    (states : List (Chem names.length m)) (t : ℚ) (s : String) : Prop :=
  (match meth with
    | .drgep => ∃ y ∈ Candidates id names targets (states.map (fun c => (published .drgep c).toN)) s, t ≤ y
    | meth => ∃ c ∈ states, Linked (published meth c).toN names targets t s) ∨ s ∈ safe

/-- a threshold so much above `t` that what is kept there is kept at `t` in spite of rounding to
binary64, with `n` species and `m` reactions -/
def above (meth : Method) (n m : Nat) (t : ℚ) : ℚ :=
  match meth with
  | .drgep => t + n * ((m + 3) / 2 ^ 49)
  | _ => t / (1 - (4 * m + n + 14) / 2 ^ 52)

/-- a threshold so much below `t` that what is kept at `t` in spite of rounding to binary64 is kept
there -/
def below (meth : Method) (n m : Nat) (t : ℚ) : ℚ :=
  match meth with
  | .drgep => t - n * ((m + 3) / 2 ^ 49)
  | _ => t / (1 + (4 * m + n + 14) / 2 ^ 52)

end Verif.Spec
