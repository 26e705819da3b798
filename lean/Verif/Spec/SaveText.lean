import Verif.Spec.Repr
import Verif.Spec.Sampling
import Verif.Model.SaveText
/-!
# Saved samples as text: floats, writes that break off, numbers cut short
-/
namespace Verif.Spec
open Verif

/-- a binary64 number, infinities and NaN included -/
def IsPyFloat : PyF → Prop
  | .fin q => IsFloat q ∧ |q| < 2 ^ 1024
  | _ => True

/-- rows that can be written and read -/
def SavableRows (rows : List Row) : Prop := ∀ r ∈ rows, r ≠ [] ∧ ∀ x ∈ r, IsPyFloat x

/-- Simulations return floats. -/
structure FloatSims {κ} (S : Sims κ) (m : Mech) : Prop where
  metrics : ∀ c ms rows, S.run m c = .ok (ms, rows) → ∀ x ∈ ms, IsPyFloat x
  data : ∀ c ms rows, S.run m c = .ok (ms, rows) → ∀ r ∈ rows, ∀ x ∈ r, IsPyFloat x

/-- Simulations of all three phenomena return floats. -/
structure FloatAll {ι π φ} (S : AllSims ι π φ) (m : Mech) : Prop where
  ign : FloatSims S.ign m
  psr : FloatSims S.psr m
  flame : FloatSims S.flame m

/-- the directory in which a call of `sample` died after `k` characters -/
def diedAfter (k : Nat) (d : TextDisk) (r : Except Err (List PyF × List Row) × List TextEv) : TextDisk :=
  applyTextEvs d (r.2.take k)

/-- what a reader makes of a number of which only the first `k` characters were written -/
def cutShort (k : Nat) (x : PyF) : PyF := (pyFloat ((fieldText x).take k)).getD .nan

end Verif.Spec
