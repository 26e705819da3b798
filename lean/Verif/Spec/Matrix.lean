import Mathlib.Algebra.BigOperators.Fin
import Verif.Model.Matrix
/-!
# Interaction coefficients as published (docs/theory.rst)

`ν A r` is the net stoichiometric coefficient and `ω r` the net rate of progress.
Sums range over **all** reactions.
-/
namespace Verif.Spec
open Verif Finset
variable {n m : Nat} (c : Chem n m)

/-- net production rate of `A` by reaction `r` -/
def rate (A : Fin n) (r : Fin m) : ℚ := (c.prod A r - c.reac A r) * c.rop r

/-- reaction `r` involves `B` -/
def Involves (B : Fin n) (r : Fin m) : Prop := c.prod B r ≠ 0 ∨ c.reac B r ≠ 0

instance (B : Fin n) (r : Fin m) : Decidable (Involves c B r) := by
  unfold Involves; infer_instance

/-- total production, `P_A` -/
def P (A : Fin n) : ℚ := ∑ r, max (rate c A r) 0
/-- total consumption, `C_A` -/
def C (A : Fin n) : ℚ := ∑ r, max (-rate c A r) 0
/-- production of `A` in reactions involving `B` -/
def PAB (A B : Fin n) : ℚ := ∑ r, if Involves c B r then max (rate c A r) 0 else 0
/-- consumption of `A` in reactions involving `B` -/
def CAB (A B : Fin n) : ℚ := ∑ r, if Involves c B r then max (-rate c A r) 0 else 0

/-- DRG coefficient `r_AB` -/
def drg (A B : Fin n) : ℚ :=
  if (∑ r, |rate c A r|) = 0 then 0
  else (∑ r, if Involves c B r then |rate c A r| else 0) / ∑ r, |rate c A r|

/-- DRGEP coefficient `r_AB` -/
def drgep (A B : Fin n) : ℚ :=
  if max (P c A) (C c A) = 0 then 0
  else |∑ r, if Involves c B r then rate c A r else 0| / max (P c A) (C c A)

/-- first-generation PFA production coefficient -/
def pro1 (A B : Fin n) : ℚ :=
  if max (P c A) (C c A) = 0 then 0 else PAB c A B / max (P c A) (C c A)
/-- first-generation PFA consumption coefficient -/
def con1 (A B : Fin n) : ℚ :=
  if max (P c A) (C c A) = 0 then 0 else CAB c A B / max (P c A) (C c A)
/-- PFA coefficient: first generation plus second generation over all intermediates -/
def pfa (A B : Fin n) : ℚ :=
  pro1 c A B + con1 c A B +
    (∑ M, if M = A ∨ M = B then 0 else pro1 c A M * pro1 c M B) +
    (∑ M, if M = A ∨ M = B then 0 else con1 c A M * con1 c M B)

end Verif.Spec
