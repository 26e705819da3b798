import Verif.Model.Calls
/-!
# Counting simulations by their effect
-/
namespace Verif.Spec
open Verif

/-- A call simulates model `x`: what it returns or does to the files changes if nothing but the error
measured for `x` is changed. -/
def Simulates (m : Method) (c : Ctx) (imp : String → Option ℚ) (cl : Call) (x : Mech) : Prop :=
  ∃ e e' : Mech → PyF, (∀ y, y ≠ x → e y = e' y) ∧
    stepOf m { c with errOf := e } imp cl.thr cl.prev cl.w ≠ stepOf m { c with errOf := e' } imp cl.thr cl.prev cl.w

open Classical in
/-- number of calls of a run that simulate a candidate -/
noncomputable def simulations (m : Method) (c : Ctx) (rnd : ℚ → ℚ) (limit : PyF) (dfuel fuel : Nat) (w : World) : Nat :=
  (methodCalls m c rnd limit dfuel fuel w).2.countP
    (fun cl => decide (∃ x, Simulates m c (methodCalls m c rnd limit dfuel fuel w).1 cl x))

end Verif.Spec
