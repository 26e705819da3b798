import Verif.Model.Reduce
/-!
# The calls of `reduce_drg`, `reduce_drgep` and `reduce_pfa` that a run makes

The functions of `Model/Reduce` written out again to record the arguments of each call; that nothing is
left out is `C129_calls`.
-/
namespace Verif

/-- the arguments of one call that change during a run: threshold, previous model, and the world -/
structure Call where
  thr : ℚ
  prev : Option RModel
  w : World

/-- `drg.py:326-342` and its copies: the calls made by at most `fuel` iterations of the loop -/
def loopCalls (reduce : ReduceFn) (rnd : ℚ → ℚ) (exitBelow : ℚ) (limit : PyF) : Nat → LoopState → List Call
  | 0, _ => []
  | k + 1, s =>
      if s.errCur.le limit then
        ⟨s.thr, some s.prev, s.w⟩ :: (match loopStep reduce rnd exitBelow limit s with
          | .running t => loopCalls reduce rnd exitBelow limit k t
          | _ => [])
      else []

/-- `drg.py:374-391`, `drgep.py:511-526`, `pfa.py:400-417`: the call after the loop -/
def finishCalls (m : Method) (rnd : ℚ → ℚ) (limit : PyF) (s : LoopState) : List Call :=
  match m with
  | .drg => if limit.lt s.errCur then [⟨backStep rnd s, none, s.w⟩] else []
  | _ => match s.last with
    | none => []
    | some r => if limit.lt r.error then [⟨backStep rnd s, none, s.w⟩] else []

/-- all calls of a run from the state before the loop -/
def callsFrom (m : Method) (reduce : ReduceFn) (rnd : ℚ → ℚ) (exitBelow : ℚ) (limit : PyF) (fuel : Nat)
    (s : LoopState) : List Call :=
  loopCalls reduce rnd exitBelow limit fuel s ++
    (match whileLoop reduce rnd exitBelow limit fuel s with
      | .left t => finishCalls m rnd limit t
      | _ => [])

/-- `drgep.py:448-450`: the importance coefficients of the run -/
def impAt (c : Ctx) (dfuel : Nat) (w : World) : Except Err (String → Option ℚ) :=
  match loadModel w c.modelFile with
  | .error e => .error e
  | .ok sol => getImportanceCoeffs c.rndMul sol.names c.targets c.matrices dfuel

/-- the reduction step of a method; `imp` is used by DRGEP only -/
def stepOf (m : Method) (c : Ctx) (imp : String → Option ℚ) : ReduceFn :=
  match m with
  | .drg => reduceDrg c
  | .drgep => reduceDrgep c imp
  | .pfa => reducePfa c

/-- the limit below which starting thresholds are given up (`drg.py:351`, `drgep.py:488`, `pfa.py:377`) -/
def exitOf (m : Method) (rnd : ℚ → ℚ) : ℚ :=
  match m with
  | .drgep => rnd (1 / 1000000)
  | _ => rnd (1 / 100000)

/-- the calls made by a run of a method (`drg.py:291-391`, `drgep.py:425-526`, `pfa.py:317-417`), with the
coefficients they use -/
def methodCalls (m : Method) (c : Ctx) (rnd : ℚ → ℚ) (limit : PyF) (dfuel fuel : Nat) (w : World) :
    (String → Option ℚ) × List Call :=
  match loadModel w c.modelFile with
  | .error _ => (fun _ => none, [])
  | .ok sol =>
  if c.targets = [] then (fun _ => none, [])
  else
  match (match m with | .drgep => impAt c dfuel w | _ => .ok (fun _ => none)) with
  | .error _ => (fun _ => none, [])
  | .ok imp => (imp, callsFrom m (stepOf m c imp) rnd (exitOf m rnd) limit fuel (loopInit rnd sol c.modelFile w))

end Verif
