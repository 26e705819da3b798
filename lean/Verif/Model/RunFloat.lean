import Verif.Model.MatrixFloat
/-!
# Runs of the methods on matrices with infinities and undefined numbers

The functions of `Model/Reduce` that read the adjacency matrices, on floating-point matrices
`Ms`; the field `matrices` of the context is not used.  `pop` is `heappop`.
-/
namespace Verif

/-- `drg.py:185-189`, `pfa.py:209-213` -/
def retainedLoopF (names targets : List String) (thr : ℚ) :
    List NMatF → List String → Except Err (List String)
  | [], acc => .ok acc
  | M :: Ms, acc =>
      match trimDrgF M names targets thr with
      | .error e => .error e
      | .ok l => retainedLoopF names targets thr Ms (acc ++ l)

/-- `drg.py:185-192`, `pfa.py:209-216` -/
def retainedF (matrices : List NMatF) (names targets : List String) (thr : ℚ) :
    Except Err (List String) :=
  (retainedLoopF names targets thr matrices []).map List.dedup

/-- `drg.py:125-238`: `reduce_drg` -/
def reduceDrgF (c : Ctx) (Ms : List NMatF) (sim : Mech → Except Err PyF) (thr : ℚ)
    (prev : Option RModel) (w : World) : Except Err RModel × World :=
  match loadModel w c.modelFile with
  | .error e => (.error e, w)
  | .ok sol =>
  match retainedF Ms sol.names c.targets thr with
  | .error e => (.error e, w)
  | .ok ret =>
  match sameCount prev ret.length with
  | some p => (.ok p, w)
  | none =>
  let removed := sol.names.filter (fun sp => !((ret ++ c.safe).contains sp))
  match buildCandidate c sim sol removed w with
  | (.error e, w1) => (.error e, w1)
  | (.ok (red, fn, err), w1) =>
  match truthy c.upper with
  | none => (.ok ⟨red, fn, err, some []⟩, w1)
  | some u =>
  match retainedF Ms sol.names c.targets u with
  | .error e => (.error e, w1)
  | .ok limbo => (.ok ⟨red, fn, err, some limbo⟩, w1)

/-- `pfa.py:149-264`: `reduce_pfa` -/
def reducePfaF (c : Ctx) (Ms : List NMatF) (sim : Mech → Except Err PyF) (thr : ℚ)
    (prev : Option RModel) (w : World) : Except Err RModel × World :=
  match loadModel w c.modelFile with
  | .error e => (.error e, w)
  | .ok sol =>
  match retainedF Ms sol.names c.targets thr with
  | .error e => (.error e, w)
  | .ok ret =>
  match sameCount prev ret.length with
  | some p => (.ok p, w)
  | none =>
  let removed := sol.names.filter (fun sp => !((ret ++ c.safe).contains sp))
  match buildCandidate c sim sol removed w with
  | (.error e, w1) => (.error e, w1)
  | (.ok (red, fn, err), w1) =>
  match truthy c.upper with
  | none => (.ok ⟨red, fn, err, some []⟩, w1)
  | some u =>
  match Ms.getLast? with
  | none => (.error .unboundLocal, w1)
  | some M =>
  match trimDrgF M sol.names c.targets u with
  | .error e => (.error e, w1)
  | .ok l =>
  let limbo := sol.names.filter (fun sp => !((ret ++ l ++ c.safe ++ removed).contains sp))
  (.ok ⟨red, fn, err, some limbo⟩, w1)

/-- `drgep.py:338-342` -/
def removedDrgepF (imp : String → Option PyF) (safe : List String) (thr : ℚ) :
    List String → Except Err (List String)
  | [] => .ok []
  | sp :: sps =>
      match imp sp with
      | none => .error .keyError
      | some x =>
          match removedDrgepF imp safe thr sps with
          | .error e => .error e
          | .ok l => .ok (if x.lt (.fin thr) ∧ sp ∉ safe then sp :: l else l)

/-- `drgep.py:286-372`: `reduce_drgep` -/
def reduceDrgepF (c : Ctx) (sim : Mech → Except Err PyF) (imp : String → Option PyF) (thr : ℚ)
    (prev : Option RModel) (w : World) : Except Err RModel × World :=
  match loadModel w c.modelFile with
  | .error e => (.error e, w)
  | .ok sol =>
  match removedDrgepF imp c.safe thr sol.names with
  | .error e => (.error e, w)
  | .ok removed =>
  match (match prev with
    | some p => if (removed.length : Int) = (sol.nSpecies : Int) - p.model.nSpecies then some p else none
    | none => none) with
  | some p => (.ok p, w)
  | none =>
  match buildCandidate c sim sol removed w with
  | (.error e, w1) => (.error e, w1)
  | (.ok (red, fn, err), w1) => (.ok ⟨red, fn, err, none⟩, w1)

/-- `drgep.py:532-535` -/
def limboDrgepF (c : Ctx) (imp : String → Option PyF) (r : RModel) : List String :=
  match truthy c.upper with
  | none => []
  | some u => r.model.names.filter (fun sp =>
      ((imp sp).getD (.fin 0)).lt (.fin u) && !(c.safe.contains sp))

/-- `drg.py:241-405`, `drgep.py:375-545`, `pfa.py:267-431`: the run functions -/
def runMethodF (pop : Pop String) (m : Method) (c : Ctx) (Ms : List NMatF)
    (sim : Mech → Except Err PyF) (rnd : ℚ → ℚ) (limit : PyF) (dfuel fuel : Nat) (w : World) :
    RunResult :=
  match loadModel w c.modelFile with
  | .error e => (some (.error e), w)
  | .ok sol =>
  if c.targets = [] then (some (.error .assertionError), w)
  else
  match m with
  | .drg => runWith (reduceDrgF c Ms sim) (finishDrg (reduceDrgF c Ms sim) rnd limit c.path) rnd
      (rnd (1 / 100000)) limit fuel (loopInit rnd sol c.modelFile w)
  | .pfa => runWith (reducePfaF c Ms sim) (finishOther (reducePfaF c Ms sim) rnd limit c.path) rnd
      (rnd (1 / 100000)) limit fuel (loopInit rnd sol c.modelFile w)
  | .drgep =>
      match importanceF pop (fun q => .fin (c.rndMul q)) sol.names c.targets Ms dfuel with
      | .error e => (some (.error e), w)
      | .ok imp =>
          match runWith (reduceDrgepF c sim imp) (finishOther (reduceDrgepF c sim imp) rnd limit c.path)
              rnd (rnd (1 / 1000000)) limit fuel (loopInit rnd sol c.modelFile w) with
          | (some (.ok r), w1) =>
              let x := appendLimbo r w1 (limboDrgepF c imp r)
              (some (.ok x.1), x.2)
          | other => other

end Verif
