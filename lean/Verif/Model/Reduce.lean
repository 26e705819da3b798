import Verif.Model.Trim
import Verif.Model.Graph
import Verif.Model.Importance
import Verif.Model.Num
/-!
# The reduction loops (`drg.py:125-405`, `drgep.py:286-545`, `pfa.py:149-431`)

The world is the file system (a file holds a model; writing and loading again is loss-free)
and the list object shared by all `ReducedModel`s created without `limbo_species`
(`reduce_model.py:15`: a mutable default).  Simulation plus `calculate_error` is an oracle `sim`
from the simulated model to the error or an exception; the functions without `S` at the end of
their name are the case in which no simulation raises, with the errors `errOf`.  `phase_name` only
affects `trim`.
Thresholds are rationals; every arithmetic operation on them is followed by `rnd`
(identity = exact arithmetic, `rnd64` = binary64).
-/
namespace Verif

/-- file system and shared default list -/
structure World where
  fs : Text → Option Mech
  limbo : List String

/-- `reduce_model.py:9-15`: `ReducedModel`.  `limbo = none` is the shared default list. -/
structure RModel where
  model : Mech
  filename : Text
  error : PyF
  limbo : Option (List String)
deriving DecidableEq

/-- the arguments of a reduction that stay fixed during a run, and the rounding `rndMul` of
the products formed by the path search of DRGEP -/
structure Ctx where
  modelFile : Text
  targets : List String
  safe : List String
  matrices : List NMat
  errOf : Mech → PyF
  phase : Text
  path : Text
  upper : Option ℚ
  rndMul : ℚ → ℚ := id

/-- `ct.Solution(file)`; loading a missing file raises (`CanteraError`, here
`runtimeError`). -/
def loadModel (w : World) (f : Text) : Except Err Mech :=
  match w.fs f with
  | some m => .ok m
  | none => .error .runtimeError

/-- set or delete one file -/
def World.set (w : World) (f : Text) (c : Option Mech) : World :=
  { w with fs := fun g => if g = f then c else w.fs g }

/-- `f"reduced_{n}.yaml"` -/
def reducedName (n : Nat) : Text := "reduced_".toList ++ (toString n).toList ++ ".yaml".toList

/-- `soln2yaml.py:33-42`: the name a model is written to. -/
def yamlName (m : Mech) (name path : Text) : Text :=
  if name = [] then joinPath path (m.name ++ ".yaml".toList) else joinPath path name

/-- `soln2yaml.py:9-42`: `write` for a `Solution`: an existing file is removed, then the
model is written. -/
def writeYaml (w : World) (m : Mech) (name path : Text) : Text × World :=
  let out := yamlName m name path
  let w1 := if (w.fs out).isSome then w.set out none else w
  (out, w1.set out (some m))

/-- `soln2yaml.write(reduced_model, ...)` where `reduced_model` is a `ReducedModel`
(`drg.py:392-395`, `drgep.py:527-530`, `pfa.py:418-421`): an existing file is removed, then
`write_yaml` does not exist. -/
def writeYamlTuple (w : World) (name path : Text) : Except Err Unit × World :=
  let out := joinPath path name
  (.error .attributeError, if (w.fs out).isSome then w.set out none else w)

/-- `os.remove` -/
def removeFile (w : World) (f : Text) : Except Err Unit × World :=
  if (w.fs f).isSome then (.ok (), w.set f none) else (.error .fileNotFound, w)

/-- `drg.py:185-189`, `pfa.py:209-213`: `species_retained += trim_drg(...)` per matrix -/
def retainedLoop (names targets : List String) (thr : ℚ) :
    List NMat → List String → Except Err (List String)
  | [], acc => .ok acc
  | M :: Ms, acc =>
      match trimDrg M names targets thr with
      | .error e => .error e
      | .ok l => retainedLoop names targets thr Ms (acc ++ l)

/-- `drg.py:185-192`, `pfa.py:209-216`: union over the states (`list(set(...))`) -/
def retained (matrices : List NMat) (names targets : List String) (thr : ℚ) :
    Except Err (List String) :=
  (retainedLoop names targets thr matrices []).map List.dedup

/-- `previous_model and len(species_retained) == previous_model.model.n_species` -/
def sameCount (prev : Option RModel) (n : Nat) : Option RModel :=
  match prev with
  | some p => if n = p.model.nSpecies then some p else none
  | none => none

/-- `threshold_upper` is truthy -/
def truthy : Option ℚ → Option ℚ
  | some u => if u = 0 then none else some u
  | none => none

/-- simulations that do not raise -/
def Ctx.sim (c : Ctx) (m : Mech) : Except Err PyF := .ok (c.errOf m)

/-- `drg.py:204-221` and its copies: trim, write, simulate.  Returns the reduced model, its
file name and error, or the exception. -/
def buildCandidate (c : Ctx) (sim : Mech → Except Err PyF) (sol : Mech) (removed : List String)
    (w : World) :
    Except Err (Mech × Text × PyF) × World :=
  let red := trim sol removed ("reduced_".toList ++ c.modelFile) c.phase
  let (fn, w1) := writeYaml w red (reducedName red.nSpecies) c.path
  match loadModel w1 fn with
  | .error e => (.error e, w1)
  | .ok m =>
    match sim m with
    | .error e => (.error e, w1)
    | .ok err => (.ok (red, fn, err), w1)

/-- `drg.py:125-238`: `reduce_drg`. -/
def reduceDrgS (c : Ctx) (sim : Mech → Except Err PyF) (thr : ℚ) (prev : Option RModel) (w : World) :
    Except Err RModel × World :=
  match loadModel w c.modelFile with
  | .error e => (.error e, w)
  | .ok sol =>
  match retained c.matrices sol.names c.targets thr with
  | .error e => (.error e, w)
  | .ok ret =>
  match sameCount prev ret.length with
  | some p => (.ok p, w)
  | none =>
  let removed := sol.names.filter (fun sp => !((ret ++ c.safe).contains sp))
  match buildCandidate c sim sol removed w with
  | (.error e, w1) => (.error e, w1)
  | (.ok (red, fn, err), w1) =>
  match truthy c.upper with
  | none => (.ok ⟨red, fn, err, some []⟩, w1)
  | some u =>
  match retained c.matrices sol.names c.targets u with
  | .error e => (.error e, w1)
  | .ok limbo => (.ok ⟨red, fn, err, some limbo⟩, w1)

/-- `pfa.py:149-264`: `reduce_pfa`.  The limbo computation uses the loop variable `matrix`
left over from the loop (unbound when there was no matrix). -/
def reducePfaS (c : Ctx) (sim : Mech → Except Err PyF) (thr : ℚ) (prev : Option RModel) (w : World) :
    Except Err RModel × World :=
  match loadModel w c.modelFile with
  | .error e => (.error e, w)
  | .ok sol =>
  match retained c.matrices sol.names c.targets thr with
  | .error e => (.error e, w)
  | .ok ret =>
  match sameCount prev ret.length with
  | some p => (.ok p, w)
  | none =>
  let removed := sol.names.filter (fun sp => !((ret ++ c.safe).contains sp))
  match buildCandidate c sim sol removed w with
  | (.error e, w1) => (.error e, w1)
  | (.ok (red, fn, err), w1) =>
  match truthy c.upper with
  | none => (.ok ⟨red, fn, err, some []⟩, w1)
  | some u =>
  match c.matrices.getLast? with
  | none => (.error .unboundLocal, w1)
  | some M =>
  match trimDrg M sol.names c.targets u with
  | .error e => (.error e, w1)
  | .ok l =>
  let limbo := sol.names.filter (fun sp => !((ret ++ l ++ c.safe ++ removed).contains sp))
  (.ok ⟨red, fn, err, some limbo⟩, w1)

/-- `drgep.py:338-342`: species below the threshold and not protected; `KeyError` for a
species without coefficient. -/
def removedDrgep (imp : String → Option ℚ) (safe : List String) (thr : ℚ) :
    List String → Except Err (List String)
  | [] => .ok []
  | sp :: sps =>
      match imp sp with
      | none => .error .keyError
      | some x =>
          match removedDrgep imp safe thr sps with
          | .error e => .error e
          | .ok l => .ok (if x < thr ∧ sp ∉ safe then sp :: l else l)

/-- `drgep.py:286-372`: `reduce_drgep`. -/
def reduceDrgepS (c : Ctx) (sim : Mech → Except Err PyF) (imp : String → Option ℚ) (thr : ℚ) (prev : Option RModel)
    (w : World) : Except Err RModel × World :=
  match loadModel w c.modelFile with
  | .error e => (.error e, w)
  | .ok sol =>
  match removedDrgep imp c.safe thr sol.names with
  | .error e => (.error e, w)
  | .ok removed =>
  match (match prev with
    | some p => if (removed.length : Int) = (sol.nSpecies : Int) - p.model.nSpecies then some p else none
    | none => none) with
  | some p => (.ok p, w)
  | none =>
  match buildCandidate c sim sol removed w with
  | (.error e, w1) => (.error e, w1)
  | (.ok (red, fn, err), w1) => (.ok ⟨red, fn, err, none⟩, w1)

/-- `reduce_drg` when no simulation raises -/
def reduceDrg (c : Ctx) : ℚ → Option RModel → World → Except Err RModel × World :=
  reduceDrgS c c.sim

/-- `reduce_pfa` when no simulation raises -/
def reducePfa (c : Ctx) : ℚ → Option RModel → World → Except Err RModel × World :=
  reducePfaS c c.sim

/-- `reduce_drgep` when no simulation raises -/
def reduceDrgep (c : Ctx) (imp : String → Option ℚ) :
    ℚ → Option RModel → World → Except Err RModel × World :=
  reduceDrgepS c c.sim imp

/-- a method's reduction step: threshold, previous model, world -/
abbrev ReduceFn := ℚ → Option RModel → World → Except Err RModel × World

/-- Variables of the `while` loop (`drg.py:319-372`); `last` is `reduced_model`, unbound
before the first iteration. -/
structure LoopState where
  first : Bool
  errCur : PyF
  thr : ℚ
  inc : ℚ
  prev : RModel
  last : Option RModel
  w : World

/-- Situation after some loop iterations. -/
inductive Outcome where
  | running (s : LoopState)
  | left (s : LoopState)
  | raised (e : Err) (w : World)

/-- `drg.py:325-372`: one iteration of `while error_current <= error_limit`. -/
def loopStep (reduce : ReduceFn) (rnd : ℚ → ℚ) (exitBelow : ℚ) (limit : PyF) (s : LoopState) :
    Outcome :=
  if s.errCur.le limit then
    match reduce s.thr (some s.prev) s.w with
    | (.error e, w1) => .raised e w1
    | (.ok r, w1) =>
        if s.first && limit.lt r.error then
          let thr := rnd (s.thr / 10)
          let inc := rnd (s.inc / 10)
          if thr ≤ exitBelow then .raised .systemExit w1
          else .running { s with errCur := .fin 0, thr := thr, inc := inc, last := some r, w := w1 }
        else
          match (if s.prev.model.nSpecies ≠ r.model.nSpecies then removeFile w1 r.filename
                 else (.ok (), w1)) with
          | (.error e, w2) => .raised e w2
          | (.ok _, w2) =>
              .running { first := false, errCur := r.error, thr := rnd (s.thr + s.inc),
                         inc := s.inc, prev := r, last := some r, w := w2 }
  else .left s

/-- the `while` loop, for at most `fuel` iterations -/
def whileLoop (reduce : ReduceFn) (rnd : ℚ → ℚ) (exitBelow : ℚ) (limit : PyF) :
    Nat → LoopState → Outcome
  | 0, s => .running s
  | k + 1, s =>
      match loopStep reduce rnd exitBelow limit s with
      | .running t => whileLoop reduce rnd exitBelow limit k t
      | o => o

/-- `drg.py:319-324`: state before the loop -/
def loopInit (rnd : ℚ → ℚ) (sol : Mech) (file : Text) (w : World) : LoopState where
  first := true
  errCur := .fin 0
  thr := rnd (1 / 100)
  inc := rnd (1 / 100)
  prev := ⟨sol, file, .fin 0, none⟩
  last := none
  w := w

/-- the back-step `threshold -= 2 * threshold_increment` (`drg.py:375`) -/
def backStep (rnd : ℚ → ℚ) (s : LoopState) : ℚ := rnd (s.thr - rnd (2 * s.inc))

/-- `drg.py:374-395`: after the loop, for DRG (test on `error_current`). -/
def finishDrg (reduce : ReduceFn) (rnd : ℚ → ℚ) (limit : PyF) (path : Text) (s : LoopState) :
    Except Err RModel × World :=
  if limit.lt s.errCur then reduce (backStep rnd s) none s.w
  else match s.last with
    | none => (.error .unboundLocal, s.w)
    | some r =>
        match writeYamlTuple s.w (reducedName r.model.nSpecies) path with
        | (.error e, w) => (.error e, w)
        | (.ok _, w) => (.ok r, w)

/-- `drgep.py:511-530`, `pfa.py:400-421`: after the loop, test on `reduced_model.error`. -/
def finishOther (reduce : ReduceFn) (rnd : ℚ → ℚ) (limit : PyF) (path : Text) (s : LoopState) :
    Except Err RModel × World :=
  match s.last with
  | none => (.error .unboundLocal, s.w)
  | some r =>
      if limit.lt r.error then reduce (backStep rnd s) none s.w
      else
        match writeYamlTuple s.w (reducedName r.model.nSpecies) path with
        | (.error e, w) => (.error e, w)
        | (.ok _, w) => (.ok r, w)

/-- outcome of a whole run; `none` = still in the loop after `fuel` iterations -/
abbrev RunResult := Option (Except Err RModel) × World

/-- loop followed by the part after it -/
def runWith (reduce : ReduceFn) (finish : LoopState → Except Err RModel × World)
    (rnd : ℚ → ℚ) (exitBelow : ℚ) (limit : PyF) (fuel : Nat) (s : LoopState) : RunResult :=
  match whileLoop reduce rnd exitBelow limit fuel s with
  | .running t => (none, t.w)
  | .raised e w => (some (.error e), w)
  | .left t => let r := finish t; (some r.1, r.2)

/-- `drg.py:241-405`: `run_drg`, with the adjacency matrices of the sampled states given. -/
def runDrgS (c : Ctx) (sim : Mech → Except Err PyF) (rnd : ℚ → ℚ) (limit : PyF) (fuel : Nat) (w : World) : RunResult :=
  match loadModel w c.modelFile with
  | .error e => (some (.error e), w)
  | .ok sol =>
      if c.targets = [] then (some (.error .assertionError), w)
      else runWith (reduceDrgS c sim) (finishDrg (reduceDrgS c sim) rnd limit c.path) rnd
        (rnd (1 / 100000)) limit fuel (loopInit rnd sol c.modelFile w)

/-- `pfa.py:267-431`: `run_pfa`. -/
def runPfaS (c : Ctx) (sim : Mech → Except Err PyF) (rnd : ℚ → ℚ) (limit : PyF) (fuel : Nat) (w : World) : RunResult :=
  match loadModel w c.modelFile with
  | .error e => (some (.error e), w)
  | .ok sol =>
      if c.targets = [] then (some (.error .assertionError), w)
      else runWith (reducePfaS c sim) (finishOther (reducePfaS c sim) rnd limit c.path) rnd
        (rnd (1 / 100000)) limit fuel (loopInit rnd sol c.modelFile w)

/-- the limbo list a `ReducedModel` refers to -/
def RModel.limboList (r : RModel) (w : World) : List String := r.limbo.getD w.limbo

/-- `reduced_model.limbo_species.append(sp)` for each of `sps`: appends to the shared list if
the model was created without its own -/
def appendLimbo (r : RModel) (w : World) (sps : List String) : RModel × World :=
  match r.limbo with
  | none => (r, { w with limbo := w.limbo ++ sps })
  | some l => ({ r with limbo := some (l ++ sps) }, w)

/-- `drgep.py:532-535`: limbo species of DRGEP; `KeyError` for a species without
coefficient is impossible here because the coefficients cover the starting model. -/
def limboDrgep (c : Ctx) (imp : String → Option ℚ) (r : RModel) : List String :=
  match truthy c.upper with
  | none => []
  | some u => r.model.names.filter (fun sp =>
      decide ((imp sp).getD 0 < u) && !(c.safe.contains sp))

/-- `drgep.py:375-545`: `run_drgep`.  `dfuel` bounds the path searches. -/
def runDrgepS (c : Ctx) (sim : Mech → Except Err PyF) (rnd : ℚ → ℚ) (limit : PyF)
    (dfuel fuel : Nat) (w : World) : RunResult :=
  match loadModel w c.modelFile with
  | .error e => (some (.error e), w)
  | .ok sol =>
      if c.targets = [] then (some (.error .assertionError), w)
      else
        match getImportanceCoeffs c.rndMul sol.names c.targets c.matrices dfuel with
        | .error e => (some (.error e), w)
        | .ok imp =>
            match runWith (reduceDrgepS c sim imp) (finishOther (reduceDrgepS c sim imp) rnd limit c.path)
                rnd (rnd (1 / 1000000)) limit fuel (loopInit rnd sol c.modelFile w) with
            | (some (.ok r), w1) =>
                let x := appendLimbo r w1 (limboDrgep c imp r)
                (some (.ok x.1), x.2)
            | other => other

/-- the error of a simulation, undefined if it raises; only used to state properties -/
def simError (sim : Mech → Except Err PyF) (m : Mech) : PyF :=
  match sim m with
  | .ok e => e
  | .error _ => .nan

/-- the graph-based methods (`pymars.py:209-263`) -/
inductive Method where
  | drg
  | drgep
  | pfa
deriving DecidableEq

/-- the run function of a method -/
def runMethodS (m : Method) (c : Ctx) (sim : Mech → Except Err PyF) (rnd : ℚ → ℚ) (limit : PyF)
    (dfuel fuel : Nat) (w : World) : RunResult :=
  match m with
  | .drg => runDrgS c sim rnd limit fuel w
  | .drgep => runDrgepS c sim rnd limit dfuel fuel w
  | .pfa => runPfaS c sim rnd limit fuel w

/-- `run_drg` when no simulation raises -/
def runDrg (c : Ctx) (rnd : ℚ → ℚ) (limit : PyF) (fuel : Nat) (w : World) : RunResult :=
  runDrgS c c.sim rnd limit fuel w

/-- `run_pfa` when no simulation raises -/
def runPfa (c : Ctx) (rnd : ℚ → ℚ) (limit : PyF) (fuel : Nat) (w : World) : RunResult :=
  runPfaS c c.sim rnd limit fuel w

/-- `run_drgep` when no simulation raises -/
def runDrgep (c : Ctx) (rnd : ℚ → ℚ) (limit : PyF) (dfuel fuel : Nat) (w : World) : RunResult :=
  runDrgepS c c.sim rnd limit dfuel fuel w

/-- the run function of a method when no simulation raises -/
def runMethod (m : Method) (c : Ctx) (rnd : ℚ → ℚ) (limit : PyF) (dfuel fuel : Nat) (w : World) :
    RunResult :=
  match m with
  | .drg => runDrg c rnd limit fuel w
  | .drgep => runDrgep c rnd limit dfuel fuel w
  | .pfa => runPfa c rnd limit fuel w

end Verif
