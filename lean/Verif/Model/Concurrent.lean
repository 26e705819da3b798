import Verif.Model.Reduce
/-!
# Reductions as sequences of file operations, and two of them at the same time

The functions of `Model/Reduce` written out again as programs whose elementary steps are
operations on one file: reading it, looking whether it is there, writing it, removing it.  That a program run by itself does what the function of `Model/Reduce` does is
`C138_alone`.  Another process may act between any two steps.  A candidate is read once for
its simulation (the code reads it once for each condition); samples are given, as there.
-/
namespace Verif

/-- the files -/
abbrev Fs := Text → Option Mech

/-- set or delete one file -/
def Fs.put (fs : Fs) (f : Text) (c : Option Mech) : Fs := fun g => if g = f then c else fs g

/-- delete everything below a directory -/
def Fs.clean (fs : Fs) (dir : Text) : Fs := fun g => if (dir ++ ['/']).isPrefixOf g then none else fs g

/-- a program that works on files; each constructor but `done` is one operation, followed by
what happens with its outcome -/
inductive FsProg (α : Type) where
  /-- the end, with a result -/
  | done (a : α)
  /-- `ct.Solution(f)`: the contents, if there is such a file -/
  | read (f : Text) (k : Option Mech → FsProg α)
  /-- `os.path.isfile(f)`: whether there is such a file -/
  | look (f : Text) (k : Bool → FsProg α)
  /-- `solution.write_yaml(f)` -/
  | write (f : Text) (m : Mech) (k : FsProg α)
  /-- `os.remove(f)`: whether there was such a file -/
  | remove (f : Text) (k : Bool → FsProg α)
  /-- leaving a `TemporaryDirectory`, which deletes what is below it -/
  | clean (dir : Text) (k : FsProg α)

namespace FsProg

/-- one program after the other -/
def bind {α β} : FsProg α → (α → FsProg β) → FsProg β
  | done a, g => g a
  | read f k, g => read f fun o => (k o).bind g
  | look f k, g => look f fun b => (k b).bind g
  | write f m k, g => write f m (k.bind g)
  | remove f k, g => remove f fun b => (k b).bind g
  | clean dir k, g => clean dir (k.bind g)

/-- one operation -/
def step {α} : FsProg α → Fs → FsProg α × Fs
  | done a, fs => (done a, fs)
  | read f k, fs => (k (fs f), fs)
  | look f k, fs => (k (fs f).isSome, fs)
  | write f m k, fs => (k, fs.put f (some m))
  | remove f k, fs => (k (fs f).isSome, fs.put f none)
  | clean dir k, fs => (k, fs.clean dir)

/-- all operations, with no other process -/
def alone {α} : FsProg α → Fs → α × Fs
  | done a, fs => (a, fs)
  | read f k, fs => (k (fs f)).alone fs
  | look f k, fs => (k (fs f).isSome).alone fs
  | write f m k, fs => k.alone (fs.put f (some m))
  | remove f k, fs => (k (fs f).isSome).alone (fs.put f none)
  | clean dir k, fs => k.alone (fs.clean dir)

/-- two programs at the same time: the schedule tells which of them makes the next
operation -/
def both {α β} : List Bool → FsProg α → FsProg β → Fs → FsProg α × FsProg β × Fs
  | [], p, q, fs => (p, q, fs)
  | true :: l, p, q, fs => both l (p.step fs).1 q (p.step fs).2
  | false :: l, p, q, fs => both l p (q.step fs).1 (q.step fs).2

end FsProg

open FsProg

/-- what a method decides before it writes: an exception, the previous model, or the species
to remove together with the limbo species computed after the simulation -/
abbrev Plan := Mech → ℚ → Option RModel →
  Except Err (RModel ⊕ (List String × (Except Err (Option (List String)))))

/-- `drg.py:180-203, 223-229` -/
def drgPlan (c : Ctx) : Plan := fun sol thr prev =>
  match retained c.matrices sol.names c.targets thr with
  | .error e => .error e
  | .ok ret =>
  match sameCount prev ret.length with
  | some p => .ok (.inl p)
  | none =>
  .ok (.inr (sol.names.filter (fun sp => !((ret ++ c.safe).contains sp)),
    match truthy c.upper with
    | none => .ok (some [])
    | some u =>
    match retained c.matrices sol.names c.targets u with
    | .error e => .error e
    | .ok limbo => .ok (some limbo)))

/-- `pfa.py:204-227, 247-256` -/
def pfaPlan (c : Ctx) : Plan := fun sol thr prev =>
  match retained c.matrices sol.names c.targets thr with
  | .error e => .error e
  | .ok ret =>
  match sameCount prev ret.length with
  | some p => .ok (.inl p)
  | none =>
  let removed := sol.names.filter (fun sp => !((ret ++ c.safe).contains sp))
  .ok (.inr (removed,
    match truthy c.upper with
    | none => .ok (some [])
    | some u =>
    match c.matrices.getLast? with
    | none => .error .unboundLocal
    | some M =>
    match trimDrg M sol.names c.targets u with
    | .error e => .error e
    | .ok l => .ok (some (sol.names.filter (fun sp => !((ret ++ l ++ c.safe ++ removed).contains sp))))))

/-- `drgep.py:336-350` -/
def drgepPlan (c : Ctx) (imp : String → Option ℚ) : Plan := fun sol thr prev =>
  match removedDrgep imp c.safe thr sol.names with
  | .error e => .error e
  | .ok removed =>
  match (match prev with
    | some p => if (removed.length : Int) = (sol.nSpecies : Int) - p.model.nSpecies then some p else none
    | none => none) with
  | some p => .ok (.inl p)
  | none => .ok (.inr (removed, .ok none))

/-- `soln2yaml.py:33-42`: `write`; between `os.path.isfile` and `os.remove` the file may
vanish -/
def writeP (m : Mech) (out : Text) : FsProg (Except Err Unit) :=
  .look out fun o =>
    if o then
      .remove out fun b => if b then .write out m (.done (.ok ())) else .done (.error .fileNotFound)
    else .write out m (.done (.ok ()))

/-- `drg.py:204-238` and its copies: write the candidate, simulate it, and compute the limbo
species -/
def candidateP (c : Ctx) (sim : Mech → Except Err PyF) (red : Mech)
    (limbo : Except Err (Option (List String))) : FsProg (Except Err RModel) :=
  let fn := yamlName red (reducedName red.nSpecies) c.path
  (writeP red fn).bind fun x =>
    match x with
    | .error e => .done (.error e)
    | .ok _ => .read fn fun o =>
      match o with
      | none => .done (.error .runtimeError)
      | some m =>
      match sim m with
      | .error e => .done (.error e)
      | .ok err =>
      match limbo with
      | .error e => .done (.error e)
      | .ok l => .done (.ok ⟨red, fn, err, l⟩)

/-- `drg.py:125-238` and its copies: `reduce_drg`, `reduce_pfa`, `reduce_drgep` -/
def reduceP (c : Ctx) (sim : Mech → Except Err PyF) (plan : Plan) (thr : ℚ) (prev : Option RModel) :
    FsProg (Except Err RModel) :=
  .read c.modelFile fun o =>
    match o with
    | none => .done (.error .runtimeError)
    | some sol =>
    match plan sol thr prev with
    | .error e => .done (.error e)
    | .ok (.inl p) => .done (.ok p)
    | .ok (.inr (removed, limbo)) =>
    candidateP c sim (trim sol removed ("reduced_".toList ++ c.modelFile) c.phase) limbo

/-- variables of the `while` loop: those of `LoopState` without the files -/
structure LoopVars where
  first : Bool
  errCur : PyF
  thr : ℚ
  inc : ℚ
  prev : RModel
  last : Option RModel

/-- `os.remove` as a program -/
def removeP (f : Text) : FsProg (Except Err Unit) :=
  .remove f fun b => .done (if b then .ok () else .error .fileNotFound)

/-- `drg.py:392-395`: `soln2yaml.write` of a `ReducedModel`, which has no `write_yaml` -/
def tupleP (out : Text) : FsProg (Except Err RModel) :=
  .look out fun o =>
    if o then
      .remove out fun b => .done (.error (if b then .attributeError else .fileNotFound))
    else .done (.error .attributeError)

/-- `drg.py:374-395`, `drgep.py:511-530`, `pfa.py:400-421`: after the loop -/
def finishP (m : Method) (c : Ctx) (reduce : ℚ → Option RModel → FsProg (Except Err RModel)) (rnd : ℚ → ℚ)
    (limit : PyF) (v : LoopVars) : FsProg (Except Err RModel) :=
  let back := reduce (rnd (v.thr - rnd (2 * v.inc))) none
  match m with
  | .drg =>
      if limit.lt v.errCur then back
      else match v.last with
        | none => .done (.error .unboundLocal)
        | some r => tupleP (joinPath c.path (reducedName r.model.nSpecies))
  | _ =>
      match v.last with
      | none => .done (.error .unboundLocal)
      | some r =>
          if limit.lt r.error then back
          else tupleP (joinPath c.path (reducedName r.model.nSpecies))

/-- `drg.py:325-395`: the loop and what follows; `none` when the fuel is not enough -/
def loopP (m : Method) (c : Ctx) (reduce : ℚ → Option RModel → FsProg (Except Err RModel)) (rnd : ℚ → ℚ)
    (exitBelow : ℚ) (limit : PyF) : Nat → LoopVars → FsProg (Option (Except Err RModel))
  | 0, _ => .done none
  | k + 1, v =>
      if v.errCur.le limit then
        (reduce v.thr (some v.prev)).bind fun x =>
        match x with
        | .error e => .done (some (.error e))
        | .ok r =>
            if v.first && limit.lt r.error then
              let thr := rnd (v.thr / 10)
              let inc := rnd (v.inc / 10)
              if thr ≤ exitBelow then .done (some (.error .systemExit))
              else loopP m c reduce rnd exitBelow limit k
                { v with errCur := .fin 0, thr := thr, inc := inc, last := some r }
            else
              (if v.prev.model.nSpecies ≠ r.model.nSpecies then removeP r.filename
                else .done (.ok ())).bind fun y =>
              match y with
              | .error e => .done (some (.error e))
              | .ok _ => loopP m c reduce rnd exitBelow limit k
                  ⟨false, r.error, rnd (v.thr + v.inc), v.inc, r, some r⟩
      else (finishP m c reduce rnd limit v).bind fun x => .done (some x)

/-- `drg.py:319-324`: variables before the loop -/
def varsInit (rnd : ℚ → ℚ) (sol : Mech) (file : Text) : LoopVars :=
  ⟨true, .fin 0, rnd (1 / 100), rnd (1 / 100), ⟨sol, file, .fin 0, none⟩, none⟩

/-- `drg.py:291-405`, `drgep.py:425-545`, `pfa.py:317-431`: `run_drg`, `run_drgep`, `run_pfa`.
The second component of the result is the shared default list of the process. -/
def methodP (m : Method) (c : Ctx) (sim : Mech → Except Err PyF) (rnd : ℚ → ℚ) (limit : PyF)
    (dfuel fuel : Nat) (limbo : List String) : FsProg (Option (Except Err RModel) × List String) :=
  .read c.modelFile fun o =>
    match o with
    | none => .done (some (.error .runtimeError), limbo)
    | some sol =>
    if c.targets = [] then .done (some (.error .assertionError), limbo)
    else match m with
    | .drg => (loopP .drg c (reduceP c sim (drgPlan c)) rnd (rnd (1 / 100000)) limit fuel
        (varsInit rnd sol c.modelFile)).bind fun x => .done (x, limbo)
    | .pfa => (loopP .pfa c (reduceP c sim (pfaPlan c)) rnd (rnd (1 / 100000)) limit fuel
        (varsInit rnd sol c.modelFile)).bind fun x => .done (x, limbo)
    | .drgep =>
        match getImportanceCoeffs c.rndMul sol.names c.targets c.matrices dfuel with
        | .error e => .done (some (.error e), limbo)
        | .ok imp =>
            (loopP .drgep c (reduceP c sim (drgepPlan c imp)) rnd (rnd (1 / 1000000)) limit fuel
              (varsInit rnd sol c.modelFile)).bind fun x =>
            match x with
            | some (.ok r) =>
                match r.limbo with
                | none => .done (some (.ok r), limbo ++ limboDrgep c imp r)
                | some l => .done (some (.ok { r with limbo := some (l ++ limboDrgep c imp r) }), limbo)
            | other => .done (other, limbo)

/-- `drgep.py:425-450`: the plan of a method; that of DRGEP needs the importance coefficients -/
def planOf (m : Method) (c : Ctx) (sol : Mech) (dfuel : Nat) : Except Err Plan :=
  match m with
  | .drg => .ok (drgPlan c)
  | .pfa => .ok (pfaPlan c)
  | .drgep =>
    match getImportanceCoeffs c.rndMul sol.names c.targets c.matrices dfuel with
    | .error e => .error e
    | .ok imp => .ok (drgepPlan c imp)

end Verif
