import Verif.Model.Concurrent
import Verif.Model.Main
/-!
# Sensitivity analysis and `main` as sequences of file operations

The functions of `Model/SA` and `Model/Main` written out again as programs (see
`Model/Concurrent`).  That a program run by itself does what the function does is
`C138_main_alone`.
-/
namespace Verif
open FsProg

/-- `sensitivity_analysis.py:78-96, 209-231`: trim one species from the model in a file, write
the result to a directory, load and simulate it -/
def tryRemoveP (c : SACtx) (initial : List PyF) (file dir : Text) (sp : String) :
    FsProg (Except Err (Mech × Text × PyF)) :=
  .read file fun o =>
    match o with
    | none => .done (.error .runtimeError)
    | some sol =>
    let test := trim sol [sp] (candidateName sp) c.phase
    let fn := yamlName test (candidateName sp) dir
    (writeP test fn).bind fun x =>
      match x with
      | .error e => .done (.error e)
      | .ok _ => .read fn fun o =>
        match o with
        | none => .done (.error .runtimeError)
        | some m =>
        match saErr c initial m with
        | .error e => .done (.error e)
        | .ok err => .done (.ok (test, fn, err))

/-- `sensitivity_analysis.py:77-96`: the loop over the limbo species -/
def evalLoopP (c : SACtx) (initial : List PyF) (file dir : Text) : List String → FsProg (Except Err (List PyF))
  | [] => .done (.ok [])
  | sp :: rest => (tryRemoveP c initial file dir sp).bind fun x =>
      match x with
      | .error e => .done (.error e)
      | .ok (_, _, err) => (evalLoopP c initial file dir rest).bind fun y =>
        match y with
        | .error e => .done (.error e)
        | .ok errs => .done (.ok (err :: errs))

/-- `sensitivity_analysis.py:36-98`: `evaluate_species_errors` -/
def evalSpeciesP (c : SACtx) (initial : List PyF) (file : Text) (limbo : List String) :
    FsProg (Except Err (List PyF)) :=
  (evalLoopP c initial file (c.evalDir limbo.length) limbo).bind fun r =>
    .clean (c.evalDir limbo.length) (.done r)

/-- state of the loop of `run_sa`: that of `SAState` without the files -/
structure SAVars where
  cur : RModel
  limbo : List String
  errs : List PyF

/-- what one pass through the loop body does -/
inductive SANext where
  | more (v : SAVars)
  | stop (v : SAVars)
  | raise (e : Err) (v : SAVars)

/-- `sensitivity_analysis.py:204-259`: the loop body -/
def saStepP (c : SACtx) (initial : List PyF) (v : SAVars) : FsProg SANext :=
  match npArgmin (v.errs.map (fun e => c.dist e v.cur.error)) with
  | .error e => .done (.raise e v)
  | .ok idx =>
  match v.limbo[idx]? with
  | none => .done (.raise .indexError { v with errs := v.errs.eraseIdx idx })
  | some sp =>
  (tryRemoveP c initial v.cur.filename c.tmpDir sp).bind fun x =>
    match x with
    | .error e => .done (.raise e ⟨v.cur, v.limbo.eraseIdx idx, v.errs.eraseIdx idx⟩)
    | .ok (test, fn, err) =>
    if c.limit.lt err then .done (.stop ⟨v.cur, v.limbo.eraseIdx idx, v.errs.eraseIdx idx⟩)
    else if c.greedy then
      (evalSpeciesP c initial fn (v.limbo.eraseIdx idx)).bind fun y =>
        match y with
        | .error e => .done (.raise e ⟨⟨test, fn, err, none⟩, v.limbo.eraseIdx idx, v.errs.eraseIdx idx⟩)
        | .ok errs' =>
        match pyMin errs' with
        | .error e => .done (.raise e ⟨⟨test, fn, err, none⟩, v.limbo.eraseIdx idx, errs'⟩)
        | .ok least =>
          .done (if c.limit.lt least then .stop ⟨⟨test, fn, err, none⟩, v.limbo.eraseIdx idx, errs'⟩
            else .more ⟨⟨test, fn, err, none⟩, v.limbo.eraseIdx idx, errs'⟩)
    else .done (.more ⟨⟨test, fn, err, none⟩, v.limbo.eraseIdx idx, v.errs.eraseIdx idx⟩)

/-- `sensitivity_analysis.py:203-259`: the `while` loop, with fuel -/
def saLoopP (c : SACtx) (initial : List PyF) : Nat → SAVars → FsProg (Option (Except Err Unit × SAVars))
  | 0, _ => .done none
  | fuel + 1, v =>
      if v.limbo = [] then .done (some (.ok (), v))
      else (saStepP c initial v).bind fun x =>
        match x with
        | .raise e v1 => .done (some (.error e, v1))
        | .stop v1 => .done (some (.ok (), v1))
        | .more v1 => saLoopP c initial fuel v1

/-- `sensitivity_analysis.py:101-276`: `run_sa`, with what is left of the limbo species; `none`
when the fuel is not enough -/
def saP (c : SACtx) (limbo : List String) (fuel : Nat) : FsProg (Option (Except Err RModel × List String)) :=
  .read c.modelFile fun o =>
    match o with
    | none => .done (some (.error .runtimeError, limbo))
    | some sol =>
    match c.initial sol with
    | .error e => .done (some (.error e, limbo))
    | .ok initial =>
    (evalSpeciesP c initial c.modelFile (saLimbo c.safe sol limbo)).bind fun x =>
      match x with
      | .error e => .done (some (.error e, saLimbo c.safe sol limbo))
      | .ok errs =>
      (saLoopP c initial fuel ⟨⟨sol, c.modelFile, c.startErr, none⟩, saLimbo c.safe sol limbo, errs⟩).bind fun y =>
        match y with
        | none => .done none
        | some (.error e, v) => .clean c.tmpDir (.done (some (.error e, v.limbo)))
        | some (.ok (), v) => .clean c.tmpDir
            ((writeP v.cur.model (yamlName v.cur.model (reducedName v.cur.model.nSpecies) c.path)).bind fun z =>
              match z with
              | .error e => .done (some (.error e, v.limbo))
              | .ok _ => .done (some (.ok
                  ⟨v.cur.model, reducedName v.cur.model.nSpecies, v.cur.error, none⟩, v.limbo)))

/-- `pymars.py:263-290`: the sensitivity stage; the last argument is the shared default list of
the process -/
def saStageP (p : MainIn) (file : Text) (err : PyF) (limbo : List String) (shared : Bool)
    (dflt : List String) : FsProg (Option (Except Err RModel) × List String) :=
  (saP (p.saCtx file err) limbo p.saFuel).bind fun x =>
    match x with
    | none => .done (none, dflt)
    | some (r, left) => .done (some r, if shared && limbo ≠ [] then left else dflt)

/-- `pymars.py:152-290`: `main` -/
def mainP (p : MainIn) (dflt : List String) : FsProg (Option (Except Err RModel) × List String) :=
  if (p.method.bind methodOf).isSome && p.targets = [] then .done (some (.error .assertionError), dflt)
  else if (p.method = none || p.method = some "") && !p.sensitivity then
    .done (some (.error .valueError), dflt)
  else match p.method.bind methodOf with
    | some m =>
        (methodP m (p.ctx m) p.sim p.rnd p.limit p.dfuel p.fuel dflt).bind fun x =>
          match x.1 with
          | some (.ok r) =>
              if p.sensitivity then saStageP p r.filename r.error (r.limbo.getD x.2) r.limbo.isNone x.2
              else .done x
          | _ => .done x
    | none =>
        if p.sensitivity then saStageP p p.modelFile (.fin 0) [] false dflt
        else .done (some (.error .unboundLocal), dflt)

end Verif
