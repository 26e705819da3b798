import Verif.Model.Parse
import Verif.Model.SA
/-!
# The driver and the command line: `pymars.py:152-407`

Simulations, sampling and the temporary directories are oracles as in `Model/Reduce` and
`Model/SA`.  Targets and retained species are lists.
-/
namespace Verif

/-- arguments of `main` (`pymars.py:152-168`) with the oracles of its stages: the coefficient
matrices of the sampled states for the method asked for, simulating a candidate of the method stage
(its error, or the exception raised), the starting metrics and metrics of the sensitivity stage, its temporary directories, the
rounding of thresholds and the fuel of the loops.  `sample_metrics` and `sample` and the number of
threads are inside the oracles. -/
structure MainIn where
  modelFile : Text
  limit : PyF
  method : Option String
  targets : List String
  safe : List String
  phase : Text
  sensitivity : Bool
  upper : Option ℚ
  sensitivityType : String
  path : Text
  matrices : List NMat
  sim : Mech → Except Err PyF
  initial : Mech → Except Err (List PyF)
  metrics : Mech → Except Err (List PyF)
  tmpDir : Text
  evalDir : Nat → Text
  rnd : ℚ → ℚ
  dfuel : Nat
  fuel : Nat
  saFuel : Nat
  /-- `calculate_error` and the distance of errors in the sensitivity stage; exact unless said
  otherwise (see `SACtx`) -/
  errFun : List PyF → List PyF → Except Err PyF := calculateError
  dist : PyF → PyF → PyF := fun e cur => (e.sub cur).abs
  /-- rounding of the products of coefficients along paths; that of the thresholds unless said
  otherwise -/
  rndMul : ℚ → ℚ := rnd

/-- the graph-based methods by name -/
def methodOf : String → Option Method
  | "DRG" => some .drg
  | "DRGEP" => some .drgep
  | "PFA" => some .pfa
  | _ => none

/-- `pymars.py:218-261`: arguments of the method; PFA is called without the upper threshold.  The
run uses `p.sim`, not `errOf` (see `runMain`). -/
def MainIn.ctx (p : MainIn) (m : Method) : Ctx where
  modelFile := p.modelFile
  targets := p.targets
  safe := p.safe
  matrices := p.matrices
  errOf := simError p.sim
  phase := p.phase
  path := p.path
  upper := match m with | .pfa => none | _ => p.upper
  rndMul := p.rndMul

/-- `pymars.py:270-288`: arguments of the sensitivity analysis -/
def MainIn.saCtx (p : MainIn) (file : Text) (err : PyF) : SACtx where
  modelFile := file
  startErr := err
  limit := p.limit
  safe := p.targets ++ p.safe
  phase := p.phase
  greedy := p.sensitivityType = "" || p.sensitivityType = "greedy"
  path := p.path
  initial := p.initial
  metrics := p.metrics
  tmpDir := p.tmpDir
  evalDir := p.evalDir
  errOf := p.errFun
  dist := p.dist

/-- `pymars.py:263-290`: the sensitivity stage.  A non-empty limbo list is the object of the
method's result, from which `run_sa` pops: if it is the shared default list, that one shrinks. -/
def saStage (p : MainIn) (file : Text) (err : PyF) (limbo : List String) (shared : Bool)
    (w : World) : RunResult :=
  match runSA (p.saCtx file err) limbo p.saFuel w with
  | none => (none, w)
  | some r => (some r.result, if shared && limbo ≠ [] then { r.w with limbo := r.limbo } else r.w)

/-- `pymars.py:152-290`: `main` -/
def runMain (p : MainIn) (w : World) : RunResult :=
  if (p.method.bind methodOf).isSome && p.targets = [] then (some (.error .assertionError), w)
  else if (p.method = none || p.method = some "") && !p.sensitivity then
    (some (.error .valueError), w)
  else match p.method.bind methodOf with
    | some m =>
        match runMethodS m (p.ctx m) p.sim p.rnd p.limit p.dfuel p.fuel w with
        | (some (.ok r), w1) =>
            if p.sensitivity then
              saStage p r.filename r.error (r.limboList w1) r.limbo.isNone w1
            else (some (.ok r), w1)
        | other => other
    | none =>
        if p.sensitivity then saStage p p.modelFile (.fin 0) [] false w
        else (some (.error .unboundLocal), w)

/-! ### The command line (`pymars.py:293-407`) -/

/-- parsed arguments; `none` when an option was not given -/
structure CliArgs where
  input : Option String
  path : String
  threads : Int
  convert : Bool
  model : Option String
  thermo : Option String
  transport : Option String
  version : Bool
deriving DecidableEq

/-- what the command line ends up doing -/
inductive CliAction where
  | convert (model : String) (thermo transport : Option String) (path : String)
  | reduce (inputs : ReductionInputs) (path : String) (threads : Int)
deriving DecidableEq

/-- `args.input` and the like: given and not empty -/
def givenText : Option String → Bool
  | some s => s ≠ ""
  | none => false

/-- `pymars.py:349-405`: `pymars(argv)`.  `parseArgs` is `argparse`, which is called on the
arguments of the process and not on `argv`; `openYaml` reads the input file; `conv` is `convert`.
`sys.exit` and `parser.error` are `systemExit`.  The model of a `ReductionInputs` cannot be
assigned: it is a `NamedTuple`. -/
def cli (parseArgs : List String → Except Err CliArgs) (openYaml : String → Except Err InputDict)
    (load : String → String → Except Err (List String)) (conv : String → Except Err Unit)
    (argv processArgs : List String) : Except Err CliAction := do
  pyWhen (argv = []) (.error .systemExit)
  let args ← parseArgs processArgs
  pyWhen args.version (.error .systemExit)
  if args.convert then
    pyWhen (!givenText args.model) (.error .systemExit)
    return .convert (args.model.getD "") args.thermo args.transport args.path
  else
    pyWhen (!givenText args.input) (.error .systemExit)
    let dict ← openYaml (args.input.getD "")
    let (inputs, _) ← parseInputs load dict
    let ext := (splitext inputs.model.toList).2
    pyWhen (!(ext = ".yaml".toList || ext = ".yml".toList))
      (conv inputs.model >>= fun _ => .error .attributeError)
    return .reduce inputs args.path args.threads

end Verif
