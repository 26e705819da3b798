import Verif.Model.Sampling
/-!
# `sensitivity_analysis.py`

Files hold models (`World`), as in `Model/Reduce`.  A temporary directory is an arbitrary name;
leaving it deletes every file below it.  `initial` and `metrics` stand for the two uses of
`sample_metrics` (with and without `reuse_saved`), which do not write model files.
Species names are taken as free of `/`, so that the candidate files lie directly in the
temporary directory.  Logging is left out.
-/
namespace Verif

/-- arguments of `run_sa` -/
structure SACtx where
  modelFile : Text
  startErr : PyF
  limit : PyF
  safe : List String
  phase : Text
  /-- `algorithm_type == "greedy"` -/
  greedy : Bool
  path : Text
  initial : Mech → Except Err (List PyF)
  metrics : Mech → Except Err (List PyF)
  /-- directory of the main loop -/
  tmpDir : Text
  /-- directory of an evaluation, by number of species evaluated -/
  evalDir : Nat → Text
  /-- `calculate_error` in the arithmetic of the machine; exact unless said otherwise -/
  errOf : List PyF → List PyF → Except Err PyF := calculateError
  /-- one entry of `np.abs(species_errors - current_model.error)`, likewise -/
  dist : PyF → PyF → PyF := fun e cur => (e.sub cur).abs

/-- leaving a `TemporaryDirectory`: everything below it is deleted -/
def cleanDir (w : World) (dir : Text) : World :=
  { w with fs := fun f => if (dir ++ ['/']).isPrefixOf f then none else w.fs f }

/-- `f"reduced_model_{species}.yaml"` -/
def candidateName (sp : String) : Text :=
  "reduced_model_".toList ++ sp.toList ++ ".yaml".toList

/-- error of a model against the initial metrics (`sensitivity_analysis.py:87-96, 221-231`) -/
def saErr (c : SACtx) (initial : List PyF) (m : Mech) : Except Err PyF :=
  match c.metrics m with
  | .error e => .error e
  | .ok t => c.errOf initial t

/-- `sensitivity_analysis.py:78-96, 209-231`: trim one species from the model in a file, write
the result to a directory, load and simulate it. -/
def tryRemove (c : SACtx) (initial : List PyF) (file : Text) (dir : Text) (sp : String)
    (w : World) : Except Err (Mech × Text × PyF) × World :=
  match loadModel w file with
  | .error e => (.error e, w)
  | .ok sol =>
  let test := trim sol [sp] (candidateName sp) c.phase
  let (fn, w1) := writeYaml w test (candidateName sp) dir
  match loadModel w1 fn with
  | .error e => (.error e, w1)
  | .ok m =>
  match saErr c initial m with
  | .error e => (.error e, w1)
  | .ok err => (.ok (test, fn, err), w1)

/-- `sensitivity_analysis.py:77-96`: the loop over the limbo species -/
def evalLoop (c : SACtx) (initial : List PyF) (file : Text) (dir : Text) :
    List String → World → Except Err (List PyF) × World
  | [], w => (.ok [], w)
  | sp :: rest, w =>
      match tryRemove c initial file dir sp w with
      | (.error e, w1) => (.error e, w1)
      | (.ok (_, _, err), w1) =>
      match evalLoop c initial file dir rest w1 with
      | (.error e, w2) => (.error e, w2)
      | (.ok errs, w2) => (.ok (err :: errs), w2)

/-- `sensitivity_analysis.py:36-98`: `evaluate_species_errors`. -/
def evalSpecies (c : SACtx) (initial : List PyF) (file : Text) (limbo : List String) (w : World) :
    Except Err (List PyF) × World :=
  let dir := c.evalDir limbo.length
  let (r, w1) := evalLoop c initial file dir limbo w
  (r, cleanDir w1 dir)

/-- loop of numpy's `argmin`: best value and its index so far, index of the next element -/
def argminGo (best : PyF) (bestIdx i : Nat) : List PyF → Nat
  | [] => bestIdx
  | x :: xs =>
      if best = .nan then bestIdx
      else if best.le x then argminGo best bestIdx (i + 1) xs
      else argminGo x i (i + 1) xs

/-- `np.argmin`: the first minimum, or the first NaN; raises on an empty array -/
def npArgmin : List PyF → Except Err Nat
  | [] => .error .valueError
  | x :: xs => .ok (argminGo x 0 1 xs)

/-- python's `min` on a sequence of floats; raises on an empty one -/
def pyMin : List PyF → Except Err PyF
  | [] => .error .valueError
  | x :: xs => .ok (xs.foldl (fun b y => if y.lt b then y else b) x)

/-- state of the loop of `run_sa` -/
structure SAState where
  cur : RModel
  limbo : List String
  errs : List PyF
  w : World

/-- what one pass through the loop body does -/
inductive SAStep where
  | more (s : SAState)
  | stop (s : SAState)
  | raise (e : Err) (s : SAState)

/-- `sensitivity_analysis.py:204-259`: the loop body. -/
def saStep (c : SACtx) (initial : List PyF) (s : SAState) : SAStep :=
  match npArgmin (s.errs.map (fun e => c.dist e s.cur.error)) with
  | .error e => .raise e s
  | .ok idx =>
  let errs := s.errs.eraseIdx idx
  match s.limbo[idx]? with
  | none => .raise .indexError { s with errs := errs }
  | some sp =>
  let limbo := s.limbo.eraseIdx idx
  match tryRemove c initial s.cur.filename c.tmpDir sp s.w with
  | (.error e, w1) => .raise e { s with errs := errs, limbo := limbo, w := w1 }
  | (.ok (test, fn, err), w1) =>
  if c.limit.lt err then .stop { s with errs := errs, limbo := limbo, w := w1 }
  else
    let cur : RModel := ⟨test, fn, err, none⟩
    if c.greedy then
      match evalSpecies c initial fn limbo w1 with
      | (.error e, w2) => .raise e ⟨cur, limbo, errs, w2⟩
      | (.ok errs', w2) =>
      match pyMin errs' with
      | .error e => .raise e ⟨cur, limbo, errs', w2⟩
      | .ok least =>
      if c.limit.lt least then .stop ⟨cur, limbo, errs', w2⟩ else .more ⟨cur, limbo, errs', w2⟩
    else .more ⟨cur, limbo, errs, w1⟩

/-- `sensitivity_analysis.py:203-259`: the `while` loop, with fuel -/
def saLoop (c : SACtx) (initial : List PyF) : Nat → SAState → Option (Except Err Unit × SAState)
  | 0, _ => none
  | fuel + 1, s =>
      if s.limbo = [] then some (.ok (), s)
      else match saStep c initial s with
      | .raise e s1 => some (.error e, s1)
      | .stop s1 => some (.ok (), s1)
      | .more s1 => saLoop c initial fuel s1

/-- result of `run_sa`: the model or the exception, the world, and what is left of the list of
limbo species used (the caller's list is changed in place when it was not empty) -/
structure SAResult where
  result : Except Err RModel
  w : World
  limbo : List String

/-- `sensitivity_analysis.py:178-181` -/
def saLimbo (safe : List String) (m : Mech) (limbo : List String) : List String :=
  if limbo = [] then m.names.filter (fun sp => !(safe.contains sp)) else limbo

/-- `sensitivity_analysis.py:101-276`: `run_sa`; `none` when the fuel is not enough (one unit
per limbo species and one more always is, see `C30_terminates`). -/
def runSA (c : SACtx) (limbo : List String) (fuel : Nat) (w : World) : Option SAResult :=
  match loadModel w c.modelFile with
  | .error e => some ⟨.error e, w, limbo⟩
  | .ok sol =>
  match c.initial sol with
  | .error e => some ⟨.error e, w, limbo⟩
  | .ok initial =>
  let limbo1 := saLimbo c.safe sol limbo
  match evalSpecies c initial c.modelFile limbo1 w with
  | (.error e, w1) => some ⟨.error e, w1, limbo1⟩
  | (.ok errs, w1) =>
  match saLoop c initial fuel ⟨⟨sol, c.modelFile, c.startErr, none⟩, limbo1, errs, w1⟩ with
  | none => none
  | some (.error e, s) => some ⟨.error e, cleanDir s.w c.tmpDir, s.limbo⟩
  | some (.ok (), s) =>
      let w2 := cleanDir s.w c.tmpDir
      let red : RModel := ⟨s.cur.model, reducedName s.cur.model.nSpecies, s.cur.error, none⟩
      let (_, w3) := writeYaml w2 red.model red.filename c.path
      some ⟨.ok red, w3, s.limbo⟩

end Verif
