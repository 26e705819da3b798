import Verif.Model.SA
/-!
# The simulations of a sensitivity analysis

The functions of `Model/SA` written out again to record each model handed to `sample_metrics`
(`sensitivity_analysis.py:87, 221`), in order; that nothing is left out is `C133_calls`.  The starting
model (`sensitivity_analysis.py:168`), whose metrics may be read from a file, is not recorded.
-/
namespace Verif

/-- `sensitivity_analysis.py:78-96, 209-231`: the model simulated in trying to remove a species -/
def tryCalls (c : SACtx) (file : Text) (dir : Text) (sp : String) (w : World) : List Mech :=
  match loadModel w file with
  | .error _ => []
  | .ok sol =>
  let test := trim sol [sp] (candidateName sp) c.phase
  let (fn, w1) := writeYaml w test (candidateName sp) dir
  match loadModel w1 fn with
  | .error _ => []
  | .ok m => [m]

/-- `sensitivity_analysis.py:77-96`: those of an evaluation -/
def evalCalls (c : SACtx) (initial : List PyF) (file : Text) (dir : Text) : List String → World → List Mech
  | [], _ => []
  | sp :: rest, w =>
      tryCalls c file dir sp w ++
      (match tryRemove c initial file dir sp w with
      | (.error _, _) => []
      | (.ok _, w1) => evalCalls c initial file dir rest w1)

/-- the removal that the loop body tries (`sensitivity_analysis.py:206-208`) -/
def saChoice (c : SACtx) (s : SAState) : Option (Nat × String) :=
  match npArgmin (s.errs.map (fun e => c.dist e s.cur.error)) with
  | .error _ => none
  | .ok idx => (s.limbo[idx]?).map fun sp => (idx, sp)

/-- `sensitivity_analysis.py:204-259`: the model simulated to remove a species, and those of the evaluation after it -/
def stepCalls (c : SACtx) (initial : List PyF) (s : SAState) : List Mech × List Mech :=
  match saChoice c s with
  | none => ([], [])
  | some (idx, sp) =>
      (tryCalls c s.cur.filename c.tmpDir sp s.w,
        match tryRemove c initial s.cur.filename c.tmpDir sp s.w with
        | (.error _, _) => []
        | (.ok (_, fn, err), w1) =>
            if c.limit.lt err then []
            else if c.greedy then evalCalls c initial fn (c.evalDir (s.limbo.eraseIdx idx).length) (s.limbo.eraseIdx idx) w1
            else [])

/-- `sensitivity_analysis.py:203-259`: one pair for each pass through the loop -/
def saLoopCalls (c : SACtx) (initial : List PyF) : Nat → SAState → List (List Mech × List Mech)
  | 0, _ => []
  | fuel + 1, s =>
      if s.limbo = [] then []
      else stepCalls c initial s :: (match saStep c initial s with
        | .more s1 => saLoopCalls c initial fuel s1
        | _ => [])

/-- `sensitivity_analysis.py:101-276`: the simulations of the first evaluation, and those of each pass through the loop -/
def saCalls (c : SACtx) (limbo : List String) (fuel : Nat) (w : World) : List Mech × List (List Mech × List Mech) :=
  match loadModel w c.modelFile with
  | .error _ => ([], [])
  | .ok sol =>
  match c.initial sol with
  | .error _ => ([], [])
  | .ok initial =>
  let limbo1 := saLimbo c.safe sol limbo
  (evalCalls c initial c.modelFile (c.evalDir limbo1.length) limbo1 w,
    match evalSpecies c initial c.modelFile limbo1 w with
    | (.error _, _) => []
    | (.ok errs, w1) => saLoopCalls c initial fuel ⟨⟨sol, c.modelFile, c.startErr, none⟩, limbo1, errs, w1⟩)

/-- all of them in order -/
def allCalls (x : List Mech × List (List Mech × List Mech)) : List Mech :=
  x.1 ++ (x.2.map fun p => p.1 ++ p.2).flatten

end Verif
