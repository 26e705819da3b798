import Verif.Model.FullMain
import Verif.Model.ParseDyn
/-!
# `main` with an error limit that is no number (`pymars.py:152-290`)

A text, list, mapping or date cannot be compared with a float: `error_current <= error_limit` and
`error > error_limit` raise `TypeError`.  `parse_inputs` lets such a limit through (`pymars.py:68-69`).
-/
namespace Verif

variable {ι π φ : Type}

/-- `drg.py:289-330`, `pfa.py:315-356`, `drgep.py:423-468`: a method up to the first comparison with the
limit, which is the condition of its loop -/
def methodText (m : Method) (c : Ctx) (dfuel : Nat) (w : World) : RunResult :=
  match loadModel w c.modelFile with
  | .error e => (some (.error e), w)
  | .ok sol =>
      if c.targets = [] then (some (.error .assertionError), w)
      else match m with
      | .drgep =>
          match getImportanceCoeffs c.rndMul sol.names c.targets c.matrices dfuel with
          | .error e => (some (.error e), w)
          | .ok _ => (some (.error .typeError), w)
      | _ => (some (.error .typeError), w)

/-- `sensitivity_analysis.py:154-237`: the analysis up to the first comparison with the limit.  Without
candidates there is none (`:204`), and the model is written (`:261-267`). -/
def saText (c : SACtx) (limbo : List String) (w : World) : RunResult :=
  match loadModel w c.modelFile with
  | .error e => (some (.error e), w)
  | .ok sol =>
  match c.initial sol with
  | .error e => (some (.error e), w)
  | .ok initial =>
  let limbo1 := saLimbo c.safe sol limbo
  match evalSpecies c initial c.modelFile limbo1 w with
  | (.error e, w1) => (some (.error e), w1)
  | (.ok errs, w1) =>
  if limbo1 = [] then
    let w2 := cleanDir w1 c.tmpDir
    let red : RModel := ⟨sol, reducedName sol.nSpecies, c.startErr, none⟩
    (some (.ok red), (writeYaml w2 red.model red.filename c.path).2)
  else
  match npArgmin (errs.map (fun e => c.dist e c.startErr)) with
  | .error e => (some (.error e), cleanDir w1 c.tmpDir)
  | .ok idx =>
  match limbo1[idx]? with
  | none => (some (.error .indexError), cleanDir w1 c.tmpDir)
  | some sp =>
  match tryRemove c initial c.modelFile c.tmpDir sp w1 with
  | (.error e, w2) => (some (.error e), cleanDir w2 c.tmpDir)
  | (.ok _, w2) => (some (.error .typeError), cleanDir w2 c.tmpDir)

/-- the stages of `main` with such a limit; a method never gets past it -/
def stagesText (p : MainIn) (w : World) : RunResult :=
  match p.method.bind methodOf with
  | some m => methodText m (p.ctx m) p.dfuel w
  | none =>
      if p.sensitivity then saText (p.saCtx p.modelFile (.fin 0)) [] w
      else (some (.error .unboundLocal), w)

/-- `pymars.py:152-290`: `main` with such a limit (`q.limit` is not looked at) -/
def mainText (K : Cantera ι π φ) (rnd : ℚ → ℚ) (q : MainArgs ι π φ) (d : Disk)
    (dfuel : Nat) (w : World) : RunResult × List Ev :=
  if (q.method.bind methodOf).isSome && q.targets = [] then ((some (.error .assertionError), w), [])
  else if (q.method = none || q.method = some "") && !q.sensitivity then
    ((some (.error .valueError), w), [])
  else match q.method.bind methodOf with
    | none => (stagesText (mainIn K rnd q d [] [] dfuel 0 0) w, [])
    | some m =>
      match loadModel w q.modelFile with
      | .error e => ((some (.error e), w), [])
      | .ok sol =>
        let s := sample (K.sims rnd) sol q.conds q.par d
        match s.result with
        | .error e => ((some (.error e), w), s.evs)
        | .ok (base, rows) =>
            (stagesText (mainIn K rnd q (applyEvs d s.evs)
              (rows.map (fun r => matrixOf m rnd (K.chem sol r))) base dfuel 0 0) w, s.evs)

end Verif
