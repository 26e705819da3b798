import Verif.Model.FullMain
import Verif.Model.SARound
/-!
# `main` in floating-point arithmetic (`pymars.py:152-290`)

`Model/FullMain` with a rounding `R` after each operation of `calculate_error` in both stages and
after the subtraction of errors in the sensitivity stage.
-/
namespace Verif

variable {ι π φ : Type}

/-- the stages of `main` (see `mainIn`); `rnd` rounds data, matrices and path products, `rndThr`
the thresholds, as in `fullRunR` -/
def mainInR (R : ℚ → PyF) (K : Cantera ι π φ) (rnd rndThr : ℚ → ℚ) (q : MainArgs ι π φ) (d : Disk)
    (matrices : List NMat) (base : List PyF) (dfuel fuel saFuel : Nat) : MainIn :=
  { mainIn K rnd q d matrices base dfuel fuel saFuel with
    sim := evalSimR R (K.sims rnd) q.toReduceArgs d base
    errFun := calculateErrorR R
    dist := distR R
    rnd := rndThr
    rndMul := rnd }

/-- `pymars.py:152-290`: `main` (see `fullMain`) -/
def fullMainR (R : ℚ → PyF) (K : Cantera ι π φ) (rnd rndThr : ℚ → ℚ) (q : MainArgs ι π φ) (d : Disk)
    (dfuel fuel saFuel : Nat) (w : World) : RunResult × List Ev :=
  if (q.method.bind methodOf).isSome && q.targets = [] then ((some (.error .assertionError), w), [])
  else if (q.method = none || q.method = some "") && !q.sensitivity then
    ((some (.error .valueError), w), [])
  else match q.method.bind methodOf with
    | none => (runMain (mainInR R K rnd rndThr q d [] [] dfuel fuel saFuel) w, [])
    | some m =>
      match loadModel w q.modelFile with
      | .error e => ((some (.error e), w), [])
      | .ok sol =>
        let s := sample (K.sims rnd) sol q.conds q.par d
        match s.result with
        | .error e => ((some (.error e), w), s.evs)
        | .ok (base, rows) =>
            (runMain (mainInR R K rnd rndThr q (applyEvs d s.evs)
              (rows.map (fun r => matrixOf m rnd (K.chem sol r))) base dfuel fuel saFuel) w, s.evs)

end Verif
