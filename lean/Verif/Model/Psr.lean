import Mathlib.Algebra.Order.Field.Basic
import Mathlib.Algebra.BigOperators.Group.Finset.Basic
import Mathlib.Data.Fintype.BigOperators
import Verif.Model.Graph
/-!
# `psr_solver.py`

Numbers are taken from an arbitrary ordered field `K` (rounding and NaN are left out), the
2-norm, `exp`, `log` and `sqrt` are parameters (`PsrEnv`), and so are the two library solvers:
`scipy.optimize.root` and `np.linalg.solve`.  The gas object at its fixed pressure is a function
from mass fractions and temperature to the quantities read from it; `none` stands for a
`CanteraError`, which is a subclass of `RuntimeError`.  Arrays are lists; mass-fraction vectors
are functions on `Fin n`.
-/
namespace Verif

section
variable {K : Type} [Field K] [LinearOrder K]

/-- `a + b` of two arrays -/
def vAdd (a b : List K) : List K := List.zipWith (· + ·) a b
/-- `a - b` of two arrays -/
def vSub (a b : List K) : List K := List.zipWith (· - ·) a b
/-- `c * a` -/
def vScale (c : K) (a : List K) : List K := a.map (c * ·)
/-- `np.dot` of two vectors -/
def vDot (a b : List K) : K := (List.zipWith (· * ·) a b).sum
/-- product of a matrix, given by its rows, and a vector -/
def mVec (A : List (List K)) (x : List K) : List K := A.map (vDot · x)

/-! ### `psr_solver.py:47-79`: `_damped_newton` -/

/-- the parameters of `_damped_newton`: the residual, the norm, `np.linalg.solve` (`none` for
`LinAlgError`) -/
structure NewtonEnv (K : Type) where
  residual : List K → List K
  norm : List K → K
  solve : List (List K) → List K → Option (List K)

/-- `|x|` -/
def absK (x : K) : K := if x < 0 then -x else x

/-- `psr_solver.py:63` -/
def fdStep (x : K) : K := (1 / 10000000) * max 1 (absK x)

/-- `psr_solver.py:64-65`: the `j`-th entry moved by `du` -/
def bump (u : List K) (j : Nat) (du : K) : List K := u.set j (u.getD j 0 + du)

/-- `psr_solver.py:60-66`: the finite-difference Jacobian, by rows.  (The code fills it by
columns.) -/
def fdJac (residual : List K → List K) (u f : List K) : List (List K) :=
  (List.range f.length).map (fun i =>
    (List.range u.length).map (fun j =>
      ((residual (bump u j (fdStep (u.getD j 0)))).getD i 0 - f.getD i 0)
        / fdStep (u.getD j 0)))

/-- `psr_solver.py:71-77`: the backtracking loop, with the tries left; the second component
counts the residual evaluations -/
def lineSearch (E : NewtonEnv K) (u step : List K) (nrm : K) : Nat → K → Option K × Nat
  | 0, _ => (none, 0)
  | k + 1, lam =>
      if E.norm (E.residual (vAdd u (vScale lam step))) < nrm then (some lam, 1)
      else
        let r := lineSearch E u step nrm k (lam * (1 / 2))
        (r.1, r.2 + 1)

/-- the returned pair, with the iterates in order and the number of residual evaluations (not
kept by the code) -/
structure NewtonOut (K : Type) where
  x : List K
  ok : Bool
  iterates : List (List K)
  evals : Nat

/-- `psr_solver.py:55-79`: the main loop, with the iterations left -/
def newtonLoop (E : NewtonEnv K) (tol : K) : Nat → List K → NewtonOut K
  | 0, u => ⟨u, decide (E.norm (E.residual u) < tol * 100), [u], 1⟩
  | k + 1, u =>
      if E.norm (E.residual u) < tol then ⟨u, true, [u], 1⟩
      else
        match E.solve (fdJac E.residual u (E.residual u)) (vScale (-1) (E.residual u)) with
        | none => ⟨u, false, [u], 1 + u.length⟩
        | some step =>
            match lineSearch E u step (E.norm (E.residual u)) 20 1 with
            | (none, c) => ⟨u, false, [u], 1 + u.length + c⟩
            | (some lam, c) =>
                let r := newtonLoop E tol k (vAdd u (vScale lam step))
                ⟨r.x, r.ok, u :: r.iterates, 1 + u.length + c + r.evals⟩

/-- `psr_solver.py:47-79`: `_damped_newton(residual, x0, tol, maxit)`. -/
def dampedNewton (E : NewtonEnv K) (x0 : List K) (tol : K) (maxit : Nat) : NewtonOut K :=
  newtonLoop E tol maxit x0

/-! ### `psr_solver.py:82-131`: residual and Jacobian -/

/-- what is read from the gas object after setting a state -/
structure GasPt (K : Type) (n : Nat) where
  wdot : Fin n → K
  rho : K
  mw : K
  ddC : Fin n → Fin n → K
  ddT : Fin n → K
  h : K
  pmh : Fin n → K
  cp : K

/-- the gas object, at the pressure of the inlet -/
structure PsrGas (K : Type) (n : Nat) where
  /-- `set_unnormalized_mass_fractions(Y)`, `TP = T, P` and the values read afterwards; `none`
  for a `CanteraError` -/
  at_ : (Fin n → K) → K → Option (GasPt K n)
  /-- `molecular_weights` -/
  W : Fin n → K
  /-- inlet mass fractions and enthalpy (`psr_solver.py:194-195`) -/
  Yin : Fin n → K
  hin : K
  /-- `psr_solver.py:197` -/
  hscale : K

/-- `TREF` (`psr_solver.py:37`) -/
def psrTref : K := 1000
/-- `PENALTY` (`psr_solver.py:39`) -/
def psrPenalty : K := 1000
/-- `DS_MAX_MIDDLE` (`psr_solver.py:44`) -/
def psrDsMiddle : K := 1 / 20

/-- `psr_solver.py:99`: the species residuals -/
def speciesRes {n} (g : PsrGas K n) (p : GasPt K n) (Y : Fin n → K) (tau : K) (k : Fin n) : K :=
  (Y k - g.Yin k) - tau * p.wdot k * g.W k / p.rho

/-- `psr_solver.py:99`: the energy residual -/
def energyRes {n} (g : PsrGas K n) (p : GasPt K n) : K := (p.h - g.hin) / g.hscale

/-- `psr_solver.py:82-100`: `_core_residual`.  The check for non-finite mass fractions has no
counterpart in a field. -/
def coreRes {n} (g : PsrGas K n) (Y : Fin n → K) (T tau : K) : List K :=
  if T ≤ 0 then List.replicate (n + 1) psrPenalty
  else match g.at_ Y T with
    | none => List.replicate (n + 1) psrPenalty
    | some p => List.ofFn (speciesRes g p Y tau) ++ [energyRes g p]

/-- `psr_solver.py:119`: `drho_dY` -/
def drhodY {n} (g : PsrGas K n) (p : GasPt K n) (j : Fin n) : K := -p.rho * p.mw / g.W j

/-- `psr_solver.py:118, 120-121`: `dCdY` -/
def dCdY {n} (g : PsrGas K n) (p : GasPt K n) (Y : Fin n → K) (i j : Fin n) : K :=
  Y i / g.W i * drhodY g p j + if i = j then p.rho / g.W i else 0

/-- `psr_solver.py:122`: `ds_dY` -/
def dsdY {n} (g : PsrGas K n) (p : GasPt K n) (Y : Fin n → K) (k j : Fin n) : K :=
  g.W k * ((∑ i, p.ddC k i * dCdY g p Y i j) / p.rho - p.wdot k * drhodY g p j / p.rho ^ 2)

/-- `psr_solver.py:123`: `drho_dT` -/
def drhodT {n} (p : GasPt K n) (T : K) : K := -p.rho / T

/-- `psr_solver.py:124`: `ds_dT` -/
def dsdT {n} (g : PsrGas K n) (p : GasPt K n) (Y : Fin n → K) (T : K) (k : Fin n) : K :=
  g.W k * ((p.ddT k + ∑ i, p.ddC k i * (drhodT p T * (Y i / g.W i))) / p.rho
    - p.wdot k * drhodT p T / p.rho ^ 2)

/-- `psr_solver.py:126-128`: the row of species `k` -/
def speciesRow {n} (g : PsrGas K n) (p : GasPt K n) (Y : Fin n → K) (T tau : K) (k : Fin n) :
    List K :=
  List.ofFn (fun j => (if k = j then 1 else 0) - tau * dsdY g p Y k j)
    ++ [-tau * dsdT g p Y T k, -(p.wdot k * g.W k / p.rho)]

/-- `psr_solver.py:129-130`: the row of the energy equation -/
def energyRow {n} (g : PsrGas K n) (p : GasPt K n) : List K :=
  List.ofFn (fun j => p.pmh j / g.W j / g.hscale) ++ [p.cp / g.hscale, 0]

/-- `psr_solver.py:103-131`: `_core_jacobian`; unlike the residual it does not catch the
`CanteraError` of an unphysical state. -/
def coreJac {n} (g : PsrGas K n) (Y : Fin n → K) (T tau : K) : Except Err (List (List K)) :=
  match g.at_ Y T with
  | none => .error .runtimeError
  | some p => .ok (List.ofFn (speciesRow g p Y T tau) ++ [energyRow g p])

/-! ### `psr_solver.py:134-341`: `trace_extinction_curve` -/

/-- what `scipy.optimize.root` returns -/
structure RootSol (K : Type) where
  x : List K
  fn : List K
  success : Bool

/-- library functions: norm, `exp`, `log`, `sqrt`, `np.linalg.solve` and
`root(res, x0, jac=jac, method="hybr", tol=1e-10)`, in which exceptions of the callbacks pass -/
structure PsrEnv (K : Type) where
  norm : List K → K
  exp : K → K
  log : K → K
  sqrt : K → K
  solve : List (List K) → List K → Option (List K)
  root : (List K → List K) → (List K → Except Err (List (List K))) → List K →
    Except Err (RootSol K)

/-- `u[:n]` -/
def massFrac (n : Nat) (u : List K) : Fin n → K := fun i => u.getD i 0

/-- `psr_solver.py:207-212`: `unpack` and `core_res` -/
def coreResU {n} (E : PsrEnv K) (g : PsrGas K n) (u : List K) : List K :=
  coreRes g (massFrac n u) (u.getD n 0 * psrTref) (E.exp (u.getD (n + 1) 0))

/-- `psr_solver.py:217-218`: the column of the temperature times `TREF`, that of the residence
time times the residence time -/
def scaleCols (n : Nat) (tau : K) (r : List K) : List K :=
  r.mapIdx (fun i x => if i = n then x * psrTref else if i = n + 1 then x * tau else x)

/-- `psr_solver.py:214-219`: `core_jac` -/
def coreJacU {n} (E : PsrEnv K) (g : PsrGas K n) (u : List K) : Except Err (List (List K)) :=
  (coreJac g (massFrac n u) (u.getD n 0 * psrTref) (E.exp (u.getD (n + 1) 0))).map
    (fun J => J.map (scaleCols n (E.exp (u.getD (n + 1) 0))))

/-- `psr_solver.py:232-235, 237-241`: `correct`, and the end of `solve_fixed_tau`: the library
solver, then `_damped_newton` with its default arguments -/
def psrCorrect (E : PsrEnv K) (res : List K → List K)
    (jac : List K → Except Err (List (List K))) (x0 : List K) : Except Err (List K × Bool) :=
  match E.root res jac x0 with
  | .error e => .error e
  | .ok sol =>
      if sol.success = true ∧ E.norm sol.fn < 1 / 10000000 then .ok (sol.x, true)
      else
        let r := dampedNewton ⟨res, E.norm, E.solve⟩ x0 (1 / 1000000000) 50
        .ok (r.x, r.ok)

/-- `psr_solver.py:222-225`: the residual at a fixed residence time -/
def fixedTauRes {n} (g : PsrGas K n) (tau : K) (x : List K) : List K :=
  coreRes g (massFrac n x) (x.getD n 0) tau

/-- `psr_solver.py:227-230` -/
def fixedTauJac {n} (g : PsrGas K n) (tau : K) (x : List K) : Except Err (List (List K)) :=
  (coreJac g (massFrac n x) (x.getD n 0) tau).map (fun J => J.map (List.take (n + 1)))

/-- `psr_solver.py:221-235`: `solve_fixed_tau` -/
def solveFixedTau {n} (E : PsrEnv K) (g : PsrGas K n) (tau : K) (guess : List K) :
    Except Err (List K × Bool) :=
  psrCorrect E (fixedTauRes g tau) (fixedTauJac g tau) guess

/-- arguments of `trace_extinction_curve` -/
structure PsrArgs (K : Type) where
  stop : Bool
  ds0 : K
  dsMin : K
  dsMax : K
  tauStart : K
  tauSecond : K
  maxSteps : Nat

/-- the variables of the continuation loop; `calls` (step size and folds passed at each call of
the corrector) is not kept by the code -/
structure PsrState (K : Type) (n : Nat) where
  taus : List K
  temps : List K
  states : List (Fin n → K)
  uPP : List K
  uPrev : List K
  ds : K
  cap : K
  sign : Int
  folds : Nat
  iExt : Option Nat
  calls : List (K × Nat)

/-- `np.sign` -/
def signK (x : K) : Int := if x < 0 then -1 else if 0 < x then 1 else 0

/-- loop of `np.argmin`: the first index of a least element -/
def leastGo (best : K) (bestIdx i : Nat) : List K → Nat
  | [] => bestIdx
  | x :: xs => if x < best then leastGo x i (i + 1) xs else leastGo best bestIdx (i + 1) xs

/-- `np.argmin` of an array without NaN (0 here for the empty one, which does not occur) -/
def leastIdx : List K → Nat
  | [] => 0
  | x :: xs => leastGo x 0 1 xs

/-- `psr_solver.py:277`.  For equal vectors numpy divides by zero and gives NaN, the field
gives 0; `C63_distinct` shows that it does not happen along the march. -/
def psrTangent (E : PsrEnv K) (uPrev uPP : List K) : List K :=
  vScale (1 / E.norm (vSub uPrev uPP)) (vSub uPrev uPP)

/-- `psr_solver.py:295-296`: `augmented_res` -/
def augRes {n} (E : PsrEnv K) (g : PsrGas K n) (t up : List K) (ds : K) (u : List K) : List K :=
  coreResU E g u ++ [vDot t (vSub u up) - ds]

/-- `psr_solver.py:298-299`: `augmented_jac` -/
def augJac {n} (E : PsrEnv K) (g : PsrGas K n) (t : List K) (u : List K) :
    Except Err (List (List K)) :=
  (coreJacU E g u).map (fun J => J ++ [t])

/-- `psr_solver.py:279-293`: the fold bookkeeping; the flag says that the loop is left -/
def foldCheck {n} (a : PsrArgs K) (t : List K) (s : PsrState K n) : PsrState K n × Bool :=
  let newSign := signK (t.getD (n + 1) 0)
  if newSign ≠ 0 ∧ newSign ≠ s.sign then
    let s1 := { s with sign := newSign, folds := s.folds + 1 }
    if s1.folds = 1 then
      let s2 := { s1 with iExt := some (leastIdx s1.taus) }
      if a.stop then (s2, true)
      else
        let cap := min a.dsMax psrDsMiddle
        ({ s2 with cap := cap, ds := min s2.ds cap }, false)
    else if s1.folds = 2 then (s1, true)
    else (s1, false)
  else (s, false)

/-- `psr_solver.py:301-314`: the corrector step; the flag says that the loop is left -/
def psrMove {n} (E : PsrEnv K) (g : PsrGas K n) (a : PsrArgs K) (t : List K)
    (s : PsrState K n) : Except Err (PsrState K n × Bool) :=
  match psrCorrect E (augRes E g t s.uPrev s.ds) (augJac E g t)
      (vAdd s.uPrev (vScale s.ds t)) with
  | .error e => .error e
  | .ok (u, ok) =>
      let s1 := { s with calls := s.calls ++ [(s.ds, s.folds)] }
      if ok then
        .ok ({ s1 with
          taus := s1.taus ++ [E.exp (u.getD (n + 1) 0)]
          temps := s1.temps ++ [u.getD n 0 * psrTref]
          states := s1.states ++ [massFrac n u]
          uPP := s1.uPrev
          uPrev := u
          ds := min (s1.ds * (6 / 5)) s1.cap }, false)
      else
        let s2 := { s1 with ds := s1.ds * (1 / 2) }
        .ok (s2, decide (s2.ds < a.dsMin))

/-- `psr_solver.py:276-314`: the loop, with the iterations left -/
def psrLoop {n} (E : PsrEnv K) (g : PsrGas K n) (a : PsrArgs K) :
    Nat → PsrState K n → Except Err (PsrState K n)
  | 0, s => .ok s
  | k + 1, s =>
      let t := psrTangent E s.uPrev s.uPP
      match foldCheck a t s with
      | (s1, true) => .ok s1
      | (s1, false) =>
          match psrMove E g a t s1 with
          | .error e => .error e
          | .ok (s2, true) => .ok s2
          | .ok (s2, false) => psrLoop E g a k s2

/-- `psr_solver.py:251-274`: the variables before the loop -/
def psrInit {n} (E : PsrEnv K) (a : PsrArgs K) (x0 x1 : List K) : PsrState K n :=
  { taus := [a.tauStart, a.tauSecond]
    temps := [x0.getD n 0, x1.getD n 0]
    states := [massFrac n x0, massFrac n x1]
    uPP := List.ofFn (massFrac n x0) ++ [x0.getD n 0 / psrTref, E.log a.tauStart]
    uPrev := List.ofFn (massFrac n x1) ++ [x1.getD n 0 / psrTref, E.log a.tauSecond]
    ds := a.ds0, cap := a.dsMax, sign := -1, folds := 0, iExt := none, calls := [] }

/-- a sampled point `(tau, T, Y)` -/
structure PsrPt (K : Type) (n : Nat) where
  tau : K
  T : K
  Y : Fin n → K

/-- the returned dictionary, with the final loop variables and the indices of the three points -/
structure PsrCurve (K : Type) (n : Nat) where
  branch : List (K × K)
  extinction : PsrPt K n
  near : PsrPt K n
  logMid : PsrPt K n
  final : PsrState K n

/-- `psr_solver.py:331-332`: `point(i)` -/
def psrPoint {n} (s : PsrState K n) (i : Nat) : PsrPt K n :=
  ⟨s.taus.getD i 0, s.temps.getD i 0, s.states.getD i (fun _ => 0)⟩

/-- `psr_solver.py:323, 326`: index of the point nearest 0.1 s -/
def idxNear (taus : List K) (i : Nat) : Nat :=
  leastIdx ((taus.take (i + 1)).map (fun x => absK (x - 1 / 10)))

/-- `psr_solver.py:328`: `tau_mid` -/
def tauMid (E : PsrEnv K) (taus : List K) (i : Nat) : K :=
  E.sqrt (taus.getD i 0 * taus.getD (idxNear taus i) 0)

/-- `psr_solver.py:329`: index of the point nearest the logarithmic midpoint -/
def idxMid (E : PsrEnv K) (taus : List K) (i : Nat) : Nat :=
  leastIdx ((taus.take (i + 1)).map (fun x => absK (x - tauMid E taus i)))

/-- `psr_solver.py:316-341`: the result -/
def psrFinish {n} (E : PsrEnv K) (s : PsrState K n) : Except Err (PsrCurve K n) :=
  match s.iExt with
  | none => .error .runtimeError
  | some i => .ok
      { branch := s.taus.zip s.temps
        extinction := psrPoint s i
        near := psrPoint s (idxNear s.taus i)
        logMid := psrPoint s (idxMid E s.taus i)
        final := s }

/-- `psr_solver.py:134-341`: `trace_extinction_curve`.  `equil` is the composition and temperature
after `gas.equilibrate("HP")` (`none` for a `CanteraError`). -/
def traceCurve {n} (E : PsrEnv K) (g : PsrGas K n) (equil : Option (List K)) (a : PsrArgs K) :
    Except Err (PsrCurve K n) :=
  match equil with
  | none => .error .runtimeError
  | some guess =>
      match solveFixedTau E g a.tauStart guess with
      | .error e => .error e
      | .ok (x0, ok0) =>
          match solveFixedTau E g a.tauSecond x0 with
          | .error e => .error e
          | .ok (x1, ok1) =>
              if ok0 = true ∧ ok1 = true then
                match psrLoop E g a a.maxSteps (psrInit E a x0 x1) with
                | .error e => .error e
                | .ok s => psrFinish E s
              else .error .runtimeError

end
end Verif
