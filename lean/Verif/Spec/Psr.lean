import Verif.Model.Psr
import Mathlib.Data.List.Chain
import Mathlib.Algebra.Order.Group.Abs
/-!
# What is asked of the reactor solver
-/
namespace Verif

section
variable {K : Type} [Field K] [LinearOrder K]

/-- two properties of the Euclidean norm: it bounds every entry, and does not shrink when entries
are added -/
structure Spec.NormLike (norm : List K → K) : Prop where
  entry : ∀ v x, x ∈ v → |x| ≤ norm v
  append : ∀ v w, norm v ≤ norm (v ++ w)

/-- `v` is reached from `u` by a damped Newton step: a solution of the finite-difference system,
scaled by the first of `1, 1/2, ..., 2^-19` that lowers the residual norm -/
def Spec.NewtonStep (residual : List K → List K) (norm : List K → K)
    (solve : List (List K) → List K → Option (List K)) (u v : List K) : Prop :=
  ∃ step, ∃ i : Nat, i < 20 ∧
    solve (fdJac residual u (residual u)) ((residual u).map (fun x => -x)) = some step ∧
    v = vAdd u (vScale ((1 / 2) ^ i) step) ∧
    norm (residual v) < norm (residual u) ∧
    ∀ j < i, norm (residual u) ≤ norm (residual (vAdd u (vScale ((1 / 2) ^ j) step)))

/-- no Newton step is possible at `u`: the Jacobian is singular, or none of the twenty trial
points has a lower residual norm -/
def Spec.NewtonStuck (residual : List K → List K) (norm : List K → K)
    (solve : List (List K) → List K → Option (List K)) (u : List K) : Prop :=
  solve (fdJac residual u (residual u)) ((residual u).map (fun x => -x)) = none ∨
  ∃ step, solve (fdJac residual u (residual u)) ((residual u).map (fun x => -x)) = some step ∧
    ∀ i : Nat, i < 20 →
      norm (residual u) ≤ norm (residual (vAdd u (vScale ((1 / 2) ^ i) step)))

/-- the library root finder reports the residual of the point it returns -/
def Spec.RootHonest (E : PsrEnv K) : Prop :=
  ∀ res jac x0 sol, E.root res jac x0 = .ok sol → sol.fn = res sol.x

/-- the library root finder raises only what its callback raises -/
def Spec.RootRaises (E : PsrEnv K) : Prop :=
  ∀ res jac x0 e, E.root res jac x0 = .error e → ∃ x, jac x = .error e

/-- `(tau, T, Y)` is a steady state of the reactor up to `eps`: positive temperature, an
evaluable gas state, species balances and energy balance below `eps` -/
def Spec.Steady {n} (g : PsrGas K n) (eps : K) (tau T : K) (Y : Fin n → K) : Prop :=
  0 < T ∧ ∃ p, g.at_ Y T = some p ∧
    (∀ k, |(Y k - g.Yin k) - tau * p.wdot k * g.W k / p.rho| < eps) ∧
    |(p.h - g.hin) / g.hscale| < eps

/-- the `i`-th entry is the first of the least ones -/
def Spec.FirstLeast (l : List K) (i : Nat) : Prop :=
  ∃ x, l[i]? = some x ∧ (∀ (j : Nat) (y : K), l[j]? = some y → x ≤ y) ∧
    ∀ (j : Nat) (y : K), j < i → l[j]? = some y → x < y

end
end Verif

namespace Verif
section
variable {K : Type} [Field K] [LinearOrder K]

/-- the library solvers return arrays of the right length -/
structure Spec.Shapes (E : PsrEnv K) : Prop where
  root : ∀ res jac x0 sol, E.root res jac x0 = .ok sol → sol.x.length = x0.length
  solve : ∀ A b x, E.solve A b = some x → x.length = b.length

/-- what is used of `exp` and `log` -/
structure Spec.ExpLike (E : PsrEnv K) : Prop where
  mono : ∀ x y, x < y → E.exp x < E.exp y
  pos : ∀ x, 0 < E.exp x
  exp_log : ∀ x, 0 < x → E.exp (E.log x) = x

/-- what is used of `sqrt` -/
structure Spec.SqrtLike (E : PsrEnv K) : Prop where
  nonneg : ∀ x, 0 ≤ x → 0 ≤ E.sqrt x
  sq : ∀ x, 0 ≤ x → E.sqrt x * E.sqrt x = x

end
end Verif
