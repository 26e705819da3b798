import Verif.Model.Psr
import Verif.Lemmas.PsrShape
import Mathlib.Analysis.Calculus.Deriv.Basic
import Mathlib.Analysis.Calculus.Deriv.Add
import Mathlib.Analysis.Calculus.Deriv.Mul
import Mathlib.Analysis.Calculus.Deriv.Inv
import Mathlib.Analysis.Calculus.Deriv.Comp
import Mathlib.Analysis.Calculus.Deriv.Prod
import Mathlib.Analysis.Calculus.Deriv.Pi
import Mathlib.Analysis.SpecialFunctions.ExpDeriv
import Mathlib.Tactic.FieldSimp
import Mathlib.Tactic.FinCases
import Mathlib.Analysis.Calculus.Deriv.Pow
import Mathlib.Algebra.BigOperators.Field
/-!
# C64: the analytic Jacobian is the derivative of the residual
-/
namespace Verif
open Filter Topology

/-- An ideal gas at pressure `P` with gas constant `R`: what the gas object reports at mass
fractions `Y` (not necessarily normalised) and temperature `T`.  `rate` gives the production
rates from concentrations and temperature and has the reported derivatives, `enth k` the molar
enthalpy of species `k` and `cpk k` its derivative. -/
structure Spec.IdealGas {n : Nat} (g : PsrGas ℝ n) (P R : ℝ)
    (rate : (Fin n → ℝ) → ℝ → Fin n → ℝ) (enth cpk : Fin n → ℝ → ℝ) : Prop where
  pos : 0 < P ∧ 0 < R
  weights : ∀ k, 0 < g.W k
  deriv : ∀ k T, HasDerivAt (enth k) (cpk k T) T
  point : ∀ Y T, 0 < T → 0 < ∑ k, Y k / g.W k → ∃ p, g.at_ Y T = some p ∧
    p.mw = 1 / ∑ k, Y k / g.W k ∧
    p.rho = P * p.mw / (R * T) ∧
    (∀ k, p.wdot k = rate (fun i => p.rho * (Y i / g.W i)) T k) ∧
    p.h = ∑ k, Y k * enth k T / g.W k ∧
    (∀ k, p.pmh k = enth k T) ∧
    p.cp = ∑ k, Y k * cpk k T / g.W k ∧
    ∀ k, ∃ L : ((Fin n → ℝ) × ℝ) →L[ℝ] ℝ,
      HasFDerivAt (fun q : (Fin n → ℝ) × ℝ => rate q.1 q.2 k) L
        (fun i => p.rho * (Y i / g.W i), T) ∧
      ∀ c t, L (c, t) = ∑ i, p.ddC k i * c i + p.ddT k * t

section
variable {n : Nat} {g : PsrGas ℝ n} {P R : ℝ} {rate : (Fin n → ℝ) → ℝ → Fin n → ℝ}
  {enth cpk : Fin n → ℝ → ℝ}

/-- density of the ideal gas -/
noncomputable def rhoOf (g : PsrGas ℝ n) (P R : ℝ) (Y : Fin n → ℝ) (T : ℝ) : ℝ :=
  P * (1 / ∑ k, Y k / g.W k) / (R * T)

/-- the species residual in terms of `rate` -/
noncomputable def specOf (g : PsrGas ℝ n) (P R : ℝ) (rate : (Fin n → ℝ) → ℝ → Fin n → ℝ)
    (Y : Fin n → ℝ) (T tau : ℝ) (k : Fin n) : ℝ :=
  (Y k - g.Yin k) -
    tau * rate (fun i => rhoOf g P R Y T * (Y i / g.W i)) T k * g.W k / rhoOf g P R Y T

/-- the energy residual in terms of `enth` -/
noncomputable def energyOf (g : PsrGas ℝ n) (enth : Fin n → ℝ → ℝ) (Y : Fin n → ℝ) (T : ℝ) : ℝ :=
  ((∑ k, Y k * enth k T / g.W k) - g.hin) / g.hscale

theorem coreRes_ideal (hg : Spec.IdealGas g P R rate enth cpk) {Y : Fin n → ℝ} {T : ℝ}
    (hT : 0 < T) (hY : 0 < ∑ k, Y k / g.W k) (tau : ℝ) :
    coreRes g Y T tau = List.ofFn (specOf g P R rate Y T tau) ++ [energyOf g enth Y T] := by
  obtain ⟨p, hp, h1, h2, h3, h4, _⟩ := hg.point Y T hT hY
  unfold coreRes
  rw [if_neg (not_le.2 hT), hp]
  dsimp only
  have hr : p.rho = rhoOf g P R Y T := by rw [h2, h1]; rfl
  congr 1
  · congr 1
    funext k
    unfold speciesRes specOf
    rw [h3, hr]
  · unfold energyRes energyOf; rw [h4]

theorem rhoOf_deriv (hg : Spec.IdealGas g P R rate enth cpk) {Yp : ℝ → Fin n → ℝ} {Tp : ℝ → ℝ}
    {v : Fin n → ℝ} {w t : ℝ} (hY : ∀ j, HasDerivAt (fun s => Yp s j) (v j) t)
    (hT : HasDerivAt Tp w t) (hT0 : 0 < Tp t) (hS : 0 < ∑ k, Yp t k / g.W k) :
    HasDerivAt (fun s => rhoOf g P R (Yp s) (Tp s))
      (-rhoOf g P R (Yp t) (Tp t) * (1 / ∑ k, Yp t k / g.W k) * (∑ j, v j / g.W j)
        - rhoOf g P R (Yp t) (Tp t) / Tp t * w) t := by
  have hsum : HasDerivAt (fun s => ∑ k, Yp s k / g.W k) (∑ j, v j / g.W j) t := by
    apply HasDerivAt.fun_sum
    intro j _
    exact (hY j).div_const _
  have hR : R ≠ 0 := ne_of_gt hg.pos.2
  have hnum : HasDerivAt (fun s => P * (1 / ∑ k, Yp s k / g.W k))
      (P * (-(∑ j, v j / g.W j) / (∑ k, Yp t k / g.W k) ^ 2)) t := by
    have := (hsum.fun_inv (ne_of_gt hS)).const_mul P
    simpa [one_div] using this
  have hden : HasDerivAt (fun s => R * Tp s) (R * w) t := hT.const_mul R
  have hd0 : R * Tp t ≠ 0 := mul_ne_zero hR (ne_of_gt hT0)
  refine (hnum.fun_div hden hd0).congr_deriv ?_
  unfold rhoOf
  generalize (∑ k, Yp t k / g.W k) = S at *
  generalize (∑ j, v j / g.W j) = S' at *
  have hS' : S ≠ 0 := ne_of_gt hS
  have hT' : Tp t ≠ 0 := ne_of_gt hT0
  field_simp

theorem ofFn_getD {m : Nat} (f : Fin m → ℝ) (l : List ℝ) (k : Fin m) :
    (List.ofFn f ++ l).getD k 0 = f k := by
  rw [List.getD_eq_getElem?_getD, List.getElem?_append_left (by simp)]
  simp

theorem ofFn_getD_ge {m : Nat} (f : Fin m → ℝ) (l : List ℝ) (j : Nat) :
    (List.ofFn f ++ l).getD (m + j) 0 = l.getD j 0 := by
  rw [List.getD_eq_getElem?_getD, List.getElem?_append_right (by simp),
    List.getD_eq_getElem?_getD]
  simp

theorem specOf_deriv (hg : Spec.IdealGas g P R rate enth cpk) {Yp : ℝ → Fin n → ℝ}
    {Tp taup : ℝ → ℝ} {v : Fin n → ℝ} {w z t : ℝ}
    (hY : ∀ j, HasDerivAt (fun s => Yp s j) (v j) t) (hT : HasDerivAt Tp w t)
    (htau : HasDerivAt taup z t) (hT0 : 0 < Tp t) (hS : 0 < ∑ k, Yp t k / g.W k)
    {p : GasPt ℝ n} (hp : g.at_ (Yp t) (Tp t) = some p) (k : Fin n) :
    HasDerivAt (fun s => specOf g P R rate (Yp s) (Tp s) (taup s) k)
      ((∑ j : Fin n, (speciesRow g p (Yp t) (Tp t) (taup t) k).getD j 0 * v j)
        + (speciesRow g p (Yp t) (Tp t) (taup t) k).getD n 0 * w
        + (speciesRow g p (Yp t) (Tp t) (taup t) k).getD (n + 1) 0 * z) t := by
  obtain ⟨p', hp', h1, h2, h3, h4, h5, h6, h7⟩ := hg.point (Yp t) (Tp t) hT0 hS
  rw [hp] at hp'
  cases hp'
  have hr : p.rho = rhoOf g P R (Yp t) (Tp t) := by rw [h2, h1]; rfl
  have hrho0 : p.rho ≠ 0 := by
    rw [h2, h1]
    exact ne_of_gt (div_pos (mul_pos hg.pos.1 (one_div_pos.2 hS)) (mul_pos hg.pos.2 hT0))
  have hrd := rhoOf_deriv (P := P) (R := R) hg hY hT hT0 hS
  rw [← hr, ← h1] at hrd
  obtain ⟨L, hL, hLv⟩ := h7 k
  -- concentrations
  generalize hdr : -p.rho * p.mw * (∑ j, v j / g.W j) - p.rho / Tp t * w = dr at hrd
  have hC : HasDerivAt (fun s => (fun i => rhoOf g P R (Yp s) (Tp s) * (Yp s i / g.W i)))
      (fun i => dr * (Yp t i / g.W i) + p.rho * (v i / g.W i)) t := by
    rw [hasDerivAt_pi]
    intro i
    have := hrd.fun_mul ((hY i).div_const (g.W i))
    rwa [← hr] at this
  have hq : HasDerivAt (fun s => ((fun i => rhoOf g P R (Yp s) (Tp s) * (Yp s i / g.W i)), Tp s))
      ((fun i => dr * (Yp t i / g.W i) + p.rho * (v i / g.W i)), w) t := hC.prodMk hT
  have hrate : HasDerivAt
      (fun s => rate (fun i => rhoOf g P R (Yp s) (Tp s) * (Yp s i / g.W i)) (Tp s) k)
      (∑ i, p.ddC k i * (dr * (Yp t i / g.W i) + p.rho * (v i / g.W i)) + p.ddT k * w) t := by
    rw [← hLv]
    rw [hr] at hL
    exact hL.comp_hasDerivAt t hq
  have hmain := ((hY k).sub_const (g.Yin k)).fun_sub
    ((((htau.fun_mul hrate).mul_const (g.W k))).fun_div hrd (by rw [← hr]; exact hrho0))
  refine hmain.congr_deriv ?_
  clear hmain hrate hq hC hL hLv
  rw [← hr]
  have e1 : (speciesRow g p (Yp t) (Tp t) (taup t) k).getD n 0
      = -taup t * dsdT g p (Yp t) (Tp t) k := by
    unfold speciesRow
    have := ofFn_getD_ge (fun j => (if k = j then 1 else 0) - taup t * dsdY g p (Yp t) k j)
      [-taup t * dsdT g p (Yp t) (Tp t) k, -(p.wdot k * g.W k / p.rho)] 0
    simpa only [Nat.add_zero, List.getD_cons_zero] using this
  have e2 : (speciesRow g p (Yp t) (Tp t) (taup t) k).getD (n + 1) 0
      = -(p.wdot k * g.W k / p.rho) := by
    unfold speciesRow
    have := ofFn_getD_ge (fun j => (if k = j then 1 else 0) - taup t * dsdY g p (Yp t) k j)
      [-taup t * dsdT g p (Yp t) (Tp t) k, -(p.wdot k * g.W k / p.rho)] 1
    simpa only [List.getD_cons_succ, List.getD_cons_zero] using this
  have e3 : ∀ j : Fin n, (speciesRow g p (Yp t) (Tp t) (taup t) k).getD j 0
      = (if k = j then 1 else 0) - taup t * dsdY g p (Yp t) k j := by
    intro j
    unfold speciesRow
    exact ofFn_getD _ _ j
  rw [e1, e2]
  simp only [e3]
  -- the sums over the mass fractions
  have hA : ∑ j, drhodY g p j * v j = -p.rho * p.mw * ∑ j, v j / g.W j := by
    rw [Finset.mul_sum]
    apply Finset.sum_congr rfl
    intro j _
    unfold drhodY; ring
  have hB : ∀ i, ∑ j, dCdY g p (Yp t) i j * v j
      = Yp t i / g.W i * (-p.rho * p.mw * ∑ j, v j / g.W j) + p.rho * (v i / g.W i) := by
    intro i
    rw [← hA, Finset.mul_sum]
    simp only [dCdY, add_mul, Finset.sum_add_distrib, ite_mul, zero_mul, Finset.sum_ite_eq,
      Finset.mem_univ, if_true]
    congr 1
    · apply Finset.sum_congr rfl; intro j _; ring
    · ring
  have hD : ∑ j, dsdY g p (Yp t) k j * v j = g.W k *
      ((∑ i, p.ddC k i * (Yp t i / g.W i * (-p.rho * p.mw * ∑ j, v j / g.W j)
        + p.rho * (v i / g.W i))) / p.rho
        - p.wdot k * (-p.rho * p.mw * ∑ j, v j / g.W j) / p.rho ^ 2) := by
    simp only [← hB]
    rw [← hA]
    have c1 : ∑ i, p.ddC k i * ∑ j, dCdY g p (Yp t) i j * v j
        = ∑ j, (∑ i, p.ddC k i * dCdY g p (Yp t) i j) * v j := by
      simp only [Finset.mul_sum, Finset.sum_mul]
      rw [Finset.sum_comm]
      apply Finset.sum_congr rfl; intro j _
      apply Finset.sum_congr rfl; intro i _
      ring
    rw [c1, Finset.mul_sum, Finset.sum_div, Finset.sum_div, ← Finset.sum_sub_distrib,
      Finset.mul_sum]
    apply Finset.sum_congr rfl
    intro j _
    unfold dsdY; ring
  have hF : ∑ j, ((if k = j then 1 else 0) - taup t * dsdY g p (Yp t) k j) * v j
      = v k - taup t * ∑ j, dsdY g p (Yp t) k j * v j := by
    simp only [sub_mul, Finset.sum_sub_distrib, ite_mul, one_mul, zero_mul, Finset.sum_ite_eq,
      Finset.mem_univ, if_true, Finset.mul_sum]
    congr 1
    apply Finset.sum_congr rfl; intro j _; ring
  rw [hF, hD]
  unfold dsdT drhodT
  have hwd : rate (fun i => p.rho * (Yp t i / g.W i)) (Tp t) k = p.wdot k := (h3 k).symm
  rw [hwd]
  -- split the sum of the kinetics derivatives
  have hG : ∑ i, p.ddC k i * (dr * (Yp t i / g.W i) + p.rho * (v i / g.W i))
      = (∑ i, p.ddC k i * (Yp t i / g.W i * (-p.rho * p.mw * ∑ j, v j / g.W j)
        + p.rho * (v i / g.W i))) + (∑ i, p.ddC k i * (-p.rho / Tp t * (Yp t i / g.W i))) * w := by
    rw [Finset.sum_mul, ← Finset.sum_add_distrib]
    apply Finset.sum_congr rfl
    intro i _
    rw [← hdr]; ring
  rw [hG, ← hdr]
  generalize (∑ i, p.ddC k i * (Yp t i / g.W i * (-p.rho * p.mw * ∑ j, v j / g.W j)
        + p.rho * (v i / g.W i))) = X
  generalize (∑ i, p.ddC k i * (-p.rho / Tp t * (Yp t i / g.W i))) = Z
  generalize (∑ j, v j / g.W j) = S'
  have hT' : Tp t ≠ 0 := ne_of_gt hT0
  field_simp
  ring

theorem energyOf_deriv (hg : Spec.IdealGas g P R rate enth cpk) {Yp : ℝ → Fin n → ℝ}
    {Tp : ℝ → ℝ} {v : Fin n → ℝ} {w t : ℝ} (z : ℝ)
    (hY : ∀ j, HasDerivAt (fun s => Yp s j) (v j) t) (hT : HasDerivAt Tp w t)
    (hT0 : 0 < Tp t) (hS : 0 < ∑ k, Yp t k / g.W k)
    {p : GasPt ℝ n} (hp : g.at_ (Yp t) (Tp t) = some p) :
    HasDerivAt (fun s => energyOf g enth (Yp s) (Tp s))
      ((∑ j : Fin n, (energyRow g p).getD j 0 * v j) + (energyRow g p).getD n 0 * w
        + (energyRow g p).getD (n + 1) 0 * z) t := by
  obtain ⟨p', hp', h1, h2, h3, h4, h5, h6, h7⟩ := hg.point (Yp t) (Tp t) hT0 hS
  rw [hp] at hp'
  cases hp'
  have hsum : HasDerivAt (fun s => ∑ k, Yp s k * enth k (Tp s) / g.W k)
      (∑ k, (v k * enth k (Tp t) + Yp t k * (cpk k (Tp t) * w)) / g.W k) t := by
    apply HasDerivAt.fun_sum
    intro k _
    exact ((hY k).fun_mul ((hg.deriv k (Tp t)).comp t hT)).div_const _
  refine ((hsum.sub_const g.hin).div_const g.hscale).congr_deriv ?_
  have e1 : (energyRow g p).getD n 0 = p.cp / g.hscale := by
    unfold energyRow
    have := ofFn_getD_ge (fun j => p.pmh j / g.W j / g.hscale) [p.cp / g.hscale, 0] 0
    simpa only [Nat.add_zero, List.getD_cons_zero] using this
  have e2 : (energyRow g p).getD (n + 1) 0 = 0 := by
    unfold energyRow
    have := ofFn_getD_ge (fun j => p.pmh j / g.W j / g.hscale) [p.cp / g.hscale, 0] 1
    simpa only [List.getD_cons_succ, List.getD_cons_zero] using this
  have e3 : ∀ j : Fin n, (energyRow g p).getD j 0 = p.pmh j / g.W j / g.hscale := by
    intro j
    unfold energyRow
    exact ofFn_getD _ _ j
  rw [e1, e2, h6, zero_mul, add_zero]
  simp only [e3, h5]
  rw [Finset.sum_div, Finset.sum_div, Finset.sum_mul, ← Finset.sum_add_distrib]
  apply Finset.sum_congr rfl
  intro k _
  ring

/-- **C64**: along every smooth path of states `(Y, T, tau)` of an ideal gas, each residual
changes at the rate given by the corresponding row of the Jacobian applied to the velocity of the
path.  Moving one variable at a time, the entries are the partial derivatives (`C64_partials`). -/
theorem C64_jacobian (hg : Spec.IdealGas g P R rate enth cpk) {Yp : ℝ → Fin n → ℝ}
    {Tp taup : ℝ → ℝ} {v : Fin n → ℝ} {w z t : ℝ}
    (hY : ∀ j, HasDerivAt (fun s => Yp s j) (v j) t) (hT : HasDerivAt Tp w t)
    (htau : HasDerivAt taup z t) (hT0 : 0 < Tp t) (hS : 0 < ∑ k, Yp t k / g.W k) :
    ∃ J, coreJac g (Yp t) (Tp t) (taup t) = .ok J ∧ J.length = n + 1 ∧
      ∀ i < n + 1, (J.getD i []).length = n + 2 ∧
        HasDerivAt (fun s => (coreRes g (Yp s) (Tp s) (taup s)).getD i 0)
          ((∑ j : Fin n, (J.getD i []).getD j 0 * v j) + (J.getD i []).getD n 0 * w
            + (J.getD i []).getD (n + 1) 0 * z) t := by
  obtain ⟨p, hp, _⟩ := hg.point (Yp t) (Tp t) hT0 hS
  refine ⟨List.ofFn (speciesRow g p (Yp t) (Tp t) (taup t)) ++ [energyRow g p], ?_, by simp, ?_⟩
  · unfold coreJac; rw [hp]
  · intro i hi
    have hev : ∀ᶠ s in 𝓝 t, coreRes g (Yp s) (Tp s) (taup s)
        = List.ofFn (specOf g P R rate (Yp s) (Tp s) (taup s)) ++ [energyOf g enth (Yp s) (Tp s)] := by
      have c1 : ∀ᶠ s in 𝓝 t, 0 < Tp s := hT.continuousAt.eventually (lt_mem_nhds hT0)
      have hsum : ContinuousAt (fun s => ∑ k, Yp s k / g.W k) t := by
        have : HasDerivAt (fun s => ∑ k, Yp s k / g.W k) (∑ j, v j / g.W j) t := by
          apply HasDerivAt.fun_sum
          intro j _
          exact (hY j).div_const _
        exact this.continuousAt
      have c2 : ∀ᶠ s in 𝓝 t, 0 < ∑ k, Yp s k / g.W k := hsum.eventually (lt_mem_nhds hS)
      filter_upwards [c1, c2] with s h1 h2
      exact coreRes_ideal hg h1 h2 _
    by_cases hin : i < n
    · have hrow : (List.ofFn (speciesRow g p (Yp t) (Tp t) (taup t)) ++ [energyRow g p]).getD i []
          = speciesRow g p (Yp t) (Tp t) (taup t) ⟨i, hin⟩ := by
        rw [List.getD_eq_getElem?_getD, List.getElem?_append_left (by simpa using hin)]
        simp [hin]
      rw [hrow]
      refine ⟨by simp [speciesRow], ?_⟩
      refine (specOf_deriv hg hY hT htau hT0 hS hp ⟨i, hin⟩).congr_of_eventuallyEq ?_
      filter_upwards [hev] with s hs
      rw [hs]
      exact ofFn_getD _ _ (⟨i, hin⟩ : Fin n)
    · have hi' : i = n := by omega
      subst hi'
      have hrow : (List.ofFn (speciesRow g p (Yp t) (Tp t) (taup t)) ++ [energyRow g p]).getD i []
          = energyRow g p := by
        rw [List.getD_eq_getElem?_getD, List.getElem?_append_right (by simp)]
        simp
      rw [hrow]
      refine ⟨by simp [energyRow], ?_⟩
      refine (energyOf_deriv hg z hY hT hT0 hS hp).congr_of_eventuallyEq ?_
      filter_upwards [hev] with s hs
      rw [hs]
      have := ofFn_getD_ge (specOf g P R rate (Yp s) (Tp s) (taup s))
        [energyOf g enth (Yp s) (Tp s)] 0
      simpa using this

/-- **C64**: the entries of the Jacobian are the partial derivatives of the residuals with respect
to each mass fraction, the temperature and the residence time. -/
theorem C64_partials (hg : Spec.IdealGas g P R rate enth cpk) {Y : Fin n → ℝ} {T tau : ℝ}
    (hT0 : 0 < T) (hS : 0 < ∑ k, Y k / g.W k) :
    ∃ J, coreJac g Y T tau = .ok J ∧ ∀ i < n + 1,
      (∀ j : Fin n, HasDerivAt (fun y => (coreRes g (Function.update Y j y) T tau).getD i 0)
        ((J.getD i []).getD j 0) (Y j)) ∧
      HasDerivAt (fun s => (coreRes g Y s tau).getD i 0) ((J.getD i []).getD n 0) T ∧
      HasDerivAt (fun s => (coreRes g Y T s).getD i 0) ((J.getD i []).getD (n + 1) 0) tau := by
  obtain ⟨J, hJ, _, hr⟩ := C64_jacobian (taup := fun _ => tau) (z := 0) (Tp := fun _ => T) (w := 0)
    (Yp := fun _ => Y) (v := fun _ => 0) (t := 0) hg (fun j => hasDerivAt_const _ _)
    (hasDerivAt_const _ _) (hasDerivAt_const _ _) hT0 hS
  refine ⟨J, hJ, fun i hi => ⟨?_, ?_, ?_⟩⟩
  · intro j
    obtain ⟨J', hJ', _, hr'⟩ := C64_jacobian (taup := fun _ => tau) (z := 0) (Tp := fun _ => T)
      (w := 0) (Yp := fun y => Function.update Y j y) (v := fun i => if i = j then 1 else 0)
      (t := Y j) hg (by
        intro i
        by_cases h : i = j
        · subst h
          simpa using hasDerivAt_id' (Y i)
        · simpa [Function.update_of_ne h, h] using hasDerivAt_const (Y j) (Y i))
      (hasDerivAt_const _ _) (hasDerivAt_const _ _) hT0 (by simpa using hS)
    rw [Function.update_eq_self, hJ] at hJ'
    cases hJ'
    have := (hr' i hi).2
    simpa using this
  · obtain ⟨J', hJ', _, hr'⟩ := C64_jacobian (taup := fun _ => tau) (z := 0) (Tp := fun s => s)
      (w := 1) (Yp := fun _ => Y) (v := fun _ => 0)
      (t := T) hg (fun j => hasDerivAt_const _ _)
      (hasDerivAt_id _) (hasDerivAt_const _ _) hT0 hS
    rw [hJ] at hJ'
    cases hJ'
    have := (hr' i hi).2
    simpa using this
  · obtain ⟨J', hJ', _, hr'⟩ := C64_jacobian (taup := fun s => s) (z := 1) (Tp := fun _ => T)
      (w := 0) (Yp := fun _ => Y) (v := fun _ => 0)
      (t := tau) hg (fun j => hasDerivAt_const _ _)
      (hasDerivAt_const _ _) (hasDerivAt_id _) hT0 hS
    rw [hJ] at hJ'
    cases hJ'
    have := (hr' i hi).2
    simpa using this

/-- **C64**: the same at a fixed residence time, with mass fractions and temperature as unknowns: a square matrix, the
derivative of the residual along every smooth path. -/
theorem C64_fixed (hg : Spec.IdealGas g P R rate enth cpk) (tau : ℝ) {Yp : ℝ → Fin n → ℝ} {Tp : ℝ → ℝ} {v : Fin n → ℝ} {w t : ℝ}
    (hY : ∀ j, HasDerivAt (fun s => Yp s j) (v j) t) (hT : HasDerivAt Tp w t) (hT0 : 0 < Tp t)
    (hS : 0 < ∑ k, Yp t k / g.W k) :
    ∃ J, fixedTauJac g tau (List.ofFn (Yp t) ++ [Tp t]) = .ok J ∧ J.length = n + 1 ∧
      ∀ i < n + 1, (J.getD i []).length = n + 1 ∧
        HasDerivAt (fun s => (fixedTauRes g tau (List.ofFn (Yp s) ++ [Tp s])).getD i 0)
          ((∑ j : Fin n, (J.getD i []).getD j 0 * v j) + (J.getD i []).getD n 0 * w) t := by
  have hmf : ∀ s, massFrac n (List.ofFn (Yp s) ++ [Tp s]) = Yp s := by
    intro s; funext i; exact ofFn_getD _ _ i
  have hth : ∀ s, (List.ofFn (Yp s) ++ [Tp s]).getD n 0 = Tp s := by
    intro s
    have := ofFn_getD_ge (Yp s) [Tp s] 0
    simpa only [Nat.add_zero, List.getD_cons_zero] using this
  obtain ⟨J, hJ, hlen, hr⟩ := C64_jacobian hg hY hT (hasDerivAt_const t tau) hT0 hS
  refine ⟨J.map (List.take (n + 1)), ?_, by simp [hlen], ?_⟩
  · unfold fixedTauJac
    rw [hmf, hth, hJ]
    rfl
  · intro i hi
    have hrow : (J.map (List.take (n + 1))).getD i [] = (J.getD i []).take (n + 1) := by
      rw [List.getD_eq_getElem?_getD, List.getElem?_map, List.getD_eq_getElem?_getD]
      cases J[i]? <;> simp
    have hget : ∀ j, j < n + 1 → ((J.getD i []).take (n + 1)).getD j 0 = (J.getD i []).getD j 0 := by
      intro j hj
      rw [List.getD_eq_getElem?_getD, List.getElem?_take_of_lt hj, ← List.getD_eq_getElem?_getD]
    rw [hrow]
    refine ⟨by rw [List.length_take, (hr i hi).1]; omega, ?_⟩
    unfold fixedTauRes
    simp only [hmf, hth]
    refine (hr i hi).2.congr_deriv ?_
    rw [hget n (by omega), mul_zero, add_zero]
    congr 1
    exact Finset.sum_congr rfl fun j _ => by rw [hget j (by omega)]

theorem scaleCols_getD (tau : ℝ) (r : List ℝ) (j : Nat) :
    (scaleCols n tau r).getD j 0 =
      if j = n then r.getD j 0 * 1000 else if j = n + 1 then r.getD j 0 * tau else r.getD j 0 := by
  unfold scaleCols
  simp only [List.getD_eq_getElem?_getD, List.getElem?_mapIdx]
  cases r[j]? with
  | none => simp
  | some x =>
    simp only [Option.map_some, Option.getD_some]
    rfl

/-- **C64**: the same for the scaled unknowns `u = (Y, T / 1000, ln tau)` used by the continuation:
the matrix handed to the root finder, with the tangent as its last row, is the derivative of the
augmented residual along every smooth path of `u`. -/
theorem C64_scaled (hg : Spec.IdealGas g P R rate enth cpk) {E : PsrEnv ℝ} (hE : E.exp = Real.exp)
    {Yp : ℝ → Fin n → ℝ} {th sg : ℝ → ℝ} {v : Fin n → ℝ} {w z t : ℝ}
    (hY : ∀ j, HasDerivAt (fun s => Yp s j) (v j) t) (hT : HasDerivAt th w t)
    (hs : HasDerivAt sg z t) (hT0 : 0 < th t) (hS : 0 < ∑ k, Yp t k / g.W k)
    {tan up : List ℝ} (htan : tan.length = n + 2) (hup : up.length = n + 2) (ds : ℝ) :
    ∃ J, augJac E g tan (List.ofFn (Yp t) ++ [th t, sg t]) = .ok J ∧ J.length = n + 2 ∧
      ∀ i < n + 2,
        HasDerivAt (fun s => (augRes E g tan up ds (List.ofFn (Yp s) ++ [th s, sg s])).getD i 0)
          ((∑ j : Fin n, (J.getD i []).getD j 0 * v j) + (J.getD i []).getD n 0 * w
            + (J.getD i []).getD (n + 1) 0 * z) t := by
  have hmf : ∀ s, massFrac n (List.ofFn (Yp s) ++ [th s, sg s]) = Yp s := by
    intro s; funext i; exact ofFn_getD _ _ i
  have hth : ∀ s, (List.ofFn (Yp s) ++ [th s, sg s]).getD n 0 = th s := by
    intro s
    have := ofFn_getD_ge (Yp s) [th s, sg s] 0
    simpa only [Nat.add_zero, List.getD_cons_zero] using this
  have hsg : ∀ s, (List.ofFn (Yp s) ++ [th s, sg s]).getD (n + 1) 0 = sg s := by
    intro s
    have := ofFn_getD_ge (Yp s) [th s, sg s] 1
    simpa only [List.getD_cons_succ, List.getD_cons_zero] using this
  have hT' : HasDerivAt (fun s => th s * 1000) (w * 1000) t := hT.mul_const 1000
  have hs' : HasDerivAt (fun s => Real.exp (sg s)) (Real.exp (sg t) * z) t := hs.exp
  obtain ⟨J, hJ, hlen, hr⟩ := C64_jacobian hg hY hT' hs' (by linarith) hS
  refine ⟨J.map (scaleCols n (Real.exp (sg t))) ++ [tan], ?_, by simp [hlen], ?_⟩
  · unfold augJac coreJacU
    rw [hmf, hth, hsg, hE, show (psrTref : ℝ) = 1000 from rfl, hJ]
    rfl
  · intro i hi
    have hres : ∀ s, augRes E g tan up ds (List.ofFn (Yp s) ++ [th s, sg s]) =
        coreRes g (Yp s) (th s * 1000) (Real.exp (sg s))
          ++ [vDot tan (vSub (List.ofFn (Yp s) ++ [th s, sg s]) up) - ds] := by
      intro s
      unfold augRes coreResU
      rw [hmf, hth, hsg, hE]
      rfl
    simp only [hres]
    by_cases hin : i < n + 1
    · have hrow : (J.map (scaleCols n (Real.exp (sg t))) ++ [tan]).getD i []
          = scaleCols n (Real.exp (sg t)) (J.getD i []) := by
        rw [List.getD_eq_getElem?_getD, List.getElem?_append_left (by simpa [hlen] using hin),
          List.getElem?_map, List.getD_eq_getElem?_getD,
          List.getElem?_eq_getElem (by rw [hlen]; exact hin)]
        rfl
      rw [hrow]
      simp only [scaleCols_getD]
      refine ((hr i hin).2.congr_of_eventuallyEq ?_).congr_deriv ?_
      · refine Eventually.of_forall (fun s => ?_)
        dsimp only
        rw [List.getD_eq_getElem?_getD, List.getElem?_append_left (by rw [coreRes_length]; exact hin),
          ← List.getD_eq_getElem?_getD]
      · have e : ∀ j : Fin n, (if (j : Nat) = n then (J.getD i []).getD j 0 * 1000 else
            if (j : Nat) = n + 1 then (J.getD i []).getD j 0 * Real.exp (sg t)
            else (J.getD i []).getD j 0) = (J.getD i []).getD j 0 := by
          intro j
          have := j.2
          rw [if_neg (by omega), if_neg (by omega)]
        simp only [e, if_true, Nat.succ_ne_self, if_false]
        ring
    · have hi' : i = n + 1 := by omega
      subst hi'
      have hrow : (J.map (scaleCols n (Real.exp (sg t))) ++ [tan]).getD (n + 1) [] = tan := by
        rw [List.getD_eq_getElem?_getD, List.getElem?_append_right (by simp [hlen])]
        simp [hlen]
      rw [hrow]
      have hlast : ∀ s, (coreRes g (Yp s) (th s * 1000) (Real.exp (sg s))
          ++ [vDot tan (vSub (List.ofFn (Yp s) ++ [th s, sg s]) up) - ds]).getD (n + 1) 0
          = vDot tan (vSub (List.ofFn (Yp s) ++ [th s, sg s]) up) - ds := by
        intro s
        rw [List.getD_eq_getElem?_getD, List.getElem?_append_right (by rw [coreRes_length])]
        simp [coreRes_length]
      simp only [hlast]
      have hdot : ∀ s, vDot tan (vSub (List.ofFn (Yp s) ++ [th s, sg s]) up)
          = (∑ j : Fin n, tan.getD j 0 * (Yp s j - up.getD j 0))
            + tan.getD n 0 * (th s - up.getD n 0)
            + tan.getD (n + 1) 0 * (sg s - up.getD (n + 1) 0) := by
        intro s
        have hd : ∀ (a b : List ℝ), a.length = n + 2 → b.length = n + 2 →
            vDot a b = ∑ j : Fin (n + 2), a.getD j 0 * b.getD j 0 := by
          intro a b ha hb
          unfold vDot
          rw [← List.sum_ofFn]
          congr 1
          apply List.ext_getElem
          · simp [ha, hb]
          · intro m h1 h2
            simp only [List.getElem_zipWith, List.getElem_ofFn]
            rw [List.length_zipWith] at h1
            rw [List.getD_eq_getElem _ _ (by omega), List.getD_eq_getElem _ _ (by omega)]
        have hl : (List.ofFn (Yp s) ++ [th s, sg s]).length = up.length := by simp [hup]
        rw [hd _ _ htan (by simp [vSub, hup]), Fin.sum_univ_castSucc, Fin.sum_univ_castSucc]
        simp only [Fin.val_castSucc, Fin.val_last]
        rw [vSub_getD hl, vSub_getD hl, hth, hsg]
        congr 2
        apply Finset.sum_congr rfl
        intro j _
        rw [vSub_getD hl, ofFn_getD]
      simp only [hdot]
      have h1 : HasDerivAt (fun s => ∑ j : Fin n, tan.getD j 0 * (Yp s j - up.getD j 0))
          (∑ j : Fin n, tan.getD j 0 * v j) t := by
        apply HasDerivAt.fun_sum
        intro j _
        exact ((hY j).sub_const _).const_mul _
      exact ((h1.fun_add ((hT.sub_const _).const_mul _)).fun_add
        ((hs.sub_const _).const_mul _)).sub_const ds

end

/-! ### a concrete ideal gas: two species, `A` decays to `B` at a rate `T C_A²` -/

/-- production rates of the example -/
def exRate (C : Fin 2 → ℝ) (T : ℝ) (k : Fin 2) : ℝ := if k = 0 then -(T * C 0 ^ 2) else T * C 0 ^ 2

/-- the gas object of the example (pressure and gas constant 1) -/
noncomputable def exIdeal : PsrGas ℝ 2 :=
  { at_ := fun Y T =>
      if 0 < T ∧ 0 < ∑ k, Y k / (fun i : Fin 2 => if i = 0 then (2 : ℝ) else 4) k then
        let mw := 1 / ∑ k, Y k / (fun i : Fin 2 => if i = 0 then (2 : ℝ) else 4) k
        let rho := 1 * mw / (1 * T)
        some
          { wdot := exRate (fun i => rho * (Y i / (if i = 0 then (2 : ℝ) else 4))) T
            rho := rho, mw := mw
            ddC := fun k i => if i = 0 then
                (if k = 0 then -1 else 1) * (2 * T * (rho * (Y 0 / 2))) else 0
            ddT := fun k => (if k = 0 then -1 else 1) * (rho * (Y 0 / 2)) ^ 2
            h := ∑ k, Y k * (T ^ 2) / (fun i : Fin 2 => if i = 0 then (2 : ℝ) else 4) k
            pmh := fun _ => T ^ 2
            cp := ∑ k, Y k * (2 * T) / (fun i : Fin 2 => if i = 0 then (2 : ℝ) else 4) k }
      else none
    W := fun i => if i = 0 then 2 else 4
    Yin := fun _ => 1 / 2, hin := 0, hscale := 1 }

theorem exIdeal_ok : Spec.IdealGas exIdeal 1 1 exRate (fun _ T => T ^ 2) (fun _ T => 2 * T) where
  pos := ⟨one_pos, one_pos⟩
  weights := by intro k; unfold exIdeal; dsimp only; split_ifs <;> norm_num
  deriv := by
    intro k T
    simpa using hasDerivAt_pow 2 T
  point := by
    intro Y T hT hS
    refine ⟨_, if_pos ⟨hT, hS⟩, rfl, rfl, fun k => rfl, rfl, fun k => rfl, rfl, fun k => ?_⟩
    have hC0 : HasFDerivAt (fun q : (Fin 2 → ℝ) × ℝ => q.1 0)
        ((ContinuousLinearMap.proj 0).comp (ContinuousLinearMap.fst ℝ (Fin 2 → ℝ) ℝ))
        (fun i => 1 * (1 / ∑ k, Y k / exIdeal.W k) / (1 * T) * (Y i / exIdeal.W i), T) :=
      ((ContinuousLinearMap.proj 0).comp
        (ContinuousLinearMap.fst ℝ (Fin 2 → ℝ) ℝ)).hasFDerivAt
    have hT' : HasFDerivAt (fun q : (Fin 2 → ℝ) × ℝ => q.2)
        (ContinuousLinearMap.snd ℝ (Fin 2 → ℝ) ℝ)
        (fun i => 1 * (1 / ∑ k, Y k / exIdeal.W k) / (1 * T) * (Y i / exIdeal.W i), T) :=
      (ContinuousLinearMap.snd ℝ (Fin 2 → ℝ) ℝ).hasFDerivAt
    have hm := hT'.fun_mul (hC0.fun_mul hC0)
    have hw : exIdeal.W 0 = 2 := rfl
    have hw1 : exIdeal.W 1 = 4 := rfl
    by_cases hk : k = 0
    · subst hk
      refine ⟨_, (hm.fun_neg).congr_of_eventuallyEq (Eventually.of_forall (fun q => ?_)), ?_⟩
      · simp only [exRate, if_true]; ring
      · intro c t
        simp [Fin.sum_univ_two, hw, hw1]
        ring
    · refine ⟨_, hm.congr_of_eventuallyEq (Eventually.of_forall (fun q => ?_)), ?_⟩
      · simp only [exRate, hk, if_false]; ring
      · intro c t
        simp [Fin.sum_univ_two, hk, hw, hw1]
        ring

/-- the theorem applies to it -/
example : ∃ J, coreJac exIdeal (fun _ => 1 / 2) 1000 1 = .ok J ∧ ∀ i < 3,
      (∀ j : Fin 2, HasDerivAt (fun y =>
        (coreRes exIdeal (Function.update (fun _ => 1 / 2) j y) 1000 1).getD i 0)
        ((J.getD i []).getD j 0) (1 / 2)) := by
  obtain ⟨J, hJ, h⟩ := C64_partials (Y := fun _ => 1 / 2) (T := 1000) (tau := 1) exIdeal_ok
    (by norm_num) (by simp [Fin.sum_univ_two, exIdeal]; norm_num)
  exact ⟨J, hJ, fun i hi => (h i hi).1⟩

/-- the matrix at a fixed residence time has three rows of three entries -/
example : ∃ J, fixedTauJac exIdeal 1 (List.ofFn (fun _ : Fin 2 => (1 / 2 : ℝ)) ++ [1000]) = .ok J ∧ J.length = 3 := by
  obtain ⟨J, hJ, hl, -⟩ := C64_fixed exIdeal_ok 1 (Yp := fun _ _ => 1 / 2) (Tp := fun _ => 1000) (v := fun _ => 0) (w := 0) (t := 0)
    (fun _ => hasDerivAt_const _ _) (hasDerivAt_const _ _) (by norm_num) (by simp [Fin.sum_univ_two, exIdeal]; norm_num)
  exact ⟨J, hJ, hl⟩

end Verif
