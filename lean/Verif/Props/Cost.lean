import Verif.Lemmas.CostRun
import Verif.Lemmas.CostBound
import Verif.Lemmas.ReduceRun
import Verif.Props.Importance
import Verif.Model.EndToEnd
/-!
# C112: the number of iterations of DRGEP's path search

The loop of `mod_dijkstra` (`drgep.py:64-99`) takes the *smallest* value from its queue first, and a species
is entered again whenever a better path to it turns up.  On a model of isomerisations with `2n + 2`
species everything behind a species is repeated each time a better path to that species is found.
-/
namespace Verif
open Spec

/-- **C112**: with `N` species every search has ended after `2 (N+1)^(N+1) + 3N + 2` iterations, whatever
the rounding of products, and the coefficients are then the greatest path products.  Missing: a bound
that is polynomial in `N`; there is none (`C112_polynomial_refuted`). -/
theorem C112_bound_partial {rnd : ℚ → ℚ} (hr : RndOk rnd) {names targets : List String} (hn : names.Nodup)
    (ht : ∀ t ∈ targets, t ∈ names) {matrices : List NMat} (hM : ∀ M ∈ matrices, UnitMatrix M names.length) :
    ∃ imp, (∀ fuel ≥ 2 * (names.length + 1) ^ (names.length + 1) + 3 * names.length + 2,
      getImportanceCoeffs rnd names targets matrices fuel = .ok imp) ∧
      ∀ sp ∈ names, ∃ x, imp sp = some x ∧ IsGreatest (Candidates rnd names targets matrices sp) x := by
  obtain ⟨N, imp, h, -, hg⟩ := C16_importance hr hn ht hM
  refine ⟨imp, fun fuel hf => ?_, hg⟩
  obtain ⟨d, hd⟩ := importance_ends hr hn (fuel := fuel) (by omega) ht hM
    (fun sp => if sp ∈ names then some 0 else none)
  have h1 := importance_more (le_max_right N fuel) hd
  have h2 := h (max N fuel) (le_max_left _ _)
  rw [getImportanceCoeffs, h1] at h2
  rw [getImportanceCoeffs, hd, h2]

/-- **C112 refuted**, exact arithmetic: on the model of isomerisations with `2n + 2` species and `3n + 1`
reactions a reduction by DRGEP whose targets include the first species is still searching for
paths after `2^n` iterations, for every `n`. -/
theorem C112_exponential_refuted {n : Nat} (hn : 0 < n) {c : Ctx} {w : World} {mech : Mech} (hr : c.rndMul = id)
    (hl : loadModel w c.modelFile = .ok mech) (hd : mech.names.Nodup) (hlen : mech.names.length = 2 * n + 2)
    (hM : matrixOf .drgep id (isoChem n) ∈ c.matrices) (ht : ∀ t ∈ c.targets, t ∈ mech.names)
    (h0 : mech.names.getD 0 "" ∈ c.targets) (sim : Mech → Except Err PyF) (rnd : ℚ → ℚ) (limit : PyF)
    {dfuel : Nat} (hf : dfuel ≤ 2 ^ n) (fuel : Nat) :
    runDrgepS c sim rnd limit dfuel fuel w = (some (.error .outOfFuel), w) := by
  have hne : c.targets ≠ [] := fun h => by rw [h] at h0; simp at h0
  have := iso_slow (rnd := id) (n := n) (ε := 0) rndOk_id (exactTo_id _) le_rfl (fun x _ => by simp)
    (by rw [mul_zero]; positivity) hn hd hlen hf
  rw [runDrgepS, hl]
  simp only [if_neg hne]
  rw [getImportanceCoeffs, hr, importance_slow ht h0 hM this]

/-- **C112 refuted** in binary64 arithmetic, up to 94 species (`2^46` iterations) -/
theorem C112_binary64_refuted {n : Nat} (hn : 0 < n) (h46 : n ≤ 46) {c : Ctx} {w : World} {mech : Mech}
    (hr : c.rndMul = rnd754) (hl : loadModel w c.modelFile = .ok mech) (hd : mech.names.Nodup)
    (hlen : mech.names.length = 2 * n + 2) (hM : matrixOf .drgep rnd754 (isoChem n) ∈ c.matrices)
    (ht : ∀ t ∈ c.targets, t ∈ mech.names) (h0 : mech.names.getD 0 "" ∈ c.targets)
    (sim : Mech → Except Err PyF) (rnd : ℚ → ℚ) (limit : PyF) {dfuel : Nat} (hf : dfuel ≤ 2 ^ n) (fuel : Nat) :
    runDrgepS c sim rnd limit dfuel fuel w = (some (.error .outOfFuel), w) := by
  have hne : c.targets ≠ [] := fun h => by rw [h] at h0; simp at h0
  have := iso_slow (rnd := rnd754) (n := n) (ε := 1 / 2 ^ 53) rndOk_rnd754 (exactTo_754 (by omega)) (by positivity)
    (close_754 h46) (few_754 h46) hn hd hlen hf
  rw [runDrgepS, hl]
  simp only [if_neg hne]
  rw [getImportanceCoeffs, hr, importance_slow ht h0 hM this]

/-- **C112 refuted**: no polynomial in the number of species bounds the number of iterations: for every
`a` and `d` there is a model for which the search is still running after `a N^d + a`
iterations, `N` being its number of species. -/
theorem C112_polynomial_refuted (a d : Nat) : ∃ (N m : Nat) (c : Chem N m), 0 < N ∧
    ∀ names : List String, names.Nodup → names.length = N →
      getImportanceCoeffs id names [names.getD 0 ""] [matrixOf .drgep id c] (a * N ^ d + a) = .error .outOfFuel := by
  obtain ⟨i, hi⟩ : ∃ i, i = a + 2 + 2 * d := ⟨_, rfl⟩
  have hj : a + 2 + d * (2 * i + 1) ≤ 2 ^ (2 * i) := by
    have h1 : i + 1 ≤ 2 ^ i := Nat.lt_two_pow_self
    have h2 : (i + 1) * (i + 1) ≤ 2 ^ (2 * i) := by
      rw [two_mul, pow_add]; exact Nat.mul_le_mul h1 h1
    nlinarith
  have hp : 1 ≤ 2 ^ (2 * i) := Nat.one_le_two_pow
  obtain ⟨n, hn⟩ : ∃ n, n = 2 ^ (2 * i) - 1 := ⟨_, rfl⟩
  have hN : 2 * n + 2 = 2 ^ (2 * i + 1) := by rw [pow_succ]; omega
  have hn0 : 0 < n := by
    have : 2 ^ 1 ≤ 2 ^ (2 * i) := Nat.pow_le_pow_right (by norm_num) (by omega)
    omega
  have hle : a * (2 * n + 2) ^ d + a ≤ 2 ^ n := by
    have ha : a ≤ 2 ^ a := Nat.lt_two_pow_self.le
    have h1 : a * (2 * n + 2) ^ d ≤ 2 ^ (a + (2 * i + 1) * d) := by
      rw [hN, ← pow_mul, pow_add]; exact Nat.mul_le_mul_right _ ha
    have h2 : a ≤ 2 ^ (a + (2 * i + 1) * d) := ha.trans (Nat.pow_le_pow_right (by norm_num) (by omega))
    have h3 : 2 ^ (a + (2 * i + 1) * d + 1) ≤ 2 ^ n := by
      refine Nat.pow_le_pow_right (by norm_num) ?_
      rw [Nat.mul_comm (2 * i + 1)]
      omega
    rw [pow_succ] at h3
    omega
  refine ⟨2 * n + 2, 3 * n + 1, isoChem n, by omega, fun names hd hl => ?_⟩
  have := iso_slow (rnd := id) (n := n) (ε := 0) rndOk_id (exactTo_id _) le_rfl (fun x _ => by simp)
    (by rw [mul_zero]; positivity) hn0 hd hl hle
  refine importance_slow (t := names.getD 0 "") ?_ (by simp) (List.mem_singleton.2 rfl) this _
  intro t ht
  rw [List.mem_singleton.1 ht, List.getD_eq_getElem _ _ (by omega)]
  exact List.getElem_mem _

/-- not vacuous: a model with 22 species, `T` the target, still searching after a thousand iterations -/
example : let names := (List.range 22).map (fun i => String.ofList (List.replicate i 'X'))
    names.Nodup ∧ names.length = 2 * 10 + 2 ∧
    getImportanceCoeffs rnd754 names [""] [matrixOf .drgep rnd754 (isoChem 10)] 1000 = .error .outOfFuel := by
  intro names
  have h1 : names.Nodup := by decide +kernel
  have h2 : names.length = 2 * 10 + 2 := by decide +kernel
  refine ⟨h1, h2, ?_⟩
  have := iso_slow (rnd := rnd754) (n := 10) (ε := 1 / 2 ^ 53) rndOk_rnd754 (exactTo_754 (by omega)) (by positivity)
    (close_754 (by omega)) (few_754 (by omega)) (by omega) h1 h2 (fuel := 1000) (by norm_num)
  exact importance_slow (t := "") (by decide +kernel) (by simp) (List.mem_singleton.2 rfl) this _

/-- 94 species: a whole reduction in binary64 arithmetic that has not started to remove species after `2^46`
iterations of the path search -/
example : let mech : Mech := ⟨(List.range 94).map (fun i => ⟨String.ofList (List.replicate i 'X'), i⟩), [], 0, 0, [], idealGas⟩
    let w : World := ⟨fun f => if f = "m".toList then some mech else none, []⟩
    let c : Ctx := { modelFile := "m".toList, targets := [""], safe := [], errOf := fun _ => .fin 0, phase := [], path := [],
                     matrices := [matrixOf .drgep rnd754 (isoChem 46)], upper := none, rndMul := rnd754 }
    ∀ sim fuel, runDrgepS c sim rnd754 (.fin 5) (2 ^ 46) fuel w = (some (.error .outOfFuel), w) := by
  intro mech w c sim fuel
  exact C112_binary64_refuted (mech := mech) (by norm_num) le_rfl rfl (by simp [loadModel, w, c]) (by decide +kernel)
    (by decide +kernel) (List.mem_singleton.2 rfl) (by decide +kernel) (by decide +kernel) sim rnd754 (.fin 5) le_rfl fuel

end Verif
