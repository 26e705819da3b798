import Verif.Lemmas.CkRound
import Verif.Props.CkFiles
/-!
# Properties of Chemkin files with unit conversions in floating-point arithmetic (C119)
-/
namespace Verif
open Spec

/-- The rates of a reaction that can be written, with orders that need not be integers: converted in
floating-point arithmetic they are those of the model to almost five digits. -/
theorem C119_reaction {a : CkArith} (ha : CkAccurate a) (names : List Text) {r : Rxn ℚ}
    (hx : 0 ≤ (r.reactants.map Prod.snd).sum ∧ (r.reactants.map Prod.snd).sum ≤ 18) (hw : Writable r)
    (heq : '\n' ∉ r.eqn) (hth : ∀ tb, r.third = some tb → ∀ kv ∈ tb.effs, Word kv.1) :
    ∃ t main eff aux, rxnTextR a names r = .ok t ∧
      lines t = main :: (eff ++ aux ++ (if r.dup then ["DUPLICATE".toList] else []) ++ [[]]) ∧
      (∃ pad rate, main = r.eqn ++ List.replicate pad ' ' ++ rate ∧
        MainReads r (r.reactants.map Prod.snd).sum (words rate)) ∧
      EffLines pyRepr names r eff ∧ AuxReads r (r.reactants.map Prod.snd).sum aux := by
  obtain ⟨t, wa, wb, we, eff, aux, h1, h2, h3, h4, h5, h6, h7, h8⟩ :=
    rxn_lines_order pyRepr_word names (adj_order a r) (adj_writable a hw) heq hth
  refine ⟨t, _, eff, aux, (rxn_adj a hw names).trans h1, h2,
    ⟨51 - r.eqn.length, joinText sep2 [wa, wb, we], rfl, ?_⟩, h7, aux_reads ha hx h8⟩
  rw [rateText_words _ _ _ h3 h4 h5]
  exact main_reads ha hw hx h6

/-- binary64 arithmetic has the accuracy assumed -/
theorem ckAccurate_754 {pw : ℚ → ℚ}
    (h : ∀ x : ℚ, |x| ≤ 20 → |(pw x : ℝ) - (1000 : ℝ) ^ (x : ℝ)| ≤ (1000 : ℝ) ^ (x : ℝ) / 2 ^ 50) :
    CkAccurate ⟨rnd754, pw⟩ := by
  refine ⟨fun q => ?_, fun q hq => RndOk_nonneg rndOk_rnd754 hq, h⟩
  dsimp only
  have pos : ∀ q : ℚ, 0 ≤ q → |rnd754 q - q| ≤ |q| / 2 ^ 53 + 1 / 2 ^ 250 := by
    intro q hq
    rcases lt_or_ge |q| (1 / 2 ^ 1022) with hs | hl
    · have e : rnd754 q = rndGrid (1022 + 52) q := rndGradual_small hs
      have h1 := rndGrid_close (e := 1022 + 52) hq
      rw [e]
      have h2 : (1 : ℚ) / 2 / 2 ^ (1022 + 52) ≤ 1 / 2 ^ 250 := by
        rw [div_div, ← pow_succ']
        apply one_div_le_one_div_of_le (by positivity)
        exact pow_le_pow_right₀ (by norm_num) (by norm_num)
      have h3 : 0 ≤ |q| / 2 ^ 53 := by positivity
      linarith
    · rw [rnd754_normal hl, abs_of_nonneg hq]
      have h1 := rnd64_close hq
      have h2 : (0 : ℚ) ≤ 1 / 2 ^ 250 := by positivity
      linarith
  rcases le_total 0 q with hq | hq
  · exact pos q hq
  · have := pos (-q) (by linarith)
    rw [rnd754_neg, abs_neg] at this
    rwa [show -rnd754 q - -q = -(rnd754 q - q) by ring, abs_neg] at this

/-- The transport line of a species: every number is that of the model in its unit to three decimals
and a few units in the last place. -/
theorem C119_transport {a : CkArith} (ha : CkAccurate a) (s : Spec1 ℚ) (t : Transport ℚ)
    (hs : s.transport = some t) (hname : Word s.name)
    (hgeo : t.geometry ∈ ["atom".toList, "linear".toList, "nonlinear".toList])
    (h1 : 0 ≤ t.wellDepth ∧ t.wellDepth / boltzmann ≤ 9999) (h2 : 0 ≤ t.diameter ∧ t.diameter * 10 ^ 10 ≤ 9999)
    (h3 : 0 ≤ t.dipole ∧ t.dipole / debyeConversion ≤ 9999) (h4 : 0 ≤ t.polar ∧ t.polar * 10 ^ 30 ≤ 9999)
    (h5 : 0 ≤ t.rot ∧ t.rot < 10 ^ 4) :
    ∃ l g w1 w2 w3 w4 w5, transportLineR a s = .ok (l ++ "\n".toList) ∧ '\n' ∉ l ∧
      words l = [s.name, g, w1, w2, w3, w4, w5] ∧
      (t.geometry = "atom".toList → g = "0".toList) ∧ (t.geometry = "linear".toList → g = "1".toList) ∧
      (t.geometry = "nonlinear".toList → g = "2".toList) ∧
      Reads w1 (t.wellDepth / boltzmann) (1 / 2000 + 1 / 10 ^ 11) ∧
      Reads w2 (t.diameter * 10 ^ 10) (1 / 2000 + 1 / 10 ^ 11) ∧
      Reads w3 (t.dipole / debyeConversion) (1 / 2000 + 1 / 10 ^ 11) ∧
      Reads w4 (t.polar * 10 ^ 30) (1 / 2000 + 1 / 10 ^ 11) ∧ Reads w5 t.rot (1 / 2000) := by
  have c1 := conv_div ha boltzmann_pos h1.1
  have c2 := conv_exact ha (q := t.diameter * 10 ^ 10) (mul_nonneg h2.1 (by norm_num))
  have c3 := conv_div ha debye_pos h3.1
  have c4 := conv_mul ha (b := 10 ^ 30) (by norm_num) h4.1
  obtain ⟨e1, e2, e3, e4⟩ := adj_transport a t
  have key : ∀ x y : ℚ, (0 ≤ x ∧ |x - y| ≤ y / 2 ^ 50 + 1 / 2 ^ 240) → y ≤ 9999 → 0 ≤ x ∧ x < 10 ^ 4 := by
    intro x y h hy
    have := abs_le.1 h.2
    refine ⟨h.1, ?_⟩
    have h6 : y / 2 ^ 50 ≤ 9999 / 2 ^ 50 := by gcongr
    have h7 : (9999 : ℚ) / 2 ^ 50 + 1 / 2 ^ 240 + 9999 < 10 ^ 4 := by norm_num
    linarith
  have near : ∀ (w : Text) (x y : ℚ), (0 ≤ x ∧ |x - y| ≤ y / 2 ^ 50 + 1 / 2 ^ 240) → y ≤ 9999 →
      Reads w x (1 / 2000) → Reads w y (1 / 2000 + 1 / 10 ^ 11) := by
    rintro w x y h hy ⟨v, hv, hx⟩
    refine ⟨v, hv, ?_⟩
    have h6 : y / 2 ^ 50 ≤ 9999 / 2 ^ 50 := by gcongr
    have h7 : (9999 : ℚ) / 2 ^ 50 + 1 / 2 ^ 240 ≤ 1 / 10 ^ 11 := by norm_num
    have h8 := abs_add_le (v - x) (x - y)
    rw [sub_add_sub_cancel] at h8
    linarith [h.2]
  obtain ⟨l, g, w1, w2, w3, w4, w5, g1, g2, g3, g4, g5, g6, r1, r2, r3, r4, r5⟩ :=
    C79_transport { s with transport := some (adjTransport a t) } (adjTransport a t) rfl hname hgeo
      (by rw [e1]; exact key _ _ c1 h1.2) (by rw [e2]; exact key _ _ c2 h2.2)
      (by rw [e3]; exact key _ _ c3 h3.2) (by rw [e4]; exact key _ _ c4 h4.2) h5
  rw [e1] at r1
  rw [e2] at r2
  rw [e3] at r3
  rw [e4] at r4
  exact ⟨l, g, w1, w2, w3, w4, w5, (transport_adj a hs).trans g1, g2, g3, g4, g5, g6, near _ _ _ c1 h1.2 r1,
    near _ _ _ c2 h2.2 r2, near _ _ _ c3 h3.2 r3, near _ _ _ c4 h4.2 r4, r5⟩

/-! ## An arithmetic and data that meet the hypotheses -/

example : ∃ a, CkAccurate a := by
  have : ∀ x : ℚ, ∃ P : ℚ, |(P : ℝ) - (1000 : ℝ) ^ (x : ℝ)| ≤ (1000 : ℝ) ^ (x : ℝ) / 2 ^ 50 := by
    intro x
    have hT : (0 : ℝ) < (1000 : ℝ) ^ (x : ℝ) := by positivity
    obtain ⟨P, h1, h2⟩ := exists_rat_btwn (show (1000 : ℝ) ^ (x : ℝ) - (1000 : ℝ) ^ (x : ℝ) / 2 ^ 50 <
      (1000 : ℝ) ^ (x : ℝ) by linarith [show 0 < (1000 : ℝ) ^ (x : ℝ) / 2 ^ 50 by positivity])
    refine ⟨P, ?_⟩
    rw [abs_le]
    constructor <;> linarith [show 0 < (1000 : ℝ) ^ (x : ℝ) / 2 ^ 50 by positivity]
  choose pw h using this
  exact ⟨_, ckAccurate_754 fun x _ => h x⟩

/-- a falloff reaction with a fractional coefficient -/
def ckFraction : Rxn ℚ := { ckFalloff with reactants := [("H".toList, 3 / 2), ("O2".toList, 1)] }

example : (0 ≤ (ckFraction.reactants.map Prod.snd).sum ∧ (ckFraction.reactants.map Prod.snd).sum ≤ 18) ∧
    Writable ckFraction ∧ '\n' ∉ ckFraction.eqn ∧
    ∀ tb, ckFraction.third = some tb → ∀ kv ∈ tb.effs, Word kv.1 := by
  refine ⟨by decide +kernel, Or.inr (Or.inl ⟨rfl, by simp⟩), by decide, ?_⟩
  rintro tb h
  cases h
  intro kv hkv
  simp only [List.mem_cons, List.not_mem_nil, or_false] at hkv
  rcases hkv with rfl | rfl | rfl <;> exact ⟨by decide, by decide⟩

example : (0 ≤ (1485 / 10 ^ 24 : ℚ) ∧ (1485 / 10 ^ 24 : ℚ) / boltzmann ≤ 9999) ∧
    (0 ≤ (3458 / 10 ^ 13 : ℚ) ∧ (3458 / 10 ^ 13 : ℚ) * 10 ^ 10 ≤ 9999) ∧ Word ckSpecies.name :=
  ⟨by norm_num [boltzmann], by norm_num, by decide, by decide⟩

/-- with `1000^(3/2)` to twelve digits -/
example : ∃ t, rxnTextR ⟨rnd754, fun _ => 31622776601683 / 10 ^ 9⟩ ["H2".toList] ckFraction = .ok t ∧
    (lines t).head? = some "H + O2 (+M) <=> HO2 (+M)                           1.6180e+08  0.440  0.000e+00".toList :=
  ⟨_, rfl, by decide +kernel⟩

end Verif
