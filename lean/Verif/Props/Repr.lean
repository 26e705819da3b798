import Verif.Lemmas.Repr
import Verif.Props.CkFiles
import Verif.Props.CkData
/-!
# Properties of numbers written without a format (C118)
-/
namespace Verif
open Spec

/-- Every float is written as a number that reads back as it. -/
theorem C118_reads {x : ℚ} (hx : IsFloat x) : ReadsBack (pyRepr x) x := by
  have := pyRepr_back x
  rwa [show rnd754 x = x from hx] at this

/-- a decimal with `j` digits that reads as `q` gives a multiple of the unit that does and is no
further away -/
theorem decimal_multiple {q w : ℚ} (hq0 : 0 < q) (hq : IsFloat q) (hw0 : 0 < w) {j m : Nat} {e : Int}
    (hm : m < 10 ^ (j + 1)) (hw : w = m * 10 ^ e) (hr : rnd754 w = q) :
    ∃ n : Nat, rnd754 (n * 10 ^ (Int.log 10 q - (j : Int))) = q ∧
      |(n * 10 ^ (Int.log 10 q - (j : Int)) : ℚ) - q| ≤ |w - q| := by
  have l1 := Int.zpow_log_le_self (b := 10) (by norm_num) hq0
  push_cast at l1
  by_cases hge : (10 : ℚ) ^ Int.log 10 q ≤ w
  · have hlt : (10 : ℚ) ^ Int.log 10 q < 10 ^ (e + (j + 1 : Nat)) := by
      calc (10 : ℚ) ^ Int.log 10 q ≤ m * 10 ^ e := hw ▸ hge
        _ < 10 ^ (j + 1) * 10 ^ e := by
            have : (m : ℚ) < 10 ^ (j + 1) := by exact_mod_cast hm
            gcongr
        _ = _ := by rw [zpow_add₀ (by norm_num), zpow_natCast]; ring
    have he := (zpow_lt_zpow_iff_right₀ (by norm_num)).1 hlt
    obtain ⟨k, hk⟩ := Int.eq_ofNat_of_zero_le (a := e - (Int.log 10 q - (j : Int))) (by omega)
    refine ⟨m * 10 ^ k, ?_⟩
    have : ((m * 10 ^ k : Nat) : ℚ) * 10 ^ (Int.log 10 q - (j : Int)) = w := by
      rw [hw]
      push_cast
      rw [mul_assoc, ← zpow_natCast, ← zpow_add₀ (by norm_num)]
      congr 2
      omega
    rw [this]
    exact ⟨hr, le_rfl⟩
  · refine ⟨10 ^ j, ?_⟩
    have : ((10 ^ j : Nat) : ℚ) * 10 ^ (Int.log 10 q - (j : Int)) = 10 ^ Int.log 10 q := by
      push_cast
      rw [← zpow_natCast, ← zpow_add₀ (by norm_num)]
      congr 1
      omega
    rw [this]
    refine ⟨rnd754_between hq hr (.inl ⟨(not_le.1 hge).le, l1⟩), ?_⟩
    rw [abs_of_nonpos (by linarith), abs_of_nonpos (by linarith [not_le.1 hge])]
    linarith [not_le.1 hge]

/-- The number written has the fewest digits of all that read back as the float, at most seventeen,
and is the closest of those with as many digits. -/
theorem C118_shortest {x : ℚ} (hx : IsFloat x) (h0 : x ≠ 0) :
    ∃ k v, k ≤ 17 ∧ readNum (pyRepr x) = some v ∧ Decimal k v ∧ rnd754 v = x ∧
      ∀ j w, Decimal j w → rnd754 w = x → k ≤ j ∧ (j = k → |v - x| ≤ |w - x|) := by
  have hq0 := abs_pos.2 h0
  have hq := isFloat_abs hx
  obtain ⟨d, hd, hf, hmin⟩ := reprParts_found hq0 hq
  have hval := pyRepr_value hx h0
  have hback := hf.back
  have hcl := hf.closest
  have hup := hf.upper
  have hle := hf.le
  generalize hp : reprParts |x| = p at *
  obtain ⟨k, m, e⟩ := p
  dsimp only at hval hback hcl hup hle
  generalize hv : (m : ℚ) * 10 ^ (e - (k : Int)) = v at *
  have hv0 : 0 ≤ v := by rw [← hv]; positivity
  have hdist : ∀ w : ℚ, (x < 0 → w ≤ 0) → (0 < x → 0 ≤ w) → |w - x| = |(|w|) - (|x|)| := by
    intro w h1 h2
    rcases lt_or_gt_of_ne h0 with h | h
    · rw [abs_of_neg h, abs_of_nonpos (h1 h), ← abs_neg]
      congr 1; ring
    · rw [abs_of_pos h, abs_of_nonneg (h2 h)]
  refine ⟨k + 1, _, by omega, hval, ⟨m, e - (k : Int), hup, ?_⟩, ?_, ?_⟩
  · rw [hv]
    split
    · rw [abs_neg, abs_of_nonneg hv0]
    · exact abs_of_nonneg hv0
  · split
    · rename_i hneg
      rw [rnd754_neg_eq hneg]
      exact hback
    · rename_i hpos
      rwa [abs_of_nonneg (not_lt.1 hpos)] at hback
  · rintro j w ⟨m', e', hm', hw⟩ hr
    have hsign : (x < 0 → w < 0) ∧ (0 < x → 0 < w) := by
      have mono := rndOk_rnd754.mono
      have z := rndOk_rnd754.zero
      constructor
      · intro h
        by_contra hc
        have := mono 0 w (not_lt.1 hc)
        rw [z, hr] at this
        linarith
      · intro h
        by_contra hc
        have := mono w 0 (not_lt.1 hc)
        rw [z, hr] at this
        linarith
    have hw0 : w ≠ 0 := by
      rcases lt_or_gt_of_ne h0 with h | h
      · exact (hsign.1 h).ne
      · exact (hsign.2 h).ne'
    have hrabs : rnd754 |w| = |x| := by
      rcases lt_or_gt_of_ne h0 with h | h
      · rw [abs_of_neg (hsign.1 h), rnd754_neg, hr, abs_of_neg h]
      · rw [abs_of_pos (hsign.2 h), hr, abs_of_pos h]
    have hj : j ≠ 0 := by
      rintro rfl
      have : m' = 0 := by simpa using hm'
      rw [this] at hw
      simp at hw
      exact hw0 hw
    obtain ⟨i, rfl⟩ := Nat.exists_eq_succ_of_ne_zero hj
    obtain ⟨n, hn1, hn2⟩ := decimal_multiple hq0 hq (abs_pos.2 hw0) hm' hw hrabs
    have hdi : d ≤ i := by
      by_contra hc
      obtain ⟨p', hp'⟩ := reprTry_some hq0 hq hn1
      rw [hmin i (by omega)] at hp'
      cases hp'
    refine ⟨by omega, fun hjk => ?_⟩
    have hid : i = d := by omega
    subst hid
    have := (hcl n hn1).trans hn2
    rw [hdist w (fun h => (hsign.1 h).le) (fun h => (hsign.2 h).le), hdist]
    · have hva : |(if x < 0 then -v else v)| = v := by
        split
        · rw [abs_neg, abs_of_nonneg hv0]
        · exact abs_of_nonneg hv0
      rw [hva]
      exact this
    · intro h
      rw [if_pos h]; linarith
    · intro h
      rw [if_neg (by linarith)]; exact hv0

example : pyRepr (1 / 10) = "0.1".toList ∧ pyRepr (1 / 3) = "0.3333333333333333".toList ∧
    pyRepr (-27 / 1000000) = "-2.7e-05".toList ∧ pyRepr (10 ^ 16) = "1e+16".toList ∧
    pyRepr (1 / 2 ^ 44) = "5.684341886080802e-14".toList ∧ pyRepr (5 / 10 ^ 324) = "5e-324".toList := by
  decide +kernel

example : IsFloat (119 / 10) = False := by
  rw [eq_iff_iff, iff_false]
  unfold IsFloat
  decide +kernel

example : IsFloat (5 / 2) ∧ IsFloat (rnd754 (119 / 10)) :=
  ⟨by unfold IsFloat; decide +kernel, isFloat_round _⟩

theorem forall2_map_left {α β} {R : β → α → Prop} {f : α → β} {l : List α} (h : ∀ a ∈ l, R (f a) a) :
    List.Forall₂ R (l.map f) l := by
  induction l with
  | nil => exact .nil
  | cons a l ih =>
      exact .cons (h a (by simp)) (ih fun b hb => h b (by simp [hb]))

/-- In what is written for a reaction the efficiencies of species in the model, the falloff
parameters and the temperature ranges read back as the floats they are, and pressures as the float
next to the pressure in atmospheres. -/
theorem C118_reaction_partial (names : List Text) {r : Rxn ℚ} {n : Int}
    (hn : (r.reactants.map Prod.snd).sum = (n : ℚ)) (hw : Writable r) (hf : FloatData r)
    (heq : '\n' ∉ r.eqn) (hth : ∀ tb, r.third = some tb → ∀ kv ∈ tb.effs, Word kv.1) :
    ∃ t main eff aux, rxnText pyRepr names r = .ok t ∧
      lines t = main :: (eff ++ aux ++ (if r.dup then ["DUPLICATE".toList] else []) ++ [[]]) ∧
      EffsBack names r eff ∧ AuxBack r aux := by
  obtain ⟨t, main, eff, aux, h1, h2, -, h4, h5⟩ := C59_reaction_partial pyRepr_word names hn hw heq hth
  refine ⟨t, main, eff, aux, h1, h2, ?_, ?_⟩
  · unfold EffLines at h4
    unfold EffsBack
    cases htb : r.third with
    | none => rw [htb] at h4; exact h4
    | some tb =>
        rw [htb] at h4
        refine ⟨h4.1, fun hk => ?_⟩
        obtain ⟨l, hl, hwl⟩ := h4.2 hk
        refine ⟨l, hl, ?_⟩
        rw [hwl]
        exact forall2_map_left fun kv hkv => ⟨_, rfl, C118_reads (hf.1 tb htb kv (List.mem_filter.1 hkv).1)⟩
  · have hf2 := hf.2
    unfold AuxLines at h5
    unfold AuxBack
    rcases hr : r.rate with ⟨kind, k⟩ | ⟨sub, chem, lo, hi, cs⟩ | ⟨rates⟩ | ⟨t, p, nP, data⟩ <;>
      rw [hr] at h5 hf2 <;> dsimp only at h5 hf2 ⊢
    · exact h5
    · intro hcs
      obtain ⟨l, ps, rfl, -, -, h6⟩ := h5
      obtain ⟨l', rfl, h7⟩ := h6 hcs
      rcases h7 with ⟨s1, w1, -⟩ | ⟨s1, w1, -⟩
      · exact ⟨l, l', _, _, rfl, w1, .inl ⟨s1, rfl, forall2_map_left fun c hc =>
          C118_reads (hf2 c (List.mem_of_mem_take hc))⟩⟩
      · exact ⟨l, l', _, _, rfl, w1, .inr ⟨s1, rfl, forall2_map_left fun c hc =>
          C118_reads (hf2 c (List.mem_of_mem_take hc))⟩⟩
    · refine h5.imp ?_
      rintro l pk ⟨ws, h6, -⟩
      exact ⟨_, ws, h6, pyRepr_back _⟩
    · obtain ⟨l1, l2, l3, rows, rfl, h6, h7, -⟩ := h5
      exact ⟨l1, l2, _, _, _, _, _, rfl, h6, C118_reads hf2.1, C118_reads hf2.2, h7, pyRepr_back _,
        pyRepr_back _⟩

/-- the falloff reaction with floats -/
def ckFloats : Rxn ℚ := { ckFalloff with third := some ⟨1, [("H2O".toList, rnd754 (119 / 10)), ("H2".toList, 5 / 2)]⟩ }

example : FloatData ckFloats ∧ Writable ckFloats := by
  refine ⟨⟨?_, ?_⟩, Or.inr (Or.inl ⟨rfl, by simp⟩)⟩
  · intro tb h kv hkv
    obtain rfl := Option.some.inj h
    rcases List.mem_cons.1 hkv with rfl | hkv
    · exact isFloat_round _
    · rw [List.mem_singleton.1 hkv]
      show rnd754 (5 / 2) = 5 / 2
      decide +kernel
  · have : ∀ c ∈ [(1 : ℚ) / 2, 30, 90000, 90000], rnd754 c = c := by decide +kernel
    exact this

example : ∃ t, rxnText pyRepr ["H2".toList, "H2O".toList] ckFloats = .ok t ∧ lines t =
    ["H + O2 (+M) <=> HO2 (+M)                           5.1166e+06  0.440  0.000e+00".toList,
     "H2O/11.9/  H2/2.5/".toList, "LOW / 6.3280e+09  -1.400  0.000e+00 /".toList,
     "TROE / 0.5  30.0  90000.0  90000.0 /".toList, "DUPLICATE".toList, []] :=
  ⟨_, rfl, by decide +kernel⟩

/-- the pressure after `15000` -/
def nextPressure : ℚ := 15000 + 1 / 2 ^ 39

/-- a P-log reaction at one pressure -/
def ckPlog (p : ℚ) : Rxn ℚ where
  eqn := "A <=> B".toList
  reactants := [("A".toList, 1)]
  products := [("B".toList, 1)]
  reversible := true
  orders := []
  dup := false
  rate := .plog [(p, ⟨1, 0, 0⟩)]
  third := none

/-- The pressures of a P-log reaction are not determined by what is written: neighbouring floats
give the same text, so that no reader recovers both; and the pressure read is off by a bit. -/
theorem C118_pressure_refuted (names : List Text) :
    IsFloat 15000 ∧ IsFloat nextPressure ∧ (15000 : ℚ) ≠ nextPressure ∧
    rxnText pyRepr names (ckPlog 15000) = rxnText pyRepr names (ckPlog nextPressure) ∧
    (∃ t, rxnText pyRepr names (ckPlog 15000) = .ok t) ∧
    rnd754 (rnd754 (15000 / 101325) * 101325) ≠ 15000 := by
  have h : pyRepr (15000 / 101325) = pyRepr (nextPressure / 101325) := by decide +kernel
  refine ⟨by unfold IsFloat; decide +kernel, by unfold IsFloat; decide +kernel, by decide +kernel, ?_, ?_,
    by decide +kernel⟩
  · unfold rxnText auxLines ckPlog
    simp only [plogLines, plogLine, oneAtm]
    rw [h]
    rfl
  · have hw : Writable (ckPlog 15000) := ⟨rfl, by simp⟩
    obtain ⟨t, -, -, -, h, -⟩ := C59_reaction_partial pyRepr_word names (n := 1) (r := ckPlog 15000)
      (by decide +kernel) hw (by decide) (by intro tb h; cases h)
    exact ⟨t, h⟩

/-- A reader that converts the pressure to pascals finds it to within two roundings. -/
theorem C118_pressure_partial {p : ℚ} (hp : 1 / 2 ^ 1000 ≤ p) : ∃ a, ReadsBack (pyRepr (p / 101325)) a ∧
    |rnd754 (a * 101325) - p| ≤ p / 2 ^ 51 := by
  refine ⟨_, pyRepr_back _, ?_⟩
  have h0 : (0 : ℚ) < 1 / 2 ^ 1000 := by positivity
  have hp0 : 0 < p := h0.trans_le hp
  have hg : (1 : ℚ) / 2 ^ 1022 * 2 ^ 22 = 1 / 2 ^ 1000 := by
    rw [show (1022 : ℕ) = 1000 + 22 from rfl, pow_add]; field_simp
  have hg0 : (0 : ℚ) < 1 / 2 ^ 1022 := by positivity
  have lt1 : (1 : ℚ) / 2 ^ 1022 ≤ p / 101325 := by
    rw [le_div_iff₀ (by norm_num)]
    rw [← hg] at hp
    generalize (1 : ℚ) / 2 ^ 1022 = g at *
    linarith
  have e1 : rnd754 (p / 101325) = rnd64 (p / 101325) :=
    rndGradual_large (by rwa [abs_of_pos (by positivity)])
  have c1 := abs_le.1 (rnd64_close (q := p / 101325) (by positivity))
  rw [e1]
  generalize rnd64 (p / 101325) = a at c1
  have a1 : p / 101325 / 2 ≤ a := by linarith [c1.1]
  have ha0 : 0 < a := lt_of_lt_of_le (by positivity) a1
  have e2 : rnd754 (a * 101325) = rnd64 (a * 101325) := by
    refine rndGradual_large ?_
    rw [abs_of_pos (by positivity)]
    have : p / 2 ≤ a * 101325 := by linarith
    rw [← hg] at hp
    generalize (1 : ℚ) / 2 ^ 1022 = g at *
    linarith
  rw [e2]
  have c2 := abs_le.1 (rnd64_close (q := a * 101325) (by positivity))
  rw [abs_le]
  constructor <;> linarith [c1.1, c1.2, c2.1, c2.2]

example : (1 : ℚ) / 2 ^ 1000 ≤ 15000 := by
  have : (1 : ℚ) / 2 ^ 1000 ≤ 1 := by
    rw [div_le_one (by positivity)]
    exact one_le_pow₀ (by norm_num)
  linarith

end Verif
