import Verif.Props.CkThermo
import Verif.Spec.Thermo

/-!
# C104: thermodynamic values after conversion to Chemkin
-/

namespace Verif

open Verif.Spec

theorem readFields_all : ∀ {ts : List Text} {cs : List ℚ} {tol : ℚ → ℚ},
    List.Forall₂ (fun t c => FieldReads t c (tol c)) ts cs →
    ∃ vs, readFields ts = some vs ∧ List.Forall₂ (fun c v => |v - c| ≤ tol c) cs vs := by
  intro ts cs tol h
  induction h with
  | nil => exact ⟨[], rfl, .nil⟩
  | cons h _ ih =>
      obtain ⟨v, h1, h2⟩ := h
      obtain ⟨vs, h3, h4⟩ := ih
      exact ⟨v :: vs, by rw [readFields, h1, h3]; rfl, .cons h2 h4⟩

theorem nasaSum_near {basis : List ℝ} {e : ℝ} : ∀ {c c' : List ℚ}, (he : 0 ≤ e) →
    List.Forall₂ (fun (a a' : ℚ) => |(a' : ℝ) - (a : ℝ)| ≤ |(a : ℝ)| * e) c c' →
    |nasaSum basis c' - nasaSum basis c| ≤ nasaSize basis c * e := by
  induction basis with
  | nil => intro c c' _ _; simp [nasaSum, nasaSize]
  | cons f basis ih =>
      intro c c' he h
      cases h with
      | nil => simp [nasaSum, nasaSize]
      | @cons a a' c c' h1 h2 =>
          have := ih he h2
          simp only [nasaSum, nasaSize, List.zipWith_cons_cons, List.sum_cons] at this ⊢
          have e1 : f * (a' : ℝ) + (List.zipWith (fun (f : ℝ) (a : ℚ) => f * (a : ℝ)) basis c').sum -
              (f * (a : ℝ) + (List.zipWith (fun (f : ℝ) (a : ℚ) => f * (a : ℝ)) basis c).sum) =
              f * ((a' : ℝ) - a) + ((List.zipWith (fun (f : ℝ) (a : ℚ) => f * (a : ℝ)) basis c').sum -
                (List.zipWith (fun (f : ℝ) (a : ℚ) => f * (a : ℝ)) basis c).sum) := by ring
          rw [e1]
          refine (abs_add_le _ _).trans ?_
          rw [add_mul]
          refine add_le_add ?_ this
          rw [abs_mul, abs_mul, mul_assoc]
          exact mul_le_mul_of_nonneg_left h1 (abs_nonneg f)

/-- The entry of a species with fourteen NASA coefficients can be read back, and the heat capacity,
enthalpy and entropy computed from what is read differ from the original ones by at most
`5·10⁻⁹` of the sum of the sizes of their terms, at every temperature that is on the same side of the
middle temperature as written. -/
theorem C104_values_partial (s : Spec1 ℚ) (hname : s.name.length ≤ 18) (hnl : '\n' ∉ s.name)
    (hel : s.comp.length ≤ 4)
    (hcomp : ∀ kv ∈ s.comp, kv.1.length ≤ 2 ∧ '\n' ∉ kv.1 ∧ -100 < truncQ kv.2 ∧ truncQ kv.2 < 1000)
    (htmin : 0 ≤ s.tmin ∧ s.tmin < 10 ^ 5) (htmax : 0 ≤ s.tmax ∧ s.tmax < 10 ^ 5)
    {tmid : ℚ} {cs : List ℚ} (hcs : s.coeffs = tmid :: cs) (hlen : cs.length = 14)
    (htmid : 0 ≤ tmid ∧ tmid < 10 ^ 4) (hfit : ∀ c ∈ cs, ExpRange c) :
    ∃ t tmid' cs', thermoEntry s = .ok t ∧ readThermo t = some (tmid', cs') ∧ cs'.length = 14 ∧
      ∀ T : ℝ, ((∃ k : Int, tmid = k / 100) ∨ 1 / 200 < |T - tmid|) →
        ∀ basis : List ℝ, |nasaSum basis (nasaRange tmid' cs' T) - nasaSum basis (nasaRange tmid cs T)| ≤
          nasaSize basis (nasaRange tmid cs T) * (1 / 200000000) := by
  obtain ⟨t, l1, l2, l3, l4, h1, h2, -, -, -, -, -, -, -, -, -, -, -, -, -, hmid, hexact, hco⟩ :=
    C56_layout s hname hnl hel hcomp htmin htmax hcs hlen htmid hfit
  have hf : List.Forall₂ (fun t c => FieldReads t c ((fun c => |c| / 200000000) c))
      ((List.range 14).map (thermoField l2 l3 l4)) cs := by
    rw [List.forall₂_iff_get]
    refine ⟨by simp [hlen], fun i hi1 hi2 => ?_⟩
    simp only [List.get_eq_getElem, List.getElem_map, List.getElem_range]
    obtain ⟨g1, g2, g3⟩ := hco i hi2
    unfold thermoField
    by_cases c1 : i < 5
    · rw [if_pos c1]; exact g1 c1
    · rw [if_neg c1]
      by_cases c2 : i < 10
      · rw [if_pos c2]; exact g2 (by omega) c2
      · rw [if_neg c2]; exact g3 (by omega)
  obtain ⟨vs, hv1, hv2⟩ := readFields_all hf
  obtain ⟨tm, hm1, hm2⟩ := hmid
  refine ⟨t, tm, vs, h1, ?_, ?_, fun T hT basis => ?_⟩
  · unfold readThermo
    rw [h2]
    simp only [hm1, hv1]
    rfl
  · rw [← hv2.length_eq, hlen]
  · have hside : T ≤ tm ↔ T ≤ tmid := by
      rcases hT with ⟨k, hk⟩ | hT
      · have := hexact k hk
        rw [hm1, Option.some.injEq] at this
        rw [this]
      · have hd : |(tm : ℝ) - (tmid : ℝ)| ≤ 1 / 200 := by
          have : |((tm - tmid : ℚ) : ℝ)| ≤ ((1 / 200 : ℚ) : ℝ) := by exact_mod_cast hm2
          push_cast at this
          exact this
        rw [abs_le] at hd
        rcases lt_abs.1 hT with h | h
        · exact ⟨fun _ => by linarith [hd.1, hd.2], fun _ => by linarith [hd.1, hd.2]⟩
        · exact ⟨fun _ => by linarith [hd.1, hd.2], fun _ => by linarith [hd.1, hd.2]⟩
    have hall : List.Forall₂ (fun (a a' : ℚ) => |(a' : ℝ) - (a : ℝ)| ≤ |(a : ℝ)| * (1 / 200000000)) cs vs := by
      refine hv2.imp fun a a' h => ?_
      have : |((a' - a : ℚ) : ℝ)| ≤ ((|a| / 200000000 : ℚ) : ℝ) := by exact_mod_cast h
      push_cast at this
      rw [mul_one_div]
      exact this
    refine nasaSum_near (by norm_num) ?_
    unfold nasaRange
    by_cases c : T ≤ tmid
    · rw [if_pos c, if_pos (hside.2 c)]; exact List.forall₂_drop 7 hall
    · rw [if_neg c, if_neg (fun h => c (hside.1 h))]; exact List.forall₂_take 7 hall

theorem close_of_near {v v' size : ℝ} (h : |v' - v| ≤ size * (1 / 200000000)) (hs : size ≤ 1000 * |v|) :
    |v - v'| ≤ 1 / 10 ^ 5 * |v'| ∧ |v' - v| ≤ 1 / 10 ^ 5 * |v| := by
  have h0 := abs_nonneg v
  have h1 : |v' - v| ≤ |v| / 200000 := by linarith
  have h2 : |v| ≤ |v'| + |v' - v| := by
    have := abs_sub_abs_le_abs_sub v v'
    rw [abs_sub_comm] at this
    linarith
  rw [abs_sub_comm v v']
  constructor <;> linarith

/-- Heat capacity, enthalpy and entropy at the temperatures `compare_models` looks at are then close
in its sense (relative tolerance `10⁻⁵`), in either order, unless the terms cancel to less than a
thousandth of their sizes. -/
theorem C104_compare_partial (s : Spec1 ℚ) (hname : s.name.length ≤ 18) (hnl : '\n' ∉ s.name)
    (hel : s.comp.length ≤ 4)
    (hcomp : ∀ kv ∈ s.comp, kv.1.length ≤ 2 ∧ '\n' ∉ kv.1 ∧ -100 < truncQ kv.2 ∧ truncQ kv.2 < 1000)
    (htmin : 0 ≤ s.tmin ∧ s.tmin < 10 ^ 5) (htmax : 0 ≤ s.tmax ∧ s.tmax < 10 ^ 5)
    {tmid : ℚ} {cs : List ℚ} (hcs : s.coeffs = tmid :: cs) (hlen : cs.length = 14)
    (htmid : 0 ≤ tmid ∧ tmid < 10 ^ 4) (hfit : ∀ c ∈ cs, ExpRange c) (hk : ∃ k : Int, tmid = k / 100)
    (hbig : ∀ T ∈ [500, 1000, 2000], ∀ b ∈ [cpBasis T, hBasis T, sBasis T],
      nasaSize b (nasaRange tmid cs T) ≤ 1000 * |nasaSum b (nasaRange tmid cs T)|) :
    ∃ t tmid' cs', thermoEntry s = .ok t ∧ readThermo t = some (tmid', cs') ∧
      ∀ T ∈ [500, 1000, 2000], ∀ b ∈ [cpBasis T, hBasis T, sBasis T],
        let v := nasaSum b (nasaRange tmid cs T)
        let v' := nasaSum b (nasaRange tmid' cs' T)
        |v - v'| ≤ 1 / 10 ^ 5 * |v'| ∧ |v' - v| ≤ 1 / 10 ^ 5 * |v| := by
  obtain ⟨t, tm, vs, h1, h2, -, h3⟩ :=
    C104_values_partial s hname hnl hel hcomp htmin htmax hcs hlen htmid hfit
  exact ⟨t, tm, vs, h1, h2, fun T hT b hb => close_of_near (h3 T (Or.inl hk) b) (hbig T hT b hb)⟩

/-- The values do not survive for every species that is converted without complaint.  Only the first
fifteen numbers of the parametrization are written: changing any later one (there are more in the
nine-coefficient form, or with more than two temperature ranges) leaves the entry as it is.  With
fewer numbers (a constant heat capacity has four) the last line is shorter than 80 columns; with more
than four elements the first line is longer, which moves the temperatures out of their columns. -/
theorem C104_other_refuted (s : Spec1 ℚ) {tmid : ℚ} {cs : List ℚ} (hcs : s.coeffs = tmid :: cs) :
    (∀ more more', cs.length = 14 → thermoEntry { s with coeffs := s.coeffs ++ more } =
      thermoEntry { s with coeffs := s.coeffs ++ more' } ∧
      ∃ t, thermoEntry { s with coeffs := s.coeffs ++ more } = .ok t) ∧
    (OneLine s → (∀ c ∈ cs, ExpRange c) → cs.length < 14 →
      ∃ t l1 l2 l3 l4, thermoEntry s = .ok t ∧ lines t = [l1, l2, l3, l4, []] ∧ l4.length < 80) ∧
    (OneLine s → 4 < s.comp.length →
      ∃ t l1 l2 l3 l4, thermoEntry s = .ok t ∧ lines t = [l1, l2, l3, l4, []] ∧ 80 < l1.length) := by
  have hlines : OneLine s → lines (unlinesText [thermoLine1 s tmid,
      ((cs.take 5).map coeffText).flatten ++ "    2".toList,
      (((cs.drop 5).take 5).map coeffText).flatten ++ "    3".toList,
      (((cs.drop 10).take 4).map coeffText).flatten ++ (List.replicate 19 ' ' ++ "4".toList)]) =
      [thermoLine1 s tmid, ((cs.take 5).map coeffText).flatten ++ "    2".toList,
      (((cs.drop 5).take 5).map coeffText).flatten ++ "    3".toList,
      (((cs.drop 10).take 4).map coeffText).flatten ++ (List.replicate 19 ' ' ++ "4".toList), []] := by
    intro h1
    rw [← List.append_nil (unlinesText _), lines_unlines _ [] (by
      intro l hl
      simp only [List.mem_cons, List.not_mem_nil, or_false] at hl
      rcases hl with rfl | rfl | rfl | rfl
      · exact thermoLine1_nonl tmid h1.1 h1.2
      · exact append_nonl (coeffs_nonl _) (by decide)
      · exact append_nonl (coeffs_nonl _) (by decide)
      · exact append_nonl (coeffs_nonl _) (append_nonl (replicate_nonl 19) (by decide)))]
    rfl
  refine ⟨fun more more' hl => ?_, fun h1 hfit hl => ?_, fun h1 hc => ?_⟩
  · have key : ∀ m, thermoEntry { s with coeffs := s.coeffs ++ m } = .ok (unlinesText [thermoLine1 s tmid,
        ((cs.take 5).map coeffText).flatten ++ "    2".toList,
        (((cs.drop 5).take 5).map coeffText).flatten ++ "    3".toList,
        (((cs.drop 10).take 4).map coeffText).flatten ++ (List.replicate 19 ' ' ++ "4".toList)]) := by
      intro m
      have e : (s.coeffs ++ m) = tmid :: (cs ++ m) := by rw [hcs]; rfl
      rw [thermoEntry_lines (s := { s with coeffs := s.coeffs ++ m }) e]
      rw [List.take_append_of_le_length (by omega), List.drop_append_of_le_length (by omega),
        List.take_append_of_le_length (by rw [List.length_drop]; omega),
        List.drop_append_of_le_length (by omega),
        List.take_append_of_le_length (by rw [List.length_drop]; omega)]
      rfl
    exact ⟨by rw [key, key], _, key more⟩
  · refine ⟨_, _, _, _, _, thermoEntry_lines hcs, hlines h1, ?_⟩
    have hm4 : ∀ c ∈ (cs.drop 10).take 4, c ∈ cs := fun c hc =>
      List.mem_of_mem_drop (List.mem_of_mem_take hc)
    rw [(coeffLine hfit hm4 (List.replicate 19 ' ' ++ "4".toList)).2.1]
    have : ((cs.drop 10).take 4).length ≤ 3 := by
      rw [List.length_take, List.length_drop]; omega
    have : (List.replicate 19 ' ' ++ "4".toList).length = 20 := rfl
    omega
  · refine ⟨_, _, _, _, _, thermoEntry_lines hcs, hlines h1, ?_⟩
    have hfix : ∀ q : ℚ, ∀ w, w ≤ (padLeft w (fmtFix 3 q)).length := by
      intro q w; rw [padLeft, List.length_append, List.length_replicate]; omega
    have h5 : ∀ kv : Text × ℚ, 5 ≤ (compText kv).length := by
      intro kv
      rw [compText, padRight, padLeft]
      simp only [List.length_append, List.length_replicate]
      omega
    have hsum : ∀ l : List (Text × ℚ), 5 * l.length ≤ (l.map compText).flatten.length := by
      intro l
      induction l with
      | nil => simp
      | cons a l ih =>
          rw [List.map_cons, List.flatten_cons, List.length_append, List.length_cons]
          have := h5 a
          omega
    have hc2 := hsum s.comp
    unfold thermoLine1 padRight padLeft
    simp only [List.length_append, List.length_replicate, List.length_cons, List.length_nil]
    have : "G".toList.length = 1 := rfl
    omega

example : ∃ t cs', thermoEntry ckSpecies = .ok t ∧ readThermo t = some (1000, cs') ∧ cs' = ckSpecies.coeffs.drop 1 :=
  ⟨_, _, rfl, by decide +kernel, rfl⟩

example : OneLine { ckSpecies with comp := [("C".toList, 2), ("H".toList, 3), ("O".toList, 2), ("N".toList, 1),
    ("CL".toList, 1)] } ∧ (∃ k : Int, (1000 : ℚ) = k / 100) :=
  ⟨⟨by decide, by decide⟩, 100000, by norm_num⟩

example : ∀ T ∈ [500, 1000, 2000], ∀ b ∈ [cpBasis T, hBasis T, sBasis T],
    nasaSize b (nasaRange 1000 [7 / 2, 0, 0, 0, 0, -1000, 4, 7 / 2, 0, 0, 0, 0, -1000, 4] T) ≤
      1000 * |nasaSum b (nasaRange 1000 [7 / 2, 0, 0, 0, 0, -1000, 4, 7 / 2, 0, 0, 0, 0, -1000, 4] T)| := by
  intro T hT b hb
  have hseven : nasaRange 1000 [7 / 2, 0, 0, 0, 0, -1000, 4, 7 / 2, 0, 0, 0, 0, -1000, 4] T =
      [7 / 2, 0, 0, 0, 0, -1000, 4] := by
    unfold nasaRange
    split <;> rfl
  rw [hseven]
  have h1 : 1 < T := by
    simp only [List.mem_cons, List.not_mem_nil, or_false] at hT
    rcases hT with rfl | rfl | rfl <;> norm_num
  have hlog := Real.log_pos h1
  simp only [List.mem_cons, List.not_mem_nil, or_false] at hb
  rcases hb with rfl | rfl | rfl
  · norm_num [nasaSize, nasaSum, cpBasis]
  · simp only [List.mem_cons, List.not_mem_nil, or_false] at hT
    rcases hT with rfl | rfl | rfl <;> norm_num [nasaSize, nasaSum, hBasis, abs_of_pos, abs_of_neg]
  · simp only [nasaSize, nasaSum, sBasis, List.zipWith_cons_cons, List.zipWith_nil_left, List.sum_cons,
      List.sum_nil]
    have e1 : (0 : ℝ) ≤ Real.log T * ((7 / 2 : ℚ) : ℝ) := by push_cast; positivity
    simp only [Rat.cast_zero, mul_zero, zero_mul, abs_zero, zero_add, add_zero, one_mul]
    rw [abs_of_nonneg e1, abs_of_nonneg (by positivity), abs_of_nonneg (by push_cast; positivity)]
    have : (0 : ℝ) ≤ Real.log T * ((7 / 2 : ℚ) : ℝ) + ((4 : ℚ) : ℝ) := by push_cast; positivity
    linarith

end Verif
