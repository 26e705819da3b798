import Verif.Lemmas.Ck
import Verif.Model.Tools
/-!
# Properties of Chemkin output (C54-C59, C79-C81)
-/
namespace Verif
open Spec

/-! ## C55: pre-exponential factors -/

/-- The text `build_arrhenius` returns has three words that read as the rate in the units mol, cm,
s, cal: the factor is multiplied by `1000^(n-1)` for elementary and P-log rates and by `1000^n`
for three-body rates. -/
theorem C55_arrhenius (k : ArrRate ℚ) (n : Int) (rtype : Text) :
    (rtype ∈ ["Arrhenius".toList, "pressure-dependent-Arrhenius".toList] →
      ∃ t, buildArrhenius k n rtype = .ok t ∧
        RateWords (words t) (k.A * 1000 ^ (n - 1)) k.b (k.E / 4184) (1 / 200)) ∧
    (rtype = "three-body-Arrhenius".toList →
      ∃ t, buildArrhenius k n rtype = .ok t ∧
        RateWords (words t) (k.A * 1000 ^ n) k.b (k.E / 4184) (1 / 200)) := by
  constructor
  · intro h
    simp only [List.mem_cons, List.not_mem_nil, or_false] at h
    exact ⟨_, arrhenius_plain k n h, rate_fix _ _ _⟩
  · rintro rfl
    exact ⟨_, arrhenius_three k n, rate_fix _ _ _⟩

/-- The text `build_falloff_arrhenius` returns: `1000^n` (low) and `1000^(n-1)` (high) for falloff
rates, `1000^(n-1)` (low) and `1000^(n-2)` (high) for chemically activated ones. -/
theorem C55_falloff (k : ArrRate ℚ) (n : Int) (sub : Text) :
    (∃ t, buildFalloffArrhenius k n ("falloff-".toList ++ sub) "low".toList = .ok t ∧
      RateWords (words t) (k.A * 1000 ^ n) k.b (k.E / 4184) (|k.E / 4184| / 2000)) ∧
    (∃ t, buildFalloffArrhenius k n ("falloff-".toList ++ sub) "high".toList = .ok t ∧
      RateWords (words t) (k.A * 1000 ^ (n - 1)) k.b (k.E / 4184) (|k.E / 4184| / 2000)) ∧
    (∃ t, buildFalloffArrhenius k n ("chemically-activated".toList ++ sub) "low".toList = .ok t ∧
      RateWords (words t) (k.A * 1000 ^ (n - 1)) k.b (k.E / 4184) (|k.E / 4184| / 2000)) ∧
    (∃ t, buildFalloffArrhenius k n ("chemically-activated".toList ++ sub) "high".toList = .ok t ∧
      RateWords (words t) (k.A * 1000 ^ (n - 2)) k.b (k.E / 4184) (|k.E / 4184| / 2000)) := by
  exact ⟨⟨_, falloff_rate k n sub true, rate_exp _ _ _⟩, ⟨_, falloff_rate k n sub false, rate_exp _ _ _⟩,
    ⟨_, chem_rate k n sub true, rate_exp _ _ _⟩, ⟨_, chem_rate k n sub false, rate_exp _ _ _⟩⟩

/-- Other types raise: `ValueError` for falloff types given to `build_arrhenius`,
`NotImplementedError` for unknown types, `ValueError` for other types given to
`build_falloff_arrhenius`, `AssertionError` for another pressure limit. -/
theorem C55_rejects (k : ArrRate ℚ) (n : Int) (rtype limit : Text) :
    (("falloff-".toList <+: rtype ∨ "chemically-activated".toList <+: rtype) →
      buildArrhenius k n rtype = .error .valueError) ∧
    (rtype ∉ ["Arrhenius".toList, "pressure-dependent-Arrhenius".toList,
        "three-body-Arrhenius".toList] →
      ¬ "falloff-".toList <+: rtype → ¬ "chemically-activated".toList <+: rtype →
      buildArrhenius k n rtype = .error .notImplemented) ∧
    (limit ∉ ["low".toList, "high".toList] →
      buildFalloffArrhenius k n rtype limit = .error .assertionError) ∧
    (limit ∈ ["low".toList, "high".toList] →
      ¬ "falloff-".toList <+: rtype → ¬ "chemically-activated".toList <+: rtype →
      buildFalloffArrhenius k n rtype limit = .error .valueError) := by
  refine ⟨fun h => ?_, fun h1 h2 h3 => ?_, fun h => ?_, fun h1 h2 h3 => ?_⟩
  · have hne : ∀ x ∈ ["Arrhenius".toList, "pressure-dependent-Arrhenius".toList,
        "three-body-Arrhenius".toList], rtype ≠ x := by
      intro x hx he
      rw [he] at h
      simp only [List.mem_cons, List.not_mem_nil, or_false] at hx
      rcases hx with rfl | rfl | rfl <;> revert h <;> decide
    unfold buildArrhenius
    simp only
    rw [if_neg (by
        rintro (h' | h')
        · exact hne _ (by simp) h'
        · exact hne _ (by simp) h'), if_neg (hne _ (by simp)), if_pos]
    rw [List.isPrefixOf_iff_prefix, List.isPrefixOf_iff_prefix]
    exact h
  · simp only [List.mem_cons, List.not_mem_nil, or_false, not_or] at h1
    unfold buildArrhenius
    simp only
    rw [if_neg (by rintro (h' | h'); exacts [h1.1 h', h1.2.1 h']), if_neg h1.2.2, if_neg]
    rw [List.isPrefixOf_iff_prefix, List.isPrefixOf_iff_prefix]
    rintro (h' | h')
    exacts [h2 h', h3 h']
  · simp only [List.mem_cons, List.not_mem_nil, or_false] at h
    unfold buildFalloffArrhenius
    simp only
    rw [if_pos h]
  · simp only [List.mem_cons, List.not_mem_nil, or_false] at h1
    unfold buildFalloffArrhenius
    simp only
    rw [if_neg (not_not.2 h1), if_neg (by rwa [List.isPrefixOf_iff_prefix]),
      if_neg (by rwa [List.isPrefixOf_iff_prefix])]

/-- Dividing the factor read back by the power of 1000 gives the original one to five digits. -/
theorem C55_recover_partial {wa : Text} {A : ℚ} {m : Int}
    (h : Reads wa (A * 1000 ^ m) (|A * 1000 ^ m| / 20000)) :
    ∃ v, readNum wa = some v ∧ |v / 1000 ^ m - A| ≤ |A| / 20000 := by
  obtain ⟨v, h1, h2⟩ := h
  refine ⟨v, h1, ?_⟩
  have hp : (0 : ℚ) < 1000 ^ m := by positivity
  have e : v / 1000 ^ m - A = (v - A * 1000 ^ m) / 1000 ^ m := by
    field_simp
  rw [e, abs_div, abs_of_pos hp, div_le_iff₀ hp]
  rw [abs_mul, abs_of_pos hp] at h2
  calc |v - A * 1000 ^ m| ≤ |A| * 1000 ^ m / 20000 := h2
    _ = |A| / 20000 * 1000 ^ m := by ring

/-- The rate is not recovered exactly: for every order there are two different rates with the same
text. -/
theorem C55_exact_refuted (n : Int) : ∃ k k' : ArrRate ℚ, k.A ≠ k'.A ∧
    buildArrhenius k n "Arrhenius".toList = buildArrhenius k' n "Arrhenius".toList ∧
    ∃ t, buildArrhenius k n "Arrhenius".toList = .ok t := by
  have hp : (1000 : ℚ) ^ (n - 1) ≠ 0 := by positivity
  refine ⟨⟨1 / 1000 ^ (n - 1), 0, 0⟩, ⟨1000001 / 1000000 / 1000 ^ (n - 1), 0, 0⟩, ?_, ?_, ?_⟩
  · simp only
    intro h
    rw [div_left_inj' hp] at h
    norm_num at h
  · rw [arrhenius_plain _ n (Or.inl rfl), arrhenius_plain _ n (Or.inl rfl)]
    simp only [div_mul_cancel₀ _ hp]
    decide +kernel
  · exact ⟨_, arrhenius_plain _ n (Or.inl rfl)⟩

example : ∃ t, buildArrhenius ⟨3870 / 1, 27 / 10, 26191840⟩ 2 "Arrhenius".toList = .ok t ∧
    t = "3.8700e+06  2.700  6260.00".toList := ⟨_, rfl, by decide +kernel⟩

/-! ## C56: thermo entries -/

/-- The columns of the entry of one species: four lines of 80 characters ending in 1 to 4, the
name and the elements, the temperatures and the fourteen coefficients in their columns. -/
theorem C56_layout (s : Spec1 ℚ) (hname : s.name.length ≤ 18) (hnl : '\n' ∉ s.name)
    (hel : s.comp.length ≤ 4)
    (hcomp : ∀ kv ∈ s.comp, kv.1.length ≤ 2 ∧ '\n' ∉ kv.1 ∧ -100 < truncQ kv.2 ∧ truncQ kv.2 < 1000)
    (htmin : 0 ≤ s.tmin ∧ s.tmin < 10 ^ 5) (htmax : 0 ≤ s.tmax ∧ s.tmax < 10 ^ 5)
    {tmid : ℚ} {cs : List ℚ} (hcs : s.coeffs = tmid :: cs) (hlen : cs.length = 14)
    (htmid : 0 ≤ tmid ∧ tmid < 10 ^ 4) (hfit : ∀ c ∈ cs, ExpRange c) :
    ∃ t l1 l2 l3 l4, thermoEntry s = .ok t ∧ lines t = [l1, l2, l3, l4, []] ∧
      l1.length = 80 ∧ l2.length = 80 ∧ l3.length = 80 ∧ l4.length = 80 ∧
      l1.getLast? = some '1' ∧ l2.getLast? = some '2' ∧ l3.getLast? = some '3' ∧
      l4.getLast? = some '4' ∧
      (∃ k, cols l1 0 18 = s.name ++ List.replicate k ' ') ∧
      (∀ i (h : i < s.comp.length), (∃ k, cols l1 (24 + 5 * i) 5 =
          s.comp[i].1 ++ List.replicate k ' ' ++ cols l1 (26 + 5 * i) 3) ∧
        ∀ v : Int, s.comp[i].2 = v → readField (cols l1 (26 + 5 * i) 3) = some (v : ℚ)) ∧
      cols l1 44 1 = "G".toList ∧
      FieldReads (cols l1 45 10) s.tmin (1 / 2000) ∧ FieldReads (cols l1 55 10) s.tmax (1 / 2000) ∧
      FieldReads (cols l1 65 8) tmid (1 / 200) ∧
      (∀ k : Int, tmid = k / 100 → readField (cols l1 65 8) = some tmid) ∧
      (∀ i (h : i < cs.length),
        (i < 5 → FieldReads (cols l2 (15 * i) 15) cs[i] (|cs[i]| / 200000000)) ∧
        (5 ≤ i → i < 10 → FieldReads (cols l3 (15 * (i - 5)) 15) cs[i] (|cs[i]| / 200000000)) ∧
        (10 ≤ i → FieldReads (cols l4 (15 * (i - 10)) 15) cs[i] (|cs[i]| / 200000000))) := by
  have hm2 : ∀ c ∈ cs.take 5, c ∈ cs := fun c hc => List.mem_of_mem_take hc
  have hm3 : ∀ c ∈ (cs.drop 5).take 5, c ∈ cs := fun c hc =>
    List.mem_of_mem_drop (List.mem_of_mem_take hc)
  have hm4 : ∀ c ∈ (cs.drop 10).take 4, c ∈ cs := fun c hc =>
    List.mem_of_mem_drop (List.mem_of_mem_take hc)
  have c2 := coeffLine hfit hm2 "    2".toList
  have c3 := coeffLine hfit hm3 "    3".toList
  have c4 := coeffLine hfit hm4 (List.replicate 19 ' ' ++ "4".toList)
  have ln : (padRight 18 s.name).length = 18 := padRight_length hname
  have lG : "G".toList.length = 1 := rfl
  have lg : (List.replicate 6 ' ').length = 6 := rfl
  have hc5 : ∀ t ∈ s.comp.map compText, t.length = 5 := by
    intro t ht
    obtain ⟨kv, hkv, rfl⟩ := List.mem_map.1 ht
    have := hcomp kv hkv
    exact compText_length this.1 this.2.2.1 this.2.2.2
  have lct : (s.comp.map compText).flatten.length ≤ 20 := by
    rw [flatten_length _ hc5, List.length_map]; omega
  have lel : (padRight 20 (s.comp.map compText).flatten).length = 20 := padRight_length lct
  have lt1 : (padLeft 10 (fmtFix 3 s.tmin)).length = 10 :=
    padLeft_length (fmtFix_length_nonneg (k := 5) (by norm_num) htmin.1 htmin.2)
  have lt2 : (padLeft 10 (fmtFix 3 s.tmax)).length = 10 :=
    padLeft_length (fmtFix_length_nonneg (k := 5) (by norm_num) htmax.1 htmax.2)
  have lt3 : (padLeft 8 (fmtFix 2 tmid)).length = 8 :=
    padLeft_length (fmtFix_length_nonneg (k := 4) (by norm_num) htmid.1 htmid.2)
  have nl2 : '\n' ∉ ((cs.take 5).map coeffText).flatten ++ "    2".toList :=
    append_nonl (coeffs_nonl _) (by decide)
  have nl3 : '\n' ∉ (((cs.drop 5).take 5).map coeffText).flatten ++ "    3".toList :=
    append_nonl (coeffs_nonl _) (by decide)
  have nl4 : '\n' ∉ (((cs.drop 10).take 4).map coeffText).flatten ++
      (List.replicate 19 ' ' ++ "4".toList) :=
    append_nonl (coeffs_nonl _) (append_nonl (replicate_nonl 19) (by decide))
  have nl1 := thermoLine1_nonl tmid hnl fun kv hkv => (hcomp kv hkv).2.1
  refine ⟨_, thermoLine1 s tmid, ((cs.take 5).map coeffText).flatten ++ "    2".toList,
    (((cs.drop 5).take 5).map coeffText).flatten ++ "    3".toList,
    (((cs.drop 10).take 4).map coeffText).flatten ++ (List.replicate 19 ' ' ++ "4".toList),
    thermoEntry_lines hcs, ?_, ?_, ?_, ?_, ?_, ?_, ?_, ?_, ?_, ?_, ?_, ?_, ?_, ?_,
    ?_, ?_, ?_⟩
  · rw [← List.append_nil (unlinesText _), lines_unlines _ [] (by
      intro l hl
      simp only [List.mem_cons, List.not_mem_nil, or_false] at hl
      rcases hl with rfl | rfl | rfl | rfl
      exacts [nl1, nl2, nl3, nl4])]
    rfl
  · simp only [thermoLine1, List.length_append, ln, lg, lel, lt1, lt2, lt3]
    rfl
  · rw [c2.2.1]; simp [hlen]
  · rw [c3.2.1]; simp [hlen]
  · rw [c4.2.1]; simp [hlen]
  · simp only [thermoLine1, ← List.append_assoc]
    rw [List.getLast?_append]
    rfl
  · simp [List.getLast?_append]
  · simp [List.getLast?_append]
  · simp [List.getLast?_append]
  · exact ⟨_, cols_here ln⟩
  · intro i h
    have hfull : cols (thermoLine1 s tmid) (24 + 5 * i) 5 = compText s.comp[i] := by
      rw [thermoLine1, show 24 + 5 * i = 18 + (6 + 5 * i) by ring, cols_skip ln, cols_skip lg, padRight,
        List.append_assoc, cols_flatten _ _ i (by simpa using h) hc5, List.getElem_map]
    have hk := hcomp s.comp[i] (List.getElem_mem h)
    have hnum : cols (thermoLine1 s tmid) (26 + 5 * i) 3 =
        padLeft 3 (intText (truncQ s.comp[i].2)) := by
      have h5 : cols (cols (thermoLine1 s tmid) (24 + 5 * i) 5) (2 + 0) 3 =
          cols (thermoLine1 s tmid) (26 + 5 * i) 3 := by
        unfold cols
        rw [List.drop_take, List.take_take, List.drop_drop]
        rw [show 24 + 5 * i + (2 + 0) = 26 + 5 * i by ring]
        rfl
      rw [← h5, hfull, compText, cols_skip (padRight_length hk.1)]
      have := cols_here (rest := []) (padLeft_length (intText_length hk.2.2.1 hk.2.2.2))
      rwa [List.append_nil] at this
    refine ⟨⟨2 - s.comp[i].1.length, ?_⟩, fun v hv => ?_⟩
    · rw [hfull, hnum]; rfl
    · rw [hnum, hv, truncQ_int, field_int]
  · rw [thermoLine1, show 44 = 18 + (6 + (20 + 0)) from rfl, cols_skip ln, cols_skip lg, cols_skip lel]
    exact cols_here rfl
  · rw [thermoLine1, show 45 = 18 + (6 + (20 + (1 + 0))) from rfl, cols_skip ln, cols_skip lg,
      cols_skip lel, cols_skip lG, cols_here lt1]
    have := field_fix 10 3 s.tmin
    norm_num at this ⊢
    exact this
  · rw [thermoLine1, show 55 = 18 + (6 + (20 + (1 + (10 + 0)))) from rfl, cols_skip ln, cols_skip lg,
      cols_skip lel, cols_skip lG, cols_skip lt1, cols_here lt2]
    have := field_fix 10 3 s.tmax
    norm_num at this ⊢
    exact this
  · rw [thermoLine1, show 65 = 18 + (6 + (20 + (1 + (10 + (10 + 0))))) from rfl, cols_skip ln,
      cols_skip lg, cols_skip lel, cols_skip lG, cols_skip lt1, cols_skip lt2, cols_here lt3]
    have := field_fix 8 2 tmid
    norm_num at this ⊢
    exact this
  · intro k hk
    rw [thermoLine1, show 65 = 18 + (6 + (20 + (1 + (10 + (10 + 0))))) from rfl, cols_skip ln,
      cols_skip lg, cols_skip lel, cols_skip lG, cols_skip lt1, cols_skip lt2, cols_here lt3]
    have := field_fix_exact 8 2 k
    norm_num at this
    rwa [← hk] at this
  · intro i h
    refine ⟨fun h1 => ?_, fun h1 h2 => ?_, fun h1 => ?_⟩
    · exact c2.2.2 i i (by simp; omega) h (by rw [List.getElem?_take, if_pos h1])
    · exact c3.2.2 (i - 5) i (by simp; omega) h (by
        rw [List.getElem?_take, if_pos (by omega), List.getElem?_drop]; congr 1; omega)
    · exact c4.2.2 (i - 10) i (by simp; omega) h (by
        rw [List.getElem?_take, if_pos (by omega), List.getElem?_drop]; congr 1; omega)

/-- a species with two elements and ordinary coefficients -/
def ckSpecies : Spec1 ℚ where
  name := "HO2".toList
  comp := [("H".toList, 1), ("O".toList, 2)]
  tmin := 200
  tmax := 3500
  coeffs := [1000, 401721 / 100000, 2239820 / 10 ^ 9, -63365 / 10 ^ 11, 0, 0, 111856 / 1000, 3785 / 1000,
    43017 / 10000, -4749 / 10 ^ 6, 0, 0, 0, 2948 / 10, 37166 / 10000]
  eval := fun _ => (0, 0, 0)
  transport := some ⟨"nonlinear".toList, 1485 / 10 ^ 24, 3458 / 10 ^ 13, 0, 0, 1, []⟩

example : ∃ t, thermoEntry ckSpecies = .ok t ∧ (lines t).head? =
    some ("HO2                     H   1O   2          G   200.000  3500.000" ++
      " 1000.00      1").toList ∧ (lines t).length = 5 := ⟨_, rfl, by decide +kernel⟩

example : ckSpecies.name.length ≤ 18 ∧ ckSpecies.comp.length ≤ 4 ∧
    (∀ kv ∈ ckSpecies.comp, kv.1.length ≤ 2 ∧ '\n' ∉ kv.1 ∧ -100 < truncQ kv.2 ∧ truncQ kv.2 < 1000) ∧
    (ckSpecies.coeffs.drop 1).length = 14 := by decide +kernel

example : ∀ c ∈ ckSpecies.coeffs.drop 1, ExpRange c := by
  have h : ∀ c ∈ ckSpecies.coeffs.drop 1, c = 0 ∨ (1 / 10 ^ 99 ≤ |c| ∧ |c| < 10 ^ 99) := by
    decide +kernel
  exact h

/-! ## C57: the species block -/

/-- The wrapped list splits into the names, in order, and its lines are at most 60 characters
long unless they are a single name. -/
theorem C57_species (names : List Text) (h : ∀ n ∈ names, Word n) :
    words (speciesBlock names) = names ∧
    ∀ l ∈ lines (speciesBlock names), l.length ≤ 60 ∨ l ∈ names := by
  have hc := chunks_join names h
  have ha := interNames_alt names h
  have hs := wrapLines_spec 60 (interNames names).length false (interNames names) ha le_rfl
  have hb : speciesBlock names = joinText "\n".toList
      ((wrapLines 60 (interNames names).length false (interNames names)).map List.flatten) := by
    unfold speciesBlock fillText
    simp only [hc]
  set ls := wrapLines 60 (interNames names).length false (interNames names)
  constructor
  · rw [hb, words_lines ls fun l hl => (hs.1 l hl).1, hs.2, interNames_words names h]
  · intro l hl
    rw [hb] at hl
    by_cases he : ls = []
    · rw [he] at hl
      simp only [List.map_nil, joinText] at hl
      have : lines [] = [[]] := rfl
      rw [this, List.mem_singleton] at hl
      left; simp [hl]
    · rw [lines_join _ (by simpa using he) (by
        intro x hx
        obtain ⟨y, hy, rfl⟩ := List.mem_map.1 hx
        exact (hs.1 y hy).1.no_nl)] at hl
      obtain ⟨y, hy, rfl⟩ := List.mem_map.1 hl
      rcases (hs.1 y hy).2 with h1 | ⟨c, hc, rfl⟩
      · exact Or.inl h1
      · right
        rw [interNames_words names h] at hc
        simpa using hc

example : words (speciesBlock ["H2".toList, "a-name-that-is-much-longer-than-sixty-characters-altogether-x".toList,
    "O2".toList]) = ["H2".toList, "a-name-that-is-much-longer-than-sixty-characters-altogether-x".toList,
    "O2".toList] ∧ (lines (speciesBlock ["H2".toList,
      "a-name-that-is-much-longer-than-sixty-characters-altogether-x".toList, "O2".toList])).length = 3 := by
  decide +kernel

end Verif
