import Verif.Props.CkFiles

/-!
# The thermo and transport files, and the options of `soln2ck.write`

`Props/Ck` and `Props/CkFiles` describe one entry at a time and the default options; here are the
whole files, what is left when an entry cannot be written, and the files of a conversion for every
combination of the options.
-/

namespace Verif

open Verif.Spec

/-- The names written in a thermo entry do not break its lines. -/
def OneLine (s : Spec1 ℚ) : Prop := '\n' ∉ s.name ∧ ∀ kv ∈ s.comp, '\n' ∉ kv.1

/-- the four lines of a thermo entry, with the name first -/
theorem entry_lines {s : Spec1 ℚ} (h1 : OneLine s) (hc : s.coeffs ≠ []) :
    ∃ ls, thermoEntry s = .ok (unlinesText ls) ∧ ls.length = 4 ∧ (∀ l ∈ ls, '\n' ∉ l) ∧
      ∃ r, ls.head? = some (s.name ++ r) := by
  obtain ⟨tmid, cs, hcs⟩ := List.exists_cons_of_ne_nil hc
  refine ⟨_, thermoEntry_lines hcs, rfl, ?_, ?_⟩
  · intro l hl
    simp only [List.mem_cons, List.not_mem_nil, or_false] at hl
    rcases hl with rfl | rfl | rfl | rfl
    · exact thermoLine1_nonl tmid h1.1 h1.2
    · exact append_nonl (coeffs_nonl _) (by decide)
    · exact append_nonl (coeffs_nonl _) (by decide)
    · exact append_nonl (coeffs_nonl _) (append_nonl (replicate_nonl 19) (by decide))
  · refine ⟨_, by rw [List.head?_cons, thermoLine1, padRight, List.append_assoc]⟩

/-- the lines of the entries of several species -/
theorem entries_lines : ∀ {ss : List (Spec1 ℚ)}, (∀ s ∈ ss, OneLine s ∧ s.coeffs ≠ []) →
    ∃ ts ls, List.Forall₂ (fun s t => thermoEntry s = .ok t) ss ts ∧ ts.flatten = unlinesText ls ∧
      ls.length = 4 * ss.length ∧ (∀ l ∈ ls, '\n' ∉ l) ∧
      ∀ i (h : i < ss.length), (∃ r, ls[4 * i]? = some (ss[i].name ++ r)) ∧
        ∃ t, thermoEntry ss[i] = .ok t ∧ lines t = (ls.drop (4 * i)).take 4 ++ [[]]
  | [], _ => ⟨[], [], .nil, rfl, rfl, by simp, fun i h => absurd h (by simp)⟩
  | s :: ss, h => by
      obtain ⟨l1, e1, e2, e3, r, e4⟩ := entry_lines (h s (by simp)).1 (h s (by simp)).2
      obtain ⟨ts, ls, f1, f2, f3, f4, f5⟩ := entries_lines (ss := ss) fun x hx => h x (by simp [hx])
      refine ⟨unlinesText l1 :: ts, l1 ++ ls, .cons e1 f1, ?_, ?_, ?_, ?_⟩
      · rw [List.flatten_cons, f2, unlines_append]
      · rw [List.length_append, e2, f3, List.length_cons]; ring
      · intro l hl
        rcases List.mem_append.1 hl with hl | hl
        exacts [e3 l hl, f4 l hl]
      · intro i hi
        cases i with
        | zero =>
            refine ⟨⟨r, ?_⟩, _, e1, ?_⟩
            · rw [Nat.mul_zero, List.getElem?_append_left (by omega), ← List.head?_eq_getElem?, e4]
              rfl
            · rw [← List.append_nil (unlinesText l1), lines_unlines _ [] e3, Nat.mul_zero, List.drop_zero,
                ← e2, List.take_left]
              rfl
        | succ j =>
            obtain ⟨g1, t, g2, g3⟩ := f5 j (by simpa using hi)
            have h4 : 4 * (j + 1) = l1.length + 4 * j := by rw [e2]; ring
            refine ⟨?_, t, by simpa using g2, ?_⟩
            · rw [h4, List.getElem?_append_right (by omega), Nat.add_sub_cancel_left]
              simpa using g1
            · rw [h4, List.drop_append, List.drop_of_length_le (l := l1) (by omega),
                Nat.add_sub_cancel_left, List.nil_append]
              exact g3

/-- The thermo file: the keyword, the temperatures, then four lines for each species in the order of
the model, the first beginning with its name, then `END`.  If a species has no coefficients, writing
raises `IndexError`; the file then stops before that species, without `END`. -/
theorem C56_file (ss : List (Spec1 ℚ)) :
    ((∀ s ∈ ss, OneLine s ∧ s.coeffs ≠ []) → ∃ text ls, thermoText ss = (text, none) ∧
      lines text = ["THERMO".toList, "   300.000  1000.000  5000.000".toList] ++ ls ++
        ["END".toList, []] ∧ ls.length = 4 * ss.length ∧
      ∀ i (h : i < ss.length), (∃ r, ls[4 * i]? = some (ss[i].name ++ r)) ∧
        ∃ t, thermoEntry ss[i] = .ok t ∧ lines t = (ls.drop (4 * i)).take 4 ++ [[]]) ∧
    (∀ pre s post, ss = pre ++ s :: post → (∀ x ∈ pre, OneLine x ∧ x.coeffs ≠ []) → s.coeffs = [] →
      ∃ text ls, thermoText ss = (text, some .indexError) ∧
        lines text = ["THERMO".toList, "   300.000  1000.000  5000.000".toList] ++ ls ++ [[]] ∧
        ls.length = 4 * pre.length) := by
  have hd : ∀ rest : Text, lines ("THERMO\n   300.000  1000.000  5000.000\n".toList ++ rest) =
      ["THERMO".toList, "   300.000  1000.000  5000.000".toList] ++ lines rest := by
    intro rest
    have e : "THERMO\n   300.000  1000.000  5000.000\n".toList =
        unlinesText ["THERMO".toList, "   300.000  1000.000  5000.000".toList] := by decide
    rw [e, lines_unlines _ _ (by decide)]
  constructor
  · intro h
    obtain ⟨ts, ls, f1, f2, f3, f4, f5⟩ := entries_lines h
    refine ⟨_, ls, by unfold thermoText; simp only [writeAll_of f1]; rfl, ?_, f3, f5⟩
    rw [List.append_assoc, hd, f2, lines_unlines _ _ f4, List.append_assoc]
    congr 2
  · intro pre s post e h hs
    obtain ⟨ts, ls, f1, f2, f3, f4, -⟩ := entries_lines h
    have hw : writeAll thermoEntry ss = (ts.flatten, some .indexError) := by
      rw [e]
      have hx : thermoEntry s = .error .indexError := by unfold thermoEntry; rw [hs]
      clear e h f2 f3 f4
      induction f1 with
      | nil => simp [writeAll, hx]
      | cons h3 _ ih => rw [List.cons_append, writeAll, h3]; simp only [ih]; rfl
    refine ⟨_, ls, by unfold thermoText; simp only [hw]; rfl, ?_, f3⟩
    rw [hd, f2, ← List.append_nil (unlinesText ls), lines_unlines _ _ f4, List.append_assoc]
    congr 2

example : (∀ s ∈ [ckSpecies, ckSpecies], OneLine s ∧ s.coeffs ≠ []) ∧
    lines (thermoText [ckSpecies]).1 =
      ["THERMO".toList, "   300.000  1000.000  5000.000".toList,
       "HO2                     H   1O   2          G   200.000  3500.000 1000.00      1".toList,
       " 4.01721000e+00 2.23982000e-03-6.33650000e-07 0.00000000e+00 0.00000000e+00    2".toList,
       " 1.11856000e+02 3.78500000e+00 4.30170000e+00-4.74900000e-03 0.00000000e+00    3".toList,
       " 0.00000000e+00 0.00000000e+00 2.94800000e+02 3.71660000e+00                   4".toList,
       "END".toList, []] := by
  constructor
  · intro s hs
    have : s = ckSpecies := by simpa using hs
    subst this
    exact ⟨⟨by decide, by decide⟩, by decide⟩
  · decide +kernel

/-- The transport file has one line per species, in the order of the model, each as described in
C79; if a species has a geometry other than the three known ones, writing raises `KeyError` and the
file stops before it. -/
theorem C79_file (ss : List (Spec1 ℚ)) (f : Spec1 ℚ → Text) :
    ((∀ s ∈ ss, transportLine s = .ok (f s ++ "\n".toList) ∧ '\n' ∉ f s) →
      ∃ text, transportText ss = (text, none) ∧ lines text = ss.map f ++ [[]]) ∧
    (∀ pre s post t, ss = pre ++ s :: post →
      (∀ s ∈ pre, transportLine s = .ok (f s ++ "\n".toList) ∧ '\n' ∉ f s) →
      s.transport = some t → t.geometry ∉ ["atom".toList, "linear".toList, "nonlinear".toList] →
      ∃ text, transportText ss = (text, some .keyError) ∧ lines text = pre.map f ++ [[]]) := by
  have hl : ∀ xs : List (Spec1 ℚ), (∀ s ∈ xs, '\n' ∉ f s) →
      lines (xs.map fun s => f s ++ "\n".toList).flatten = xs.map f ++ [[]] := by
    intro xs hx
    have := lines_unlines (xs.map f) [] (by
      intro l hl
      obtain ⟨s, hs, rfl⟩ := List.mem_map.1 hl
      exact hx s hs)
    rw [List.append_nil, unlinesText, List.map_map] at this
    exact this
  have hf : ∀ xs : List (Spec1 ℚ), (∀ s ∈ xs, transportLine s = .ok (f s ++ "\n".toList) ∧ '\n' ∉ f s) →
      List.Forall₂ (fun s t => transportLine s = .ok t) xs (xs.map fun s => f s ++ "\n".toList) := by
    intro xs hx
    rw [List.forall₂_map_right_iff, List.forall₂_same]
    exact fun s hs => (hx s hs).1
  constructor
  · intro h
    exact ⟨_, writeAll_of (hf ss h), hl ss fun s hs => (h s hs).2⟩
  · intro pre s post t e h hs hg
    have hx : transportLine s = .error .keyError := by
      simp only [List.mem_cons, List.not_mem_nil, or_false, not_or] at hg
      have : geometryText t.geometry = .error .keyError := by
        unfold geometryText
        rw [if_neg hg.1, if_neg hg.2.1, if_neg hg.2.2]
      unfold transportLine
      rw [hs]
      simp only [this]
    refine ⟨_, ?_, hl pre fun s hs => (h s hs).2⟩
    unfold transportText
    rw [e]
    have hfp := hf pre h
    generalize (pre.map fun s => f s ++ "\n".toList) = ts at hfp
    clear e h
    induction hfp with
    | nil => simp [writeAll, hx]
    | cons h3 _ ih => rw [List.cons_append, writeAll, h3]; simp only [ih]; rfl

example : (transportText [ckSpecies, { ckSpecies with
      transport := some ⟨"ring".toList, 0, 0, 0, 0, 1, []⟩ }, ckSpecies]).2 = some .keyError ∧
    lines (transportText [ckSpecies, { ckSpecies with
      transport := some ⟨"ring".toList, 0, 0, 0, 0, 1, []⟩ }, ckSpecies]).1 =
    ["HO2                2   107.558     3.458     0.000     0.000     1.000".toList, []] := by
  decide +kernel

/-- The files of `soln2ck.write` with any options: the model file under the given name, or under the
name of the model if none is given; the thermo file unless it is to be skipped; the transport file
unless it is to be skipped or a species has no transport data.  The names returned are those of
the files written, in this order, and no other file changes. -/
theorem C54_options {rp : ℚ → Text} {s : Soln ℚ} {fs fs' : Files} {name base path : Text}
    {outs : List Text} {b1 b2 : Bool} (hb : ∃ c ∈ base, c ≠ '.') (hs : '/' ∉ base)
    (hname : name = base ++ ".inp".toList ∨ (name = [] ∧ s.name = base))
    (h : writeCk rp s fs name path b1 b2 = (.ok outs, fs')) :
    let inp := joinPath path (base ++ ".inp".toList)
    let thermo := joinPath path base ++ "_thermo.dat".toList
    let transport := joinPath path base ++ "_transport.dat".toList
    outs = [inp] ++ (if b1 = true then [] else [thermo]) ++
      (if b2 = false ∧ ∀ x ∈ s.species, x.transport ≠ none then [transport] else []) ∧
    fs' inp = some (modelText rp s).1 ∧ (thermo ∈ outs → fs' thermo = some (thermoText s.species).1) ∧
    (transport ∈ outs → fs' transport = some (transportText s.species).1) ∧
    (∀ g, g ∉ outs → fs' g = fs g) := by
  have hsp : (splitext (joinPath path (base ++ ".inp".toList))).1 = joinPath path base := by
    have := splitext_join (path := path) (ext := "inp".toList) hb hs (by decide)
    rw [show base ++ ".inp".toList = base ++ '.' :: "inp".toList from rfl, this]
  have hlen : joinPath path (base ++ ".inp".toList) = joinPath path base ++ ".inp".toList := by
    have := splitext_parts (joinPath path (base ++ '.' :: "inp".toList))
    rw [splitext_join (path := path) (ext := "inp".toList) hb hs (by decide)] at this
    exact this.symm
  have n1 : joinPath path base ++ ".inp".toList ≠ joinPath path base ++ "_thermo.dat".toList := by
    simp
  have n2 : joinPath path base ++ ".inp".toList ≠ joinPath path base ++ "_transport.dat".toList := by
    simp
  have n3 : joinPath path base ++ "_thermo.dat".toList ≠ joinPath path base ++ "_transport.dat".toList := by
    simp
  have hall : (s.species.all fun x => x.transport.isSome) = true ↔ ∀ x ∈ s.species, x.transport ≠ none := by
    rw [List.all_eq_true]
    refine forall₂_congr fun x _ => ?_
    rw [Option.isSome_iff_ne_none]
  have hout : (if name = [] then joinPath path (s.name ++ ".inp".toList) else joinPath path name) =
      joinPath path (base ++ ".inp".toList) := by
    rcases hname with rfl | ⟨rfl, rfl⟩
    · rw [if_neg (by simp)]
    · rw [if_pos rfl]
  unfold writeCk at h
  simp only [hout, hsp] at h
  rw [hlen] at h
  simp only
  rw [hlen]
  generalize joinPath path base ++ ".inp".toList = inp at *
  generalize joinPath path base ++ "_thermo.dat".toList = thermo at *
  generalize joinPath path base ++ "_transport.dat".toList = transport at *
  cases hm : (modelText rp s).2 with
  | some e => rw [hm] at h; simp at h
  | none =>
      rw [hm] at h
      cases hth : (thermoText s.species).2 with
      | some e =>
          cases b1 with
          | false => rw [hth] at h; simp at h
          | true =>
              cases b2 with
              | true =>
                  simp only [if_true, Bool.not_true, Bool.false_and, Bool.false_eq_true, if_false,
                    Prod.mk.injEq, Except.ok.injEq] at h
                  obtain ⟨rfl, rfl⟩ := h
                  refine ⟨by simp, by simp [Files.put], fun h => ?_, fun h => ?_, fun g h => ?_⟩
                  · simp [n1.symm] at h
                  · simp [n2.symm] at h
                  · simp at h; simp [Files.put, h]
              | false =>
                  simp only [if_true, Bool.not_false, Bool.true_and] at h
                  by_cases ha : ∀ x ∈ s.species, x.transport ≠ none
                  · rw [if_pos (hall.2 ha)] at h
                    cases hx : (transportText s.species).2 with
                    | some e => rw [hx] at h; simp at h
                    | none =>
                        rw [hx] at h
                        simp only [Prod.mk.injEq, Except.ok.injEq] at h
                        obtain ⟨rfl, rfl⟩ := h
                        refine ⟨by rw [if_pos rfl, if_pos ⟨rfl, ha⟩]; rfl, by simp [Files.put, n2], fun h => ?_, fun h => ?_, fun g h => ?_⟩
                        · simp [n1.symm, n3] at h
                        · simp [Files.put]
                        · simp at h; simp [Files.put, h]
                  · rw [if_neg (by rwa [hall])] at h
                    simp only [Prod.mk.injEq, Except.ok.injEq] at h
                    obtain ⟨rfl, rfl⟩ := h
                    refine ⟨by rw [if_pos rfl, if_neg (fun h => ha h.2)]; rfl, by simp [Files.put], fun h => ?_,
                      fun h => ?_, fun g h => ?_⟩
                    · simp [n1.symm] at h
                    · simp [n2.symm] at h
                    · simp at h; simp [Files.put, h]
      | none =>
          rw [hth] at h
          have hnn : (if b1 = true then (none : Option Err) else none) = none := by split <;> rfl
          simp only [hnn] at h
          by_cases ha : b2 = false ∧ ∀ x ∈ s.species, x.transport ≠ none
          · have hc : (!b2 && s.species.all fun x => x.transport.isSome) = true := by
              rw [Bool.and_eq_true, hall, ha.1]; exact ⟨rfl, ha.2⟩
            rw [if_pos hc] at h
            cases hx : (transportText s.species).2 with
            | some e => rw [hx] at h; simp at h
            | none =>
                rw [hx] at h
                simp only [Prod.mk.injEq, Except.ok.injEq] at h
                obtain ⟨rfl, rfl⟩ := h
                rw [if_pos ha]
                cases b1 <;> refine ⟨by simp, by simp [Files.put, n1, n2], fun h => ?_, fun h => ?_, fun g h => ?_⟩
                · simp [Files.put, n3]
                · simp [Files.put]
                · simp at h; simp [Files.put, h]
                · simp [n1.symm, n3] at h
                · simp [Files.put]
                · simp at h; simp [Files.put, h]
          · have hc : (!b2 && s.species.all fun x => x.transport.isSome) ≠ true := by
              rw [Ne, Bool.and_eq_true, hall]
              rintro ⟨h1, h2⟩
              exact ha ⟨by simpa using h1, h2⟩
            rw [if_neg hc] at h
            simp only [Prod.mk.injEq, Except.ok.injEq] at h
            obtain ⟨rfl, rfl⟩ := h
            rw [if_neg ha]
            cases b1 <;> refine ⟨by simp, by simp [Files.put, n1], fun h => ?_, fun h => ?_, fun g h => ?_⟩
            · simp [Files.put]
            · simp [n2.symm, n3.symm] at h
            · simp at h; simp [Files.put, h]
            · simp [n1.symm] at h
            · simp [n2.symm] at h
            · simp at h; simp [Files.put, h]

example : ∃ fs', writeCk (fmtFix 1) ⟨"gas".toList, ["H".toList, "O".toList], [ckSpecies], [ckLong]⟩
    (fun _ => none) [] "out".toList true false =
      (.ok ["out/gas.inp".toList, "out/gas_transport.dat".toList], fs') :=
  ⟨_, Prod.ext (by
    show (writeCk (fmtFix 1) ⟨"gas".toList, ["H".toList, "O".toList], [ckSpecies], [ckLong]⟩
      (fun _ => none) [] "out".toList true false).1 = _
    decide +kernel) rfl⟩

/-! ## C59: the blocks before the reactions -/

theorem linesAux_any : ∀ (t cur rest : Text), linesAux cur (t ++ '\n' :: rest) = linesAux cur t ++ lines rest
  | [], cur, rest => by simp [linesAux, lines]
  | c :: t, cur, rest => by
      by_cases hc : c = '\n'
      · simp [linesAux, hc, linesAux_any t]
      · simp [linesAux, hc, linesAux_any t]

theorem lines_any (t rest : Text) : lines (t ++ '\n' :: rest) = lines t ++ lines rest := linesAux_any t [] rest

theorem words_linesAux : ∀ (t cur : Text), ((linesAux cur t).map words).flatten = words (cur ++ t)
  | [], cur => by simp [linesAux]
  | c :: t, cur => by
      by_cases hc : c = '\n'
      · subst hc
        rw [linesAux, if_pos rfl, words_blank cur t rfl, List.map_cons, List.flatten_cons, words_linesAux t []]
        rfl
      · rw [linesAux, if_neg hc, words_linesAux t (cur ++ [c]), List.append_assoc]
        rfl

/-- The model file begins with the title, the elements and the species, each block closed by `END`,
and the reactions follow: the words of the blocks are exactly the names of the elements and of the
species, in order, whether or not a reaction then raises. -/
theorem C59_head (rp : ℚ → Text) (s : Soln ℚ) (hname : '\n' ∉ s.name) (hel : ∀ e ∈ s.elements, Word e)
    (hsp : ∀ x ∈ s.species, Word x.name) :
    ∃ els sps rest, lines (modelText rp s).1 =
      ["!Chemkin file converted from solution object: ".toList ++ s.name, [], "ELEMENTS".toList, els,
        "END".toList, [], "SPECIES".toList] ++ sps ++ ["END".toList, [], "REACTIONS".toList] ++ rest ∧
      words els = s.elements ∧ (sps.map words).flatten = s.species.map Spec1.name ∧
      ∀ l ∈ sps, l.length ≤ 60 ∨ l ∈ s.species.map Spec1.name := by
  have hw : ∀ n ∈ s.species.map Spec1.name, Word n := by
    intro n hn
    obtain ⟨x, hx, rfl⟩ := List.mem_map.1 hn
    exact hsp x hx
  obtain ⟨c1, c2⟩ := C57_species _ hw
  have hfront : ∃ tail, (modelText rp s).1 = unlinesText ["!Chemkin file converted from solution object: ".toList ++
      s.name, [], "ELEMENTS".toList, joinText sep2 s.elements, "END".toList, [], "SPECIES".toList] ++
      (speciesBlock (s.species.map Spec1.name) ++ '\n' :: (unlinesText ["END".toList, [], "REACTIONS".toList] ++
        tail)) := by
    have e1 : "\n\nELEMENTS\n".toList = '\n' :: '\n' :: ("ELEMENTS".toList ++ ['\n']) := by decide
    have e2 : "\nEND\n\nSPECIES\n".toList =
      '\n' :: ("END".toList ++ '\n' :: '\n' :: ("SPECIES".toList ++ ['\n'])) := by decide
    have e3 : "\nEND\n\nREACTIONS\n".toList =
      '\n' :: ("END".toList ++ '\n' :: '\n' :: ("REACTIONS".toList ++ ['\n'])) := by decide
    unfold modelText
    simp only
    rcases writeAll (rxnText rp (s.species.map Spec1.name)) s.reactions with ⟨t, _ | e⟩
    · refine ⟨t ++ "END".toList, ?_⟩
      simp only [e1, e2, e3, unlines_cons, List.append_assoc, List.cons_append, List.nil_append]
      simp [unlinesText]
    · refine ⟨t, ?_⟩
      simp only [e1, e2, e3, unlines_cons, List.append_assoc, List.cons_append, List.nil_append]
      simp [unlinesText]
  obtain ⟨tail, ht⟩ := hfront
  refine ⟨joinText sep2 s.elements, lines (speciesBlock (s.species.map Spec1.name)), lines tail, ?_, ?_, ?_, c2⟩
  · rw [ht, lines_unlines, lines_any, lines_unlines _ _ (by decide)]
    · simp only [List.append_assoc]
    · intro l hl
      simp only [List.mem_cons, List.not_mem_nil, or_false] at hl
      rcases hl with rfl | rfl | rfl | rfl | rfl | rfl | rfl
      · exact append_nonl (by decide) hname
      · decide
      · decide
      · exact join_nonl (by decide) _ fun t ht => (hel t ht).nonl
      · decide
      · decide
      · decide
  · exact words_join sep2_blanks _ hel
  · rw [lines, words_linesAux, List.nil_append, c1]

example : lines (modelText (fmtFix 1) ⟨"gas".toList, ["H".toList, "O".toList], [ckSpecies, ckSpecies], []⟩).1 =
    ["!Chemkin file converted from solution object: gas".toList, [], "ELEMENTS".toList, "H  O".toList,
     "END".toList, [], "SPECIES".toList, "HO2  HO2".toList, "END".toList, [], "REACTIONS".toList,
     "END".toList] := by
  decide +kernel

end Verif
