import Verif.Lemmas.CkRxn
import Verif.Props.Ck
/-!
# Properties of Chemkin output: reactions and files (C54, C58, C59, C79-C81)
-/
namespace Verif
open Spec

/-! ## C59: what is written for each reaction -/

/-- everything written for a reaction that can be written -/
theorem rxn_lines_order {rp : ℚ → Text} (hrp : ∀ q, Word (rp q)) (names : List Text) {r : Rxn ℚ} {n : Int}
    (hn : orderOf r = n) (hw : Writable r) (heq : '\n' ∉ r.eqn)
    (hth : ∀ tb, r.third = some tb → ∀ kv ∈ tb.effs, Word kv.1) :
    ∃ t wa wb we eff aux, rxnText rp names r = .ok t ∧
      lines t = (padRight 51 r.eqn ++ joinText sep2 [wa, wb, we]) :: (eff ++ aux ++
        (if r.dup then ["DUPLICATE".toList] else []) ++ [[]]) ∧
      Word wa ∧ Word wb ∧ Word we ∧ MainWords r n [wa, wb, we] ∧ EffLines rp names r eff ∧
      AuxLines rp r n aux := by
  obtain ⟨wa, wb, we, h1, h2, h3, h4, h5⟩ := mainRate_ok hw hn
  obtain ⟨eff, e1, e2, e3⟩ := efficiency_ok hrp names hth
  obtain ⟨aux, a1, a2, a3⟩ := auxLines_ok hrp hw hn
  have hx : rxnText rp names r = .ok (padRight 51 r.eqn ++ joinText sep2 [wa, wb, we] ++ "\n".toList ++
      efficiencyLine rp names r ++ unlinesText aux ++ (if r.dup then "DUPLICATE\n".toList else [])) := by
    unfold rxnText
    rw [h1, a1]
  refine ⟨_, wa, wb, we, eff, aux, hx, ?_, h2, h3, h4, h5, e2, a2⟩
  · have hd : (if r.dup then "DUPLICATE\n".toList else []) =
        unlinesText (if r.dup then ["DUPLICATE".toList] else []) := by
      cases r.dup <;> rfl
    have hnl : ∀ l ∈ (if r.dup then ["DUPLICATE".toList] else []), '\n' ∉ l := by
      cases r.dup
      · simp
      · decide
    rw [e1, hd]
    generalize (if r.dup then ["DUPLICATE".toList] else []) = dl at hnl
    have hj := join3_nonl wa wb we h2 h3 h4
    generalize joinText sep2 [wa, wb, we] = j at hj
    have e : padRight 51 r.eqn ++ j ++ "\n".toList ++ unlinesText eff ++ unlinesText aux ++
        unlinesText dl = unlinesText ((padRight 51 r.eqn ++ j) :: (eff ++ aux ++ dl)) ++ [] := by
      rw [unlines_cons, unlines_append, unlines_append]
      simp
    rw [e, lines_unlines]
    · simp [lines, linesAux]
    · intro l hl
      rcases List.mem_cons.1 hl with rfl | hl
      · exact append_nonl (padRight_nonl heq) hj
      · rcases List.mem_append.1 hl with hl | hl
        · rcases List.mem_append.1 hl with hl | hl
          · exact e3 l hl
          · exact a3 l hl
        · exact hnl l hl

theorem rxn_lines {rp : ℚ → Text} (hrp : ∀ q, Word (rp q)) (names : List Text) {r : Rxn ℚ} {n : Int}
    (hn : (r.reactants.map Prod.snd).sum = (n : ℚ)) (hw : Writable r) (heq : '\n' ∉ r.eqn)
    (hth : ∀ tb, r.third = some tb → ∀ kv ∈ tb.effs, Word kv.1) :
    ∃ t wa wb we eff aux, rxnText rp names r = .ok t ∧
      lines t = (padRight 51 r.eqn ++ joinText sep2 [wa, wb, we]) :: (eff ++ aux ++
        (if r.dup then ["DUPLICATE".toList] else []) ++ [[]]) ∧
      Word wa ∧ Word wb ∧ Word we ∧ MainWords r n [wa, wb, we] ∧ EffLines rp names r eff ∧
      AuxLines rp r n aux := rxn_lines_order hrp names (orderOf_int hn) hw heq hth

/-- For a reaction that can be written: the main line, then the efficiencies of species in the
model, then the auxiliary lines of its kind of rate, then `DUPLICATE` if it is one. -/
theorem C59_reaction_partial {rp : ℚ → Text} (hrp : ∀ q, Word (rp q)) (names : List Text) {r : Rxn ℚ}
    {n : Int} (hn : (r.reactants.map Prod.snd).sum = (n : ℚ)) (hw : Writable r)
    (heq : '\n' ∉ r.eqn) (hth : ∀ tb, r.third = some tb → ∀ kv ∈ tb.effs, Word kv.1) :
    ∃ t main eff aux, rxnText rp names r = .ok t ∧
      lines t = main :: (eff ++ aux ++ (if r.dup then ["DUPLICATE".toList] else []) ++ [[]]) ∧
      (∃ pad rate, main = r.eqn ++ List.replicate pad ' ' ++ rate ∧ MainWords r n (words rate)) ∧
      EffLines rp names r eff ∧ AuxLines rp r n aux := by
  obtain ⟨t, wa, wb, we, eff, aux, h1, h2, h3, h4, h5, h6, h7, h8⟩ := rxn_lines hrp names hn hw heq hth
  refine ⟨t, _, eff, aux, h1, h2, ⟨51 - r.eqn.length, joinText sep2 [wa, wb, we], rfl, ?_⟩, h7, h8⟩
  rw [rateText_words _ _ _ h3 h4 h5]
  exact h6

/-- Unsupported reactions raise `NotImplementedError`: rates of another class, P-log and Chebyshev
rates with a third body, and falloff functions other than Troe and SRI that have parameters. -/
theorem C59_unsupported (rp : ℚ → Text) (names : List Text) (r : Rxn ℚ) (hk : PlainKind r) :
    (∀ kind k, r.rate = .simple kind k → kind ≠ "Arrhenius".toList →
      rxnText rp names r = .error .notImplemented) ∧
    (∀ rates, r.rate = .plog rates → r.third ≠ none → rxnText rp names r = .error .notImplemented) ∧
    (∀ t p m d, r.rate = .cheb t p m d → r.third ≠ none →
      rxnText rp names r = .error .notImplemented) ∧
    (∀ sub chem lo hi cs, r.rate = .falloff sub chem lo hi cs → cs ≠ [] →
      sub ∉ ["Troe".toList, "SRI".toList] → rxnText rp names r = .error .notImplemented) := by
  have hmain : ∀ t : Text, r.rtype = t → t ≠ "Arrhenius".toList → t ≠ "three-body-Arrhenius".toList →
      ¬ "falloff-".toList <+: t → ¬ "chemically-activated".toList <+: t → t ≠ "Chebyshev".toList →
      t ≠ "pressure-dependent-Arrhenius".toList → rxnText rp names r = .error .notImplemented := by
    intro t ht h1 h2 h3 h4 h5 h6
    have hm : mainRate r = .error .notImplemented := by
      unfold mainRate
      simp only [ht]
      rw [if_neg (not_or.2 ⟨h1, h2⟩), if_neg (by rwa [List.isPrefixOf_iff_prefix]),
        if_neg (by rwa [List.isPrefixOf_iff_prefix]), if_neg h5, if_neg h6]
    unfold rxnText
    rw [hm]
  have hthree : ∀ kind : Text, kind ≠ "Arrhenius".toList →
      r.rtype = "three-body-".toList ++ kind → rxnText rp names r = .error .notImplemented := by
    intro kind hkind ht
    refine hmain _ ht ?_ ?_ ?_ ?_ ?_ ?_
    · simp
    · intro h
      apply hkind
      have h2 : "three-body-".toList ++ kind = "three-body-".toList ++ "Arrhenius".toList := h
      exact List.append_cancel_left h2
    · rintro ⟨x, hx⟩; simp at hx
    · rintro ⟨x, hx⟩; simp at hx
    · simp
    · simp
  refine ⟨fun kind k hr hne => ?_, fun rates hr ht => ?_, fun t p m d hr ht => ?_,
    fun sub chem lo hi cs hr hcs hsub => ?_⟩
  · obtain ⟨h1, h2, h3⟩ := hk kind k hr
    simp only [List.mem_cons, List.not_mem_nil, or_false, not_or] at h1
    cases hth : r.third with
    | none =>
        refine hmain kind ?_ hne h1.2.1 h2 h3 h1.1 h1.2.2
        unfold Rxn.rtype
        rw [hr, hth]
        rfl
    | some tb =>
        refine hthree kind hne ?_
        unfold Rxn.rtype
        rw [hr, hth]
        rfl
  · cases hth : r.third with
    | none => exact absurd hth ht
    | some tb =>
        refine hthree "pressure-dependent-Arrhenius".toList (by decide) ?_
        unfold Rxn.rtype
        rw [hr, hth]
        rfl
  · cases hth : r.third with
    | none => exact absurd hth ht
    | some tb =>
        refine hthree "Chebyshev".toList (by decide) ?_
        unfold Rxn.rtype
        rw [hr, hth]
        rfl
  · have hf : falloffLine rp sub cs = .error .notImplemented := by
      simp only [List.mem_cons, List.not_mem_nil, or_false, not_or] at hsub
      unfold falloffLine buildFalloff
      rw [if_neg hcs, if_neg hsub.1, if_neg hsub.2]
    exact rxnText_falloff names hr hf

/-- Auxiliary data is not complete for every model: a Troe rate given with three parameters (as
cantera reports it when the fourth is zero) raises `IndexError`. -/
theorem C59_troe_refuted (rp : ℚ → Text) (names : List Text) (r : Rxn ℚ) (chem : Bool)
    (lo hi : ArrRate ℚ) (a b c : ℚ) (hr : r.rate = .falloff "Troe".toList chem lo hi [a, b, c]) :
    rxnText rp names r = .error .indexError := by
  have hf : falloffLine rp "Troe".toList [a, b, c] = .error .indexError := by
    unfold falloffLine buildFalloff
    rw [if_neg (by simp), if_pos rfl]
  exact rxnText_falloff names hr hf

/-- the model file up to the reactions -/
def ckHead (s : Soln ℚ) : Text :=
  ("!Chemkin file converted from solution object: ".toList ++ s.name ++
    "\n\nELEMENTS\n".toList ++ joinText sep2 s.elements ++ "\nEND\n\nSPECIES\n".toList ++
    speciesBlock (s.species.map Spec1.name) ++ "\nEND\n\n".toList) ++ "REACTIONS\n".toList

/-- The model file: the keyword blocks, then the reactions in order, then `END`; if a reaction
cannot be written, the file stops before it, without `END`, and nothing else is written. -/
theorem C59_file (rp : ℚ → Text) (s : Soln ℚ) (fs : Files) (name path : Text) (b1 b2 : Bool)
    (hname : name ≠ []) :
    ∃ head, (∃ h, head = h ++ "REACTIONS\n".toList) ∧
      (∀ ts, List.Forall₂ (fun r t => rxnText rp (s.species.map Spec1.name) r = .ok t) s.reactions ts →
        modelText rp s = (head ++ ts.flatten ++ "END".toList, none) ∧
        ((writeCk rp s fs name path b1 b2).2 (joinPath path name) =
            some (head ++ ts.flatten ++ "END".toList) ∨
          ∃ f, f ∈ ["_thermo.dat".toList, "_transport.dat".toList] ∧
            (splitext (joinPath path name)).1 ++ f = joinPath path name)) ∧
      (∀ pre r post ts e, s.reactions = pre ++ r :: post →
        List.Forall₂ (fun r t => rxnText rp (s.species.map Spec1.name) r = .ok t) pre ts →
        rxnText rp (s.species.map Spec1.name) r = .error e →
        writeCk rp s fs name path b1 b2 =
          (.error e, fs.put (joinPath path name) (head ++ ts.flatten))) := by
  refine ⟨ckHead s, ⟨_, rfl⟩, fun ts h => ?_, fun pre r post ts e h h1 h2 => ?_⟩
  · have hm : modelText rp s = (ckHead s ++ ts.flatten ++ "END".toList, none) := by
      unfold modelText ckHead
      simp only [writeAll_of h]
      simp
    refine ⟨hm, ?_⟩
    by_cases hx : ∃ f, f ∈ ["_thermo.dat".toList, "_transport.dat".toList] ∧
        (splitext (joinPath path name)).1 ++ f = joinPath path name
    · exact Or.inr hx
    · left
      have n1 : joinPath path name ≠ (splitext (joinPath path name)).1 ++ "_thermo.dat".toList :=
        fun he => hx ⟨_, by simp, he.symm⟩
      have n2 : joinPath path name ≠ (splitext (joinPath path name)).1 ++ "_transport.dat".toList :=
        fun he => hx ⟨_, by simp, he.symm⟩
      unfold writeCk
      simp only [if_neg hname, hm]
      generalize (splitext (joinPath path name)).1 ++ "_thermo.dat".toList = f1 at n1
      generalize (splitext (joinPath path name)).1 ++ "_transport.dat".toList = f2 at n2
      cases b1 <;> cases b2 <;> simp only [Bool.false_eq_true, if_false, if_true, Bool.not_true,
        Bool.not_false, Bool.true_and, Bool.false_and] <;>
        (repeat' split) <;> simp [Files.put, n1, n2]
  · have hw : writeAll (rxnText rp (s.species.map Spec1.name)) s.reactions = (ts.flatten, some e) := by
      rw [h]
      clear h
      induction h1 with
      | nil => simp [writeAll, h2]
      | cons h3 _ ih => rw [List.cons_append, writeAll, h3]; simp only [ih]; rfl
    have hm : modelText rp s = (ckHead s ++ ts.flatten, some e) := by
      unfold modelText ckHead
      simp only [hw]
      simp
    unfold writeCk
    simp only [if_neg hname, hm]

/-- a falloff reaction with efficiencies, one of them of a species that is not in the model -/
def ckFalloff : Rxn ℚ where
  eqn := "H + O2 (+M) <=> HO2 (+M)".toList
  reactants := [("H".toList, 1), ("O2".toList, 1)]
  products := [("HO2".toList, 1)]
  reversible := true
  orders := []
  dup := true
  rate := .falloff "Troe".toList false ⟨6328, -7 / 5, 0⟩ ⟨5116605 / 1000, 44 / 100, 0⟩ [1 / 2, 30, 90000, 90000]
  third := some ⟨1, [("H2O".toList, 119 / 10), ("XX".toList, 3), ("H2".toList, 5 / 2)]⟩

example : Writable ckFalloff ∧ (ckFalloff.reactants.map Prod.snd).sum = ((2 : Int) : ℚ) ∧
    '\n' ∉ ckFalloff.eqn := by
  refine ⟨?_, ?_, by decide⟩
  · unfold Writable ckFalloff
    exact Or.inr (Or.inl ⟨rfl, by simp⟩)
  · decide +kernel

example : ∃ t, rxnText (fmtFix 1) ["H2".toList, "H2O".toList] ckFalloff = .ok t ∧ lines t =
    ["H + O2 (+M) <=> HO2 (+M)                           5.1166e+06  0.440  0.000e+00".toList,
     "H2O/11.9/  H2/2.5/".toList, "LOW / 6.3280e+09  -1.400  0.000e+00 /".toList,
     "TROE / 0.5  30.0  90000.0  90000.0 /".toList, "DUPLICATE".toList, []] :=
  ⟨_, rfl, by decide +kernel⟩

/-- a rate class the writer does not know -/
def ckOther : Rxn ℚ := { ckFalloff with rate := .simple "Blowers-Masel".toList ⟨1, 0, 0⟩, third := none }

example : PlainKind ckOther := by
  intro kind k h
  have hk : kind = "Blowers-Masel".toList := by
    unfold ckOther at h
    cases h
    rfl
  rw [hk]
  decide

/-! ## C58: equation and rate on one line -/

/-- An equation of at most 50 characters is separated from the rate. -/
theorem C58_separated_partial {rp : ℚ → Text} (hrp : ∀ q, Word (rp q)) (names : List Text) {r : Rxn ℚ}
    {n : Int} (hn : (r.reactants.map Prod.snd).sum = (n : ℚ)) (hw : Writable r)
    (heq : '\n' ∉ r.eqn) (hth : ∀ tb, r.third = some tb → ∀ kv ∈ tb.effs, Word kv.1)
    (hlen : r.eqn.length < 51) :
    ∃ t main rest ws, rxnText rp names r = .ok t ∧ lines t = main :: rest ∧
      words main = words r.eqn ++ ws ∧ MainWords r n ws := by
  obtain ⟨t, wa, wb, we, eff, aux, h1, h2, h3, h4, h5, h6, -⟩ := rxn_lines hrp names hn hw heq hth
  refine ⟨t, _, _, [wa, wb, we], h1, h2, ?_, h6⟩
  have e : padRight 51 r.eqn = r.eqn ++ ' ' :: List.replicate (50 - r.eqn.length) ' ' := by
    unfold padRight
    rw [← List.replicate_succ]
    congr 2
    omega
  rw [e, List.append_assoc, List.cons_append, words_blank _ _ rfl, words_blanks _ _ (by
    intro c hc
    rw [List.eq_of_mem_replicate hc]; rfl), rateText_words _ _ _ h3 h4 h5]

/-- The last word of a longer equation is run together with the pre-exponential factor. -/
theorem C58_long_refuted {rp : ℚ → Text} (hrp : ∀ q, Word (rp q)) (names : List Text) {r : Rxn ℚ}
    {n : Int} (hn : (r.reactants.map Prod.snd).sum = (n : ℚ)) (hw : Writable r)
    (heq : '\n' ∉ r.eqn) (hth : ∀ tb, r.third = some tb → ∀ kv ∈ tb.effs, Word kv.1)
    (hlen : 51 ≤ r.eqn.length) {e w : Text} (he : r.eqn = e ++ ' ' :: w) (hword : Word w) :
    ∃ t main rest wa ws, rxnText rp names r = .ok t ∧ lines t = main :: rest ∧
      words main = words e ++ (w ++ wa) :: ws ∧ MainWords r n (wa :: ws) ∧
      words main ≠ words r.eqn ++ wa :: ws := by
  obtain ⟨t, wa, wb, we, eff, aux, h1, h2, h3, h4, h5, h6, -⟩ := rxn_lines hrp names hn hw heq hth
  have e1 : padRight 51 r.eqn = r.eqn := by
    unfold padRight
    rw [Nat.sub_eq_zero_of_le hlen]
    simp
  have hmain : words (padRight 51 r.eqn ++ joinText sep2 [wa, wb, we]) = words e ++ (w ++ wa) :: [wb, we] := by
    rw [e1, he, List.append_assoc, List.cons_append, words_blank _ _ rfl]
    congr 1
    have : w ++ joinText sep2 [wa, wb, we] = joinText sep2 [w ++ wa, wb, we] := by simp [joinText]
    rw [this, rateText_words _ _ _ (word_append hword h3.2) h4 h5]
  refine ⟨t, _, _, wa, [wb, we], h1, h2, hmain, h6, ?_⟩
  rw [hmain, he, words_blank _ _ rfl, words_word hword]
  intro h
  have := congrArg List.length h
  simp at this

/-- an elementary reaction with a long equation -/
def ckLong : Rxn ℚ where
  eqn := "CH3CHCH2CHO + CH3CHCH2CO <=> CH3CH2CH2CHO + CH2CHCH2CO".toList
  reactants := [("CH3CHCH2CHO".toList, 1), ("CH3CHCH2CO".toList, 1)]
  products := [("CH3CH2CH2CHO".toList, 1), ("CH2CHCH2CO".toList, 1)]
  reversible := true
  orders := []
  dup := false
  rate := .simple "Arrhenius".toList ⟨2 * 10 ^ 9, 0, 0⟩
  third := none

example : 51 ≤ ckLong.eqn.length ∧ Writable ckLong ∧
    ckLong.eqn = "CH3CHCH2CHO + CH3CHCH2CO <=> CH3CH2CH2CHO +".toList ++ ' ' :: "CH2CHCH2CO".toList :=
  ⟨by decide, rfl, by decide⟩

example : ∃ t, rxnText (fmtFix 1) [] ckLong = .ok t ∧ lines t =
    ["CH3CHCH2CHO + CH3CHCH2CO <=> CH3CH2CH2CHO + CH2CHCH2CO2.0000e+12  0.000  0.00".toList, []] :=
  ⟨_, rfl, by decide +kernel⟩

/-! ## C79: transport lines -/

/-- The line of a species with ordinary transport data splits into seven words: the name, the
geometry index, and the well depth in K, the diameter in Å, the dipole moment in Debye, the
polarizability in cubic Å and the rotational relaxation number, to three decimals. -/
theorem C79_transport (s : Spec1 ℚ) (t : Transport ℚ) (hs : s.transport = some t) (hname : Word s.name)
    (hgeo : t.geometry ∈ ["atom".toList, "linear".toList, "nonlinear".toList])
    (h1 : 0 ≤ t.wellDepth / boltzmann ∧ t.wellDepth / boltzmann < 10 ^ 4)
    (h2 : 0 ≤ t.diameter * 10 ^ 10 ∧ t.diameter * 10 ^ 10 < 10 ^ 4)
    (h3 : 0 ≤ t.dipole / debyeConversion ∧ t.dipole / debyeConversion < 10 ^ 4)
    (h4 : 0 ≤ t.polar * 10 ^ 30 ∧ t.polar * 10 ^ 30 < 10 ^ 4) (h5 : 0 ≤ t.rot ∧ t.rot < 10 ^ 4) :
    ∃ l g w1 w2 w3 w4 w5, transportLine s = .ok (l ++ "\n".toList) ∧ '\n' ∉ l ∧
      words l = [s.name, g, w1, w2, w3, w4, w5] ∧
      (t.geometry = "atom".toList → g = "0".toList) ∧ (t.geometry = "linear".toList → g = "1".toList) ∧
      (t.geometry = "nonlinear".toList → g = "2".toList) ∧
      Reads w1 (t.wellDepth / boltzmann) (1 / 2000) ∧ Reads w2 (t.diameter * 10 ^ 10) (1 / 2000) ∧
      Reads w3 (t.dipole / debyeConversion) (1 / 2000) ∧ Reads w4 (t.polar * 10 ^ 30) (1 / 2000) ∧
      Reads w5 t.rot (1 / 2000) := by
  have hr : ∀ q, Reads (fmtFix 3 q) q (1 / 2000) := by
    intro q
    have := fmtFix_reads 3 q
    norm_num at this ⊢
    exact this
  -- a padded number is at least one blank and a word
  have hp : ∀ q : ℚ, 0 ≤ q ∧ q < 10 ^ 4 → ∃ k, padLeft 10 (fmtFix 3 q) =
      ' ' :: (List.replicate k ' ' ++ fmtFix 3 q) := by
    intro q hq
    have := fmtFix_length_nonneg (d := 3) (k := 4) (by norm_num) hq.1 hq.2
    refine ⟨9 - (fmtFix 3 q).length, ?_⟩
    unfold padLeft
    rw [← List.cons_append, ← List.replicate_succ]
    congr 2
    omega
  have hstep : ∀ (a : Text) (k : Nat) (w b : Text), words (a ++ (' ' :: (List.replicate k ' ' ++ w) ++ b)) =
      words a ++ words (w ++ b) := by
    intro a k w b
    rw [List.cons_append, words_blank _ _ rfl, List.append_assoc, words_blanks _ _ (by
      intro c hc
      rw [List.eq_of_mem_replicate hc]; rfl)]
  obtain ⟨g, hg, hgw, hg3⟩ : ∃ g, geometryText t.geometry = .ok g ∧ (g.length = 1 ∧ Word g) ∧
      (t.geometry = "atom".toList → g = "0".toList) ∧ (t.geometry = "linear".toList → g = "1".toList) ∧
      (t.geometry = "nonlinear".toList → g = "2".toList) := by
    simp only [List.mem_cons, List.not_mem_nil, or_false] at hgeo
    rcases hgeo with h | h | h <;> rw [h]
    · exact ⟨"0".toList, rfl, ⟨rfl, by decide, by decide⟩, by decide, by decide, by decide⟩
    · exact ⟨"1".toList, rfl, ⟨rfl, by decide, by decide⟩, by decide, by decide, by decide⟩
    · exact ⟨"2".toList, rfl, ⟨rfl, by decide, by decide⟩, by decide, by decide, by decide⟩
  have hgp : padLeft 4 g = ' ' :: (List.replicate 2 ' ' ++ g) := by
    unfold padLeft
    rw [hgw.1]
    rfl
  have hname2 : padRight 16 s.name = s.name ++ List.replicate (16 - s.name.length) ' ' := rfl
  refine ⟨padRight 16 s.name ++ (padLeft 4 g ++ (padLeft 10 (fmtFix 3 (t.wellDepth / boltzmann)) ++
    (padLeft 10 (fmtFix 3 (t.diameter * 10 ^ 10)) ++ (padLeft 10 (fmtFix 3 (t.dipole / debyeConversion)) ++
    (padLeft 10 (fmtFix 3 (t.polar * 10 ^ 30)) ++ (padLeft 10 (fmtFix 3 t.rot) ++ [])))))), g, _, _, _, _, _,
    ?_, ?_, ?_, hg3.1, hg3.2.1, hg3.2.2, hr _, hr _, hr _, hr _, hr _⟩
  · unfold transportLine
    rw [hs]
    simp only [hg, List.append_assoc, List.append_nil]
  · exact append_nonl (padRight_nonl hname.nonl) (append_nonl (padLeft_nonl hgw.2.nonl)
      (append_nonl (padLeft_nonl (fmtFix_word _ _).nonl) (append_nonl (padLeft_nonl (fmtFix_word _ _).nonl)
      (append_nonl (padLeft_nonl (fmtFix_word _ _).nonl) (append_nonl (padLeft_nonl (fmtFix_word _ _).nonl)
      (append_nonl (padLeft_nonl (fmtFix_word _ _).nonl) (by simp)))))))
  · obtain ⟨k1, e1⟩ := hp _ h1
    obtain ⟨k2, e2⟩ := hp _ h2
    obtain ⟨k3, e3⟩ := hp _ h3
    obtain ⟨k4, e4⟩ := hp _ h4
    obtain ⟨k5, e5⟩ := hp _ h5
    have hn : words (padRight 16 s.name) = [s.name] := by
      rw [hname2]
      cases hk : 16 - s.name.length with
      | zero => simp [words_word hname]
      | succ k =>
          rw [List.replicate_succ, words_cons_word hname rfl]
          have := words_blanks (List.replicate k ' ') [] (by
            intro c hc
            rw [List.eq_of_mem_replicate hc]; rfl)
          rw [List.append_nil] at this
          rw [this]
          rfl
    rw [hgp, e1, e2, e3, e4, e5, hstep, hstep, hstep, hstep, hstep, hstep, hn, List.append_nil,
      words_word hgw.2]
    simp only [words_word (fmtFix_word _ _)]
    rfl

example : (0 ≤ (1485 / 10 ^ 24 : ℚ) / boltzmann ∧ (1485 / 10 ^ 24 : ℚ) / boltzmann < 10 ^ 4) ∧
    Word ckSpecies.name := by
  refine ⟨⟨by norm_num [boltzmann], by norm_num [boltzmann]⟩, by decide, by decide⟩

example : ∃ t, transportLine ckSpecies = .ok t ∧
    t = "HO2                2   107.558     3.458     0.000     0.000     1.000\n".toList :=
  ⟨_, rfl, by decide +kernel⟩

/-! ## C80: what the file does not say -/

/-- Explicit reaction orders and the default efficiency of the third body are not written: changing
them leaves the text of the reaction as it is. -/
theorem C80_orders_refuted (rp : ℚ → Text) (names : List Text) (r : Rxn ℚ) :
    (∀ o, rxnText rp names { r with orders := o } = rxnText rp names r) ∧
    (∀ tb d, r.third = some tb →
      rxnText rp names { r with third := some { tb with dflt := d } } = rxnText rp names r) := by
  refine ⟨fun o => rfl, fun tb d h => ?_⟩
  have h1 : ({ r with third := some { tb with dflt := d } } : Rxn ℚ).rtype = r.rtype := by
    unfold Rxn.rtype
    simp only [h, Option.isSome_some]
  have h2 : mainRate { r with third := some { tb with dflt := d } } = mainRate r := by
    unfold mainRate
    rw [h1]
    rfl
  have h3 : auxLines rp { r with third := some { tb with dflt := d } } = auxLines rp r := by
    unfold auxLines
    rw [h1]
    rfl
  have h4 : efficiencyLine rp names { r with third := some { tb with dflt := d } } =
      efficiencyLine rp names r := by
    unfold efficiencyLine
    simp only [h]
  unfold rxnText
  rw [h2, h3, h4]

/-- Two models that differ in such data give the same file. -/
theorem C80_models_refuted (rp : ℚ → Text) : ∃ s s' : Soln ℚ, s.reactions ≠ s'.reactions ∧
    modelText rp s = modelText rp s' := by
  refine ⟨⟨"gas".toList, [], [], [ckFalloff]⟩, ⟨"gas".toList, [], [],
    [{ ckFalloff with orders := [("H".toList, 3 / 2)] }]⟩, ?_, ?_⟩
  · decide +kernel
  · have := (C80_orders_refuted rp [] ckFalloff).1 [("H".toList, 3 / 2)]
    unfold modelText
    simp only [List.map_nil, writeAll]
    rw [this]

/-! ## C81: Chebyshev coefficients -/

/-- The first Chebyshev coefficient is the logarithm of the rate coefficient; in the units of the
file it should be larger by `3(n - 1)` for a reaction of order `n`.  It is written unchanged. -/
theorem C81_units_refuted {rp : ℚ → Text} (hrp : ∀ q, Word (rp q)) (names : List Text) {r : Rxn ℚ}
    {n : Int} (hn : (r.reactants.map Prod.snd).sum = (n : ℚ)) (hne : n ≠ 1) (heq : '\n' ∉ r.eqn)
    (hth : r.third = none) {t p : ℚ × ℚ} {nP : Nat} {a : ℚ} {row : List ℚ} {data : List (List ℚ)}
    (hr : r.rate = .cheb t p nP ((a :: row) :: data)) (ha : |a| ≤ 1000000) :
    ∃ txt main l1 l2 l3 l4 rest w ws, rxnText rp names r = .ok txt ∧
      lines txt = main :: l1 :: l2 :: l3 :: l4 :: rest ∧
      words l4 = ["CHEB".toList, "/".toList, w] ++ ws ∧ Reads w a (|a| / 2000000) ∧
      ¬ Reads w (a + 3 * (n - 1)) 1 := by
  have hw : Writable r := by unfold Writable; rw [hr]; exact hth
  obtain ⟨txt, wa, wb, we, eff, aux, h1, h2, -, -, -, -, h7, h8⟩ := rxn_lines hrp names hn hw heq
    (by rw [hth]; intro tb h; cases h)
  have heff : eff = [] := by
    unfold EffLines at h7
    rw [hth] at h7
    exact h7
  unfold AuxLines at h8
  rw [hr] at h8
  obtain ⟨l1, l2, l3, rows, rfl, -, -, -, hrows⟩ := h8
  cases hrows with
  | cons hrow hrest =>
      rename_i l4 rows
      obtain ⟨ws, hws, hws2⟩ := hrow
      cases hws2 with
      | cons hw1 hw2 =>
          rename_i w ws
          have h2' : lines txt = (padRight 51 r.eqn ++ joinText sep2 [wa, wb, we]) :: l1 :: l2 :: l3 :: l4 ::
              (rows ++ (if r.dup then ["DUPLICATE".toList] else []) ++ [[]]) := by
            rw [h2, heff]
            simp only [List.nil_append, List.cons_append]
          refine ⟨txt, _, l1, l2, l3, l4, _, w, ws ++ ["/".toList], h1, h2', ?_, hw1, ?_⟩
          · rw [hws]
            simp only [List.nil_append, List.cons_append]
          · rintro ⟨v, hv1, hv2⟩
            obtain ⟨v', hv3, hv4⟩ := hw1
            rw [hv1, Option.some.injEq] at hv3
            subst hv3
            have h3 : (1 : ℚ) ≤ |((n : ℚ) - 1)| := by
              have : (1 : ℤ) ≤ |n - 1| := Int.one_le_abs (sub_ne_zero.2 hne)
              have h4 : ((1 : ℤ) : ℚ) ≤ ((|n - 1| : ℤ) : ℚ) := by exact_mod_cast this
              simpa using h4
            have h4 : |(3 : ℚ) * (n - 1)| = 3 * |((n : ℚ) - 1)| := by
              rw [abs_mul]; norm_num
            have h5 : |(3 : ℚ) * (n - 1)| ≤ |v - a| + |v - (a + 3 * (n - 1))| := by
              have : (3 : ℚ) * (n - 1) = (v - a) - (v - (a + 3 * (n - 1))) := by ring
              calc |(3 : ℚ) * (n - 1)| = |(v - a) - (v - (a + 3 * (n - 1)))| := by rw [← this]
                _ ≤ _ := abs_sub _ _
            have h6 : |a| / 2000000 ≤ 1 / 2 := by linarith
            linarith

/-- a bimolecular Chebyshev reaction -/
def ckCheb : Rxn ℚ where
  eqn := "CH3 + OH <=> CH2O + H2".toList
  reactants := [("CH3".toList, 1), ("OH".toList, 1)]
  products := [("CH2O".toList, 1), ("H2".toList, 1)]
  reversible := true
  orders := []
  dup := false
  rate := .cheb (300, 2000) (101325, 10132500) 2 [[8 / 1, 1 / 2], [1, -1 / 4]]
  third := none

example : (ckCheb.reactants.map Prod.snd).sum = ((2 : Int) : ℚ) ∧ '\n' ∉ ckCheb.eqn ∧
    ckCheb.rate = .cheb (300, 2000) (101325, 10132500) 2 ((8 / 1 :: [1 / 2]) :: [[1, -1 / 4]]) := by
  exact ⟨by decide +kernel, by decide, rfl⟩

/-! ## C54: the files of a conversion to Chemkin -/

/-- Converting `base.yaml` writes `base.inp` and `base_thermo.dat` in the output path, and
`base_transport.dat` exactly if every species has transport data; nothing else changes. -/
theorem C54_files {rp : ℚ → Text} {s : Soln ℚ} {fs fs' : Files} {base path : Text} {outs : List Text}
    (hb : ∃ c ∈ base, c ≠ '.') (hs : '/' ∉ base)
    (h : writeCk rp s fs (base ++ ".inp".toList) path false false = (.ok outs, fs')) :
    let inp := joinPath path (base ++ ".inp".toList)
    let thermo := joinPath path base ++ "_thermo.dat".toList
    let transport := joinPath path base ++ "_transport.dat".toList
    outs = [inp, thermo] ++ (if ∀ x ∈ s.species, x.transport ≠ none then [transport] else []) ∧
    fs' thermo = some (thermoText s.species).1 ∧
    ((∀ x ∈ s.species, x.transport ≠ none) → fs' transport = some (transportText s.species).1) ∧
    fs' inp = some (modelText rp s).1 ∧ (∀ g, g ∉ outs → fs' g = fs g) := by
  have hsp : (splitext (joinPath path (base ++ ".inp".toList))).1 = joinPath path base := by
    have := splitext_join (path := path) (ext := "inp".toList) hb hs (by decide)
    rw [show base ++ ".inp".toList = base ++ '.' :: "inp".toList from rfl, this]
  have hlen : joinPath path (base ++ ".inp".toList) = joinPath path base ++ ".inp".toList := by
    have := splitext_parts (joinPath path (base ++ '.' :: "inp".toList))
    rw [splitext_join (path := path) (ext := "inp".toList) hb hs (by decide)] at this
    exact this.symm
  have n1 : joinPath path base ++ ".inp".toList ≠ joinPath path base ++ "_thermo.dat".toList := by
    simp
  have n2 : joinPath path base ++ ".inp".toList ≠ joinPath path base ++ "_transport.dat".toList := by
    simp
  have n3 : joinPath path base ++ "_thermo.dat".toList ≠ joinPath path base ++ "_transport.dat".toList := by
    simp
  have hall : (s.species.all fun x => x.transport.isSome) = true ↔ ∀ x ∈ s.species, x.transport ≠ none := by
    rw [List.all_eq_true]
    refine forall₂_congr fun x _ => ?_
    rw [Option.isSome_iff_ne_none]
  have hne : base ++ ".inp".toList ≠ [] := by simp
  unfold writeCk at h
  simp only [if_neg hne, hsp, Bool.false_eq_true, if_false, Bool.not_false, Bool.true_and] at h
  rw [hlen] at h
  simp only
  rw [hlen]
  generalize joinPath path base ++ ".inp".toList = inp at *
  generalize joinPath path base ++ "_thermo.dat".toList = thermo at *
  generalize joinPath path base ++ "_transport.dat".toList = transport at *
  cases hm : (modelText rp s).2 with
  | some e => rw [hm] at h; simp at h
  | none =>
      rw [hm] at h
      simp only at h
      cases ht : (thermoText s.species).2 with
      | some e => rw [ht] at h; simp at h
      | none =>
          rw [ht] at h
          simp only at h
          by_cases ha : ∀ x ∈ s.species, x.transport ≠ none
          · rw [if_pos (hall.2 ha)] at h
            cases hx : (transportText s.species).2 with
            | some e => rw [hx] at h; simp at h
            | none =>
                rw [hx] at h
                simp only [Prod.mk.injEq, Except.ok.injEq] at h
                obtain ⟨rfl, rfl⟩ := h
                rw [if_pos ha]
                refine ⟨rfl, ?_, fun _ => ?_, ?_, fun g hg => ?_⟩
                · simp [Files.put, n3]
                · simp [Files.put]
                · simp [Files.put, n1, n2]
                · simp only [List.cons_append, List.nil_append, List.mem_cons, List.not_mem_nil, or_false,
                    not_or] at hg
                  simp [Files.put, hg.1, hg.2.1, hg.2.2]
          · rw [if_neg (by rwa [hall])] at h
            simp only [Prod.mk.injEq, Except.ok.injEq] at h
            obtain ⟨rfl, rfl⟩ := h
            rw [if_neg ha]
            refine ⟨rfl, ?_, fun h => absurd h ha, ?_, fun g hg => ?_⟩
            · simp [Files.put]
            · simp [Files.put, n1]
            · simp only [List.mem_cons, List.not_mem_nil, or_false, not_or] at hg
              simp [Files.put, hg.1, hg.2]

example : ∃ outs fs', writeCk (fmtFix 1) ⟨"gas".toList, ["H".toList, "O".toList], [ckSpecies], [ckLong]⟩
    (fun _ => none) "gas.inp".toList "out".toList false false = (.ok outs, fs') ∧
    outs = ["out/gas.inp".toList, "out/gas_thermo.dat".toList, "out/gas_transport.dat".toList] :=
  ⟨_, _, rfl, by decide +kernel⟩

end Verif
