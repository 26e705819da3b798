import Verif.Lemmas.CkData
import Verif.Lemmas.Repr
/-!
# Properties of Chemkin output: what the file determines (C80, C81)
-/
namespace Verif
open Spec

theorem map_of_map {α β γ} {f : α → β} {g : α → γ} (h : ∀ x y, f x = f y → g x = g y) :
    ∀ {l m : List α}, l.map f = m.map f → l.map g = m.map g
  | [], [], _ => rfl
  | [], _ :: _, h' => by simp at h'
  | _ :: _, [], h' => by simp at h'
  | a :: l, b :: m, h' => by
      simp only [List.map_cons, List.cons.injEq] at h' ⊢
      exact ⟨h a b h'.1, map_of_map h h'.2⟩

/-- from the same auxiliary lines and the same main line: the same rate up to the digits printed -/
theorem same_rate {rp : ℚ → Text} {rnd : ℚ → ℚ} (hinj : ∀ x y, rp x = rp y → rnd x = rnd y) {r r' : Rxn ℚ} {n : Int}
    (hw : Writable r) (hw' : Writable r') (hth : r.third.isSome = r'.third.isSome) {ws aux : List Text}
    (hm : MainWords r n ws) (hm' : MainWords r' n ws) (ha : AuxLines rp r n aux)
    (ha' : AuxLines rp r' n aux) : SameRate rnd r.rate r'.rate := by
  unfold AuxLines at ha ha'
  unfold MainWords at hm hm'
  unfold Writable at hw hw'
  rcases hr : r.rate with ⟨kind, k⟩ | ⟨sub, chem, lo, hi, cs⟩ | ⟨rates⟩ | ⟨t, p, nP, data⟩ <;>
    rcases hr' : r'.rate with ⟨kind', k'⟩ | ⟨sub', chem', lo', hi', cs'⟩ | ⟨rates'⟩ | ⟨t', p', nP', data'⟩ <;>
    rw [hr] at ha hm hw <;> rw [hr'] at ha' hm' hw' <;> unfold SameRate <;>
    simp only at ha ha' hm hm' hw hw' ⊢
  · -- simple
    refine ⟨hw.trans hw'.symm, ?_⟩
    rw [hth] at hm
    exact rateWords_fix hm hm'
  · obtain ⟨l, ps, h, -⟩ := ha'
    rw [ha] at h; cases h
  · rw [ha] at ha'; cases ha'; exact hw'.2 rfl
  · obtain ⟨l1, l2, l3, rows, h, -⟩ := ha'
    rw [ha] at h; cases h
  · obtain ⟨l, ps, h, -⟩ := ha
    rw [ha'] at h; cases h
  · -- falloff
    obtain ⟨l, ps, rfl, ⟨ws1, h1, h2⟩, h3, h4⟩ := ha
    obtain ⟨l', ps', he, ⟨ws1', h1', h2'⟩, h3', h4'⟩ := ha'
    cases he
    rw [h1] at h1'
    have hh := enclosed_inj h1' rfl
    have hch : chem = chem' := by
      have := (List.cons.inj hh.1).1
      revert this
      cases chem <;> cases chem' <;> decide
    obtain ⟨-, rfl⟩ := hh
    subst hch
    have hlohi : CloseExp lo lo' ∧ CloseExp hi hi' := by
      cases chem
      · exact ⟨rateWords_exp h2 h2', rateWords_exp hm hm'⟩
      · exact ⟨rateWords_exp hm hm', rateWords_exp h2 h2'⟩
    have hnil : cs = [] ↔ cs' = [] := by
      constructor
      · intro h
        by_contra h'
        obtain ⟨l2, h5, -⟩ := h4' h'
        rw [h3 h] at h5; cases h5
      · intro h'
        by_contra h
        obtain ⟨l2, h5, -⟩ := h4 h
        rw [h3' h'] at h5; cases h5
    refine ⟨rfl, hlohi.1, hlohi.2, hnil, fun hne => ?_⟩
    obtain ⟨l2, h5, h6⟩ := h4 hne
    obtain ⟨l2', h5', h6'⟩ := h4' (fun h => hne (hnil.2 h))
    rw [h5] at h5'
    cases h5'
    have key : ∀ {a b : Text} {x y : List Text}, [a, "/".toList] ++ x ++ ["/".toList] =
        [b, "/".toList] ++ y ++ ["/".toList] → a = b ∧ x = y := by
      intro a b x y h
      have := enclosed_inj h rfl
      exact ⟨(List.cons.inj this.1).1, this.2⟩
    have hmap : ∀ {x y : List ℚ}, x.map rp = y.map rp → x.map rnd = y.map rnd := map_of_map hinj
    rcases h6 with ⟨s1, w1, -⟩ | ⟨s1, w1, -⟩ <;> rcases h6' with ⟨s2, w2, -⟩ | ⟨s2, w2, -⟩ <;>
      rw [w1] at w2 <;> have hk := key w2
    · exact ⟨s1.trans s2.symm, .inl ⟨s1, hmap hk.2⟩⟩
    · exact absurd hk.1 (by decide)
    · exact absurd hk.1 (by decide)
    · exact ⟨s1.trans s2.symm, .inr ⟨s1, hmap hk.2⟩⟩
  · obtain ⟨l, ps, rfl, ⟨ws1, h1, -⟩, -⟩ := ha
    cases ha' with
    | cons h _ =>
        obtain ⟨ws2, h2, -⟩ := h
        rw [h1] at h2
        have := (List.cons.inj h2).1
        revert this
        cases chem <;> decide
  · obtain ⟨l, ps, rfl, ⟨ws1, h1, -⟩, -⟩ := ha
    obtain ⟨l1, l2, l3, rows, he, h2, -⟩ := ha'
    cases he
    rw [h1] at h2
    have := (List.cons.inj h2).1
    revert this
    cases chem <;> decide
  · rw [ha'] at ha; cases ha; exact hw.2 rfl
  · obtain ⟨l, ps, rfl, ⟨ws1, h1, -⟩, -⟩ := ha'
    cases ha with
    | cons h _ =>
        obtain ⟨ws2, h2, -⟩ := h
        rw [h1] at h2
        have := (List.cons.inj h2).1
        revert this
        cases chem' <;> decide
  · -- P-log
    refine forall2_chain ?_ ha ha'
    rintro l pk pk' ⟨ws1, h1, h2⟩ ⟨ws1', h1', h2'⟩
    rw [h1] at h1'
    obtain ⟨h3, rfl⟩ := enclosed_inj h1' rfl
    refine ⟨?_, rateWords_fix h2 h2'⟩
    simp only [List.cons.injEq, true_and, and_true] at h3
    exact hinj _ _ h3
  · obtain ⟨l1, l2, l3, rows, rfl, h2, -⟩ := ha'
    cases ha with
    | cons h _ =>
        obtain ⟨ws2, h3, -⟩ := h
        rw [h2] at h3
        have := (List.cons.inj h3).1
        revert this
        decide
  · obtain ⟨l1, l2, l3, rows, h, -⟩ := ha
    rw [ha'] at h; cases h
  · obtain ⟨l, ps, rfl, ⟨ws1, h1, -⟩, -⟩ := ha'
    obtain ⟨l1, l2, l3, rows, he, h2, -⟩ := ha
    cases he
    rw [h1] at h2
    have := (List.cons.inj h2).1
    revert this
    cases chem' <;> decide
  · obtain ⟨l1, l2, l3, rows, rfl, h2, -⟩ := ha
    cases ha' with
    | cons h _ =>
        obtain ⟨ws2, h3, -⟩ := h
        rw [h2] at h3
        have := (List.cons.inj h3).1
        revert this
        decide
  · -- Chebyshev
    obtain ⟨l1, l2, l3, rows, rfl, h1, h2, ⟨a, b, h3, h4, h5⟩, h6⟩ := ha
    obtain ⟨l1', l2', l3', rows', he, h1', h2', ⟨a', b', h3', h4', h5'⟩, h6'⟩ := ha'
    cases he
    rw [h1] at h1'
    rw [h2] at h2'
    rw [h3] at h3'
    simp only [List.cons.injEq, true_and, and_true] at h1' h2' h3'
    obtain ⟨rfl, rfl⟩ := h3'
    rw [h5, Option.some.injEq] at h5'
    refine ⟨hinj _ _ h1'.1, hinj _ _ h1'.2, hinj _ _ h2'.1, hinj _ _ h2'.2, h5', ?_⟩
    refine forall2_chain ?_ h6 h6'
    rintro l row row' ⟨ws1, h7, h8⟩ ⟨ws1', h7', h8'⟩
    rw [h7] at h7'
    obtain ⟨-, rfl⟩ := enclosed_inj h7' rfl
    refine forall2_chain ?_ h8 h8'
    intro w c c' hc hc'
    have := reads_close hc hc'
    linarith

theorem effWord_inj {a a' x x' : Text} (hx : '/' ∉ x) (hx' : '/' ∉ x')
    (h : a ++ '/' :: (x ++ ['/']) = a' ++ '/' :: (x' ++ ['/'])) : a = a' ∧ x = x' := by
  have h1 : (a ++ '/' :: x) ++ ['/'] = (a' ++ '/' :: x') ++ ['/'] := by simpa using h
  have h2 := congrArg List.reverse (List.append_cancel_right h1)
  have h3 : x.reverse ++ '/' :: a.reverse = x'.reverse ++ '/' :: a'.reverse := by simpa using h2
  have key : ∀ (p q : Text) (s t : Text), '/' ∉ p → '/' ∉ q → p ++ '/' :: s = q ++ '/' :: t → p = q ∧ s = t := by
    intro p
    induction p with
    | nil =>
        intro q s t _ hq h
        cases q with
        | nil => simpa using h
        | cons c q =>
            have := (List.cons.inj h).1
            subst this; simp at hq
    | cons c p ih =>
        intro q s t hp hq h
        cases q with
        | nil =>
            have := (List.cons.inj h).1
            subst this; simp at hp
        | cons d q =>
            obtain ⟨rfl, h'⟩ := List.cons.inj h
            simp only [List.mem_cons, not_or] at hp hq
            obtain ⟨rfl, rfl⟩ := ih q s t hp.2 hq.2 h'
            exact ⟨rfl, rfl⟩
  obtain ⟨e1, e2⟩ := key _ _ _ _ (by simpa using hx) (by simpa using hx') h3
  exact ⟨List.reverse_injective e2, List.reverse_injective e1⟩

/-- Reactions written alike agree, for any way to print numbers that tells apart what `rnd` does. -/
theorem written_alike {rp : ℚ → Text} {rnd : ℚ → ℚ} (hrp : ∀ q, Word (rp q)) (hsl : ∀ q, '/' ∉ rp q)
    (hinj : ∀ x y, rp x = rp y → rnd x = rnd y) (names : List Text) {r r' : Rxn ℚ} {n : Int} {t : Text}
    (h : rxnText rp names r = .ok t) (h' : rxnText rp names r' = .ok t)
    (hw : Writable r) (hw' : Writable r') (heqn : r.eqn = r'.eqn) (hnl : '\n' ∉ r.eqn)
    (hre : r.reactants = r'.reactants) (hn : (r.reactants.map Prod.snd).sum = (n : ℚ))
    (hth : r.third.isSome = r'.third.isSome)
    (he : ∀ tb, r.third = some tb → ∀ kv ∈ tb.effs, Word kv.1)
    (he' : ∀ tb, r'.third = some tb → ∀ kv ∈ tb.effs, Word kv.1) :
    r.dup = r'.dup ∧ (keptEffs names r).map (fun kv => (kv.1, rnd kv.2)) =
      (keptEffs names r').map (fun kv => (kv.1, rnd kv.2)) ∧ SameRate rnd r.rate r'.rate := by
  obtain ⟨t1, wa, wb, we, eff, aux, h1, h2, h3, h4, h5, h6, h7, h8⟩ := rxn_lines hrp names hn hw hnl he
  obtain ⟨t2, wa', wb', we', eff', aux', h1', h2', h3', h4', h5', h6', h7', h8'⟩ :=
    rxn_lines hrp names (hre ▸ hn) hw' (heqn ▸ hnl) he'
  rw [h] at h1
  rw [h'] at h1'
  obtain rfl := Except.ok.inj h1
  obtain rfl := Except.ok.inj h1'
  rw [h2, heqn] at h2'
  obtain ⟨hmain, hrest⟩ := List.cons.inj h2'
  have hwords : [wa, wb, we] = [wa', wb', we'] := by
    have := congrArg words (List.append_cancel_left hmain)
    rwa [rateText_words _ _ _ h3 h4 h5, rateText_words _ _ _ h3' h4' h5'] at this
  obtain ⟨e1, e2, e3, e4⟩ := effLines_isEff h7
  obtain ⟨e1', e2', e3', e4'⟩ := effLines_isEff h7'
  obtain ⟨rfl, rfl, hd⟩ := split_lines hrest e1 e2 (auxLines_isAux h8) e1' e2' (auxLines_isAux h8')
  rw [← hwords] at h6'
  refine ⟨hd, ?_, same_rate hinj hw hw' hth h6 h6' h8 h8'⟩
  by_cases hk : keptEffs names r = []
  · by_cases hk' : keptEffs names r' = []
    · rw [hk, hk']
    · obtain ⟨l, h9, -⟩ := e4' hk'
      rw [e3 hk] at h9; cases h9
  · by_cases hk' : keptEffs names r' = []
    · obtain ⟨l, h9, -⟩ := e4 hk
      rw [e3' hk'] at h9; cases h9
    · obtain ⟨l, h9, h10⟩ := e4 hk
      obtain ⟨l', h9', h10'⟩ := e4' hk'
      rw [h9] at h9'
      cases h9'
      rw [h10] at h10'
      refine map_of_map ?_ h10'
      rintro ⟨a, x⟩ ⟨b, y⟩ hxy
      obtain ⟨ha, hb⟩ := effWord_inj (hsl x) (hsl y) hxy
      rw [Prod.mk.injEq]
      exact ⟨ha, hinj _ _ hb⟩

/-- The part of C80 that holds.  If two reactions with the same equation, the same reactants and
both or neither with a third body are written alike, then both or neither are duplicates, the
efficiencies of species of the model are the same floats, and the rates are of the same class with
the same data, up to the digits printed. -/
theorem C80_written_partial (names : List Text) {r r' : Rxn ℚ} {n : Int} {t : Text}
    (h : rxnText pyRepr names r = .ok t) (h' : rxnText pyRepr names r' = .ok t)
    (hw : Writable r) (hw' : Writable r') (heqn : r.eqn = r'.eqn) (hnl : '\n' ∉ r.eqn)
    (hre : r.reactants = r'.reactants) (hn : (r.reactants.map Prod.snd).sum = (n : ℚ))
    (hth : r.third.isSome = r'.third.isSome)
    (he : ∀ tb, r.third = some tb → ∀ kv ∈ tb.effs, Word kv.1)
    (he' : ∀ tb, r'.third = some tb → ∀ kv ∈ tb.effs, Word kv.1) :
    r.dup = r'.dup ∧ (keptEffs names r).map (fun kv => (kv.1, rnd754 kv.2)) =
      (keptEffs names r').map (fun kv => (kv.1, rnd754 kv.2)) ∧ SameRate rnd754 r.rate r'.rate :=
  written_alike pyRepr_word pyRepr_slash (fun _ _ => pyRepr_inj) names h h' hw hw' heqn hnl hre hn hth he he'

/-- two different rates that are written alike -/
example (rp : ℚ → Text) (names : List Text) : ∃ t, rxnText rp names ckLong = .ok t ∧
    rxnText rp names { ckLong with rate := .simple "Arrhenius".toList ⟨2 * 10 ^ 9 + 1, 0, 0⟩ } = .ok t := by
  have h : mainRate { ckLong with rate := .simple "Arrhenius".toList ⟨2 * 10 ^ 9 + 1, 0, 0⟩ } =
    mainRate ckLong := by decide +kernel
  have h2 : ∃ a, mainRate ckLong = .ok a := ⟨"2.0000e+12  0.000  0.00".toList, by decide +kernel⟩
  obtain ⟨a, h2⟩ := h2
  rw [h2] at h
  unfold rxnText
  rw [h, h2]
  exact ⟨_, rfl, rfl⟩

/-! ## C81: Chebyshev coefficients -/

theorem forall2_get {α β} {R : α → β → Prop} {l : List α} {m : List β} (h : List.Forall₂ R l m) :
    ∀ (i : Nat) (b : β), m[i]? = some b → ∃ a, l[i]? = some a ∧ R a b := by
  induction h with
  | nil => intro i b hb; simp at hb
  | cons h _ ih =>
      intro i b hb
      cases i with
      | zero =>
          simp only [List.getElem?_cons_zero, Option.some.injEq] at hb ⊢
          subst hb
          exact ⟨_, rfl, h⟩
      | succ i => simpa using ih i b (by simpa using hb)

theorem chebConverted_get (n : Int) (data : List (List ℚ)) (i j : Nat) (row : List ℚ) (c : ℚ)
    (hrow : (chebConverted n data)[i]? = some row) (hc : row[j]? = some c) (h : i = 0 → j = 0 → n = 1) :
    ∃ row', data[i]? = some row' ∧ row'[j]? = some c := by
  unfold chebConverted at hrow
  split at hrow
  · rename_i a r d
    cases i with
    | succ i => exact ⟨row, by simpa using hrow, hc⟩
    | zero =>
        simp only [List.getElem?_cons_zero, Option.some.injEq] at hrow
        subst hrow
        refine ⟨a :: r, rfl, ?_⟩
        cases j with
        | succ j => simpa using hc
        | zero =>
            obtain rfl := h rfl rfl
            simpa using hc
  · exact ⟨row, hrow, hc⟩

/-- The part of C81 that holds: in the lines of a Chebyshev reaction each coefficient in the units of
the file stands in its place, except the first one, and that one too for reactions of order one. -/
theorem C81_others_partial {rp : ℚ → Text} (hrp : ∀ q, Word (rp q)) (names : List Text) {r : Rxn ℚ}
    {n : Int} (hn : (r.reactants.map Prod.snd).sum = (n : ℚ)) (heq : '\n' ∉ r.eqn)
    (hth : r.third = none) {t p : ℚ × ℚ} {nP : Nat} {data : List (List ℚ)}
    (hr : r.rate = .cheb t p nP data) :
    ∃ txt main l1 l2 l3 rows rest, rxnText rp names r = .ok txt ∧
      lines txt = main :: l1 :: l2 :: l3 :: (rows ++ rest) ∧ rows.length = data.length ∧
      ∀ (i j : Nat) row c, (chebConverted n data)[i]? = some row → row[j]? = some c →
        (i = 0 → j = 0 → n = 1) →
        ∃ l w, rows[i]? = some l ∧ (words l)[j + 2]? = some w ∧ Reads w c (|c| / 2000000) := by
  have hw : Writable r := by unfold Writable; rw [hr]; exact hth
  obtain ⟨txt, wa, wb, we, eff, aux, h1, h2, -, -, -, -, h7, h8⟩ := rxn_lines hrp names hn hw heq
    (by rw [hth]; intro tb h; cases h)
  have heff : eff = [] := by
    unfold EffLines at h7
    rw [hth] at h7
    exact h7
  unfold AuxLines at h8
  rw [hr] at h8
  obtain ⟨l1, l2, l3, rows, rfl, -, -, -, hrows⟩ := h8
  refine ⟨txt, padRight 51 r.eqn ++ joinText sep2 [wa, wb, we], l1, l2, l3, rows,
    (if r.dup then ["DUPLICATE".toList] else []) ++ [[]], h1, ?_, hrows.length_eq, ?_⟩
  · rw [h2, heff]; simp only [List.nil_append, List.cons_append, List.append_assoc]
  intro i j row c hrow hc hij
  obtain ⟨row', h3, h4⟩ := chebConverted_get n data i j row c hrow hc hij
  obtain ⟨l, h5, ws, h6, h9⟩ := forall2_get hrows i row' h3
  obtain ⟨w, h10, h11⟩ := forall2_get h9 j c h4
  refine ⟨l, w, h5, ?_, h11⟩
  rw [h6, List.append_assoc, List.getElem?_append_right (by simp)]
  simp only [List.length_cons, List.length_nil]
  rw [show j + 2 - (0 + 1 + 1) = j by omega]
  rw [List.getElem?_append_left]
  · exact h10
  · exact (List.getElem?_eq_some_iff.1 h10).1

/-- coefficient of the second row and the second column -/
example : (chebConverted 2 [[8 / 1, 1 / 2], [1, -1 / 4]])[1]? = some [(1 : ℚ), -1 / 4] ∧
    (chebConverted 2 [[8 / 1, 1 / 2], [1, -1 / 4]])[0]? = some [(11 : ℚ), 1 / 2] := by decide +kernel

end Verif
