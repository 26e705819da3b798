import Verif.Lemmas.Ck
/-!
# What is written for one reaction
-/
namespace Verif
open Spec

/-- the name of a simple rate is not that of another kind of rate -/
def PlainKind (r : Rxn ℚ) : Prop :=
  ∀ kind k, r.rate = .simple kind k →
    kind ∉ ["Chebyshev".toList, "three-body-Arrhenius".toList,
      "pressure-dependent-Arrhenius".toList] ∧
    ¬ "falloff-".toList <+: kind ∧ ¬ "chemically-activated".toList <+: kind

theorem orderOf_int {r : Rxn ℚ} {n : Int} (h : (r.reactants.map Prod.snd).sum = (n : ℚ)) :
    orderOf r = n := by
  rw [orderOf, h, Int.floor_intCast]

theorem rate_fix' (A b E : ℚ) : RateWords [fmtExp 4 A, fmtFix 3 b, fmtFix 2 E] A b E (1 / 200) := by
  have := rate_fix A b E
  rwa [rateText_words _ _ _ (fmtExp_word _ _) (fmtFix_word _ _) (fmtFix_word _ _)] at this

theorem rate_exp' (A b E : ℚ) :
    RateWords [fmtExp 4 A, fmtFix 3 b, fmtExp 3 E] A b E (|E| / 2000) := by
  have := rate_exp A b E
  rwa [rateText_words _ _ _ (fmtExp_word _ _) (fmtFix_word _ _) (fmtExp_word _ _)] at this

theorem mainRate_ok {r : Rxn ℚ} {n : Int} (hw : Writable r) (hn : orderOf r = n) :
    ∃ wa wb we, mainRate r = .ok (joinText sep2 [wa, wb, we]) ∧ Word wa ∧ Word wb ∧ Word we ∧
      MainWords r n [wa, wb, we] := by
  unfold Writable at hw
  unfold MainWords mainRate Rxn.rtype
  rw [hn]
  cases hr : r.rate with
  | simple kind k =>
      rw [hr] at hw
      simp only at hw ⊢
      subst hw
      cases ht : r.third with
      | none =>
          simp only [Option.isSome_none, Bool.false_eq_true, if_false, List.nil_append]
          rw [if_pos (Or.inl trivial), arrhenius_plain k n (Or.inl rfl)]
          exact ⟨_, _, _, rfl, fmtExp_word _ _, fmtFix_word _ _, fmtFix_word _ _, rate_fix' _ _ _⟩
      | some tb =>
          simp only [Option.isSome_some, if_true]
          rw [if_pos (by decide)]
          rw [show "three-body-".toList ++ "Arrhenius".toList = "three-body-Arrhenius".toList from rfl,
            arrhenius_three k n]
          exact ⟨_, _, _, rfl, fmtExp_word _ _, fmtFix_word _ _, fmtFix_word _ _, rate_fix' _ _ _⟩
  | falloff sub chem lo hi cs =>
      cases chem with
      | false =>
          simp only
          rw [if_neg (by simp), if_pos (falloff_prefix sub)]
          have := falloff_rate hi n sub false
          simp only [Bool.false_eq_true, if_false] at this ⊢
          rw [this]
          exact ⟨_, _, _, rfl, fmtExp_word _ _, fmtFix_word _ _, fmtExp_word _ _, rate_exp' _ _ _⟩
      | true =>
          simp only
          rw [show "chemically-activated-".toList ++ sub = "chemically-activated".toList ++ ('-' :: sub)
            from rfl]
          rw [if_neg (by simp), if_neg (chem_not_falloff _), if_pos (chem_prefix _)]
          have := chem_rate lo n ('-' :: sub) true
          simp only [if_true] at this ⊢
          rw [this]
          exact ⟨_, _, _, rfl, fmtExp_word _ _, fmtFix_word _ _, fmtExp_word _ _, rate_exp' _ _ _⟩
  | plog rates =>
      rw [hr] at hw
      simp only at hw ⊢
      obtain ⟨h1, h2⟩ := hw
      cases rates with
      | nil => exact absurd rfl h2
      | cons pk rest =>
          obtain ⟨p, k⟩ := pk
          rw [h1]
          simp only [Option.isSome_none, Bool.false_eq_true, if_false, List.nil_append]
          rw [if_neg (by decide), if_neg (by decide), if_neg (by decide), if_neg (by decide),
            if_pos trivial, arrhenius_plain k n (Or.inr rfl)]
          exact ⟨_, _, _, rfl, fmtExp_word _ _, fmtFix_word _ _, fmtFix_word _ _, p, k, rest, rfl,
            rate_fix' _ _ _⟩
  | cheb t p nP data =>
      rw [hr] at hw
      simp only at hw ⊢
      rw [hw]
      simp only [Option.isSome_none, Bool.false_eq_true, if_false, List.nil_append]
      rw [if_neg (by decide), if_neg (by decide), if_neg (by decide), if_pos trivial]
      exact ⟨"1.0e0".toList, "0.0".toList, "0.0".toList, rfl, ⟨by decide, by decide⟩, ⟨by decide, by decide⟩,
        ⟨by decide, by decide⟩, rfl⟩

theorem mainRate_falloff {r : Rxn ℚ} {sub : Text} {chem : Bool} {lo hi : ArrRate ℚ} {cs : List ℚ}
    (hr : r.rate = .falloff sub chem lo hi cs) : ∃ j, mainRate r = .ok j := by
  unfold mainRate Rxn.rtype
  rw [hr]
  cases chem with
  | false =>
      simp only
      rw [if_neg (by simp), if_pos (falloff_prefix sub)]
      exact ⟨_, falloff_rate hi (orderOf r) sub false⟩
  | true =>
      simp only
      rw [show "chemically-activated-".toList ++ sub = "chemically-activated".toList ++ ('-' :: sub)
        from rfl]
      rw [if_neg (by simp), if_neg (chem_not_falloff _), if_pos (chem_prefix _)]
      exact ⟨_, chem_rate lo (orderOf r) ('-' :: sub) true⟩

theorem auxLines_falloff {rp : ℚ → Text} {r : Rxn ℚ} {sub : Text} {chem : Bool} {lo hi : ArrRate ℚ}
    {cs : List ℚ} {e : Err} (hr : r.rate = .falloff sub chem lo hi cs)
    (hf : falloffLine rp sub cs = .error e) : auxLines rp r = .error e := by
  unfold auxLines Rxn.rtype
  rw [hr]
  cases chem with
  | false =>
      simp only
      have := falloff_rate lo (orderOf r) sub true
      rw [if_pos rfl] at this
      rw [this, hf]
      rfl
  | true =>
      simp only
      have := chem_rate hi (orderOf r) ('-' :: sub) false
      rw [if_neg (by decide)] at this
      rw [show "chemically-activated-".toList ++ sub = "chemically-activated".toList ++ ('-' :: sub)
        from rfl, this, hf]
      rfl

theorem rxnText_falloff {rp : ℚ → Text} {r : Rxn ℚ} {sub : Text} {chem : Bool} {lo hi : ArrRate ℚ}
    {cs : List ℚ} {e : Err} (names : List Text) (hr : r.rate = .falloff sub chem lo hi cs)
    (hf : falloffLine rp sub cs = .error e) : rxnText rp names r = .error e := by
  obtain ⟨j, hj⟩ := mainRate_falloff hr
  unfold rxnText
  rw [hj, auxLines_falloff hr hf]

/-! ## Efficiencies -/

theorem word_append {a b : Text} (ha : Word a) (hb : ∀ c ∈ b, isBlank c = false) : Word (a ++ b) :=
  ⟨by simp [ha.1], fun c hc => (List.mem_append.1 hc).elim (ha.2 c) (hb c)⟩

theorem join_nonl {sep : Text} (hs : '\n' ∉ sep) : ∀ (ts : List Text), (∀ t ∈ ts, '\n' ∉ t) →
    '\n' ∉ joinText sep ts
  | [], _ => by simp [joinText]
  | [t], h => h t (by simp)
  | t :: u :: ts, h => append_nonl (append_nonl (h t (by simp)) hs)
      (join_nonl hs (u :: ts) fun x hx => h x (by simp [hx]))

theorem efficiency_ok {rp : ℚ → Text} (hrp : ∀ q, Word (rp q)) (names : List Text) {r : Rxn ℚ}
    (hth : ∀ tb, r.third = some tb → ∀ kv ∈ tb.effs, Word kv.1) :
    ∃ ls, efficiencyLine rp names r = unlinesText ls ∧ EffLines rp names r ls ∧
      ∀ l ∈ ls, '\n' ∉ l := by
  unfold efficiencyLine EffLines
  cases ht : r.third with
  | none => exact ⟨[], rfl, rfl, by simp⟩
  | some tb =>
      simp only
      have hword : ∀ t ∈ (tb.effs.filter fun kv => decide (kv.1 ∈ names)).map (fun kv =>
          kv.1 ++ "/".toList ++ rp kv.2 ++ "/".toList), Word t := by
        intro t h
        obtain ⟨kv, hkv, rfl⟩ := List.mem_map.1 h
        have h1 := hth tb ht kv (List.mem_filter.1 hkv).1
        refine word_append (word_append (word_append h1 (by decide)) (hrp _).2) (by decide)
      generalize hk : (tb.effs.filter fun kv => decide (kv.1 ∈ names)) = kept at hword ⊢
      have hw := words_join sep2_blanks _ hword
      by_cases he : kept = []
      · subst he
        exact ⟨[], rfl, ⟨fun _ => rfl, fun h => absurd rfl h⟩, by simp⟩
      · have hne : joinText sep2 (kept.map fun kv => kv.1 ++ "/".toList ++ rp kv.2 ++ "/".toList) ≠ [] := by
          intro h0
          rw [h0, words_nil] at hw
          exact he (List.map_eq_nil_iff.1 hw.symm)
        rw [if_neg hne]
        refine ⟨[joinText sep2 (kept.map fun kv => kv.1 ++ "/".toList ++ rp kv.2 ++ "/".toList)],
          by simp [unlinesText], ⟨fun h => absurd h he, fun _ => ⟨_, rfl, ?_⟩⟩, ?_⟩
        · rw [hw]
          refine List.map_congr_left fun kv _ => ?_
          simp
        · intro l hl
          obtain rfl := List.mem_singleton.1 hl
          exact join_nonl (by decide) _ fun t ht => (hword t ht).nonl

/-! ## Auxiliary lines -/

theorem words_enclosed (key : Text) (hk : Word key) {t : Text} (ws : List Text)
    (h : words t = ws) :
    words (key ++ " / ".toList ++ t ++ " /".toList) = [key, "/".toList] ++ ws ++ ["/".toList] := by
  have e : key ++ " / ".toList ++ t ++ " /".toList = (key ++ ' ' :: ('/' :: ' ' :: t)) ++ " /".toList := by
    simp
  rw [e, words_slash, words_cons_word hk rfl]
  have e2 : '/' :: ' ' :: t = "/".toList ++ ' ' :: t := rfl
  rw [e2, words_cons_word ⟨by decide, by decide⟩ rfl, h]
  rfl

theorem enclosed_nonl {key t : Text} (hk : '\n' ∉ key) (ht : '\n' ∉ t) :
    '\n' ∉ key ++ " / ".toList ++ t ++ " /".toList :=
  append_nonl (append_nonl (append_nonl hk (by decide)) ht) (by decide)

theorem falloff_ok {rp : ℚ → Text} (hrp : ∀ q, Word (rp q)) {sub : Text} {cs : List ℚ}
    (h : cs = [] ∨ (sub = "Troe".toList ∧ 4 ≤ cs.length) ∨ (sub = "SRI".toList ∧ 5 ≤ cs.length)) :
    ∃ ps, falloffLine rp sub cs = .ok (unlinesText ps) ∧ (cs = [] → ps = []) ∧
      (cs ≠ [] → ∃ l', ps = [l'] ∧
        ((sub = "Troe".toList ∧ words l' = ["TROE".toList, "/".toList] ++ (cs.take 4).map rp ++
            ["/".toList] ∧ 4 ≤ cs.length) ∨
          (sub = "SRI".toList ∧ words l' = ["SRI".toList, "/".toList] ++ (cs.take 5).map rp ++
            ["/".toList] ∧ 5 ≤ cs.length))) ∧ ∀ l ∈ ps, '\n' ∉ l := by
  unfold falloffLine
  by_cases he : cs = []
  · rw [if_pos he]
    exact ⟨[], rfl, fun _ => rfl, fun h => absurd he h, by simp⟩
  · rw [if_neg he]
    have hj : ∀ l : List ℚ, (∀ t ∈ l.map rp, Word t) := by
      intro l t ht
      obtain ⟨q, -, rfl⟩ := List.mem_map.1 ht
      exact hrp q
    rcases h.resolve_left he with ⟨rfl, hl⟩ | ⟨rfl, hl⟩
    · match cs, hl with
      | a :: b :: c :: d :: rest, hl =>
          have hw := words_join sep2_blanks ([a, b, c, d].map rp) (hj _)
          refine ⟨["TROE".toList ++ " / ".toList ++ joinText sep2 ([a, b, c, d].map rp) ++ " /".toList],
            ?_, fun h => absurd h he, fun _ => ⟨_, rfl, Or.inl ⟨rfl, ?_, hl⟩⟩, ?_⟩
          · simp [buildFalloff, unlinesText, joinText]
          · exact words_enclosed _ ⟨by decide, by decide⟩ _ hw
          · intro l h
            obtain rfl := List.mem_singleton.1 h
            exact enclosed_nonl (by decide) (join_nonl (by decide) _ fun t ht => (hj _ t ht).nonl)
    · match cs, hl with
      | a :: b :: c :: d :: e :: rest, hl =>
          have hw := words_join sep2_blanks ([a, b, c, d, e].map rp) (hj _)
          refine ⟨["SRI".toList ++ " / ".toList ++ joinText sep2 ([a, b, c, d, e].map rp) ++ " /".toList],
            ?_, fun h => absurd h he, fun _ => ⟨_, rfl, Or.inr ⟨rfl, ?_, hl⟩⟩, ?_⟩
          · simp [buildFalloff, unlinesText, joinText]
          · exact words_enclosed _ ⟨by decide, by decide⟩ _ hw
          · intro l h
            obtain rfl := List.mem_singleton.1 h
            exact enclosed_nonl (by decide) (join_nonl (by decide) _ fun t ht => (hj _ t ht).nonl)

theorem plog_ok {rp : ℚ → Text} (hrp : ∀ q, Word (rp q)) (n : Int) :
    ∀ rates : List (ℚ × ArrRate ℚ), ∃ ls, plogLines rp n rates = .ok (unlinesText ls) ∧
      List.Forall₂ (fun l pk => ∃ ws,
        words l = ["PLOG".toList, "/".toList, rp (pk.1 / 101325)] ++ ws ++ ["/".toList] ∧
        RateWords ws (pk.2.A * 1000 ^ (n - 1)) pk.2.b (pk.2.E / 4184) (1 / 200)) ls rates ∧
      ∀ l ∈ ls, '\n' ∉ l
  | [] => ⟨[], rfl, .nil, by simp⟩
  | (p, k) :: rates => by
      obtain ⟨ls, h1, h2, h3⟩ := plog_ok hrp n rates
      obtain ⟨wa, hwa, wb, hwb, we, hwe, hk, hr⟩ :
          ∃ wa, Word wa ∧ ∃ wb, Word wb ∧ ∃ we, Word we ∧
          buildArrhenius k n "pressure-dependent-Arrhenius".toList =
            .ok (joinText sep2 [wa, wb, we]) ∧
          RateWords [wa, wb, we] (k.A * 1000 ^ (n - 1)) k.b (k.E / 4184) (1 / 200) :=
        ⟨_, fmtExp_word _ _, _, fmtFix_word _ _, _, fmtFix_word _ _, arrhenius_plain k n (Or.inr rfl),
          rate_fix' _ _ _⟩
      have hw : words (rp (p / 101325) ++ " ".toList ++ joinText sep2 [wa, wb, we]) =
          [rp (p / 101325), wa, wb, we] := by
        have e : rp (p / 101325) ++ " ".toList ++ joinText sep2 [wa, wb, we] =
            rp (p / 101325) ++ ' ' :: joinText sep2 [wa, wb, we] := by simp
        rw [e, words_cons_word (hrp _) rfl, rateText_words _ _ _ hwa hwb hwe]
      refine ⟨("PLOG".toList ++ " / ".toList ++ (rp (p / 101325) ++ " ".toList ++
        joinText sep2 [wa, wb, we]) ++ " /".toList) :: ls, ?_, .cons ⟨[wa, wb, we], ?_, hr⟩ h2, ?_⟩
      · rw [plogLines, plogLine, hk, h1]
        simp [Except.map, unlinesText, oneAtm]
      · exact words_enclosed _ ⟨by decide, by decide⟩ _ hw
      · intro l hl
        rcases List.mem_cons.1 hl with rfl | hl
        · exact enclosed_nonl (by decide) (append_nonl (append_nonl (hrp _).nonl (by decide))
            (join3_nonl _ _ _ hwa hwb hwe))
        · exact h3 l hl

theorem chebRow (row : List ℚ) :
    (∃ ws, words ("CHEB".toList ++ " / ".toList ++ joinText " ".toList (row.map (fmtExp 6)) ++
      " /".toList) = ["CHEB".toList, "/".toList] ++ ws ++ ["/".toList] ∧
      List.Forall₂ (fun w c => Reads w c (|c| / 2000000)) ws row) ∧
    '\n' ∉ "CHEB".toList ++ " / ".toList ++ joinText " ".toList (row.map (fmtExp 6)) ++ " /".toList := by
  have hword : ∀ t ∈ row.map (fmtExp 6), Word t := by
    intro t ht
    obtain ⟨c, -, rfl⟩ := List.mem_map.1 ht
    exact fmtExp_word 6 c
  refine ⟨⟨row.map (fmtExp 6), words_enclosed _ ⟨by decide, by decide⟩ _
    (words_join ⟨by decide, by decide⟩ _ hword), ?_⟩, ?_⟩
  · rw [List.forall₂_map_left_iff, List.forall₂_same]
    intro c _
    have := fmtExp_reads 6 c
    norm_num at this ⊢
    exact this
  · exact enclosed_nonl (by decide) (join_nonl (by decide) _ fun t ht => (hword t ht).nonl)

theorem chebRows : ∀ data : List (List ℚ), ∃ rows, (data.map chebLine).flatten = unlinesText rows ∧
    List.Forall₂ (fun l row => ∃ ws, words l = ["CHEB".toList, "/".toList] ++ ws ++ ["/".toList] ∧
      List.Forall₂ (fun w c => Reads w c (|c| / 2000000)) ws row) rows data ∧ ∀ l ∈ rows, '\n' ∉ l
  | [] => ⟨[], rfl, .nil, by simp⟩
  | row :: data => by
      obtain ⟨rows, h1, h2, h3⟩ := chebRows data
      have h := chebRow row
      have e : chebLine row = "CHEB".toList ++ " / ".toList ++
          joinText " ".toList (row.map (fmtExp 6)) ++ " /".toList ++ ['\n'] := by
        unfold chebLine
        generalize joinText " ".toList (row.map (fmtExp 6)) = x
        simp
      generalize "CHEB".toList ++ " / ".toList ++ joinText " ".toList (row.map (fmtExp 6)) ++
        " /".toList = y at h e
      refine ⟨y :: rows, ?_, .cons h.1 h2, fun l hl => ?_⟩
      · rw [List.map_cons, List.flatten_cons, h1, unlines_cons, e]
        simp
      · rcases List.mem_cons.1 hl with rfl | hl
        · exact h.2
        · exact h3 l hl

theorem pairLine {rp : ℚ → Text} (hrp : ∀ q, Word (rp q)) (key : Text) (hk : Word key) (a b : ℚ) :
    words (key ++ " / ".toList ++ (rp a ++ sep2 ++ rp b) ++ " /".toList) =
      [key, "/".toList, rp a, rp b, "/".toList] ∧
    '\n' ∉ key ++ " / ".toList ++ (rp a ++ sep2 ++ rp b) ++ " /".toList := by
  have hw : words (rp a ++ sep2 ++ rp b) = [rp a, rp b] := by
    have := words_join sep2_blanks [rp a, rp b] (by
      intro t ht
      simp only [List.mem_cons, List.not_mem_nil, or_false] at ht
      rcases ht with rfl | rfl <;> exact hrp _)
    exact this
  exact ⟨words_enclosed key hk _ hw, enclosed_nonl hk.nonl (append_nonl (append_nonl (hrp _).nonl
    (by decide)) (hrp _).nonl)⟩

theorem auxLines_ok {rp : ℚ → Text} (hrp : ∀ q, Word (rp q)) {r : Rxn ℚ} {n : Int}
    (hw : Writable r) (hn : orderOf r = n) :
    ∃ ls, auxLines rp r = .ok (unlinesText ls) ∧ AuxLines rp r n ls ∧ ∀ l ∈ ls, '\n' ∉ l := by
  unfold Writable at hw
  unfold AuxLines auxLines Rxn.rtype
  rw [hn]
  cases hr : r.rate with
  | simple kind k => exact ⟨[], rfl, rfl, by simp⟩
  | falloff sub chem lo hi cs =>
      rw [hr] at hw
      obtain ⟨ps, hf, hp1, hp2, hp3⟩ := falloff_ok hrp hw
      cases chem with
      | false =>
          have hk := falloff_rate lo n sub true
          simp only [if_true] at hk
          simp only [Bool.false_eq_true, if_false]
          rw [hk]
          simp only [hf, Except.map]
          refine ⟨("LOW".toList ++ " / ".toList ++ joinText sep2 [fmtExp 4 (lo.A * 1000 ^ n), fmtFix 3 lo.b,
            fmtExp 3 (lo.E / 4184)] ++ " /".toList) :: ps, ?_, ⟨_, ps, rfl, ⟨_,
              words_enclosed _ ⟨by decide, by decide⟩ _ rfl, rate_exp _ _ _⟩, hp1, hp2⟩, ?_⟩
          · simp [unlinesText]
          · intro l hl
            rcases List.mem_cons.1 hl with rfl | hl
            · exact enclosed_nonl (by decide) (join3_nonl _ _ _ (fmtExp_word _ _) (fmtFix_word _ _)
                (fmtExp_word _ _))
            · exact hp3 l hl
      | true =>
          have hk := chem_rate hi n ('-' :: sub) false
          simp only [Bool.false_eq_true, if_false] at hk
          simp only [if_true]
          rw [show "chemically-activated-".toList ++ sub = "chemically-activated".toList ++ ('-' :: sub)
            from rfl, hk]
          simp only [hf, Except.map]
          refine ⟨("HIGH".toList ++ " / ".toList ++ joinText sep2 [fmtExp 4 (hi.A * 1000 ^ (n - 2)),
            fmtFix 3 hi.b, fmtExp 3 (hi.E / 4184)] ++ " /".toList) :: ps, ?_, ⟨_, ps, rfl, ⟨_,
              words_enclosed _ ⟨by decide, by decide⟩ _ rfl, rate_exp _ _ _⟩, hp1, hp2⟩, ?_⟩
          · simp [unlinesText]
          · intro l hl
            rcases List.mem_cons.1 hl with rfl | hl
            · exact enclosed_nonl (by decide) (join3_nonl _ _ _ (fmtExp_word _ _) (fmtFix_word _ _)
                (fmtExp_word _ _))
            · exact hp3 l hl
  | plog rates => exact plog_ok hrp n rates
  | cheb t p nP data =>
      obtain ⟨rows, h1, h2, h3⟩ := chebRows data
      have a1 := pairLine hrp "TCHEB".toList ⟨by decide, by decide⟩ t.1 t.2
      have a2 := pairLine hrp "PCHEB".toList ⟨by decide, by decide⟩ (p.1 / 101325) (p.2 / 101325)
      have hw3 : words (natText data.length ++ sep2 ++ natText nP) = [natText data.length, natText nP] :=
        words_join sep2_blanks [natText data.length, natText nP] (by
          intro t ht
          simp only [List.mem_cons, List.not_mem_nil, or_false] at ht
          rcases ht with rfl | rfl <;> exact natText_word _)
      have a3 := words_enclosed "CHEB".toList ⟨by decide, by decide⟩ _ hw3
      refine ⟨_ :: _ :: ("CHEB".toList ++ " / ".toList ++ (natText data.length ++ sep2 ++ natText nP) ++
        " /".toList) :: rows, ?_, ⟨_, _, _, rows, rfl, a1.1, a2.1, ⟨_, _, a3, ?_, ?_⟩, h2⟩, ?_⟩
      · simp only [h1]
        simp [unlinesText, oneAtm]
      · have := readDigits_nat data.length 0
        simpa using this
      · have := readDigits_nat nP 0
        simpa using this
      · intro l hl
        rcases List.mem_cons.1 hl with rfl | hl
        · exact a1.2
        rcases List.mem_cons.1 hl with rfl | hl
        · exact a2.2
        rcases List.mem_cons.1 hl with rfl | hl
        · exact enclosed_nonl (by decide) (append_nonl (append_nonl (natText_word _).nonl (by decide))
            (natText_word _).nonl)
        · exact h3 l hl

end Verif
