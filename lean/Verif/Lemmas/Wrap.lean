import Mathlib.Data.List.Chain
import Verif.Lemmas.Format
import Verif.Model.Ck
/-!
# Lemmas about words and wrapped text
-/
namespace Verif
open Spec

/-! ## Words -/

theorem wordsAux_blank : ∀ (a b cur : Text) {c : Char}, isBlank c = true →
    wordsAux cur (a ++ c :: b) = wordsAux cur a ++ words b
  | [], b, cur, c, h => by
      simp only [List.nil_append, wordsAux, h, if_true, words]
      split <;> rfl
  | x :: a, b, cur, c, h => by
      simp only [List.cons_append, wordsAux]
      split
      · split
        · exact wordsAux_blank a b [] h
        · rw [wordsAux_blank a b [] h, List.cons_append]
      · exact wordsAux_blank a b _ h

theorem words_blank (a b : Text) {c : Char} (h : isBlank c = true) :
    words (a ++ c :: b) = words a ++ words b := wordsAux_blank a b [] h

theorem words_cons_blank (b : Text) {c : Char} (h : isBlank c = true) :
    words (c :: b) = words b := by
  have := words_blank [] b h
  simpa [words, wordsAux] using this

theorem words_blanks : ∀ (w b : Text), (∀ c ∈ w, isBlank c = true) → words (w ++ b) = words b
  | [], _, _ => rfl
  | c :: w, b, h => by
      rw [List.cons_append, words_cons_blank _ (h c (by simp)),
        words_blanks w b fun x hx => h x (by simp [hx])]

theorem wordsAux_solid : ∀ (w cur : Text), (∀ c ∈ w, isBlank c = false) →
    wordsAux cur w = if cur ++ w = [] then [] else [cur ++ w]
  | [], cur, _ => by simp [wordsAux]
  | c :: w, cur, h => by
      rw [wordsAux, h c (by simp)]
      simp only [Bool.false_eq_true, if_false]
      rw [wordsAux_solid w _ fun x hx => h x (by simp [hx])]
      simp

theorem words_word {w : Text} (h : Word w) : words w = [w] := by
  rw [words, wordsAux_solid w [] h.2, List.nil_append, if_neg h.1]

theorem words_cons_word {w b : Text} {c : Char} (h : Word w) (hc : isBlank c = true) :
    words (w ++ c :: b) = w :: words b := by
  rw [words_blank _ _ hc, words_word h]; rfl

theorem words_nil : words [] = [] := rfl

/-! ## Chunks -/

/-- a run of blanks -/
def Blanks (t : Text) : Prop := t ≠ [] ∧ ∀ c ∈ t, c = ' '

/-- words and runs of blanks, no two words next to each other -/
structure Alt (cs : List Text) : Prop where
  each : ∀ c ∈ cs, Word c ∨ Blanks c
  chain : cs.IsChain fun a b => ¬ (Word a ∧ Word b)

theorem Spec.Word.not_blankChunk {t : Text} (h : Word t) : blankChunk t = false := by
  cases t with
  | nil => exact absurd rfl h.1
  | cons c t =>
      have := h.2 c (by simp)
      simp only [isBlank, Bool.or_eq_false_iff] at this
      simp [blankChunk, this.1]

theorem Blanks.blankChunk {t : Text} (h : Blanks t) : blankChunk t = true := by
  simp only [Verif.blankChunk, List.all_eq_true, beq_iff_eq]
  exact h.2

theorem Blanks.isBlank {t : Text} (h : Blanks t) : ∀ c ∈ t, isBlank c = true := by
  intro c hc
  rw [h.2 c hc]; rfl

/-- the words among the chunks -/
def realWords (cs : List Text) : List Text := cs.filter fun c => !blankChunk c

theorem Alt.infix {cs l : List Text} (h : Alt cs) (hl : l <:+: cs) : Alt l :=
  ⟨fun c hc => h.each c (hl.subset hc), h.chain.infix hl⟩

theorem words_flatten : ∀ (cs : List Text) (rest : Text), Alt cs →
    (rest = [] ∨ ∃ c r, rest = c :: r ∧ isBlank c = true) →
    words (cs.flatten ++ rest) = realWords cs ++ words rest
  | [], rest, _, _ => rfl
  | c :: cs, rest, h, hr => by
      have h1 : Alt cs := h.infix (List.infix_cons (List.infix_refl cs))
      rw [List.flatten_cons, List.append_assoc]
      rcases h.each c (by simp) with hc | hc
      · have hw : realWords (c :: cs) = c :: realWords cs := by
          simp [realWords, hc.not_blankChunk]
        rw [hw]
        have hb : cs.flatten ++ rest = [] ∨ ∃ d r, cs.flatten ++ rest = d :: r ∧ isBlank d = true := by
          cases cs with
          | nil => simpa using hr
          | cons d cs =>
              have hd := List.isChain_cons_cons.1 h.chain
              rcases h1.each d (by simp) with hd' | hd'
              · exact absurd ⟨hc, hd'⟩ hd.1
              · cases d with
                | nil => exact absurd rfl hd'.1
                | cons x d =>
                    exact Or.inr ⟨x, d ++ cs.flatten ++ rest, by simp, hd'.isBlank x (by simp)⟩
        have ih := words_flatten cs rest h1 hr
        rcases hb with hb | ⟨d, r, hb, hd⟩
        · rw [hb] at ih ⊢
          rw [List.append_nil, words_word hc, List.cons_append, ← ih]
          rfl
        · rw [hb] at ih ⊢
          rw [words_cons_word hc hd, List.cons_append, ← ih, words_cons_blank _ hd]
      · have hw : realWords (c :: cs) = realWords cs := by
          simp [realWords, hc.blankChunk]
        rw [hw, words_blanks _ _ hc.isBlank]
        exact words_flatten cs rest h1 hr

theorem words_lines : ∀ (ls : List (List Text)), (∀ l ∈ ls, Alt l) →
    words (joinText "\n".toList (ls.map List.flatten)) = (ls.map realWords).flatten
  | [], _ => rfl
  | [l], h => by
      have := words_flatten l [] (h l (by simp)) (Or.inl rfl)
      simpa [joinText, words_nil] using this
  | l :: k :: ls, h => by
      have ih := words_lines (k :: ls) fun x hx => h x (by simp [hx])
      have e : joinText "\n".toList ((l :: k :: ls).map List.flatten) =
          l.flatten ++ '\n' :: joinText "\n".toList ((k :: ls).map List.flatten) := by
        simp [joinText]
      rw [e, words_flatten l _ (h l (by simp)) (Or.inr ⟨_, _, rfl, rfl⟩),
        words_cons_blank _ rfl, ih]
      rfl

/-! ## One line -/

theorem takeLine_append (width : Nat) : ∀ (cs : List Text) (len : Nat),
    (takeLine width len cs).1 ++ (takeLine width len cs).2 = cs
  | [], _ => rfl
  | c :: cs, len => by
      rw [takeLine]
      split
      · simp only [List.cons_append]
        rw [takeLine_append width cs]
      · rfl

theorem takeLine_length (width : Nat) : ∀ (cs : List Text) (len : Nat), len ≤ width →
    len + (takeLine width len cs).1.flatten.length ≤ width
  | [], len, h => by simpa [takeLine] using h
  | c :: cs, len, h => by
      rw [takeLine]
      split
      · rename_i h1
        have := takeLine_length width cs (len + c.length) h1
        simp only [List.flatten_cons, List.length_append]
        omega
      · simpa using h

theorem takeLine_progress (width : Nat) {c : Text} {cs : List Text}
    (h : (takeLine width 0 (c :: cs)).1 = []) : width < c.length := by
  rw [takeLine] at h
  split at h
  · cases h
  · omega

theorem realWords_append (a b : List Text) : realWords (a ++ b) = realWords a ++ realWords b := by
  simp [realWords]

theorem realWords_dropLast {l : List Text} {c : Text} (h : l.getLast? = some c)
    (hc : blankChunk c = true) : realWords l.dropLast = realWords l := by
  obtain ⟨k, rfl⟩ : ∃ k, l = k ++ [c] := by
    refine ⟨l.dropLast, ?_⟩
    have hne : l ≠ [] := by rintro rfl; cases h
    have := List.dropLast_append_getLast hne
    rw [List.getLast?_eq_getLast_of_ne_nil hne] at h
    rw [← Option.some.inj h]
    exact this.symm
  rw [List.dropLast_concat, realWords_append]
  simp [realWords, hc]

/-- the chunks without a leading blank one -/
def dropLead (started : Bool) : List Text → List Text
  | [] => []
  | c :: r => if started && blankChunk c then r else c :: r

/-- One pass puts an initial part of the chunks on a line, leaves a final part and drops only
blanks; the line fits or is a single chunk; at least one chunk is used up. -/
theorem wrapStep_spec (width : Nat) (started : Bool) {cs : List Text} (hne : cs ≠ []) :
    (wrapStep width started cs).1 <:+: cs ∧ (wrapStep width started cs).2 <:+: cs ∧
    realWords (wrapStep width started cs).1 ++ realWords (wrapStep width started cs).2 =
      realWords cs ∧
    ((wrapStep width started cs).1.flatten.length ≤ width ∨
      ∃ c, (wrapStep width started cs).1 = [c] ∧ blankChunk c = false) ∧
    (wrapStep width started cs).2.length < cs.length := by
  -- after dropping a leading blank
  obtain ⟨cs1, hcs1, hsuf, hw, hlen⟩ : ∃ cs1, cs1 = dropLead started cs ∧ cs1 <:+ cs ∧
      realWords cs1 = realWords cs ∧ (cs1 = cs ∨ cs1.length < cs.length) := by
    refine ⟨_, rfl, ?_⟩
    cases cs with
    | nil => exact absurd rfl hne
    | cons c r =>
        simp only [dropLead]
        by_cases hb : (started && blankChunk c) = true
        · rw [if_pos hb]
          simp only [Bool.and_eq_true] at hb
          exact ⟨List.suffix_cons c r, by simp [realWords, hb.2], Or.inr (by simp)⟩
        · rw [if_neg hb]
          exact ⟨List.suffix_refl _, rfl, Or.inl rfl⟩
  -- the chunks that fit, or one that is too long
  obtain ⟨lr2, hlr2, happ, hfit, hprog⟩ : ∃ lr2 : List Text × List Text,
      lr2 = (match (takeLine width 0 cs1).2 with
        | [] => takeLine width 0 cs1
        | d :: ds => if width < d.length ∧ (takeLine width 0 cs1).1 = [] then ([d], ds)
            else takeLine width 0 cs1) ∧
      lr2.1 ++ lr2.2 = cs1 ∧ (lr2.1.flatten.length ≤ width ∨ ∃ c, lr2.1 = [c]) ∧
      (cs1 ≠ [] → lr2.1 ≠ []) := by
    refine ⟨_, rfl, ?_⟩
    have h1 := takeLine_append width cs1 0
    have h2 := takeLine_length width cs1 0 (Nat.zero_le _)
    have h3 : cs1 ≠ [] → (takeLine width 0 cs1).1 = [] → ∃ d ds, (takeLine width 0 cs1).2 = d :: ds ∧
        width < d.length := by
      intro hc he
      cases cs1 with
      | nil => exact absurd rfl hc
      | cons d ds =>
          refine ⟨d, ds, ?_, takeLine_progress width he⟩
          rw [he] at h1
          exact h1
    set lr := takeLine width 0 cs1
    cases h4 : lr.2 with
    | nil =>
        simp only
        refine ⟨h1, Or.inl (by omega), fun hc he => ?_⟩
        obtain ⟨d, ds, h5, -⟩ := h3 hc he
        rw [h4] at h5
        cases h5
    | cons d ds =>
        simp only
        by_cases hl : width < d.length ∧ lr.1 = []
        · rw [if_pos hl]
          refine ⟨?_, Or.inr ⟨d, rfl⟩, fun _ => by simp⟩
          rw [hl.2, h4] at h1
          exact h1
        · rw [if_neg hl]
          refine ⟨h1, Or.inl (by omega), fun hc he => ?_⟩
          obtain ⟨d', ds', h5, h6⟩ := h3 hc he
          rw [h4] at h5
          cases h5
          exact hl ⟨h6, he⟩
  -- dropping a trailing blank
  have hstep : wrapStep width started cs = ((match lr2.1.getLast? with
    | none => lr2.1
    | some c => if blankChunk c then lr2.1.dropLast else lr2.1), lr2.2) := by
    rw [hlr2, hcs1]
    rfl
  have hline : ∃ line, (match lr2.1.getLast? with
      | none => lr2.1
      | some c => if blankChunk c then lr2.1.dropLast else lr2.1) = line ∧ line <+: lr2.1 ∧
      realWords line = realWords lr2.1 ∧
      (line.flatten.length ≤ width ∨ ∃ c, line = [c] ∧ blankChunk c = false) := by
    refine ⟨_, rfl, ?_⟩
    cases hg : lr2.1.getLast? with
    | none =>
        simp only
        have : lr2.1 = [] := List.getLast?_eq_none_iff.1 hg
        exact ⟨List.prefix_refl _, by simp [this], Or.inl (by simp [this])⟩
    | some c =>
        simp only
        have hsub : lr2.1.dropLast <+: lr2.1 := List.dropLast_prefix _
        by_cases hb : blankChunk c = true
        · rw [if_pos hb]
          refine ⟨hsub, realWords_dropLast hg hb, Or.inl ?_⟩
          rcases hfit with hf | ⟨d, hd⟩
          · obtain ⟨t, ht⟩ := hsub
            rw [← ht] at hf
            simp only [List.flatten_append, List.length_append] at hf
            omega
          · rw [hd]; simp
        · rw [if_neg hb]
          refine ⟨List.prefix_refl _, rfl, ?_⟩
          rcases hfit with hf | ⟨d, hd⟩
          · exact Or.inl hf
          · rw [hd] at hg
            simp only [List.getLast?_singleton, Option.some.injEq] at hg
            subst hg
            exact Or.inr ⟨d, hd, by simpa using hb⟩
  obtain ⟨line, hl0, hl1, hl2, hl3⟩ := hline
  rw [hstep, hl0]
  refine ⟨?_, ?_, ?_, hl3, ?_⟩
  · obtain ⟨t, ht⟩ := hl1
    obtain ⟨p, hp⟩ := hsuf
    exact ⟨p, t ++ lr2.2, by rw [← hp, ← happ, ← ht]; simp⟩
  · obtain ⟨p, hp⟩ := hsuf
    exact ⟨p ++ lr2.1, [], by rw [← hp, ← happ]; simp⟩
  · rw [hl2, ← realWords_append, happ, hw]
  · rcases hlen with hlen | hlen
    · have h1 := hprog (by rw [hlen]; exact hne)
      have h2 := congrArg List.length happ
      rw [hlen, List.length_append] at h2
      have h3 : 0 < lr2.1.length := List.length_pos_iff.2 h1
      show lr2.2.length < cs.length
      omega
    · have h2 := congrArg List.length happ
      rw [List.length_append] at h2
      show lr2.2.length < cs.length
      omega

theorem wrapLines_spec (width : Nat) : ∀ (n : Nat) (started : Bool) (cs : List Text), Alt cs →
    cs.length ≤ n →
    (∀ l ∈ wrapLines width n started cs, Alt l ∧ (l.flatten.length ≤ width ∨
      ∃ c ∈ realWords cs, l = [c])) ∧
    ((wrapLines width n started cs).map realWords).flatten = realWords cs
  | 0, started, cs, _, hn => by
      obtain rfl := List.length_eq_zero_iff.1 (Nat.le_zero.1 hn)
      exact ⟨by simp [wrapLines], rfl⟩
  | n + 1, started, [], _, _ => ⟨by simp [wrapLines], rfl⟩
  | n + 1, started, c :: cs, ha, hn => by
      have hs := wrapStep_spec width started (cs := c :: cs) (by simp)
      set s := wrapStep width started (c :: cs) with hsdef
      obtain ⟨h1, h2, h3, h4, h5⟩ := hs
      have hlt : s.2.length ≤ n := by omega
      have hw : wrapLines width (n + 1) started (c :: cs) =
          if s.1 = [] then wrapLines width n started s.2 else s.1 :: wrapLines width n true s.2 := rfl
      rw [hw]
      have hmem : ∀ x ∈ realWords s.2, x ∈ realWords (c :: cs) := fun x hx => by
        rw [← h3]; exact List.mem_append_right _ hx
      by_cases he : s.1 = []
      · rw [if_pos he]
        have ih := wrapLines_spec width n started s.2 (ha.infix h2) hlt
        refine ⟨fun l hl => ⟨(ih.1 l hl).1, (ih.1 l hl).2.imp id fun ⟨x, hx, h⟩ => ⟨x, hmem x hx, h⟩⟩, ?_⟩
        rw [ih.2, ← h3, he]; rfl
      · rw [if_neg he]
        have ih := wrapLines_spec width n true s.2 (ha.infix h2) hlt
        refine ⟨fun l hl => ?_, ?_⟩
        · rcases List.mem_cons.1 hl with rfl | hl
          · refine ⟨ha.infix h1, h4.imp id fun ⟨x, hx, hb⟩ => ⟨x, ?_, hx⟩⟩
            rw [← h3, hx]
            simp [realWords, hb]
          · exact ⟨(ih.1 l hl).1, (ih.1 l hl).2.imp id fun ⟨x, hx, h⟩ => ⟨x, hmem x hx, h⟩⟩
        · rw [List.map_cons, List.flatten_cons, ih.2, h3]

/-! ## The chunks of a joined list of names -/

/-- names with double blanks between them -/
def interNames : List Text → List Text
  | [] => []
  | [t] => [t]
  | t :: ts => t :: sep2 :: interNames ts

theorem chunksAux_run : ∀ (w cur rest : Text) (b : Bool), (∀ c ∈ w, (c == ' ') = b) → w ≠ [] →
    (∀ l, cur.getLast? = some l → (l == ' ') = b) →
    chunksAux cur (w ++ rest) = chunksAux (cur ++ w) rest
  | [], _, _, _, _, h, _ => absurd rfl h
  | c :: w, cur, rest, b, hw, _, hc => by
      have hcb := hw c (by simp)
      have step : chunksAux cur (c :: w ++ rest) = chunksAux (cur ++ [c]) (w ++ rest) := by
        rw [List.cons_append, chunksAux]
        cases hg : cur.getLast? with
        | none =>
            have : cur = [] := List.getLast?_eq_none_iff.1 hg
            simp [this]
        | some l =>
            simp only
            rw [if_pos]
            rw [hc l hg, hcb]
      rw [step]
      cases w with
      | nil => simp
      | cons d w =>
          rw [chunksAux_run (d :: w) (cur ++ [c]) rest b (fun x hx => hw x (by simp [hx])) (by simp)]
          · simp
          · intro l hl
            simp only [List.getLast?_append, List.getLast?_singleton, Option.some_or,
              Option.some.injEq] at hl
            rw [← hl]; exact hcb

theorem chunksAux_switch {cur : Text} {c : Char} {rest : Text} {l : Char}
    (hl : cur.getLast? = some l) (h : (l == ' ') ≠ (c == ' ')) :
    chunksAux cur (c :: rest) = cur :: chunksAux [c] rest := by
  rw [chunksAux, hl]
  simp only
  rw [if_neg h]

theorem Spec.Word.noBlank {t : Text} (h : Word t) : ∀ c ∈ t, (c == ' ') = false := by
  intro c hc
  have := h.2 c hc
  simp only [isBlank, Bool.or_eq_false_iff] at this
  exact this.1

theorem getLast?_of_ne {t : Text} (h : t ≠ []) : ∃ l, t.getLast? = some l ∧ l ∈ t :=
  ⟨t.getLast h, List.getLast?_eq_getLast_of_ne_nil h, List.getLast_mem h⟩

theorem chunks_join : ∀ (ns : List Text), (∀ n ∈ ns, Word n) →
    chunks (joinText sep2 ns) = interNames ns
  | [], _ => rfl
  | [t], h => by
      have ht := h t (by simp)
      have := chunksAux_run t [] [] false ht.noBlank ht.1 (by simp)
      simp only [List.append_nil, List.nil_append] at this
      show chunksAux [] t = [t]
      rw [this]
      simp [chunksAux, ht.1]
  | t :: u :: ts, h => by
      have ht := h t (by simp)
      have hu := h u (by simp)
      have ih := chunks_join (u :: ts) fun n hn => h n (by simp [hn])
      have e : joinText sep2 (t :: u :: ts) = t ++ (sep2 ++ joinText sep2 (u :: ts)) := by
        simp [joinText]
      show chunksAux [] (joinText sep2 (t :: u :: ts)) = t :: sep2 :: interNames (u :: ts)
      rw [e, chunksAux_run t [] _ false ht.noBlank ht.1 (by simp), List.nil_append]
      obtain ⟨l, hl, hlm⟩ := getLast?_of_ne ht.1
      have hl' := ht.noBlank l hlm
      rw [show sep2 ++ joinText sep2 (u :: ts) = ' ' :: ([' '] ++ joinText sep2 (u :: ts)) from rfl]
      rw [chunksAux_switch hl (by rw [hl']; decide)]
      rw [chunksAux_run [' '] [' '] _ true (by simp) (by simp) (by simp)]
      -- the next name starts with a character that is not blank
      have hhead : ∃ c r, joinText sep2 (u :: ts) = c :: r ∧ (c == ' ') = false := by
        cases u with
        | nil => exact absurd rfl hu.1
        | cons c u =>
            refine ⟨c, ?_⟩
            cases ts with
            | nil => exact ⟨u, rfl, hu.noBlank c (by simp)⟩
            | cons v ts => exact ⟨u ++ sep2 ++ joinText sep2 (v :: ts), by simp [joinText],
                hu.noBlank c (by simp)⟩
      obtain ⟨c, r, hj, hc⟩ := hhead
      have h1 : chunksAux [] (joinText sep2 (u :: ts)) = interNames (u :: ts) := ih
      rw [hj] at h1 ⊢
      have h2 : chunksAux [] (c :: r) = chunksAux [c] r := by simp [chunksAux]
      rw [h2] at h1
      rw [chunksAux_switch (l := ' ') rfl (by rw [hc]; decide), h1]
      rfl

theorem sep2_blanks : Blanks sep2 := ⟨by decide, by decide⟩

theorem interNames_alt : ∀ (ns : List Text), (∀ n ∈ ns, Word n) → Alt (interNames ns)
  | [], _ => ⟨by simp [interNames], by simp [interNames]⟩
  | [t], h => ⟨by
      intro c hc
      obtain rfl := List.mem_singleton.1 hc
      exact Or.inl (h c (by simp)), by simp [interNames]⟩
  | t :: u :: ts, h => by
      have ih := interNames_alt (u :: ts) fun n hn => h n (by simp [hn])
      have hs : ¬ Word sep2 := fun hw => by
        have h1 := hw.not_blankChunk
        rw [sep2_blanks.blankChunk] at h1
        cases h1
      refine ⟨?_, ?_⟩
      · intro c hc
        simp only [interNames, List.mem_cons] at hc
        rcases hc with rfl | rfl | hc
        · exact Or.inl (h c (by simp))
        · exact Or.inr sep2_blanks
        · exact ih.each c hc
      · show List.IsChain _ (t :: sep2 :: interNames (u :: ts))
        refine List.isChain_cons_cons.2 ⟨fun hw => hs hw.2, ?_⟩
        cases hi : interNames (u :: ts) with
        | nil => simp
        | cons c cs =>
            have hc := ih.chain
            rw [hi] at hc
            exact List.isChain_cons_cons.2 ⟨fun hw => hs hw.1, hc⟩

theorem interNames_words : ∀ (ns : List Text), (∀ n ∈ ns, Word n) → realWords (interNames ns) = ns
  | [], _ => rfl
  | [t], h => by simp [interNames, realWords, (h t (by simp)).not_blankChunk]
  | t :: u :: ts, h => by
      have ih := interNames_words (u :: ts) fun n hn => h n (by simp [hn])
      have e : interNames (t :: u :: ts) = [t, sep2] ++ interNames (u :: ts) := rfl
      rw [e, realWords_append, ih]
      simp [realWords, (h t (by simp)).not_blankChunk, sep2_blanks.blankChunk]

/-! ## Lines -/

theorem linesAux_nonl : ∀ (t cur : Text), '\n' ∉ t → linesAux cur t = [cur ++ t]
  | [], cur, _ => by simp [linesAux]
  | c :: t, cur, h => by
      have hc : c ≠ '\n' := fun e => h (by simp [e])
      rw [linesAux, if_neg hc, linesAux_nonl t _ fun e => h (by simp [e])]
      simp

theorem linesAux_nl : ∀ (t cur rest : Text), '\n' ∉ t →
    linesAux cur (t ++ '\n' :: rest) = (cur ++ t) :: lines rest
  | [], cur, rest, _ => by simp [linesAux, lines]
  | c :: t, cur, rest, h => by
      have hc : c ≠ '\n' := fun e => h (by simp [e])
      rw [List.cons_append, linesAux, if_neg hc, linesAux_nl t _ rest fun e => h (by simp [e])]
      simp

theorem lines_nl {t rest : Text} (h : '\n' ∉ t) : lines (t ++ '\n' :: rest) = t :: lines rest :=
  linesAux_nl t [] rest h

theorem lines_nonl {t : Text} (h : '\n' ∉ t) : lines t = [t] := linesAux_nonl t [] h

theorem lines_join : ∀ (ls : List Text), ls ≠ [] → (∀ l ∈ ls, '\n' ∉ l) →
    lines (joinText "\n".toList ls) = ls
  | [], h, _ => absurd rfl h
  | [t], _, h => lines_nonl (h t (by simp))
  | t :: u :: ts, _, h => by
      have e : joinText "\n".toList (t :: u :: ts) = t ++ '\n' :: joinText "\n".toList (u :: ts) := by
        simp [joinText]
      rw [e, lines_nl (h t (by simp)), lines_join (u :: ts) (by simp) fun l hl => h l (by simp [hl])]

theorem Alt.no_nl {cs : List Text} (h : Alt cs) : '\n' ∉ cs.flatten := by
  intro hm
  obtain ⟨c, hc, hn⟩ := List.mem_flatten.1 hm
  rcases h.each c hc with hw | hb
  · have := hw.2 _ hn
    simp [isBlank] at this
  · exact absurd (hb.2 _ hn) (by decide)

end Verif
