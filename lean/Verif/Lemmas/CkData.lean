import Verif.Spec.CkData
import Verif.Props.CkFiles
/-!
# Reading the data of a reaction back from its lines
-/
namespace Verif
open Spec

/-- a line of efficiencies -/
def isEff (l : Text) : Bool :=
  match words l with
  | w :: _ => decide ('/' ∈ w)
  | [] => false

/-- the line `DUPLICATE` -/
def isDupl (l : Text) : Bool := decide (words l = ["DUPLICATE".toList])

/-- neither -/
def isAux (l : Text) : Bool := !isEff l && !isDupl l

/-- the keywords of auxiliary lines -/
def auxKeys : List Text := ["LOW", "HIGH", "TROE", "SRI", "PLOG", "TCHEB", "PCHEB", "CHEB"].map String.toList

theorem isAux_of_key {l key : Text} {ws : List Text} (h : words l = key :: ws) (hk : key ∈ auxKeys) :
    isAux l = true := by
  have h1 : '/' ∉ key ∧ key ≠ "DUPLICATE".toList := by
    have : ∀ k ∈ auxKeys, '/' ∉ k ∧ k ≠ "DUPLICATE".toList := by decide
    exact this key hk
  unfold isAux isEff isDupl
  rw [h]
  simp only [h1.1, decide_false, Bool.not_false, Bool.true_and, Bool.not_eq_true']
  rw [decide_eq_false_iff_not]
  intro h2
  exact h1.2 (List.cons.inj h2).1

theorem forall2_mem_left {α β} {R : α → β → Prop} {l : List α} {m : List β} (h : List.Forall₂ R l m)
    {a : α} (ha : a ∈ l) : ∃ b ∈ m, R a b := by
  induction h with
  | nil => simp at ha
  | cons h _ ih =>
      rcases List.mem_cons.1 ha with rfl | ha
      · exact ⟨_, by simp, h⟩
      · obtain ⟨b, hb, hr⟩ := ih ha
        exact ⟨b, by simp [hb], hr⟩

theorem auxLines_isAux {rp : ℚ → Text} {r : Rxn ℚ} {n : Int} {ls : List Text} (h : AuxLines rp r n ls) :
    ∀ l ∈ ls, isAux l = true := by
  unfold AuxLines at h
  split at h
  · rw [h]; simp
  · rename_i sub chem lo hi cs _
    obtain ⟨l, ps, rfl, ⟨ws, h1, -⟩, h2, h3⟩ := h
    intro l' hl'
    rcases List.mem_cons.1 hl' with rfl | hl'
    · refine isAux_of_key h1 ?_
      cases chem <;> decide
    · by_cases hc : cs = []
      · rw [h2 hc] at hl'; simp at hl'
      · obtain ⟨l2, rfl, h4⟩ := h3 hc
        rw [List.mem_singleton] at hl'
        subst hl'
        rcases h4 with ⟨-, h4, -⟩ | ⟨-, h4, -⟩
        · exact isAux_of_key h4 (by decide)
        · exact isAux_of_key h4 (by decide)
  · intro l hl
    obtain ⟨pk, -, ws, h1, -⟩ := forall2_mem_left h hl
    exact isAux_of_key h1 (by decide)
  · obtain ⟨l1, l2, l3, rows, rfl, h1, h2, ⟨a, b, h3, -⟩, h4⟩ := h
    intro l hl
    simp only [List.mem_cons] at hl
    rcases hl with rfl | rfl | rfl | hl
    · exact isAux_of_key h1 (by decide)
    · exact isAux_of_key h2 (by decide)
    · exact isAux_of_key h3 (by decide)
    · obtain ⟨row, -, ws, h5, -⟩ := forall2_mem_left h4 hl
      exact isAux_of_key h5 (by decide)

theorem effLines_isEff {rp : ℚ → Text} {names : List Text} {r : Rxn ℚ} {ls : List Text}
    (h : EffLines rp names r ls) : (∀ l ∈ ls, isEff l = true) ∧ (∀ l ∈ ls, isDupl l = false) ∧
      (keptEffs names r = [] → ls = []) ∧
      (keptEffs names r ≠ [] → ∃ l, ls = [l] ∧
        words l = (keptEffs names r).map fun kv => kv.1 ++ '/' :: (rp kv.2 ++ ['/'])) := by
  unfold EffLines at h
  unfold keptEffs
  split at h
  · rename_i h0
    rw [h, h0]; simp
  · rename_i tb h0
    rw [h0]
    simp only at h ⊢
    generalize tb.effs.filter (fun kv => decide (kv.1 ∈ names)) = kept at h ⊢
    refine ⟨?_, ?_, h.1, h.2⟩
    · intro l hl
      cases kept with
      | nil => rw [h.1 rfl] at hl; simp at hl
      | cons kv kept =>
          obtain ⟨l', rfl, h2⟩ := h.2 (by simp)
          rw [List.mem_singleton] at hl
          subst hl
          unfold isEff
          rw [h2]
          simp
    · intro l hl
      cases kept with
      | nil => rw [h.1 rfl] at hl; simp at hl
      | cons kv kept =>
          obtain ⟨l', rfl, h2⟩ := h.2 (by simp)
          rw [List.mem_singleton] at hl
          subst hl
          unfold isDupl
          rw [h2, decide_eq_false_iff_not]
          intro h3
          have h4 := (List.cons.inj h3).1
          have : '/' ∈ "DUPLICATE".toList := by rw [← h4]; simp
          revert this; decide

theorem filter_all {α} {p : α → Bool} {l : List α} (h : ∀ x ∈ l, p x = true) : l.filter p = l :=
  List.filter_eq_self.2 h

theorem filter_none {α} {p : α → Bool} {l : List α} (h : ∀ x ∈ l, p x = false) : l.filter p = [] := by
  rw [List.filter_eq_nil_iff]
  intro x hx; simp [h x hx]

/-- the three groups of lines after the main line can be told apart -/
theorem split_lines {eff aux eff' aux' : List Text} {d d' : Bool}
    (h : eff ++ aux ++ (if d then ["DUPLICATE".toList] else []) ++ [[]] =
      eff' ++ aux' ++ (if d' then ["DUPLICATE".toList] else []) ++ [[]])
    (he : ∀ l ∈ eff, isEff l = true) (he2 : ∀ l ∈ eff, isDupl l = false) (ha : ∀ l ∈ aux, isAux l = true)
    (he' : ∀ l ∈ eff', isEff l = true) (he2' : ∀ l ∈ eff', isDupl l = false)
    (ha' : ∀ l ∈ aux', isAux l = true) : eff = eff' ∧ aux = aux' ∧ d = d' := by
  have h := List.append_cancel_right h
  have key : ∀ (eff aux : List Text) (d : Bool), (∀ l ∈ eff, isEff l = true) → (∀ l ∈ eff, isDupl l = false) →
      (∀ l ∈ aux, isAux l = true) →
      (eff ++ aux ++ (if d then ["DUPLICATE".toList] else [])).filter isEff = eff ∧
      (eff ++ aux ++ (if d then ["DUPLICATE".toList] else [])).filter isAux = aux ∧
      (eff ++ aux ++ (if d then ["DUPLICATE".toList] else [])).filter isDupl =
        (if d then ["DUPLICATE".toList] else []) := by
    intro eff aux d h1 h2 h3
    have h4 : ∀ l ∈ eff, isAux l = false := by
      intro l hl; unfold isAux; rw [h1 l hl]; rfl
    have h5 : ∀ l ∈ aux, isEff l = false ∧ isDupl l = false := by
      intro l hl
      have := h3 l hl
      unfold isAux at this
      simpa using this
    have h6 : isEff "DUPLICATE".toList = false ∧ isAux "DUPLICATE".toList = false ∧
      isDupl "DUPLICATE".toList = true := by decide
    simp only [List.filter_append]
    rw [filter_all h1, filter_all h3, filter_none h4, filter_none h2, filter_none fun l hl => (h5 l hl).1,
      filter_none fun l hl => (h5 l hl).2]
    cases d
    · simp
    · refine ⟨?_, ?_, ?_⟩
      · rw [if_pos rfl, List.filter_cons, h6.1]; simp
      · rw [if_pos rfl, List.filter_cons, h6.2.1]; simp
      · rw [if_pos rfl, List.filter_cons, h6.2.2]; simp
  obtain ⟨a1, a2, a3⟩ := key eff aux d he he2 ha
  obtain ⟨b1, b2, b3⟩ := key eff' aux' d' he' he2' ha'
  rw [h] at a1 a2 a3
  refine ⟨a1.symm.trans b1, a2.symm.trans b2, ?_⟩
  have := a3.symm.trans b3
  cases d <;> cases d' <;> first | rfl | simp at this

theorem reads_close {w : Text} {a b ta tb : ℚ} (h : Reads w a ta) (h' : Reads w b tb) :
    |a - b| ≤ ta + tb := by
  obtain ⟨v, h1, h2⟩ := h
  obtain ⟨v', h3, h4⟩ := h'
  rw [h1, Option.some.injEq] at h3
  subst h3
  calc |a - b| = |(v - b) - (v - a)| := by congr 1; ring
    _ ≤ |v - b| + |v - a| := abs_sub _ _
    _ ≤ _ := by linarith

theorem rateWords_close {ws : List Text} {k k' : ArrRate ℚ} {m : Int} {tE tE' : ℚ}
    (h : RateWords ws (k.A * 1000 ^ m) k.b (k.E / 4184) tE)
    (h' : RateWords ws (k'.A * 1000 ^ m) k'.b (k'.E / 4184) tE') :
    CloseArr (4184 * (tE + tE')) k k' := by
  obtain ⟨wa, wb, we, rfl, h1, h2, h3⟩ := h
  obtain ⟨wa', wb', we', he, h1', h2', h3'⟩ := h'
  simp only [List.cons.injEq, and_true] at he
  obtain ⟨rfl, rfl, rfl⟩ := he
  have hp : (0 : ℚ) < 1000 ^ m := by positivity
  refine ⟨?_, ?_, ?_⟩
  · have := reads_close h1 h1'
    rw [abs_mul, abs_mul, abs_of_pos hp, ← sub_mul, abs_mul, abs_of_pos hp] at this
    have e : |k.A| * 1000 ^ m / 20000 + |k'.A| * 1000 ^ m / 20000 =
        (|k.A| + |k'.A|) / 20000 * 1000 ^ m := by ring
    rw [e] at this
    exact le_of_mul_le_mul_right this hp
  · have := reads_close h2 h2'
    linarith
  · have := reads_close h3 h3'
    rw [← sub_div, abs_div, abs_of_pos (by norm_num : (0 : ℚ) < 4184), div_le_iff₀ (by norm_num)] at this
    linarith

theorem rateWords_fix {ws : List Text} {k k' : ArrRate ℚ} {m : Int}
    (h : RateWords ws (k.A * 1000 ^ m) k.b (k.E / 4184) (1 / 200))
    (h' : RateWords ws (k'.A * 1000 ^ m) k'.b (k'.E / 4184) (1 / 200)) : CloseFix k k' := by
  have := rateWords_close h h'
  unfold CloseFix
  norm_num at this ⊢
  exact this

theorem rateWords_exp {ws : List Text} {k k' : ArrRate ℚ} {m : Int}
    (h : RateWords ws (k.A * 1000 ^ m) k.b (k.E / 4184) (|k.E / 4184| / 2000))
    (h' : RateWords ws (k'.A * 1000 ^ m) k'.b (k'.E / 4184) (|k'.E / 4184| / 2000)) : CloseExp k k' := by
  have := rateWords_close h h'
  unfold CloseExp
  rw [abs_div, abs_div, abs_of_pos (by norm_num : (0 : ℚ) < 4184)] at this
  have e : (4184 : ℚ) * (|k.E| / 4184 / 2000 + |k'.E| / 4184 / 2000) = (|k.E| + |k'.E|) / 2000 := by ring
  rwa [e] at this

theorem forall2_chain {α β γ} {R : γ → α → Prop} {S : γ → β → Prop} {T : α → β → Prop}
    (hT : ∀ c a b, R c a → S c b → T a b) : ∀ {l : List γ} {m : List α} {m' : List β},
    List.Forall₂ R l m → List.Forall₂ S l m' → List.Forall₂ T m m'
  | _, _, _, .nil, .nil => .nil
  | _, _, _, .cons h hs, .cons h' hs' => .cons (hT _ _ _ h h') (forall2_chain hT hs hs')

theorem enclosed_inj {ws ws' : List Text} {a b : List Text} {c : Text}
    (h : a ++ ws ++ [c] = b ++ ws' ++ [c]) (hl : a.length = b.length) : a = b ∧ ws = ws' :=
  List.append_inj (List.append_cancel_right h) hl

end Verif
