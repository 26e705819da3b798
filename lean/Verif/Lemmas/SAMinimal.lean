import Verif.Lemmas.SA
/-!
# Which species could still be removed where a greedy analysis ends
-/
namespace Verif
open Spec

/-- an error `y` that is at least as far from `x` as an error above the limit `L`, `x` being within
the limit, is above the limit or below `2 x - L` -/
theorem nearest_over {x L : ℚ} (hx : x ≤ L) {e y : PyF} (he : PyF.lt (.fin L) e = true)
    (h : ((e.sub (.fin x)).abs).le ((y.sub (.fin x)).abs) = true) :
    PyF.lt (.fin L) y = true ∨ y.lt (.fin (2 * x - L)) = true := by
  rcases e with e | _ | _ | _
  · rcases y with y | _ | _ | _
    · simp only [PyF.lt, decide_eq_true_eq] at he ⊢
      simp only [PyF.sub, PyF.neg, PyF.add, PyF.abs, PyF.le, decide_eq_true_eq] at h
      rw [abs_of_nonneg (show 0 ≤ e + -x by linarith)] at h
      rcases le_total 0 (y + -x) with h0 | h0
      · rw [abs_of_nonneg h0] at h
        left; linarith
      · rw [abs_of_nonpos h0] at h
        right; linarith
    · exact Or.inl rfl
    · exact Or.inr rfl
    · simp [PyF.sub, PyF.neg, PyF.add, PyF.abs, PyF.le] at h
  · rcases y with y | _ | _ | _
    · simp [PyF.sub, PyF.neg, PyF.add, PyF.abs, PyF.le] at h
    · exact Or.inl rfl
    · exact Or.inr rfl
    · simp [PyF.sub, PyF.neg, PyF.add, PyF.abs, PyF.le] at h
  · simp [PyF.lt] at he
  · simp [PyF.lt] at he

theorem mem_eraseIdx_of_ne {α} [DecidableEq α] {l : List α} {i : Nat} {a b : α} (ha : l[i]? = some a)
    (hb : b ∈ l) (h : b ≠ a) : b ∈ l.eraseIdx i := by
  obtain ⟨j, hj, rfl⟩ := List.mem_iff_getElem.1 hb
  rw [List.mem_eraseIdx_iff_getElem?]
  refine ⟨j, ?_, by simp [hj]⟩
  rintro rfl
  rw [List.getElem?_eq_getElem hj] at ha
  cases ha
  exact h rfl

/-- the state in which a greedy course ends -/
theorem Spec.Course.ends {c : SACtx} {initial : List PyF} {base m : Mech} {e : PyF}
    {limbo acc : List String} {mf : Mech} {ef : PyF} {rest : List String}
    (h : Course c initial base m e limbo acc mf ef rest) (hg : c.greedy = true) (hb : base = m)
    (hd : c.dist = fun e cur => (e.sub cur).abs) {L x : ℚ} (hL : c.limit = .fin L) (hx : ef = .fin x)
    (hxL : x ≤ L) {sp : String} (hs : sp ∈ limbo) (ha : sp ∉ acc) :
    ∃ y, saErr c initial (without c mf sp) = .ok y ∧
      (PyF.lt (.fin L) y = true ∨ y = .nan ∨ y.lt (.fin (2 * x - L)) = true) := by
  have ind : ∀ {base : Mech} {limbo : List String} {errs : List PyF}, Induced c initial base limbo errs →
      ∀ sp ∈ limbo, ∃ y ∈ errs, saErr c initial (without c base sp) = .ok y := by
    intro base limbo errs hi
    unfold Induced at hi
    induction hi with
    | nil => intro sp hsp; simp at hsp
    | cons h1 _ ih =>
      intro sp hsp
      rcases List.mem_cons.1 hsp with rfl | hsp
      · exact ⟨_, by simp, h1⟩
      · obtain ⟨y, h2, h3⟩ := ih sp hsp
        exact ⟨y, by simp [h2], h3⟩
  induction h with
  | done => simp at hs
  | @reject base m e limbo errs i sp0 e' hi hn hs0 he hl =>
    subst hb hx
    obtain ⟨y, hy, hye⟩ := ind hi sp hs
    refine ⟨y, hye, ?_⟩
    obtain ⟨e0, h0, H⟩ := hn
    have he0 : e0 = e' := by
      have h1 := List.forall₂_iff_get.1 hi
      obtain ⟨hi1, h2⟩ := List.getElem?_eq_some_iff.1 hs0
      obtain ⟨hi2, h3⟩ := List.getElem?_eq_some_iff.1 h0
      have h4 := h1.2 i hi1 hi2
      simp only [List.get_eq_getElem] at h4
      rw [h2, h3, he] at h4
      cases h4
      rfl
    subst he0
    rw [hL] at hl
    rw [hd] at H
    rcases H with ⟨h5, -⟩ | ⟨-, h5, -⟩
    · exfalso
      cases e0 <;> simp [PyF.sub, PyF.neg, PyF.add, PyF.abs, PyF.lt] at h5 hl
    · rcases nearest_over hxL hl (h5 y hy) with h6 | h6
      · exact Or.inl h6
      · exact Or.inr (Or.inr h6)
  | @accept base m e limbo errs i sp0 e' acc mf ef rest hi hn hs0 he hl hg' next ih =>
    rw [if_pos hg] at ih
    refine ih rfl hx (mem_eraseIdx_of_ne hs0 hs ?_) (fun h => ha (by simp [h]))
    rintro rfl
    simp at ha
  | @last base m e limbo errs i sp0 e' errs' x' hi hn hs0 he hl hg' hi' hx' hlx =>
    have hne : sp ≠ sp0 := by
      rintro rfl
      simp at ha
    obtain ⟨y, hy, hye⟩ := ind hi' sp (mem_eraseIdx_of_ne hs0 hs hne)
    refine ⟨y, hye, ?_⟩
    rw [hL] at hlx
    by_cases hyn : y = .nan
    · exact Or.inr (Or.inl hyn)
    · left
      rcases hx'.2 with ⟨-, h1⟩ | ⟨-, -, h1⟩
      · rw [h1] at hlx
        cases hlx
      · have := h1 y hy hyn
        cases x' <;> cases y <;> simp [PyF.lt, PyF.le] at hlx this ⊢
        linarith

/-- with positive originals the error is never negative -/
theorem calculateError_nonneg {os : List ℚ} {test : List PyF} (ho : ∀ o ∈ os, 0 < o) {e : PyF}
    (h : calculateError (os.map .fin) test = .ok e) : e.lt (.fin 0) = false := by
  have hb : ∀ {a b : List PyF} {ps : List (PyF × PyF)}, broadcast a b = .ok ps → ∀ p ∈ ps, p.1 ∈ a := by
    intro a b ps h p hp
    unfold broadcast at h
    split_ifs at h with hl
    · cases h
      exact (List.of_mem_zip hp).1
    · split at h
      · cases h
        obtain ⟨y, -, rfl⟩ := List.mem_map.1 hp
        simp
      · cases h
        obtain ⟨y, hy, rfl⟩ := List.mem_map.1 hp
        exact hy
      · cases h
  have hrel : ∀ o : ℚ, 0 < o → ∀ y : PyF, (relDev (.fin o, y)).lt (.fin 0) = false := by
    intro o ho y
    have ho' : ¬ o < 0 := by linarith
    cases y with
    | fin y =>
      have : 0 ≤ |o + -y| / o := by positivity
      simp [relDev, PyF.sub, PyF.neg, PyF.add, PyF.abs, PyF.div, ho.ne', PyF.lt, this]
    | _ => simp [relDev, PyF.sub, PyF.neg, PyF.add, PyF.abs, PyF.div, PyF.sgn, PyF.ofSign,
      ho.ne', ho', PyF.lt]
  have hfold : ∀ (l : List PyF) (a : PyF), a.lt (.fin 0) = false → (∀ x ∈ l, x.lt (.fin 0) = false) →
      (l.foldl PyF.nmax a).lt (.fin 0) = false := by
    intro l
    induction l with
    | nil => intro a ha _; exact ha
    | cons x l ih =>
      intro a ha hl
      rw [List.foldl_cons]
      refine ih _ ?_ (fun y hy => hl y (by simp [hy]))
      unfold PyF.nmax
      split_ifs
      · simp [PyF.lt]
      · simp [PyF.lt]
      · exact hl x (by simp)
      · exact ha
  unfold calculateError at h
  split at h
  · cases h
  rename_i ps hps
  split at h
  · cases h
  rename_i m hm
  have hm' : m.lt (.fin 0) = false := by
    have hall : ∀ x ∈ ps.map relDev, x.lt (.fin 0) = false := by
      intro x hx
      obtain ⟨⟨u, v⟩, hp, rfl⟩ := List.mem_map.1 hx
      obtain ⟨o, h1, h2⟩ := List.mem_map.1 (hb hps _ hp)
      dsimp only at h2
      rw [← h2]
      exact hrel o (ho o h1) v
    unfold npMax at hm
    split at hm
    · cases hm
    · rename_i y ys hy
      rw [hy] at hall
      cases hm
      exact hfold _ _ (hall y (by simp)) (fun x hx => hall x (by simp [hx]))
  split_ifs at h
  · cases h
    decide +kernel
  · cases h
    cases m with
    | ninf => simp [PyF.lt] at hm'
    | inf => decide +kernel
    | nan => decide +kernel
    | fin x =>
      simp [PyF.lt, PyF.mul] at hm' ⊢
      linarith

end Verif
