import Verif.Spec.SARound
import Verif.Lemmas.SA
import Verif.Lemmas.ErrorRound
/-!
# Lemmas on sensitivity analysis in floating-point arithmetic
-/
namespace Verif
open Spec

variable {R : ℚ → PyF} {c : SACtx}

/-- two numbers related by `NearError` -/
def NearQ (e e' : ℚ) : Prop := 0 ≤ e ∧ |e' - e| ≤ e / 2 ^ 51 + 1 / 2 ^ 140

theorem NearQ.refl {e : ℚ} (h : 0 ≤ e) : NearQ e e := ⟨h, by simp; positivity⟩

theorem Spec.NearError.nearQ {e : ℚ} {x' : PyF} (h : NearError (.fin e) x') (he : e ≤ 2 ^ 100) :
    ∃ e', x' = .fin e' ∧ NearQ e e' := by
  cases h with
  | fin h0 h => exact ⟨_, rfl, h0, h⟩
  | over h => norm_num at h he; linarith

theorem NearQ.nearError {e e' : ℚ} (h : NearQ e e') : NearError (.fin e) (.fin e') := .fin h.1 h.2

theorem NearQ.atMost {L e e' : ℚ} (h : NearQ e e') (hl : (PyF.fin L).lt (.fin e') = false) : AtMost L e := by
  have : e' ≤ L := by simpa [PyF.lt] using hl
  have := (abs_le.1 h.2).1
  unfold AtMost
  linarith

theorem NearQ.above {L e e' : ℚ} (h : NearQ e e') (hl : (PyF.fin L).lt (.fin e') = true) : Above L e := by
  have : L < e' := by simpa [PyF.lt] using hl
  have := (abs_le.1 h.2).2
  unfold Above
  linarith

/-- the computed distance of two computed errors -/
theorem distR_near (hR : RoundsF R) {a a' e e' : ℚ} (ha : NearQ a a') (he : NearQ e e')
    (ha1 : a ≤ 2 ^ 100) (he1 : e ≤ 2 ^ 100) :
    ∃ d, distR R (.fin a') (.fin e') = .fin d ∧ |d - (|a - e|)| ≤ (a + e) / 2 ^ 50 + 1 / 2 ^ 131 := by
  obtain ⟨a0, ha⟩ := ha
  obtain ⟨e0, he⟩ := he
  have e2 : ((PyF.fin a').sub (.fin e')).rd R = R (a' - e') := by
    simp [PyF.sub, PyF.neg, PyF.add, PyF.rd, sub_eq_add_neg]
  unfold distR
  rw [e2]
  have hb : |a' - e'| ≤ |a' - a| + |e' - e| + (a + e) := by
    have h1 : |a' - e'| ≤ |a' - a| + |a - e'| := abs_sub_le _ _ _
    have h2 : |a - e'| ≤ |a - e| + |e - e'| := abs_sub_le _ _ _
    have h3 : |a - e| ≤ a + e := by rw [abs_le]; constructor <;> linarith
    rw [abs_sub_comm e e'] at h2
    linarith
  have hbig : |a' - e'| < 2 ^ 250 := by
    generalize |a' - e'| = x at *
    generalize |a' - a| = y at *
    generalize |e' - e| = z at *
    norm_num at hb ha he ha1 he1 ⊢
    linarith
  rcases hR.near (a' - e') with ⟨s, hs, hq⟩ | ⟨-, hq⟩ | ⟨-, hq⟩
  · rw [hs]
    refine ⟨|s|, rfl, ?_⟩
    have h1 : |(|s|) - (|a - e|)| ≤ |s - (a - e)| := abs_abs_sub_abs_le _ _
    have h2 : |s - (a - e)| ≤ |s - (a' - e')| + |a' - e' - (a - e)| := abs_sub_le _ _ _
    have h3 : |a' - e' - (a - e)| ≤ |a' - a| + |e' - e| := by
      rw [show a' - e' - (a - e) = (a' - a) - (e' - e) by ring]
      exact abs_sub _ _
    generalize |(|s|) - (|a - e|)| = A at *
    generalize |s - (a - e)| = B at *
    generalize |s - (a' - e')| = C at *
    generalize |a' - e' - (a - e)| = D at *
    generalize |a' - e'| = x at *
    generalize |a' - a| = y at *
    generalize |e' - e| = z at *
    norm_num at hb ha he hq ⊢
    linarith
  · exact absurd (lt_of_le_of_lt (hq.trans (le_abs_self _)) hbig) (lt_irrefl _)
  · exact absurd (lt_of_le_of_lt ((by linarith : (2 : ℚ) ^ 250 ≤ -(a' - e')).trans (neg_le_abs _)) hbig)
      (lt_irrefl _)

/-! ### errors of candidates -/

/-- two evaluations: the same exception, or errors related by `NearError` -/
inductive NearRes : Except Err PyF → Except Err PyF → Prop
  | error (e : Err) : NearRes (.error e) (.error e)
  | ok {x x' : PyF} (h : NearError x x') : NearRes (.ok x) (.ok x')

theorem saErr_rounded (hR : RoundsF R) (hc : Exact c) {initial : List PyF}
    (hb : ∀ x ∈ initial, Moderate x) (m : Mech) :
    NearRes (saErr c initial m) (saErr (c.rounded R) initial m) := by
  unfold saErr
  show NearRes _ (match c.metrics m with | .error e => .error e | .ok t => calculateErrorR R initial t)
  rcases c.metrics m with e | t
  · exact .error e
  · dsimp only
    rw [hc.errOf]
    rcases calculateErrorR_near hR (test := t) hb with ⟨e, h1, h2⟩ | ⟨x, x', h1, h2, h3⟩ <;> rw [h1, h2]
    · exact .error e
    · exact .ok h3

theorem without_rounded (m : Mech) (sp : String) : without (c.rounded R) m sp = without c m sp := rfl

theorem NearRes.of_ok {a b : Except Err PyF} {x' : PyF} (h : NearRes a b) (hb : b = .ok x') :
    ∃ x, a = .ok x ∧ NearError x x' := by
  cases h with
  | error e => cases hb
  | ok h => cases hb; exact ⟨_, rfl, h⟩

theorem NearRes.ok_of {a b : Except Err PyF} {x : PyF} (h : NearRes a b) (ha : a = .ok x) :
    ∃ x', b = .ok x' ∧ NearError x x' := by
  cases h with
  | error e => cases ha
  | ok h => cases ha; exact ⟨_, rfl, h⟩

/-- context of the proofs: a model reached by removing candidates -/
structure Reached (c : SACtx) (sol : Mech) (species : List String) (m : Mech) : Prop where
  list : ∃ l : List String, (∀ x ∈ l, x ∈ species) ∧ m = l.foldl (without c) sol

theorem Reached.start (sol : Mech) (species : List String) : Reached c sol species sol :=
  ⟨[], by simp, rfl⟩

theorem Reached.without {sol m : Mech} {species : List String} (h : Reached c sol species m) {sp : String}
    (hs : sp ∈ species) : Reached c sol species (without c m sp) := by
  obtain ⟨l, h1, rfl⟩ := h
  refine ⟨l ++ [sp], fun x hx => ?_, by simp⟩
  rcases List.mem_append.1 hx with hx | hx
  · exact h1 x hx
  · rw [List.mem_singleton.1 hx]; exact hs

theorem Spec.OrdinaryErrors.get {sol m : Mech} {initial : List PyF} {species : List String}
    (h : OrdinaryErrors c sol initial species) (hm : Reached c sol species m) {sp : String}
    (hs : sp ∈ species) {x : PyF} (hx : saErr c initial (Spec.without c m sp) = .ok x) :
    ∃ e : ℚ, x = .fin e ∧ e ≤ 2 ^ 100 := by
  obtain ⟨l, h1, rfl⟩ := hm
  refine h (l ++ [sp]) (by simp) (fun y hy => ?_) x (by simpa using hx)
  rcases List.mem_append.1 hy with hy | hy
  · exact h1 y hy
  · rw [List.mem_singleton.1 hy]; exact hs

section
variable (hR : RoundsF R) (hc : Exact c) {initial : List PyF} (hb : ∀ x ∈ initial, Moderate x)
  {sol : Mech} {species : List String} (hord : OrdinaryErrors c sol initial species)
include hR hc hb hord

/-- the error of a candidate computed with rounding is near that without -/
theorem candidate_near {m : Mech} (hm : Reached c sol species m) {sp : String} (hs : sp ∈ species)
    {x' : PyF} (hx : saErr (c.rounded R) initial (without c m sp) = .ok x') :
    ∃ e e', x' = .fin e' ∧ NearQ e e' ∧ e ≤ 2 ^ 100 ∧ saErr c initial (without c m sp) = .ok (.fin e) := by
  obtain ⟨x, h1, h2⟩ := (saErr_rounded hR hc hb (without c m sp)).of_ok hx
  obtain ⟨e, rfl, h3⟩ := hord.get hm hs h1
  obtain ⟨e', rfl, h4⟩ := h2.nearQ h3
  exact ⟨e, e', rfl, h4, h3, h1⟩

theorem candidate_near' {m : Mech} (hm : Reached c sol species m) {sp : String} (hs : sp ∈ species)
    {x : PyF} (hx : saErr c initial (without c m sp) = .ok x) :
    ∃ e e', x = .fin e ∧ NearQ e e' ∧ e ≤ 2 ^ 100 ∧
      saErr (c.rounded R) initial (without c m sp) = .ok (.fin e') := by
  obtain ⟨e, rfl, h3⟩ := hord.get hm hs hx
  obtain ⟨x', h1, h2⟩ := (saErr_rounded hR hc hb (without c m sp)).ok_of hx
  obtain ⟨e', rfl, h4⟩ := h2.nearQ h3
  exact ⟨e, e', rfl, h4, h3, h1⟩

/-- computed errors of all candidates -/
theorem induced_near {m : Mech} (hm : Reached c sol species m) {limbo : List String}
    (hl : ∀ x ∈ limbo, x ∈ species) {errs' : List PyF}
    (hi : Induced (c.rounded R) initial m limbo errs') :
    ∃ errs, Induced c initial m limbo errs ∧
      List.Forall₂ (fun x x' => ∃ e e' : ℚ, x = .fin e ∧ x' = .fin e' ∧ NearQ e e' ∧ e ≤ 2 ^ 100) errs errs' := by
  unfold Induced at *
  induction hi with
  | nil => exact ⟨[], .nil, .nil⟩
  | @cons sp x' l l' h1 h2 ih =>
    obtain ⟨errs, i1, i2⟩ := ih (fun x hx => hl x (List.mem_cons_of_mem _ hx))
    obtain ⟨e, e', rfl, h3, h4, h5⟩ := candidate_near hR hc hb hord hm (hl sp List.mem_cons_self) h1
    exact ⟨_, .cons h5 i1, .cons ⟨e, e', rfl, rfl, h3, h4⟩ i2⟩

end

theorem forall₂_get {α β : Type} {P : α → β → Prop} {l : List α} {l' : List β} (h : List.Forall₂ P l l')
    {i : Nat} {b : β} (hb : l'[i]? = some b) : ∃ a, l[i]? = some a ∧ P a b := by
  induction h generalizing i with
  | nil => simp at hb
  | cons h1 _ ih =>
    cases i with
    | zero => simp at hb; subst hb; exact ⟨_, rfl, h1⟩
    | succ i => simpa using ih (by simpa using hb)

theorem forall₂_mem {α β : Type} {P : α → β → Prop} {l : List α} {l' : List β} (h : List.Forall₂ P l l')
    {a : α} (ha : a ∈ l) : ∃ b ∈ l', P a b := by
  induction h with
  | nil => simp at ha
  | cons h1 _ ih =>
    rcases List.mem_cons.1 ha with rfl | ha
    · exact ⟨_, List.mem_cons_self, h1⟩
    · obtain ⟨b, h2, h3⟩ := ih ha
      exact ⟨b, List.mem_cons_of_mem _ h2, h3⟩

theorem nearest_near (hR : RoundsF R) {errs errs' : List PyF}
    (h : List.Forall₂ (fun x x' => ∃ e e' : ℚ, x = .fin e ∧ x' = .fin e' ∧ NearQ e e' ∧ e ≤ 2 ^ 100) errs errs')
    {e e' : ℚ} (he : NearQ e e') (he1 : e ≤ 2 ^ 100) {i : Nat}
    (hn : Nearest (c.rounded R) errs' (.fin e') i) : AlmostNearest errs e i := by
  obtain ⟨x', h1, h2⟩ := hn
  obtain ⟨_, g1, a, a', rfl, rfl, ha, ha1⟩ := forall₂_get h h1
  refine ⟨a, g1, fun b hb => ?_⟩
  obtain ⟨_, k1, _, b', k2, rfl, hb2, hb3⟩ := forall₂_mem h hb
  cases k2
  obtain ⟨da, d1, d2⟩ := distR_near hR ha he ha1 he1
  obtain ⟨db, d3, d4⟩ := distR_near hR hb2 he hb3 he1
  have hle : da ≤ db := by
    rcases h2 with ⟨h2, -⟩ | ⟨-, h2, -⟩
    · change distR R _ _ = _ at h2
      rw [d1] at h2; cases h2
    · have := h2 _ k1
      change (distR R _ _).le (distR R _ _) = true at this
      rw [d1, d3] at this
      simpa [PyF.le] using this
  have h3 := (abs_le.1 d2).1
  have h4 := (abs_le.1 d4).2
  unfold slack
  generalize |a - e| = A at *
  generalize |b - e| = B at *
  norm_num at h3 h4 ⊢
  linarith

section
variable (hR : RoundsF R) (hc : Exact c) {initial : List PyF} (hb : ∀ x ∈ initial, Moderate x)
  {sol : Mech} {species : List String} (hord : OrdinaryErrors c sol initial species)
include hR hc hb hord

/-- a course followed with rounding is a course up to rounding -/
theorem course_near {L : ℚ} (hL : c.limit = .fin L) {base m mf : Mech} {x' xf : PyF}
    {limbo acc rest : List String} (h : Course (c.rounded R) initial base m x' limbo acc mf xf rest)
    (h1 : Reached c sol species base) (h2 : Reached c sol species m) (hl : ∀ x ∈ limbo, x ∈ species)
    {e e' : ℚ} (hx : x' = .fin e') (he : NearQ e e') (he1 : e ≤ 2 ^ 100) :
    ∃ ef ef', xf = .fin ef' ∧ NearQ ef ef' ∧ NearCourse c initial L base m e limbo acc mf ef rest := by
  induction h generalizing e e' with
  | done => exact ⟨e, e', hx, he, .done⟩
  | @reject base m x limbo errs i sp y hi hn hs hy hly =>
    subst hx
    change (c.limit).lt y = true at hly
    rw [hL] at hly
    obtain ⟨errs0, k1, k2⟩ := induced_near hR hc hb hord h1 hl hi
    obtain ⟨a, a', rfl, k3, k4, k5⟩ := candidate_near hR hc hb hord h2 (hl _ (List.mem_of_getElem? hs)) hy
    exact ⟨e, e', rfl, he, .reject k1 (nearest_near hR k2 he he1 hn) hs k5 (k3.above hly)⟩
  | @accept base m x limbo errs i sp y acc mf ef rest hi hn hs hy hly hg next ih =>
    subst hx
    change (c.limit).lt y = false at hly
    rw [hL] at hly
    obtain ⟨errs0, k1, k2⟩ := induced_near hR hc hb hord h1 hl hi
    have hsp := hl _ (List.mem_of_getElem? hs)
    obtain ⟨a, a', rfl, k3, k4, k5⟩ := candidate_near hR hc hb hord h2 hsp hy
    have h2' := h2.without hsp
    have hl' : ∀ x ∈ limbo.eraseIdx i, x ∈ species := fun x hx => hl x (List.mem_of_mem_eraseIdx hx)
    obtain ⟨ef1, ef1', q1, q2, q3⟩ := ih (by
        change Reached c sol species (if c.greedy then without c m sp else base)
        split_ifs
        · exact h2'
        · exact h1) h2' hl' rfl k3 k4
    refine ⟨ef1, ef1', q1, q2, .accept k1 (nearest_near hR k2 he he1 hn) hs k5 (k3.atMost hly) ?_ q3⟩
    intro hgr
    obtain ⟨errs1, z, i1, i2, i3⟩ := hg hgr
    obtain ⟨s, s1, s2⟩ := Forall2_exists_right i1 i2.1
    change (c.limit).lt z = false at i3
    rw [hL] at i3
    obtain ⟨b, b', rfl, t1, t2, t3⟩ := candidate_near hR hc hb hord h2' (hl' s s1) s2
    exact ⟨s, s1, b, t3, t1.atMost i3⟩
  | @last base m x limbo errs i sp y errs1 z hi hn hs hy hly hg hi1 hz hlz =>
    subst hx
    change (c.limit).lt y = false at hly
    change (c.limit).lt z = true at hlz
    rw [hL] at hly hlz
    obtain ⟨errs0, k1, k2⟩ := induced_near hR hc hb hord h1 hl hi
    have hsp := hl _ (List.mem_of_getElem? hs)
    obtain ⟨a, a', rfl, k3, k4, k5⟩ := candidate_near hR hc hb hord h2 hsp hy
    have h2' := h2.without hsp
    have hl' : ∀ x ∈ limbo.eraseIdx i, x ∈ species := fun x hx => hl x (List.mem_of_mem_eraseIdx hx)
    refine ⟨a, a', rfl, k3, .last k1 (nearest_near hR k2 he he1 hn) hs k5 (k3.atMost hly) hg ?_⟩
    intro s hs1
    obtain ⟨v, v1, v2⟩ := forall₂_mem hi1 hs1
    obtain ⟨b, b', rfl, t1, t2, t3⟩ := candidate_near hR hc hb hord h2' (hl' s hs1) v2
    refine ⟨b, t3, t1.above ?_⟩
    rcases hz.2 with ⟨-, z2⟩ | ⟨-, -, z2⟩
    · rw [z2] at hlz; cases hlz
    · exact PyF.lt_of_lt_of_le' hlz (z2 _ v1 (by simp))

end

/-! ### the two runs side by side -/

/-- a trial with and without rounding -/
inductive NearTry : Except Err (Mech × Text × PyF) → Except Err (Mech × Text × PyF) → Prop
  | error (e : Err) : NearTry (.error e) (.error e)
  | ok (m : Mech) (f : Text) {x x' : PyF} (h : NearError x x') : NearTry (.ok (m, f, x)) (.ok (m, f, x'))

/-- evaluations with and without rounding -/
inductive NearList : Except Err (List PyF) → Except Err (List PyF) → Prop
  | error (e : Err) : NearList (.error e) (.error e)
  | ok {l l' : List PyF} (h : List.Forall₂ NearError l l') : NearList (.ok l) (.ok l')

section
variable (hR : RoundsF R) (hc : Exact c) {initial : List PyF} (hb : ∀ x ∈ initial, Moderate x)
include hR hc hb

theorem tryRemove_rounded (file dir : Text) (sp : String) (w : World) :
    NearTry (tryRemove c initial file dir sp w).1 (tryRemove (c.rounded R) initial file dir sp w).1 ∧
      (tryRemove (c.rounded R) initial file dir sp w).2 = (tryRemove c initial file dir sp w).2 := by
  unfold tryRemove
  rcases loadModel w file with e | sol
  · exact ⟨.error e, rfl⟩
  dsimp only
  rw [show (c.rounded R).phase = c.phase from rfl]
  rcases writeYaml w (trim sol [sp] (candidateName sp) c.phase) (candidateName sp) dir with ⟨fn, w1⟩
  dsimp only
  rcases loadModel w1 fn with e | m
  · exact ⟨.error e, rfl⟩
  dsimp only
  have h := saErr_rounded hR hc hb m
  generalize saErr c initial m = a at h ⊢
  generalize saErr (c.rounded R) initial m = b at h ⊢
  cases h with
  | error e => exact ⟨.error e, rfl⟩
  | ok h => exact ⟨.ok _ _ h, rfl⟩

theorem evalLoop_rounded (file dir : Text) (limbo : List String) (w : World) :
    NearList (evalLoop c initial file dir limbo w).1 (evalLoop (c.rounded R) initial file dir limbo w).1 ∧
      (evalLoop (c.rounded R) initial file dir limbo w).2 = (evalLoop c initial file dir limbo w).2 := by
  induction limbo generalizing w with
  | nil => exact ⟨.ok .nil, rfl⟩
  | cons sp rest ih =>
    unfold evalLoop
    obtain ⟨h1, h2⟩ := tryRemove_rounded hR hc hb file dir sp w
    generalize tryRemove c initial file dir sp w = A at h1 h2 ⊢
    generalize tryRemove (c.rounded R) initial file dir sp w = A' at h1 h2 ⊢
    obtain ⟨a, w1⟩ := A
    obtain ⟨a', w1'⟩ := A'
    dsimp only at h1 h2
    subst h2
    cases h1 with
    | error e => exact ⟨.error e, rfl⟩
    | ok m f h =>
      dsimp only
      obtain ⟨h3, h4⟩ := ih w1'
      generalize evalLoop c initial file dir rest w1' = B at h3 h4 ⊢
      generalize evalLoop (c.rounded R) initial file dir rest w1' = B' at h3 h4 ⊢
      obtain ⟨b, w2⟩ := B
      obtain ⟨b', w2'⟩ := B'
      dsimp only at h3 h4
      subst h4
      cases h3 with
      | error e => exact ⟨.error e, rfl⟩
      | ok h3 => exact ⟨.ok (.cons h h3), rfl⟩

theorem evalSpecies_rounded (file : Text) (limbo : List String) (w : World) :
    NearList (evalSpecies c initial file limbo w).1 (evalSpecies (c.rounded R) initial file limbo w).1 ∧
      (evalSpecies (c.rounded R) initial file limbo w).2 = (evalSpecies c initial file limbo w).2 := by
  unfold evalSpecies
  obtain ⟨h1, h2⟩ := evalLoop_rounded hR hc hb file (c.evalDir limbo.length) limbo w
  dsimp only
  refine ⟨h1, ?_⟩
  change cleanDir (evalLoop (c.rounded R) initial file (c.evalDir limbo.length) limbo w).2 _ = _
  rw [h2]
  rfl

end

/-- states with and without rounding -/
structure StSame (s s' : SAState) : Prop where
  cur : SameModel s.cur s'.cur
  limbo : s'.limbo = s.limbo
  errs : List.Forall₂ NearError s.errs s'.errs
  w : s'.w = s.w

/-- passes through the loop with and without rounding -/
inductive StepSame : SAStep → SAStep → Prop
  | more {s s' : SAState} (h : StSame s s') : StepSame (.more s) (.more s')
  | stop {s s' : SAState} (h : StSame s s') : StepSame (.stop s) (.stop s')
  | raise (e : Err) {s s' : SAState} (h : StSame s s') : StepSame (.raise e s) (.raise e s')

theorem forall₂_eraseIdx {α β : Type} {P : α → β → Prop} {l : List α} {l' : List β}
    (h : List.Forall₂ P l l') (i : Nat) : List.Forall₂ P (l.eraseIdx i) (l'.eraseIdx i) := by
  induction h generalizing i with
  | nil => exact .nil
  | cons h1 h2 ih =>
    cases i with
    | zero => exact h2
    | succ i => exact .cons h1 (ih i)

/-- the least of some errors is on the same side of the limit with and without rounding -/
theorem pyMin_decided {L : ℚ} (h0 : 0 ≤ L) (h1 : L ≤ 2 ^ 100) {l l' : List PyF}
    (h : List.Forall₂ NearError l l') (hd : ∀ x ∈ l, Decided L x) (hf : ∀ x ∈ l, x ≠ .nan) :
    (∃ e, pyMin l = .error e ∧ pyMin l' = .error e) ∨
      ∃ x x', pyMin l = .ok x ∧ pyMin l' = .ok x' ∧ (PyF.fin L).lt x' = (PyF.fin L).lt x := by
  have side : ∀ {l : List PyF} {x : PyF}, pyMin l = .ok x → (∀ x ∈ l, x ≠ .nan) →
      ((PyF.fin L).lt x = true ↔ ∀ y ∈ l, (PyF.fin L).lt y = true) := by
    intro l x hx hf
    obtain ⟨m1, m2⟩ := pyMin_spec hx
    refine ⟨fun h y hy => ?_, fun h => h x m1⟩
    rcases m2 with ⟨-, m2⟩ | ⟨-, -, m2⟩
    · exact absurd m2 (hf x m1)
    · exact PyF.lt_of_lt_of_le' h (m2 y hy (hf y hy))
  cases h with
  | nil => exact .inl ⟨_, rfl, rfl⟩
  | @cons a a' t t' g1 g2 =>
    have h : List.Forall₂ NearError (a :: t) (a' :: t') := .cons g1 g2
    refine .inr ⟨_, _, rfl, rfl, ?_⟩
    have hf' : ∀ x ∈ a' :: t', x ≠ .nan := by
      intro x hx hn
      obtain ⟨y, hy, hyx⟩ := Forall2_exists_right h hx
      rw [hn] at hyx
      cases hyx
      exact hf _ hy rfl
    have e1 := side (l := a :: t) rfl hf
    have e2 := side (l := a' :: t') rfl hf'
    rw [Bool.eq_iff_iff, e1, e2]
    constructor
    · intro g y hy
      obtain ⟨y', k1, k2⟩ := forall₂_mem h hy
      rw [← (k2.decide h0 h1 (hd y hy)).2]
      exact g y' k1
    · intro g y' hy'
      obtain ⟨y, k1, k2⟩ := Forall2_exists_right h hy'
      rw [(k2.decide h0 h1 (hd y k1)).2]
      exact g y k1

/-- one pass through the loop, when the choice and the comparisons with the limit are clear -/
theorem saStep_rounded (hR : RoundsF R) (hc : Exact c) {initial : List PyF}
    (hb : ∀ x ∈ initial, Moderate x) {L : ℚ} (hL : c.limit = .fin L) (h0 : 0 ≤ L) (h1 : L ≤ 2 ^ 100)
    {s s' : SAState} (h : StSame s s') {i : Nat} {sp : String}
    (hi : npArgmin (s.errs.map (fun e => c.dist e s.cur.error)) = .ok i)
    (hi' : npArgmin (s'.errs.map (fun e => distR R e s'.cur.error)) = .ok i)
    (hs : s.limbo[i]? = some sp)
    (hd : ∀ t fn x w1, tryRemove c initial s.cur.filename c.tmpDir sp s.w = (.ok (t, fn, x), w1) → Decided L x)
    (hr : c.greedy = true → ∀ t fn x w1,
      tryRemove c initial s.cur.filename c.tmpDir sp s.w = (.ok (t, fn, x), w1) → c.limit.lt x = false →
      ∀ errs w2, evalSpecies c initial fn (s.limbo.eraseIdx i) w1 = (.ok errs, w2) →
      ∀ y ∈ errs, Decided L y ∧ y ≠ .nan) :
    StepSame (saStep c initial s) (saStep (c.rounded R) initial s') := by
  unfold saStep
  rw [hi, show npArgmin (s'.errs.map (fun e => (c.rounded R).dist e s'.cur.error)) = .ok i from hi']
  dsimp only
  rw [h.limbo, hs]
  dsimp only
  obtain ⟨t1, t2⟩ := tryRemove_rounded hR hc hb s.cur.filename c.tmpDir sp s.w
  rw [h.cur.filename, h.w, show (c.rounded R).tmpDir = c.tmpDir from rfl,
    show (c.rounded R).limit = c.limit from rfl, show (c.rounded R).greedy = c.greedy from rfl]
  generalize tryRemove c initial s.cur.filename c.tmpDir sp s.w = A at t1 t2 hd hr ⊢
  generalize tryRemove (c.rounded R) initial s.cur.filename c.tmpDir sp s.w = A' at t1 t2 ⊢
  obtain ⟨a, w1⟩ := A
  obtain ⟨a', w1'⟩ := A'
  dsimp only at t1 t2
  subst t2
  have he := forall₂_eraseIdx h.errs i
  cases t1 with
  | error e => exact .raise e ⟨h.cur, rfl, he, rfl⟩
  | @ok m f x x' hx =>
    dsimp only
    have hdx := (hx.decide h0 h1 (hd _ _ _ _ rfl)).2
    rw [← hL] at hdx
    rw [hdx]
    by_cases hl : c.limit.lt x = true
    · rw [if_pos hl, if_pos hl]
      exact .stop ⟨h.cur, rfl, he, rfl⟩
    rw [if_neg hl, if_neg hl]
    have hm : SameModel ⟨m, f, x, none⟩ ⟨m, f, x', none⟩ := ⟨rfl, rfl, rfl, hx⟩
    by_cases hg : c.greedy = true
    · rw [if_pos hg, if_pos hg]
      obtain ⟨v1, v2⟩ := evalSpecies_rounded hR hc hb f (s.limbo.eraseIdx i) w1'
      have hr := hr hg m f x _ rfl (by simpa using hl)
      generalize evalSpecies c initial f (s.limbo.eraseIdx i) w1' = B at v1 v2 hr ⊢
      generalize evalSpecies (c.rounded R) initial f (s.limbo.eraseIdx i) w1' = B' at v1 v2 ⊢
      obtain ⟨b, w2⟩ := B
      obtain ⟨b', w2'⟩ := B'
      dsimp only at v1 v2
      subst v2
      cases v1 with
      | error e => exact .raise e ⟨hm, rfl, he, rfl⟩
      | @ok l l' hl2 =>
        dsimp only
        have hr := hr _ _ rfl
        rcases pyMin_decided h0 h1 hl2 (fun y hy => (hr y hy).1) (fun y hy => (hr y hy).2) with
          ⟨e, p1, p2⟩ | ⟨z, z', p1, p2, p3⟩ <;> rw [p1, p2]
        · exact .raise e ⟨hm, rfl, hl2, rfl⟩
        · dsimp only
          rw [← hL] at p3
          rw [p3]
          by_cases hz : c.limit.lt z = true
          · rw [if_pos hz, if_pos hz]; exact .stop ⟨hm, rfl, hl2, rfl⟩
          · rw [if_neg hz, if_neg hz]; exact .more ⟨hm, rfl, hl2, rfl⟩
    · rw [if_neg hg, if_neg hg]
      exact .more ⟨hm, rfl, he, rfl⟩

/-- distances that single out an index -/
theorem nearest_of_dist {k : SACtx} {errs : List PyF} {cur : PyF} {i : Nat} {d : ℚ} {a : PyF}
    (ha : errs[i]? = some a) (hd : k.dist a cur = .fin d)
    (h : ∀ j x, errs[j]? = some x → ∃ d', k.dist x cur = .fin d' ∧ d ≤ d' ∧ (j < i → d < d')) :
    Nearest k errs cur i := by
  refine ⟨a, ha, .inr ⟨fun x hx => ?_, fun x hx => ?_, fun j hj x hx => ?_⟩⟩
  · obtain ⟨j, hj⟩ := List.getElem?_of_mem hx
    obtain ⟨d', h1, -⟩ := h j x hj
    rw [h1]; simp
  · obtain ⟨j, hj⟩ := List.getElem?_of_mem hx
    obtain ⟨d', h1, h2, -⟩ := h j x hj
    rw [h1, hd]; simpa [PyF.le] using h2
  · obtain ⟨d', h1, -, h2⟩ := h j x hx
    rw [h1, hd]; simpa [PyF.lt] using h2 hj

theorem saErr_metrics {k : SACtx} {initial : List PyF} {m m' : Mech} (h : k.metrics m = k.metrics m') :
    saErr k initial m = saErr k initial m' := by
  unfold saErr; rw [h]

section
variable (hR : RoundsF R) (hc : Exact c) {initial : List PyF} (hb : ∀ x ∈ initial, Moderate x)
  {sol : Mech} {species : List String} (hord : OrdinaryErrors c sol initial species)
include hR hc hb hord

/-- a clear choice is made by both runs -/
theorem clear_nearest {base : Mech} (h1 : Reached c sol species base) {limbo : List String}
    (hl : ∀ x ∈ limbo, x ∈ species) {e e' : ℚ} (he : NearQ e e') (he1 : e ≤ 2 ^ 100) {i : Nat}
    (hch : ClearChoice c initial base e limbo i) {errs errs' : List PyF}
    (hi : Induced c initial base limbo errs) (hi' : Induced (c.rounded R) initial base limbo errs') :
    Nearest c errs (.fin e) i ∧ Nearest (c.rounded R) errs' (.fin e') i := by
  obtain ⟨sp, a, hsp, hsa, hch⟩ := hch
  have hsm := hl sp (List.mem_of_getElem? hsp)
  obtain ⟨a0, a', ha0, ha, ha1, hsa'⟩ := candidate_near' hR hc hb hord h1 hsm hsa
  cases ha0
  have ed : ∀ x : ℚ, c.dist (.fin x) (.fin e) = .fin |x - e| := fun x => by
    rw [hc.dist]; simp [PyF.sub, PyF.neg, PyF.add, PyF.abs, sub_eq_add_neg]
  have get : ∀ {k : SACtx} {errs : List PyF}, Induced k initial base limbo errs → ∀ {j : Nat} {s : String},
      limbo[j]? = some s → ∃ x, errs[j]? = some x ∧ saErr k initial (without k base s) = .ok x := by
    intro k errs hi j s hs
    unfold Induced at hi
    obtain ⟨x, h1, h2⟩ := forall₂_get hi.flip hs
    exact ⟨x, h1, h2⟩
  -- exact errors by index
  have exact_at : ∀ j x, errs[j]? = some x → ∃ b, x = .fin b ∧ NearQ b b ∧ b ≤ 2 ^ 100 ∧
      ((|a - e| = |b - e| ∧ i ≤ j ∧ errs'[j]? = some (.fin a')) ∨
        (|a - e| + slack a b e < |b - e| ∧ ∃ b', errs'[j]? = some (.fin b') ∧ NearQ b b')) := by
    intro j x hx
    obtain ⟨s, k1, k2⟩ := forall₂_get hi hx
    obtain ⟨x', k3, k4⟩ := get hi' k1
    have hsj := hl s (List.mem_of_getElem? k1)
    by_cases hij : j = i
    · subst hij
      rw [hsp] at k1
      cases k1
      rw [hsa] at k2
      cases k2
      change saErr (c.rounded R) initial (without c base sp) = _ at k4
      rw [hsa'] at k4
      cases k4
      exact ⟨a, rfl, .refl ha.1, ha1, .inl ⟨rfl, le_rfl, k3⟩⟩
    rcases hch j s hij k1 with ⟨g1, g2⟩ | ⟨b, g1, g2⟩
    · rw [saErr_metrics g2, hsa] at k2
      cases k2
      change saErr (c.rounded R) initial (without c base s) = _ at k4
      rw [saErr_metrics (k := c.rounded R) (m := without c base s) (m' := without c base sp) g2, hsa'] at k4
      cases k4
      exact ⟨a, rfl, .refl ha.1, ha1, .inl ⟨rfl, g1.le, k3⟩⟩
    · rw [g1] at k2
      cases k2
      obtain ⟨b0, b', hb0, hb1, hb2, hb3⟩ := candidate_near' hR hc hb hord h1 hsj g1
      cases hb0
      change saErr (c.rounded R) initial (without c base s) = _ at k4
      rw [hb3] at k4
      cases k4
      exact ⟨b, rfl, .refl hb1.1, hb2, .inr ⟨g2, b', k3, hb1⟩⟩
  obtain ⟨xa, x1, x2⟩ := get hi hsp
  rw [hsa] at x2
  cases x2
  obtain ⟨xa', x3, x4⟩ := get hi' hsp
  change saErr (c.rounded R) initial (without c base sp) = _ at x4
  rw [hsa'] at x4
  cases x4
  constructor
  · refine nearest_of_dist x1 (ed a) fun j x hx => ?_
    obtain ⟨b, rfl, hb1, -, ⟨g1, g2, -⟩ | ⟨g1, -⟩⟩ := exact_at j x hx
    · exact ⟨_, ed b, g1.le, fun h => by omega⟩
    · have : 0 ≤ slack a b e := by
        have := ha.1; have := hb1.1; have := he.1
        unfold slack; positivity
      exact ⟨_, ed b, by linarith, fun _ => by linarith⟩
  · obtain ⟨da, d1, d2⟩ := distR_near hR ha he ha1 he1
    refine nearest_of_dist (k := c.rounded R) x3 d1 fun j x hx => ?_
    obtain ⟨s, k1, -⟩ := forall₂_get hi' hx
    obtain ⟨y, k2, -⟩ := get hi k1
    obtain ⟨b, rfl, hb1, hb2, ⟨g1, g2, g3⟩ | ⟨g1, b', g2, g3⟩⟩ := exact_at j y k2
    · rw [hx] at g3
      cases g3
      exact ⟨_, d1, le_rfl, fun h => by omega⟩
    · rw [hx] at g2
      cases g2
      obtain ⟨db, d3, d4⟩ := distR_near hR g3 he hb2 he1
      have h3 := (abs_le.1 d2).2
      have h4 := (abs_le.1 d4).1
      have hlt : da < db := by
        unfold slack at g1
        generalize |a - e| = A at *
        generalize |b - e| = B at *
        norm_num at h3 h4 g1
        linarith
      exact ⟨_, d3, hlt.le, fun _ => hlt⟩

end

/-- results of the loop with and without rounding -/
inductive LoopSame : Option (Except Err Unit × SAState) → Option (Except Err Unit × SAState) → Prop
  | none : LoopSame none none
  | some (r : Except Err Unit) {s s' : SAState} (h : StSame s s') : LoopSame (some (r, s)) (some (r, s'))

/-- the loop with and without rounding -/
theorem saLoop_rounded (hR : RoundsF R) (hc : Exact c) {initial : List PyF}
    (hb : ∀ x ∈ initial, Moderate x) {sol : Mech} {species : List String}
    (hord : OrdinaryErrors c sol initial species) {L : ℚ} (hL : c.limit = .fin L) (h0 : 0 ≤ L)
    (h1 : L ≤ 2 ^ 100) (T : TmpOk c) {w0 : World} (fuel : Nat) {base : Mech} {s s' : SAState}
    (I : SAInv c initial w0 base s) (I' : SAInv (c.rounded R) initial w0 base s') (h : StSame s s')
    (hbase : Reached c sol species base) (hm : Reached c sol species s.cur.model)
    (hl : ∀ x ∈ s.limbo, x ∈ species) {e : ℚ} (he : s.cur.error = .fin e) (he1 : e ≤ 2 ^ 100)
    (hcl : ClearCourse c initial L base s.cur.model e s.limbo) :
    LoopSame (saLoop c initial fuel s) (saLoop (c.rounded R) initial fuel s') := by
  have T' : TmpOk (c.rounded R) := ⟨T.tmp_ne, T.tmp_last, T.eval_ne, T.eval_last, T.model_tmp, T.model_eval, T.apart⟩
  induction fuel generalizing base s s' e with
  | zero => exact .none
  | succ fuel ih =>
    unfold saLoop
    rw [h.limbo]
    by_cases hne : s.limbo = []
    · rw [if_pos hne, if_pos hne]; exact .some _ h
    rw [if_neg hne, if_neg hne]
    have hne' : s'.limbo ≠ [] := by rw [h.limbo]; exact hne
    obtain ⟨e', he', hq⟩ := Spec.NearError.nearQ (by have := h.cur.error; rw [he] at this; exact this) he1
    obtain ⟨i, sp, hn, hsp, H⟩ := saStep_spec T I hne
    obtain ⟨i', sp', hn', hsp', H'⟩ := saStep_spec T' I' hne'
    have hi' : Induced (c.rounded R) initial base s.limbo s'.errs := by rw [← h.limbo]; exact I'.induced
    generalize hlb : s.limbo = lb at hcl
    cases hcl with
    | done => exact absurd hlb hne
    | step k sk hk hch hd hr next =>
    subst hlb
    obtain ⟨n1, n2⟩ := clear_nearest hR hc hb hord hbase hl hq he1 hch I.induced hi'
    rw [he] at hn
    rw [he'] at hn'
    obtain rfl := hn.unique n1
    obtain rfl := hn'.unique n2
    rw [h.limbo, hsp] at hsp'
    cases hsp'
    rw [hsp] at hk
    cases hk
    have hspm := hl sp (List.mem_of_getElem? hsp)
    have hne2 : s.errs.map (fun x => c.dist x s.cur.error) ≠ [] := by
      intro hh
      have := congrArg List.length hh
      rw [List.length_map, ← List.Forall₂.length_eq I.induced] at this
      exact hne (List.length_eq_zero_iff.1 this)
    have hne3 : s'.errs.map (fun x => distR R x s'.cur.error) ≠ [] := by
      intro hh
      have := congrArg List.length hh
      rw [List.length_map, ← List.Forall₂.length_eq I'.induced] at this
      exact hne' (List.length_eq_zero_iff.1 this)
    obtain ⟨j, hj⟩ := npArgmin_ok hne2
    obtain ⟨j', hj'⟩ := npArgmin_ok hne3
    have hjn := npArgmin_nearest hj
    rw [he] at hjn
    obtain rfl := hjn.unique n1
    have hjn' := npArgmin_nearest (c := c.rounded R) hj'
    rw [he'] at hjn'
    obtain rfl := hjn'.unique n2
    obtain ⟨fn, w1, u1, k1, f1, e1⟩ := tryRemove_spec c initial T.tmp_ne T.tmp_last sp I.file
    have hstep := saStep_rounded hR hc hb hL h0 h1 h hj hj' hsp (by
        intro t fn' x w1' ht
        rw [e1] at ht
        rcases hx : saErr c initial (without c s.cur.model sp) with er | y <;> rw [hx] at ht
        · cases ht
        · cases ht; exact hd _ hx) (by
        intro hg t fn' x w1' ht hlx errs w2 hev y hy
        rw [e1] at ht
        rcases hx : saErr c initial (without c s.cur.model sp) with er | x1 <;> rw [hx] at ht
        · cases ht
        cases ht
        obtain ⟨ex, rfl, -⟩ := hord.get hm hspm hx
        rw [hL] at hlx
        have hle : ex ≤ L := by simpa [PyF.lt] using hlx
        obtain ⟨-, -, e2⟩ := evalSpecies_spec T initial (fun n => T.apart n _ u1) (s.limbo.eraseIdx j') f1
        rw [hev] at e2
        have hind : Induced c initial (without c s.cur.model sp) (s.limbo.eraseIdx j') errs :=
          serialMap_ok_iff.1 e2.symm
        obtain ⟨s1, s2, s3⟩ := Forall2_exists_right hind hy
        refine ⟨hr hg ex hx hle s1 s2 y s3, ?_⟩
        obtain ⟨ey, rfl, -⟩ := hord.get (hm.without hspm) (hl s1 (List.mem_of_mem_eraseIdx s2)) s3
        simp)
    rcases hx : saErr c initial (without c s.cur.model sp) with er | x <;> rw [hx] at H <;> dsimp only at H
    · obtain ⟨s1, g1, -⟩ := H
      rw [g1] at hstep ⊢
      generalize saStep (c.rounded R) initial s' = b at hstep ⊢
      cases hstep with
      | raise _ hs => exact .some _ hs
    obtain ⟨ex, rfl, hex⟩ := hord.get hm hspm hx
    by_cases hlim : c.limit.lt (.fin ex) = true
    · rw [if_pos hlim] at H
      obtain ⟨s1, g1, -⟩ := H
      rw [g1] at hstep ⊢
      generalize saStep (c.rounded R) initial s' = b at hstep ⊢
      cases hstep with
      | stop hs => exact .some _ hs
    rw [if_neg hlim] at H
    have hle : ex ≤ L := by rw [hL] at hlim; simpa [PyF.lt] using hlim
    -- the other run accepts as well
    obtain ⟨ex0, ex', hex0, hexq, -, hx'⟩ := candidate_near' hR hc hb hord hm hspm hx
    cases hex0
    have hcm : s'.cur.model = s.cur.model := h.cur.model
    rw [show saErr (c.rounded R) initial (without (c.rounded R) s'.cur.model sp) = .ok (.fin ex') by
      rw [hcm]; exact hx'] at H'
    dsimp only at H'
    have hlim' : c.limit.lt (.fin ex') = c.limit.lt (.fin ex) := by
      rw [hL]; exact (hexq.nearError.decide h0 h1 (hd _ hx)).2
    rw [if_neg (by change ¬ c.limit.lt (.fin ex') = true; rw [hlim']; exact hlim)] at H'
    obtain ⟨cur, w2, m1, m2, u2, f2, kw, H⟩ := H
    obtain ⟨cur', w2', m1', m2', u2', f2', kw', H'⟩ := H'
    have hnext := next ex hx hle
    change if c.greedy = true then _ else _ at H'
    have hl' : ∀ x ∈ s.limbo.eraseIdx j', x ∈ species := fun x hx => hl x (List.mem_of_mem_eraseIdx hx)
    have hm' := hm.without hspm
    by_cases hg : c.greedy = true
    · rw [if_pos hg] at H H' hnext
      rcases hs1 : serialMap (fun x => saErr c initial (without c cur.model x)) (s.limbo.eraseIdx j')
        with er | errs1 <;> rw [hs1] at H <;> dsimp only at H
      · obtain ⟨_, H⟩ := H
        rw [H] at hstep ⊢
        generalize saStep (c.rounded R) initial s' = b at hstep ⊢
        cases hstep with
        | raise _ hs => exact .some _ hs
      rcases hm1 : pyMin errs1 with er | least <;> rw [hm1] at H <;> dsimp only at H
      · rw [H] at hstep ⊢
        generalize saStep (c.rounded R) initial s' = b at hstep ⊢
        cases hstep with
        | raise _ hs => exact .some _ hs
      by_cases hl2 : c.limit.lt least = true
      · rw [if_pos hl2] at H
        rw [H] at hstep ⊢
        generalize saStep (c.rounded R) initial s' = b at hstep ⊢
        cases hstep with
        | stop hs => exact .some _ hs
      rw [if_neg hl2] at H
      rw [H] at hstep ⊢
      dsimp only
      rw [h.limbo] at H'
      rcases hs1' : serialMap (fun x => saErr (c.rounded R) initial (without (c.rounded R) cur'.model x))
        (s.limbo.eraseIdx j') with er | errs1' <;> rw [hs1'] at H' <;> dsimp only at H'
      · obtain ⟨_, H'⟩ := H'
        rw [H'] at hstep
        cases hstep
      rcases hm1' : pyMin errs1' with er | least' <;> rw [hm1'] at H' <;> dsimp only at H'
      · rw [H'] at hstep
        cases hstep
      by_cases hl2' : (c.rounded R).limit.lt least' = true
      · rw [if_pos hl2'] at H'
        rw [H'] at hstep
        cases hstep
      rw [if_neg hl2'] at H'
      rw [H'] at hstep ⊢
      dsimp only
      cases hstep with
      | more hst =>
        have hbase2 : cur'.model = cur.model := hst.cur.model
        refine ih (base := cur.model) ⟨f2, fun n => T.apart n _ u2, serialMap_ok_iff.1 hs1, fun _ => rfl, kw⟩
          ⟨f2', fun n => T.apart n _ u2', ?_, fun _ => hbase2.symm, kw'⟩ hst (by rw [m1]; exact hm')
          (by dsimp only; rw [m1]; exact hm') hl' (e := ex) m2 hex (by dsimp only; rw [m1]; exact hnext)
        rw [← hbase2]
        exact serialMap_ok_iff.1 hs1'
    · rw [if_neg hg] at H H' hnext
      rw [H, H'] at hstep ⊢
      dsimp only
      cases hstep with
      | more hst =>
        refine ih (base := base) ⟨f2, fun n => T.apart n _ u2, I.induced.erase _, fun h => absurd h hg, kw⟩
          ⟨f2', fun n => T.apart n _ u2', I'.induced.erase _, fun h => absurd h hg, kw'⟩ hst hbase
          (by dsimp only; rw [m1]; exact hm') hl' (e := ex) m2 hex (by dsimp only; rw [m1]; exact hnext)

end Verif
