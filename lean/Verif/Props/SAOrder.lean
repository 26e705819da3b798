import Verif.Props.SA
/-!
# C102: the order of the limbo species; the converse of C32
-/
namespace Verif
open Spec

/-- the loop follows a course that the specification allows -/
theorem saLoop_of_course {c : SACtx} (T : TmpOk c) {initial : List PyF} {w0 : World} (fuel : Nat)
    {base : Mech} {s : SAState} (I : SAInv c initial w0 base s) {acc : List String} {mf : Mech}
    {ef : PyF} {rest : List String}
    (h : Course c initial base s.cur.model s.cur.error s.limbo acc mf ef rest)
    (hf : s.limbo.length < fuel) :
    ∃ s', saLoop c initial fuel s = some (.ok (), s') ∧ s'.cur.model = mf ∧ s'.cur.error = ef ∧
      s'.limbo = rest := by
  induction fuel generalizing base s acc with
  | zero => omega
  | succ fuel ih =>
    unfold saLoop
    by_cases hl : s.limbo = []
    · rw [if_pos hl]
      rw [hl] at h
      refine ⟨s, rfl, ?_⟩
      generalize s.cur.error = e at h
      generalize s.cur.model = m at h
      cases h with
      | done => exact ⟨rfl, rfl, hl⟩
      | reject _ _ hs => simp at hs
      | accept _ _ hs => simp at hs
      | last _ _ hs => simp at hs
    rw [if_neg hl]
    obtain ⟨i, sp, hn, hsp, H⟩ := saStep_spec T I hl
    have hlen : (s.limbo.eraseIdx i).length + 1 = s.limbo.length := by
      have hi := (List.getElem?_eq_some_iff.1 hsp).1
      rw [List.length_eraseIdx_of_lt hi]; omega
    have key : ∀ {errs j sp'}, Induced c initial base s.limbo errs →
        Nearest c errs s.cur.error j → s.limbo[j]? = some sp' → j = i ∧ sp' = sp := by
      intro errs j sp' g1 g2 g3
      rw [g1.unique I.induced] at g2
      obtain rfl := g2.unique hn
      rw [hsp] at g3
      cases g3
      exact ⟨rfl, rfl⟩
    generalize hm : s.cur.model = m at *
    generalize hee : s.cur.error = e at *
    generalize hll : s.limbo = limbo at *
    cases h with
    | done => exact absurd rfl hl
    | reject hi' hn' hs' he' hl' =>
      obtain ⟨rfl, rfl⟩ := key hi' hn' hs'
      rw [he'] at H
      dsimp only at H
      rw [if_pos hl'] at H
      obtain ⟨s1, h1, h2, h3, h4⟩ := H
      rw [h1]
      exact ⟨s1, rfl, by rw [h3, hm], by rw [h3, hee], h2⟩
    | last hi' hn' hs' he' hl' hg' hi2 hx hlx =>
      obtain ⟨rfl, rfl⟩ := key hi' hn' hs'
      rw [he'] at H
      dsimp only at H
      rw [if_neg (by simp [hl'])] at H
      obtain ⟨cur, w1, m1, m2, u1, f1, k1, H⟩ := H
      rw [if_pos hg', m1, serialMap_ok_iff.2 hi2] at H
      dsimp only at H
      rcases hmin : pyMin _ with e | least <;> rw [hmin] at H <;> dsimp only at H
      · have : _ ≠ ([] : List PyF) := List.ne_nil_of_mem hx.1
        obtain ⟨_, hq⟩ := pyMin_ok this
        rw [hmin] at hq
        cases hq
      · obtain rfl := (pyMin_spec hmin).unique hx
        rw [if_pos hlx] at H
        rw [H]
        exact ⟨_, rfl, m1, m2, rfl⟩
    | accept hi' hn' hs' he' hl' hg' next =>
      obtain ⟨rfl, rfl⟩ := key hi' hn' hs'
      rw [he'] at H
      dsimp only at H
      rw [if_neg (by simp [hl'])] at H
      obtain ⟨cur, w1, m1, m2, u1, f1, k1, H⟩ := H
      by_cases hg : c.greedy = true
      · obtain ⟨errs', x, g1, g2, g3⟩ := hg' hg
        rw [if_pos hg, m1, serialMap_ok_iff.2 g1] at H
        dsimp only at H
        rcases hmin : pyMin errs' with e | least <;> rw [hmin] at H <;> dsimp only at H
        · have : errs' ≠ ([] : List PyF) := List.ne_nil_of_mem g2.1
          obtain ⟨_, hq⟩ := pyMin_ok this
          rw [hmin] at hq
          cases hq
        · obtain rfl := (pyMin_spec hmin).unique g2
          rw [if_neg (by simp [g3])] at H
          rw [H]
          dsimp only
          rw [if_pos hg] at next
          refine ih (base := cur.model) ⟨f1, fun n => T.apart n _ u1, by rw [m1]; exact g1,
            fun _ => rfl, k1⟩ (by dsimp only; rw [m1, m2]; exact next) ?_
          dsimp only
          omega
      · rw [if_neg hg] at H
        rw [H]
        dsimp only
        rw [if_neg hg] at next
        refine ih (base := base) ⟨f1, fun n => T.apart n _ u1, (by
            have hind := I.induced
            rw [hll] at hind
            exact hind.erase _),
          fun h => absurd h hg, k1⟩ (by dsimp only; rw [m1, m2]; exact next) ?_
        dsimp only
        omega

variable {c : SACtx} {w : World} {sol : Mech} {limbo : List String} {fuel : Nat}

/-- **C32**: the analysis returns the end of the specified course whenever there is one. -/
theorem C32_followed (T : TmpOk c) (hw : w.fs c.modelFile = some sol) {initial : List PyF}
    (hi : c.initial sol = .ok initial) {acc : List String} {mf : Mech} {ef : PyF} {rest : List String}
    (h : Course c initial sol sol c.startErr (saLimbo c.safe sol limbo) acc mf ef rest)
    (hind : ∃ errs, Induced c initial sol (saLimbo c.safe sol limbo) errs)
    (hf : (saLimbo c.safe sol limbo).length < fuel) :
    ∃ r rm, runSA c limbo fuel w = some r ∧ r.result = .ok rm ∧ rm.model = mf ∧ rm.error = ef ∧
      r.limbo = rest := by
  obtain ⟨r, hr⟩ := C30_terminates c limbo w fuel (fun m hm => by
    rw [hw] at hm; cases hm; exact hf)
  refine ⟨r, ?_⟩
  rcases runSA_start T hw hr with ⟨e, -, -, -, h1⟩ | ⟨initial', hi', H⟩
  · rw [hi] at h1; cases h1
  obtain rfl : initial = initial' := by rw [hi] at hi'; cases hi'; rfl
  rcases H with ⟨e, -, -, -, -, h1⟩ | ⟨errs, w1, r', s', I, hloop, hlim, H⟩
  · obtain ⟨errs, h2⟩ := hind
    rw [serialMap_ok_iff.2 h2] at h1
    cases h1
  obtain ⟨s2, q1, q2, q3, q4⟩ := saLoop_of_course T fuel I h hf
  rw [hloop] at q1
  cases q1
  rcases H with ⟨e, h2, -⟩ | ⟨-, h2, -⟩
  · cases h2
  · exact ⟨_, hr, h2, q2, q3, hlim.trans q4⟩

/-! ### C102 -/

/-- `sp` is the one species of `limbo` whose removal from `base` has an error nearest to `e` -/
def ClearlyNearest (c : SACtx) (initial : List PyF) (base : Mech) (e : PyF) (limbo : List String)
    (sp : String) : Prop :=
  sp ∈ limbo ∧ ∃ x, saErr c initial (without c base sp) = .ok x ∧ x ≠ .nan ∧ c.dist x e ≠ .nan ∧
    ∀ sp' ∈ limbo, sp' ≠ sp → ∃ x', saErr c initial (without c base sp') = .ok x' ∧
      x' ≠ .nan ∧ (c.dist x e).lt (c.dist x' e) = true

/-- no two species tie for being nearest, from this state on, as long as removals stay within the
limit -/
inductive Untied (c : SACtx) (initial : List PyF) : Mech → Mech → PyF → List String → Prop where
  | done {base m e} : Untied c initial base m e []
  | step {base m e limbo} (sp : String) (h : ClearlyNearest c initial base e limbo sp)
      (next : ∀ e' rest, saErr c initial (without c m sp) = .ok e' → c.limit.lt e' = false →
        (sp :: rest).Perm limbo →
        Untied c initial (if c.greedy then without c m sp else base) (without c m sp) e' rest) :
      Untied c initial base m e limbo

section
variable {initial : List PyF} {base m : Mech} {e : PyF} {limbo' : List String}

theorem ClearlyNearest.perm {sp : String} (h : ClearlyNearest c initial base e limbo sp)
    (p : limbo'.Perm limbo) : ClearlyNearest c initial base e limbo' sp := by
  obtain ⟨h1, x, h2, h0, h3, h4⟩ := h
  exact ⟨p.mem_iff.2 h1, x, h2, h0, h3, fun sp' hs => h4 sp' (p.mem_iff.1 hs)⟩

theorem Untied.perm (h : Untied c initial base m e limbo) (p : limbo'.Perm limbo) :
    Untied c initial base m e limbo' := by
  cases h with
  | done => rw [p.eq_nil]; exact .done
  | step sp h next => exact .step sp (h.perm p) fun e' rest h1 h2 h3 => next e' rest h1 h2 (h3.trans p)

theorem Spec.Induced.get {errs : List PyF} (h : Induced c initial base limbo errs) {i : Nat}
    {sp : String} (hs : limbo[i]? = some sp) :
    ∃ x, errs[i]? = some x ∧ saErr c initial (without c base sp) = .ok x := by
  unfold Induced at h
  induction h generalizing i with
  | nil => simp at hs
  | cons h1 _ ih =>
    cases i with
    | zero => simp at hs; subst hs; exact ⟨_, rfl, h1⟩
    | succ i => simpa using ih (by simpa using hs)

theorem Spec.Induced.mem {errs : List PyF} (h : Induced c initial base limbo errs) {x : PyF} :
    x ∈ errs ↔ ∃ sp ∈ limbo, saErr c initial (without c base sp) = .ok x := by
  constructor
  · intro hx
    exact Forall2_exists_right h hx
  · rintro ⟨sp, hs, he⟩
    obtain ⟨i, hi⟩ := List.getElem?_of_mem hs
    obtain ⟨y, h1, h2⟩ := h.get hi
    rw [he] at h2
    cases h2
    exact List.mem_of_getElem? h1

theorem ClearlyNearest.eq {sp sp1 : String} {errs : List PyF} {i : Nat}
    (h : ClearlyNearest c initial base e limbo sp) (hi : Induced c initial base limbo errs)
    (hn : Nearest c errs e i) (hs : limbo[i]? = some sp1) : sp1 = sp := by
  by_contra hne
  obtain ⟨h1, x, h2, h0, h3, h4⟩ := h
  obtain ⟨x1, g1, g2⟩ := hi.get hs
  obtain ⟨x', g3, -, g4⟩ := h4 sp1 (List.mem_of_getElem? hs) hne
  rw [g2] at g3
  cases g3
  obtain ⟨y, k1, k2⟩ := hn
  rw [g1] at k1
  cases k1
  rcases k2 with ⟨k2, -⟩ | ⟨-, k2, -⟩
  · rw [k2] at g4
    cases h : (c.dist x e) <;> rw [h] at g4 <;> simp [PyF.lt] at g4
  · have := PyF.lt_of_lt_of_le' g4 (k2 x (hi.mem.2 ⟨sp, h1, h2⟩))
    rw [PyF.lt_irrefl'] at this
    cases this

/-- the choice does not depend on the order -/
theorem ClearlyNearest.choose {sp : String} (h : ClearlyNearest c initial base e limbo sp) :
    ∃ errs i, Induced c initial base limbo errs ∧ Nearest c errs e i ∧ limbo[i]? = some sp := by
  have hall : ∀ s ∈ limbo, ∃ y, saErr c initial (without c base s) = .ok y := by
    obtain ⟨h1, x, h2, h0, h3, h4⟩ := h
    intro s hs
    by_cases he : s = sp
    · subst he; exact ⟨x, h2⟩
    · obtain ⟨x', h5, -⟩ := h4 s hs he; exact ⟨x', h5⟩
  obtain ⟨errs, he⟩ := serialMap_ok_of hall
  have hi : Induced c initial base limbo errs := serialMap_ok_iff.1 he
  have hlen : limbo.length = errs.length := hi.length_eq
  have hne : errs.map (fun x => c.dist x e) ≠ [] := by
    intro hc
    have : errs.length = 0 := by simpa using hc
    have : 0 < limbo.length := List.length_pos_of_mem h.1
    omega
  obtain ⟨i, hi2⟩ := npArgmin_ok hne
  have hn := npArgmin_nearest hi2
  obtain ⟨y, hy, -⟩ := id hn
  have hlt : i < limbo.length := by
    rw [hlen]; exact (List.getElem?_eq_some_iff.1 hy).1
  have hg : limbo[i]? = some limbo[i] := List.getElem?_eq_getElem hlt
  refine ⟨errs, i, hi, hn, ?_⟩
  rw [hg, h.eq hi hn hg]

/-- without ties no error is NaN -/
theorem ClearlyNearest.not_nan {sp s : String} (h : ClearlyNearest c initial base e limbo sp)
    (hs : s ∈ limbo) : saErr c initial (without c base s) ≠ .ok .nan := by
  intro hc
  obtain ⟨h1, x, h2, h0, h3, h4⟩ := h
  by_cases he : s = sp
  · subst he
    rw [hc] at h2
    cases h2
    exact h0 rfl
  · obtain ⟨x', h5, h6, -⟩ := h4 s hs he
    rw [hc] at h5
    cases h5
    exact h6 rfl

theorem Spec.Least.reorder {errs errs' : List PyF} {x : PyF} (h : Least errs x)
    (hm : ∀ y, y ∈ errs' ↔ y ∈ errs) (hn : ∀ y ∈ errs, y ≠ .nan) : Least errs' x := by
  obtain ⟨h1, h2 | ⟨h2, h3, h4⟩⟩ := h
  · exact absurd rfl (hn .nan (List.mem_of_mem_head? h2.1))
  · refine ⟨(hm x).2 h1, Or.inr ⟨?_, h3, fun y hy => h4 y ((hm y).1 hy)⟩⟩
    intro hc
    exact hn .nan ((hm _).1 (List.mem_of_mem_head? hc)) rfl

/-- re-evaluated errors in another order -/
theorem Untied.least {errs : List PyF} {x : PyF} {base m : Mech} {e : PyF} {rest rest' : List String}
    {b : Mech} (hb : base = b)
    (h : Untied c initial base m e rest) (p : rest'.Perm rest)
    (hi : Induced c initial b rest errs) (hx : Least errs x) :
    ∃ errs', Induced c initial b rest' errs' ∧ Least errs' x := by
  subst hb
  cases h with
  | done =>
    cases hi
    exact absurd hx.1 (by simp)
  | step sp h next =>
    obtain ⟨errs', -, h1, -⟩ := (h.perm p).choose
    refine ⟨errs', h1, hx.reorder (fun y => ?_) (fun y hy hc => ?_)⟩
    · rw [h1.mem, hi.mem]
      simp only [p.mem_iff]
    · subst hc
      obtain ⟨s, hs, he⟩ := hi.mem.1 hy
      exact h.not_nan hs he

/-- a course without ties is followed in any order -/
theorem Spec.Course.reorder {acc : List String} {mf : Mech} {ef : PyF} {rest : List String}
    (h : Course c initial base m e limbo acc mf ef rest) (hu : Untied c initial base m e limbo)
    (p : limbo'.Perm limbo) :
    ∃ rest', Course c initial base m e limbo' acc mf ef rest' ∧ rest'.Perm rest := by
  have cancel : ∀ {l l' : List String} {i j : Nat} {sp : String}, l'.Perm l → l[i]? = some sp →
      l'[j]? = some sp → (l'.eraseIdx j).Perm (l.eraseIdx i) := by
    intro l l' i j sp p h1 h2
    exact List.Perm.cons_inv ((getElem?_perm h2).trans (p.trans (getElem?_perm h1).symm))
  induction h generalizing limbo' with
  | done =>
    rw [p.eq_nil]
    exact ⟨[], .done, .refl _⟩
  | reject hi hn hs he hl =>
    cases hu with
    | done => simp at hs
    | step sp0 hc next =>
      obtain rfl := hc.eq hi hn hs
      obtain ⟨errs', j, k1, k2, k3⟩ := (hc.perm p).choose
      exact ⟨_, .reject k1 k2 k3 he hl, cancel p hs k3⟩
  | last hi hn hs he hl hg hi' hx hlx =>
    cases hu with
    | done => simp at hs
    | step sp0 hc next =>
      obtain rfl := hc.eq hi hn hs
      obtain ⟨errs', j, k1, k2, k3⟩ := (hc.perm p).choose
      have hnext := next _ _ he hl (getElem?_perm hs)
      obtain ⟨errs2, q1, q2⟩ := hnext.least (by rw [if_pos hg]) (cancel p hs k3) hi' hx
      exact ⟨_, .last k1 k2 k3 he hl hg q1 q2 hlx, cancel p hs k3⟩
  | accept hi hn hs he hl hg _ ih =>
    cases hu with
    | done => simp at hs
    | step sp0 hc next =>
      obtain rfl := hc.eq hi hn hs
      obtain ⟨errs', j, k1, k2, k3⟩ := (hc.perm p).choose
      have hnext := next _ _ he hl (getElem?_perm hs)
      obtain ⟨rest', q1, q2⟩ := ih hnext (cancel p hs k3)
      refine ⟨rest', .accept k1 k2 k3 he hl (fun g => ?_) q1, q2⟩
      obtain ⟨errs1, x, g1, g2, g3⟩ := hg g
      obtain ⟨errs2, r1, r2⟩ := hnext.least (by rw [if_pos g]) (cancel p hs k3) g1 g2
      exact ⟨errs2, x, r1, r2, g3⟩

end

/-- **C102** (no ties): sensitivity analysis returns the same model and error whatever the order of
the limbo species. -/
theorem C102_untied_partial (T : TmpOk c) {w w' : World} (hw : w.fs c.modelFile = some sol)
    (hw' : w'.fs c.modelFile = some sol) {initial : List PyF} (hi : c.initial sol = .ok initial)
    {limbo' : List String} (p : limbo'.Perm limbo) (hne : limbo ≠ [])
    (hu : Untied c initial sol sol c.startErr limbo) {r : SAResult} {rm : RModel}
    (h : runSA c limbo fuel w = some r) (hr : r.result = .ok rm) {fuel' : Nat}
    (hf : limbo.length < fuel') :
    ∃ r', runSA c limbo' fuel' w' = some r' ∧ r'.result = .ok rm ∧ r'.limbo.Perm r.limbo := by
  obtain ⟨initial', acc, hi', q, q2, q3, -⟩ := runSA_course T hw h hr
  obtain rfl : initial = initial' := by rw [hi] at hi'; cases hi'; rfl
  have hne' : limbo' ≠ [] := fun hc => hne (by rw [hc] at p; exact p.nil_eq.symm)
  have e1 : saLimbo c.safe sol limbo = limbo := by unfold saLimbo; rw [if_neg hne]
  have e2 : saLimbo c.safe sol limbo' = limbo' := by unfold saLimbo; rw [if_neg hne']
  rw [e1] at q
  obtain ⟨rest', k1, k2⟩ := q.reorder hu p
  have hind : ∃ errs, Induced c initial sol limbo' errs := by
    cases hu.perm p with
    | done => exact absurd rfl hne'
    | step sp hc _ => obtain ⟨errs, -, h1, -⟩ := hc.choose; exact ⟨errs, h1⟩
  obtain ⟨r', rm', g1, g2, g3, g4, g5⟩ := C32_followed (limbo := limbo') (fuel := fuel') T hw' hi
    (by rw [e2]; exact k1) (by rw [e2]; exact hind) (by rw [e2, p.length_eq]; exact hf)
  obtain ⟨-, -, -, -, q2', q3', -⟩ := runSA_course T hw' g1 g2
  refine ⟨r', g1, ?_, by rw [g5]; exact k2⟩
  rw [g2]
  obtain ⟨m1, f1, er1, l1⟩ := rm
  obtain ⟨m2, f2, er2, l2⟩ := rm'
  dsimp only at *
  subst g3 g4 q2 q3 q2' q3'
  rfl

/-- of two species that tie, the first is removed -/
theorem tie_course {initial : List PyF} {e x y z : PyF} {a b : String}
    (ha : saErr c initial (without c sol a) = .ok x) (hb : saErr c initial (without c sol b) = .ok y)
    (ht : (c.dist x e) = (c.dist y e)) (hn : (c.dist x e) ≠ .nan) (hx : c.limit.lt x = false)
    (hz : saErr c initial (without c (without c sol a) b) = .ok z) (hlz : c.limit.lt z = true) :
    ∃ rest, Course c initial sol sol e [a, b] [a] (without c sol a) x rest := by
  have hi : Induced c initial sol [a, b] [x, y] := .cons ha (.cons hb .nil)
  have hnear : Nearest c [x, y] e 0 := by
    refine ⟨x, rfl, Or.inr ⟨?_, ?_, fun j hj => by omega⟩⟩
    · intro e' he'
      simp only [List.mem_cons, List.not_mem_nil, or_false] at he'
      rcases he' with rfl | rfl
      · exact hn
      · rw [← ht]; exact hn
    · intro e' he'
      simp only [List.mem_cons, List.not_mem_nil, or_false] at he'
      rcases he' with rfl | rfl
      · exact PyF.le_refl' hn
      · rw [← ht]; exact PyF.le_refl' hn
  have hzn : z ≠ .nan := by
    rintro rfl
    cases h : c.limit <;> rw [h] at hlz <;> simp [PyF.lt] at hlz
  by_cases hg : c.greedy = true
  · refine ⟨_, .last hi hnear rfl ha hx hg (errs' := [z]) (x := z) (.cons hz .nil) ?_ hlz⟩
    refine ⟨by simp, Or.inr ⟨by simpa using hzn, hzn, fun w hw _ => ?_⟩⟩
    rw [List.mem_singleton.1 hw]
    exact PyF.le_refl' hzn
  · refine ⟨[], .accept hi hnear rfl ha hx (fun h => absurd h hg) ?_⟩
    rw [if_neg hg]
    have hi2 : Induced c initial sol [b] [y] := .cons hb .nil
    -- the distance of `b` may be undefined now; it is the only one left either way
    have hnear2 : Nearest c [y] x 0 := by
      by_cases hnan : (c.dist y x) = .nan
      · exact ⟨y, rfl, Or.inl ⟨hnan, fun j hj => by omega⟩⟩
      · refine ⟨y, rfl, Or.inr ⟨?_, ?_, fun j hj => by omega⟩⟩
        · intro e' he'; rw [List.mem_singleton.1 he']; exact hnan
        · intro e' he'; rw [List.mem_singleton.1 he']; exact PyF.le_refl' hnan
    exact .reject hi2 hnear2 rfl hz hlz

/-- **C102** is false with ties: whenever two limbo species have removal errors at the same
distance from the current error, either can be removed and both cannot, the first one in the list
is removed, so the two orders give models with different species. -/
theorem C102_ties_refuted (T : TmpOk c) (hw : w.fs c.modelFile = some sol) {initial : List PyF}
    (hi : c.initial sol = .ok initial) {x y z z' : PyF} {a b : String} (hab : a ≠ b)
    (ham : a ∈ sol.names) (hbm : b ∈ sol.names)
    (ha : saErr c initial (without c sol a) = .ok x) (hb : saErr c initial (without c sol b) = .ok y)
    (ht : (c.dist x c.startErr) = (c.dist y c.startErr)) (hn : (c.dist x c.startErr) ≠ .nan)
    (hx : c.limit.lt x = false) (hy : c.limit.lt y = false)
    (hz : saErr c initial (without c (without c sol a) b) = .ok z) (hlz : c.limit.lt z = true)
    (hz' : saErr c initial (without c (without c sol b) a) = .ok z') (hlz' : c.limit.lt z' = true)
    (hf : 2 < fuel) :
    ∃ r r' rm rm', runSA c [a, b] fuel w = some r ∧ runSA c [b, a] fuel w = some r' ∧
      r.result = .ok rm ∧ r'.result = .ok rm' ∧ a ∉ rm.model.names ∧ b ∈ rm.model.names ∧
      b ∉ rm'.model.names ∧ a ∈ rm'.model.names := by
  have run : ∀ {p q : String} {u v t : PyF}, saErr c initial (without c sol p) = .ok u →
      saErr c initial (without c sol q) = .ok v →
      (c.dist u c.startErr) = (c.dist v c.startErr) → (c.dist u c.startErr) ≠ .nan →
      c.limit.lt u = false → saErr c initial (without c (without c sol p) q) = .ok t →
      c.limit.lt t = true → ∃ r rm, runSA c [p, q] fuel w = some r ∧ r.result = .ok rm ∧
        rm.model = without c sol p := by
    intro p q u v t h1 h2 h3 h4 h5 h6 h7
    obtain ⟨rest, hc⟩ := tie_course h1 h2 h3 h4 h5 h6 h7
    have e1 : saLimbo c.safe sol [p, q] = [p, q] := by unfold saLimbo; rw [if_neg (by simp)]
    obtain ⟨r, rm, g1, g2, g3, -⟩ := C32_followed (limbo := [p, q]) (fuel := fuel) T hw hi
      (by rw [e1]; exact hc) (by rw [e1]; exact ⟨[u, v], .cons h1 (.cons h2 .nil)⟩)
      (by rw [e1]; exact hf)
    exact ⟨r, rm, g1, g2, g3⟩
  obtain ⟨r, rm, g1, g2, g3⟩ := run ha hb ht hn hx hz hlz
  obtain ⟨r', rm', k1, k2, k3⟩ := run hb ha ht.symm (ht ▸ hn) hy hz' hlz'
  refine ⟨r, r', rm, rm', g1, k1, g2, k2, ?_⟩
  rw [g3, k3, without_names, without_names]
  simp [List.mem_filter, ham, hbm, hab, Ne.symm hab]

/-! ### cases -/

/-- `B` and `C` are redundant: either can go without error, not both -/
def redundant (m : Mech) : Except Err (List PyF) :=
  .ok [.fin (if "B" ∈ m.names ∨ "C" ∈ m.names then 1 else 2)]

def tieSA (greedy : Bool) : SACtx :=
  { exSA (.fin 20) greedy [] with initial := redundant, metrics := redundant, startErr := .fin 0 }

theorem tieSA_tmp (greedy : Bool) : TmpOk (tieSA greedy) :=
  let T := exSA_tmp (.fin 20) greedy []
  ⟨T.tmp_ne, T.tmp_last, T.eval_ne, T.eval_last, T.model_tmp, T.model_eval, T.apart⟩

/-- The hypotheses of `C102_ties_refuted` are met. -/
example (greedy : Bool) :
    ∃ r r' rm rm', runSA (tieSA greedy) ["B", "C"] 3 saWorld = some r ∧
      runSA (tieSA greedy) ["C", "B"] 3 saWorld = some r' ∧
      r.result = .ok rm ∧ r'.result = .ok rm' ∧ "B" ∉ rm.model.names ∧ "C" ∈ rm.model.names ∧
      "C" ∉ rm'.model.names ∧ "B" ∈ rm'.model.names :=
  C102_ties_refuted (sol := saSol) (initial := [.fin 1]) (x := .fin 0) (y := .fin 0) (z := .fin 100)
    (z' := .fin 100) (tieSA_tmp greedy) rfl (by cases greedy <;> decide +kernel) (by decide)
    (by decide) (by decide) (by cases greedy <;> decide +kernel) (by cases greedy <;> decide +kernel)
    rfl (by cases greedy <;> decide +kernel) (by cases greedy <;> decide +kernel) (by cases greedy <;> decide +kernel)
    (by cases greedy <;> decide +kernel) (by cases greedy <;> decide +kernel)
    (by cases greedy <;> decide +kernel) (by cases greedy <;> decide +kernel) (by decide)

/-- The hypotheses of `C102_untied_partial` are met by both algorithms. -/
example (greedy : Bool) : Untied (exSA (.fin 20) greedy []) [.fin 1] saSol saSol (.fin 1) ["B", "C"] := by
  have hB : saErr (exSA (.fin 20) greedy []) [.fin 1] (without (exSA (.fin 20) greedy []) saSol "B") =
      .ok (.fin 5) := by cases greedy <;> decide +kernel
  have hC : saErr (exSA (.fin 20) greedy []) [.fin 1] (without (exSA (.fin 20) greedy []) saSol "C") =
      .ok (.fin 10) := by cases greedy <;> decide +kernel
  have hBC : saErr (exSA (.fin 20) greedy []) [.fin 1] (without (exSA (.fin 20) greedy [])
      (without (exSA (.fin 20) greedy []) saSol "B") "C") = .ok (.fin 30) := by
    cases greedy <;> decide +kernel
  refine .step "B" ⟨by simp, .fin 5, hB, by simp, by cases greedy <;> decide +kernel, ?_⟩ ?_
  · intro s hs hne
    obtain rfl : s = "C" := by simpa [hne] using hs
    exact ⟨.fin 10, hC, by simp, by cases greedy <;> decide +kernel⟩
  · intro e' rest he' _ hp
    rw [hB] at he'
    cases he'
    obtain rfl : rest = ["C"] := List.perm_singleton.1 (List.Perm.cons_inv hp)
    refine .step "C" ⟨by simp, ?_⟩ ?_
    · cases greedy with
      | false => exact ⟨.fin 10, hC, by simp, by decide +kernel, fun s hs hne => absurd (List.mem_singleton.1 hs) hne⟩
      | true => exact ⟨.fin 30, hBC, by simp, by decide +kernel, fun s hs hne => absurd (List.mem_singleton.1 hs) hne⟩
    · intro e2 rest2 he2 hl2 _
      rw [hBC] at he2
      cases he2
      exact absurd hl2 (by show ¬ PyF.lt (.fin 20) (.fin 30) = false; decide +kernel)

end Verif
