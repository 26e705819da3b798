import Verif.Lemmas.SA
import Verif.Props.Sampling
import Verif.Props.ReduceCases
/-!
# Properties of sensitivity analysis (C29-C32, C34, C70, C71)
-/
namespace Verif
open Spec

variable {c : SACtx} {w : World} {sol : Mech} {limbo : List String} {fuel : Nat} {r : SAResult}

/-- a returned model is the end of a course -/
theorem runSA_course (T : TmpOk c) (hw : w.fs c.modelFile = some sol)
    (h : runSA c limbo fuel w = some r) {rm : RModel} (hr : r.result = .ok rm) :
    ∃ initial acc, c.initial sol = .ok initial ∧
      Course c initial sol sol c.startErr (saLimbo c.safe sol limbo) acc rm.model rm.error r.limbo ∧
      rm.filename = reducedName rm.model.nSpecies ∧ rm.limbo = none ∧
      r.w.fs (joinPath c.path rm.filename) = some rm.model := by
  rcases runSA_start T hw h with ⟨e, h1, -⟩ | ⟨initial, hi, H⟩
  · rw [hr] at h1; cases h1
  rcases H with ⟨e, h1, -⟩ | ⟨errs, w1, r', s', I, hloop, hlim, H⟩
  · rw [hr] at h1; cases h1
  obtain ⟨-, q⟩ := saLoop_course T fuel I hloop
  rcases H with ⟨e, -, h1, -⟩ | ⟨h1, h2, h3⟩
  · rw [hr] at h1; cases h1
  obtain ⟨acc, q⟩ := q h1
  rw [hr] at h2
  cases h2
  refine ⟨initial, acc, hi, ?_, rfl, rfl, ?_⟩
  · rw [hlim]; exact q
  · rw [h3]; simp

/-- **C29**: the returned error is the starting error, with nothing removed, or it was evaluated
for the returned model and is not above the limit. -/
theorem C29_within_limit (T : TmpOk c) (hw : w.fs c.modelFile = some sol)
    (h : runSA c limbo fuel w = some r) {rm : RModel} (hr : r.result = .ok rm) :
    (rm.model = sol ∧ rm.error = c.startErr) ∨
    ∃ initial, c.initial sol = .ok initial ∧ saErr c initial rm.model = .ok rm.error ∧
      ¬ c.limit.lt rm.error = true := by
  obtain ⟨initial, acc, hi, q, -⟩ := runSA_course T hw h hr
  rcases q.error with ⟨-, h1, h2⟩ | ⟨-, h1, h2⟩
  · exact Or.inl ⟨h1, h2⟩
  · exact Or.inr ⟨initial, hi, h1, by simp [h2]⟩

/-- **C30**: the species of the returned model are those of the starting model, in order, minus
accepted candidates; each was a candidate, at most once per occurrence, and what remains of the
list are the other candidates, save at most one that was rejected. -/
theorem C30_only_candidates (T : TmpOk c) (hw : w.fs c.modelFile = some sol)
    (h : runSA c limbo fuel w = some r) {rm : RModel} (hr : r.result = .ok rm) :
    ∃ acc : List String, rm.model.names = sol.names.filter (fun x => !(acc.contains x)) ∧
      rm.model = acc.foldl (without c) sol ∧
      ((acc ++ r.limbo).Perm (saLimbo c.safe sol limbo) ∨
        ∃ x, (x :: (acc ++ r.limbo)).Perm (saLimbo c.safe sol limbo)) ∧
      ∀ x ∈ acc, x ∈ saLimbo c.safe sol limbo := by
  obtain ⟨initial, acc, hi, q, -⟩ := runSA_course T hw h hr
  refine ⟨acc, q.removed, q.model, q.perm, fun x hx => ?_⟩
  rcases q.perm with p | ⟨y, p⟩
  · exact p.subset (by simp [hx])
  · exact p.subset (by simp [hx])

/-- **C30**: with no list given, every species of the retained list stays. -/
theorem C30_safe_kept (T : TmpOk c) (hw : w.fs c.modelFile = some sol)
    (h : runSA c [] fuel w = some r) {rm : RModel} (hr : r.result = .ok rm) {sp : String}
    (h1 : sp ∈ c.safe) (h2 : sp ∈ sol.names) : sp ∈ rm.model.names := by
  obtain ⟨acc, h3, -, -, h4⟩ := C30_only_candidates T hw h hr
  rw [h3, List.mem_filter]
  refine ⟨h2, ?_⟩
  have : sp ∉ acc := by
    intro ha
    have := h4 sp ha
    unfold saLimbo at this
    rw [if_pos rfl, List.mem_filter] at this
    simp [h1] at this
  simpa using this

/-- **C30**: a list that is given is used as it is, even when it names retained species: if the
first step is accepted, a species of the retained list is removed. -/
theorem C30_given_list_ignores_safe (T : TmpOk c) (hw : w.fs c.modelFile = some sol) {sp : String}
    {initial : List PyF} {e : PyF} (hi : c.initial sol = .ok initial)
    (he : saErr c initial (without c sol sp) = .ok e) (hl : c.limit.lt e = false)
    (hg : c.greedy = false) : ∃ r rm, runSA c [sp] 2 w = some r ∧ r.result = .ok rm ∧
      sp ∉ rm.model.names := by
  have hlm : loadModel w c.modelFile = .ok sol := by unfold loadModel; rw [hw]
  have hlimbo : saLimbo c.safe sol [sp] = [sp] := by unfold saLimbo; rw [if_neg (by simp)]
  obtain ⟨k1, k2, e1⟩ := evalSpecies_spec T initial T.model_eval [sp] hw
  have hs : serialMap (fun x => saErr c initial (without c sol x)) [sp] = .ok [e] := by
    unfold serialMap
    rw [he]
    rfl
  rw [hs] at e1
  rcases hr : evalSpecies c initial c.modelFile [sp] w with ⟨r1, w1⟩
  rw [hr] at k1 k2 e1
  dsimp only at k1 k2 e1
  subst e1
  let s : SAState := ⟨⟨sol, c.modelFile, c.startErr, none⟩, [sp], [e], w1⟩
  have I : SAInv c initial w sol s := by
    refine ⟨?_, T.model_eval, serialMap_ok_iff.1 hs, fun _ => rfl, k2⟩
    show w1.fs c.modelFile = some sol
    rw [k1.2 _ (fun ⟨n, hn⟩ => T.model_eval n hn)]
    exact hw
  obtain ⟨⟨x, s'⟩, hx⟩ := saLoop_terminates (c := c) (initial := initial) 2 s (by simp [s])
  obtain ⟨i, sp', hn, hsp, H⟩ := saStep_spec T I (by simp [s])
  have : sp' = sp := by
    have := List.mem_of_getElem? hsp
    simpa [s] using this
  subst this
  have hi0 : i = 0 := by
    have := (List.getElem?_eq_some_iff.1 hsp).1
    simp [s] at this
    exact this
  subst hi0
  change (match saErr c initial (without c sol sp') with
    | _ => _) at H
  rw [he] at H
  simp only [hl] at H
  obtain ⟨cur, w2, m1, -, -, -, -, H⟩ := H
  rw [hg] at H
  simp only [Bool.false_eq_true, if_false] at H
  have hloop : saLoop c initial 2 s = some (.ok (), ⟨cur, [], [], w2⟩) := by
    unfold saLoop
    rw [if_neg (by simp [s]), H]
    dsimp only
    unfold saLoop
    rw [if_pos (by simp [s])]
    simp [s]
  have hrun : ∃ w3, runSA c [sp'] 2 w = some ⟨.ok ⟨cur.model, reducedName cur.model.nSpecies,
      cur.error, none⟩, w3, []⟩ := by
    unfold runSA
    rw [hlm]
    dsimp only
    rw [hi]
    dsimp only
    rw [hlimbo, hr]
    dsimp only
    rw [show saLoop c initial 2 ⟨⟨sol, c.modelFile, c.startErr, none⟩, [sp'], [e], w1⟩ = _ from
      hloop]
    exact ⟨_, rfl⟩
  obtain ⟨w3, hrun⟩ := hrun
  refine ⟨_, _, hrun, rfl, ?_⟩
  show sp' ∉ cur.model.names
  rw [m1]
  show sp' ∉ (without c sol sp').names
  rw [without_names, List.mem_filter]
  simp

/-- **C30**: the number of species removed is the number of accepted steps, when the candidates
are distinct species of the model. -/
theorem C30_count (T : TmpOk c) (hw : w.fs c.modelFile = some sol)
    (h : runSA c limbo fuel w = some r) {rm : RModel} (hr : r.result = .ok rm)
    (hn : sol.names.Nodup) (hl : (saLimbo c.safe sol limbo).Nodup)
    (hs : ∀ x ∈ saLimbo c.safe sol limbo, x ∈ sol.names) :
    ∃ initial acc, c.initial sol = .ok initial ∧
      Course c initial sol sol c.startErr (saLimbo c.safe sol limbo) acc rm.model rm.error r.limbo ∧
      rm.model.names.length + acc.length = sol.names.length := by
  obtain ⟨initial, acc, hi, q, -⟩ := runSA_course T hw h hr
  refine ⟨initial, acc, hi, q, ?_⟩
  have hacc : acc.Nodup ∧ ∀ x ∈ acc, x ∈ sol.names := by
    rcases q.perm with p | ⟨y, p⟩
    · have := p.nodup_iff.2 hl
      exact ⟨(List.nodup_append.1 this).1, fun x hx => hs x (p.subset (by simp [hx]))⟩
    · have := (List.nodup_cons.1 (p.nodup_iff.2 hl)).2
      exact ⟨(List.nodup_append.1 this).1, fun x hx => hs x (p.subset (by simp [hx]))⟩
  rw [q.removed]
  have hp : (sol.names.filter (fun x => acc.contains x)).Perm acc := by
    rw [List.perm_ext_iff_of_nodup (hn.filter _) hacc.1]
    intro x
    rw [List.mem_filter]
    simp only [List.contains_iff_mem]
    exact ⟨fun h => h.2, fun h => ⟨hacc.2 x h, h⟩⟩
  rw [← hp.length_eq, ← List.countP_eq_length_filter, ← List.countP_eq_length_filter, add_comm]
  rw [List.length_eq_countP_add_countP (fun x => acc.contains x) (l := sol.names)]
  congr 2
  funext x
  by_cases hx : acc.contains x = true <;> simp [hx]

/-- **C30**: the analysis ends after at most one pass per candidate. -/
theorem C30_terminates (c : SACtx) (limbo : List String) (w : World) (fuel : Nat)
    (h : ∀ sol, w.fs c.modelFile = some sol → (saLimbo c.safe sol limbo).length < fuel) :
    ∃ r, runSA c limbo fuel w = some r := by
  unfold runSA
  rcases hlm : loadModel w c.modelFile with e | sol
  · exact ⟨_, rfl⟩
  dsimp only
  have hw : w.fs c.modelFile = some sol := by
    unfold loadModel at hlm
    rcases hf : w.fs c.modelFile with _ | m <;> rw [hf] at hlm <;> cases hlm
    rfl
  rcases c.initial sol with e | initial
  · exact ⟨_, rfl⟩
  dsimp only
  rcases evalSpecies c initial c.modelFile (saLimbo c.safe sol limbo) w with ⟨_ | errs, w1⟩
  · exact ⟨_, rfl⟩
  dsimp only
  obtain ⟨⟨_ | _, s⟩, hx⟩ := saLoop_terminates (c := c) (initial := initial) fuel
    ⟨⟨sol, c.modelFile, c.startErr, none⟩, saLimbo c.safe sol limbo, errs, w1⟩ (h sol hw)
  · rw [hx]; exact ⟨_, rfl⟩
  · rw [hx]; exact ⟨_, rfl⟩

/-- the simulations of every model obtained by removing candidates succeed -/
def Evaluates (c : SACtx) (sol : Mech) (limbo : List String) (initial : List PyF) : Prop :=
  ∀ l : List String, (∀ x ∈ l, x ∈ saLimbo c.safe sol limbo) → l ≠ [] →
    ∃ e, saErr c initial (l.foldl (without c) sol) = .ok e

/-- every removal stays within the limit -/
def AllWithin (c : SACtx) (sol : Mech) (limbo : List String) (initial : List PyF) : Prop :=
  ∀ l : List String, (∀ x ∈ l, x ∈ saLimbo c.safe sol limbo) → l ≠ [] →
    ∃ e, saErr c initial (l.foldl (without c) sol) = .ok e ∧ c.limit.lt e = false

theorem Evaluates.first {initial : List PyF} (h : Evaluates c sol limbo initial) :
    ∃ errs, serialMap (fun sp => saErr c initial (without c sol sp)) (saLimbo c.safe sol limbo) =
      .ok errs :=
  serialMap_ok_of fun x hx => h [x] (by simpa using hx) (by simp)

/-- **C31** (refuted): whenever every removal is within the limit and there is a candidate, the
greedy algorithm raises `ValueError`: the minimum of an empty array. -/
theorem C31_greedy_refuted (T : TmpOk c) (hw : w.fs c.modelFile = some sol) {initial : List PyF}
    (hi : c.initial sol = .ok initial) (hne : saLimbo c.safe sol limbo ≠ [])
    (hg : c.greedy = true) (hall : AllWithin c sol limbo initial)
    (hfuel : (saLimbo c.safe sol limbo).length < fuel) :
    ∃ r, runSA c limbo fuel w = some r ∧ r.result = .error .valueError := by
  obtain ⟨r, hr⟩ := C30_terminates c limbo w fuel (fun m hm => by
    rw [hw] at hm; cases hm; exact hfuel)
  refine ⟨r, hr, ?_⟩
  have hE : Evaluates c sol limbo initial := fun l h1 h2 => (hall l h1 h2).imp fun _ h => h.1
  rcases runSA_start T hw hr with ⟨e, -, -, -, h1⟩ | ⟨initial', hi', H⟩
  · rw [hi] at h1; cases h1
  obtain rfl : initial = initial' := by rw [hi] at hi'; cases hi'; rfl
  rcases H with ⟨e, -, -, -, -, h1⟩ | ⟨errs, w1, r', s', I, hloop, hlim, H⟩
  · obtain ⟨errs, h2⟩ := hE.first
    rw [h1] at h2
    cases h2
  obtain ⟨-, q⟩ := saLoop_raises T (sol := sol) (L := saLimbo c.safe sol limbo) hE fuel I (gone := [])
    (by simp) rfl (fun x hx => hx) hloop
  obtain ⟨q1, -⟩ := q (fun l h1 h2 e he => by
    obtain ⟨e', h3, h4⟩ := hall l h1 h2
    rw [h3] at he; cases he; exact h4)
  have h1 := q1 hg hne
  rcases H with ⟨e, h2, h3, -⟩ | ⟨h2, -⟩
  · rw [h1] at h2; cases h2; exact h3
  · rw [h1] at h2; cases h2

/-- **C31** (partial): when the simulations succeed the `initial` algorithm always returns a model;
the greedy one returns a model or raises `ValueError` after accepting the last candidate. -/
theorem C31_returns_partial (T : TmpOk c) (hw : w.fs c.modelFile = some sol) {initial : List PyF}
    (hi : c.initial sol = .ok initial) (hE : Evaluates c sol limbo initial)
    (hfuel : (saLimbo c.safe sol limbo).length < fuel) :
    ∃ r, runSA c limbo fuel w = some r ∧
      ((∃ rm, r.result = .ok rm) ∨
        (c.greedy = true ∧ r.result = .error .valueError ∧ r.limbo = [])) := by
  obtain ⟨r, hr⟩ := C30_terminates c limbo w fuel (fun m hm => by
    rw [hw] at hm; cases hm; exact hfuel)
  refine ⟨r, hr, ?_⟩
  rcases runSA_start T hw hr with ⟨e, -, -, -, h1⟩ | ⟨initial', hi', H⟩
  · rw [hi] at h1; cases h1
  obtain rfl : initial = initial' := by rw [hi] at hi'; cases hi'; rfl
  rcases H with ⟨e, -, -, -, -, h1⟩ | ⟨errs, w1, r', s', I, hloop, hlim, H⟩
  · obtain ⟨errs, h2⟩ := hE.first
    rw [h1] at h2
    cases h2
  obtain ⟨q, -⟩ := saLoop_raises T (sol := sol) (L := saLimbo c.safe sol limbo) hE fuel I (gone := [])
    (by simp) rfl (fun x hx => hx) hloop
  rcases q with q | ⟨q1, q2, q3⟩
  · rcases H with ⟨e, h2, -⟩ | ⟨-, h2, -⟩
    · rw [q] at h2; cases h2
    · exact Or.inl ⟨_, h2⟩
  · rcases H with ⟨e, h2, h3, -⟩ | ⟨h2, -⟩
    · rw [q2] at h2
      cases h2
      exact Or.inr ⟨q1, h3, hlim.trans q3⟩
    · rw [q2] at h2; cases h2

/-- **C31**: the `initial` algorithm accepts every candidate when every removal is within the
limit. -/
theorem C31_initial_all (T : TmpOk c) (hw : w.fs c.modelFile = some sol) {initial : List PyF}
    (hi : c.initial sol = .ok initial) (hg : c.greedy = false) (hall : AllWithin c sol limbo initial)
    (hfuel : (saLimbo c.safe sol limbo).length < fuel) :
    ∃ r rm, runSA c limbo fuel w = some r ∧ r.result = .ok rm ∧ r.limbo = [] ∧
      rm.model.names = sol.names.filter (fun x => !((saLimbo c.safe sol limbo).contains x)) := by
  have hE : Evaluates c sol limbo initial := fun l h1 h2 => (hall l h1 h2).imp fun _ h => h.1
  obtain ⟨r, hr⟩ := C30_terminates c limbo w fuel (fun m hm => by
    rw [hw] at hm; cases hm; exact hfuel)
  rcases runSA_start T hw hr with ⟨e, -, -, -, h1⟩ | ⟨initial', hi', H⟩
  · rw [hi] at h1; cases h1
  obtain rfl : initial = initial' := by rw [hi] at hi'; cases hi'; rfl
  rcases H with ⟨e, -, -, -, -, h1⟩ | ⟨errs, w1, r', s', I, hloop, hlim, H⟩
  · obtain ⟨errs, h2⟩ := hE.first
    rw [h1] at h2
    cases h2
  obtain ⟨q, q'⟩ := saLoop_raises T (sol := sol) (L := saLimbo c.safe sol limbo) hE fuel I (gone := [])
    (by simp) rfl (fun x hx => hx) hloop
  obtain ⟨-, q2⟩ := q' (fun l h1 h2 e he => by
    obtain ⟨e', h3, h4⟩ := hall l h1 h2
    rw [h3] at he; cases he; exact h4)
  rcases q with q | ⟨q1, -⟩
  swap
  · rw [hg] at q1; cases q1
  rcases H with ⟨e, h2, -⟩ | ⟨-, h2, -⟩
  · rw [q] at h2; cases h2
  obtain ⟨-, q3⟩ := saLoop_course T fuel I hloop
  obtain ⟨acc, q3⟩ := q3 q
  rw [q2] at q3
  refine ⟨r, _, hr, h2, hlim.trans q2, ?_⟩
  have hacc : ∀ x, x ∈ acc ↔ x ∈ saLimbo c.safe sol limbo := by
    intro x
    refine ⟨fun hx => ?_, fun hx => ?_⟩
    · rcases q3.perm with p | ⟨y, p⟩ <;> exact p.subset (by simp [hx])
    · exact q3.complete (fun l h1 h2 e he => by
        obtain ⟨e', h3, h4⟩ := hall l h1 h2
        rw [h3] at he; cases he; exact h4) hg [] (by simp) rfl (fun y hy => hy) x hx
  rw [q3.removed]
  congr 1
  funext x
  have := hacc x
  by_cases hx : x ∈ acc
  · simp [hx, this.1 hx]
  · simp [hx, mt this.2 hx]

/-- **C32**: a returned model is the end of the specified course: at each step the candidate whose
induced error is nearest to the current error is tried, the first one on ties; the induced errors
are those of the starting model for `initial` and of the current model for `greedy`. -/
theorem C32_course (T : TmpOk c) (hw : w.fs c.modelFile = some sol)
    (h : runSA c limbo fuel w = some r) {rm : RModel} (hr : r.result = .ok rm) :
    ∃ initial acc, c.initial sol = .ok initial ∧
      Course c initial sol sol c.startErr (saLimbo c.safe sol limbo) acc rm.model rm.error
        r.limbo := by
  obtain ⟨initial, acc, hi, q, -⟩ := runSA_course T hw h hr
  exact ⟨initial, acc, hi, q⟩

/-- **C32**: a course is determined by its start: two runs of the specification agree. -/
theorem C32_determined {initial : List PyF} {base m : Mech} {e : PyF} {limbo acc acc' : List String}
    {mf mf' : Mech} {ef ef' : PyF} {rest rest' : List String}
    (h : Course c initial base m e limbo acc mf ef rest)
    (h' : Course c initial base m e limbo acc' mf' ef' rest') :
    acc = acc' ∧ mf = mf' ∧ ef = ef' ∧ rest = rest' := by
  induction h generalizing acc' mf' ef' rest' with
  | done =>
    cases h' with
    | done => exact ⟨rfl, rfl, rfl, rfl⟩
    | reject _ _ hs => simp at hs
    | accept _ _ hs => simp at hs
    | last _ _ hs => simp at hs
  | reject hi hn hs he hl =>
    cases h' with
    | done => simp at hs
    | reject hi' hn' hs' he' hl' =>
      cases (hi.unique hi'); cases (hn.unique hn')
      exact ⟨rfl, rfl, rfl, rfl⟩
    | accept hi' hn' hs' he' hl' =>
      cases (hi.unique hi'); cases (hn.unique hn')
      rw [hs] at hs'; cases hs'
      rw [he] at he'; cases he'
      rw [hl] at hl'; cases hl'
    | last hi' hn' hs' he' hl' =>
      cases (hi.unique hi'); cases (hn.unique hn')
      rw [hs] at hs'; cases hs'
      rw [he] at he'; cases he'
      rw [hl] at hl'; cases hl'
  | accept hi hn hs he hl hg next ih =>
    cases h' with
    | done => simp at hs
    | reject hi' hn' hs' he' hl' =>
      cases (hi.unique hi'); cases (hn.unique hn')
      rw [hs] at hs'; cases hs'
      rw [he] at he'; cases he'
      rw [hl] at hl'; cases hl'
    | accept hi' hn' hs' he' hl' hg' next' =>
      cases (hi.unique hi'); cases (hn.unique hn')
      rw [hs] at hs'; cases hs'
      rw [he] at he'; cases he'
      obtain ⟨h1, h2, h3, h4⟩ := ih next'
      exact ⟨by rw [h1], h2, h3, h4⟩
    | last hi' hn' hs' he' hl' hg' hi2 hx hlx =>
      exfalso
      cases (hi.unique hi'); cases (hn.unique hn')
      rw [hs] at hs'; cases hs'
      obtain ⟨errs', x, h1, h2, h3⟩ := hg hg'
      cases (h1.unique hi2)
      cases (h2.unique hx)
      rw [hlx] at h3; cases h3
  | last hi hn hs he hl hg hi2 hx hlx =>
    cases h' with
    | done => simp at hs
    | reject hi' hn' hs' he' hl' =>
      cases (hi.unique hi'); cases (hn.unique hn')
      rw [hs] at hs'; cases hs'
      rw [he] at he'; cases he'
      rw [hl] at hl'; cases hl'
    | accept hi' hn' hs' he' hl' hg' next' =>
      exfalso
      cases (hi.unique hi'); cases (hn.unique hn')
      rw [hs] at hs'; cases hs'
      obtain ⟨errs', x, h1, h2, h3⟩ := hg' hg
      cases (h1.unique hi2)
      cases (h2.unique hx)
      rw [hlx] at h3; cases h3
    | last hi' hn' hs' he' hl' hg' hi2' =>
      cases (hi.unique hi'); cases (hn.unique hn')
      rw [hs] at hs'; cases hs'
      rw [he] at he'; cases he'
      exact ⟨rfl, rfl, rfl, rfl⟩

theorem joinPath_ne {path name : Text} (hp : path ≠ []) (hn : name.head? ≠ some '/') :
    joinPath path name ≠ name := by
  intro h
  have := congrArg List.length h
  unfold joinPath at this
  rw [if_neg hn, if_neg hp] at this
  have hl : 0 < path.length := List.length_pos_iff.2 hp
  split_ifs at this
  · rw [List.length_append] at this; omega
  · rw [List.length_append, List.length_cons] at this; omega

/-- everything that happens to the files -/
theorem runSA_files (T : TmpOk c) (hw : w.fs c.modelFile = some sol)
    (h : runSA c limbo fuel w = some r) :
    r.w.limbo = w.limbo ∧ ∀ f, (∀ rm, r.result = .ok rm → f ≠ joinPath c.path rm.filename) →
      r.w.fs f = w.fs f ∨
      (r.w.fs f = none ∧ (Under c.tmpDir f ∨ ∃ n, Under (c.evalDir n) f)) := by
  rcases runSA_start T hw h with ⟨e, -, -, h1, -⟩ | ⟨initial, hi, H⟩
  · rw [h1]; exact ⟨rfl, fun f _ => Or.inl rfl⟩
  rcases H with ⟨e, h1, -, k, k', -⟩ | ⟨errs, w1, r', s', I, hloop, hlim, H⟩
  · refine ⟨k.1, fun f _ => ?_⟩
    by_cases hf : ∃ n, Under (c.evalDir n) f
    · obtain ⟨n, hn⟩ := hf
      rcases k.2 f (fun h => T.apart n f h hn) with k1 | ⟨k1, k2⟩
      · exact Or.inl k1
      · exact Or.inr ⟨k1, Or.inr k2⟩
    · exact Or.inl (k'.2 f hf)
  obtain ⟨k, -⟩ := saLoop_course T fuel I hloop
  have hclean : ∀ f, (cleanDir s'.w c.tmpDir).fs f = w.fs f ∨
      ((cleanDir s'.w c.tmpDir).fs f = none ∧ (Under c.tmpDir f ∨ ∃ n, Under (c.evalDir n) f)) := by
    intro f
    by_cases hf : Under c.tmpDir f
    · exact Or.inr ⟨cleanDir_gone _ hf, Or.inl hf⟩
    · rw [(cleanDir_keeps s'.w c.tmpDir).2 f hf]
      rcases k.2 f hf with k1 | ⟨k1, k2⟩
      · exact Or.inl k1
      · exact Or.inr ⟨k1, Or.inr k2⟩
  rcases H with ⟨e, -, -, h1⟩ | ⟨-, h1, h2⟩
  · rw [h1]
    exact ⟨k.1, fun f _ => hclean f⟩
  · rw [h2]
    refine ⟨k.1, fun f hf => ?_⟩
    have := hf _ h1
    dsimp only at this
    rw [World.set_fs_ne _ _ _ _ this]
    exact hclean f

/-- the temporary directories are new: nothing is below them -/
def Fresh (c : SACtx) (w : World) : Prop :=
  ∀ f, (Under c.tmpDir f ∨ ∃ n, Under (c.evalDir n) f) → w.fs f = none

/-- **C70**: whether `run_sa` returns or raises, no file but the final one has changed: no
temporary file is left, the starting model is untouched, and nothing else is written. -/
theorem C70_files (T : TmpOk c) (hfresh : Fresh c w) (hw : w.fs c.modelFile = some sol)
    (h : runSA c limbo fuel w = some r) {f : Text}
    (hf : ∀ rm, r.result = .ok rm → f ≠ joinPath c.path rm.filename) : r.w.fs f = w.fs f := by
  rcases (runSA_files T hw h).2 f hf with h1 | ⟨h1, h2⟩
  · exact h1
  · rw [h1, hfresh f h2]

/-- **C34** (partial): the model is written under the output path to the name returned. -/
theorem C34_written_partial (T : TmpOk c) (hw : w.fs c.modelFile = some sol)
    (h : runSA c limbo fuel w = some r) {rm : RModel} (hr : r.result = .ok rm) :
    r.w.fs (joinPath c.path rm.filename) = some rm.model ∧
    (c.path = [] → r.w.fs rm.filename = some rm.model) := by
  obtain ⟨_, _, _, _, _, _, h1⟩ := runSA_course T hw h hr
  refine ⟨h1, fun hp => ?_⟩
  rw [hp, joinPath_nil] at h1
  exact h1

/-- **C34** (refuted): with any output path the returned name is not the file written; whatever
it names is as it was before the run, so a missing file stays missing. -/
theorem C34_path_refuted (T : TmpOk c) (hfresh : Fresh c w) (hw : w.fs c.modelFile = some sol)
    (h : runSA c limbo fuel w = some r) {rm : RModel} (hr : r.result = .ok rm) (hp : c.path ≠ []) :
    rm.filename ≠ joinPath c.path rm.filename ∧ r.w.fs rm.filename = w.fs rm.filename := by
  obtain ⟨_, _, _, _, h1, _⟩ := runSA_course T hw h hr
  have hne : rm.filename ≠ joinPath c.path rm.filename := by
    apply Ne.symm
    apply joinPath_ne hp
    rw [h1, reducedName_head]
    decide
  refine ⟨hne, C70_files T hfresh hw h (fun rm' h2 => ?_)⟩
  rw [hr] at h2
  cases h2
  exact hne

/-- **C71** (refuted): when the error of every reduced model is NaN, all candidates are removed
and a model whose error is NaN is returned (`initial` algorithm), whatever the limit. -/
theorem C71_nan_accepted_refuted (T : TmpOk c) (hw : w.fs c.modelFile = some sol)
    {initial : List PyF} (hi : c.initial sol = .ok initial) (hg : c.greedy = false)
    (hne : saLimbo c.safe sol limbo ≠ [])
    (hnan : ∀ l : List String, (∀ x ∈ l, x ∈ saLimbo c.safe sol limbo) → l ≠ [] →
      saErr c initial (l.foldl (without c) sol) = .ok .nan)
    (hfuel : (saLimbo c.safe sol limbo).length < fuel) :
    ∃ r rm, runSA c limbo fuel w = some r ∧ r.result = .ok rm ∧ rm.error = .nan ∧
      rm.model.names = sol.names.filter (fun x => !((saLimbo c.safe sol limbo).contains x)) := by
  have hlt : c.limit.lt .nan = false := by cases c.limit <;> rfl
  obtain ⟨r, rm, h1, h2, h3, h4⟩ := C31_initial_all T hw hi hg
    (fun l ha hb => ⟨.nan, hnan l ha hb, hlt⟩) hfuel
  refine ⟨r, rm, h1, h2, ?_, h4⟩
  obtain ⟨initial', acc, hi', q, -⟩ := runSA_course T hw h1 h2
  obtain rfl : initial = initial' := by rw [hi] at hi'; cases hi'; rfl
  have hall := q.complete (sol := sol) (L := saLimbo c.safe sol limbo) (fun l ha hb e he => by
    rw [hnan l ha hb] at he; cases he; exact hlt) hg [] (by simp) rfl (fun y hy => hy)
  obtain ⟨y, hy⟩ := List.exists_mem_of_ne_nil _ hne
  rcases q.error with ⟨ha, -⟩ | ⟨ha, hb, -⟩
  · have := hall y hy
    rw [ha] at this
    simp at this
  · rw [q.model, hnan acc (fun x hx => by
      rcases q.perm with p | ⟨z, p⟩ <;> exact p.subset (by simp [hx])) ha] at hb
    exact (Except.ok.inj hb).symm

/-- **C71** (partial): as long as no evaluation gives NaN, neither does the returned error, and it
is at most the limit unless nothing was removed. -/
theorem C71_no_nan_partial (T : TmpOk c) (hw : w.fs c.modelFile = some sol)
    (h : runSA c limbo fuel w = some r) {rm : RModel} (hr : r.result = .ok rm)
    (hs : c.startErr ≠ .nan) (hlim : c.limit ≠ .nan)
    (hn : ∀ initial m, c.initial sol = .ok initial → saErr c initial m ≠ .ok .nan) :
    rm.error ≠ .nan ∧ (rm.model = sol ∨ rm.error.le c.limit = true) := by
  rcases C29_within_limit T hw h hr with ⟨h1, h2⟩ | ⟨initial, hi, h1, h2⟩
  · exact ⟨by rw [h2]; exact hs, Or.inl h1⟩
  · have h3 : rm.error ≠ .nan := by
      intro h3
      rw [h3] at h1
      exact hn initial _ hi h1
    exact ⟨h3, Or.inr (PyF.le_of_not_lt (by simpa using h2) h3 hlim)⟩

/-- **C33**: with a baseline of zeros (no saved metrics, see `C33_zero_baseline_refuted`) and
candidates that ignite, nothing is ever removed: the starting model is returned. -/
theorem C33_sa_stuck (T : TmpOk c) (hc : c.errOf = calculateError) (hw : w.fs c.modelFile = some sol)
    (h : runSA c limbo fuel w = some r) {rm : RModel} (hr : r.result = .ok rm) {n : Nat}
    (hn : n ≠ 0) (hi : c.initial sol = .ok (List.replicate n (.fin 0))) {l : ℚ}
    (hl : c.limit = .fin l)
    (hm : ∀ m, ∃ ts : List ℚ, c.metrics m = .ok (ts.map .fin) ∧ ts.length = n ∧ ∀ t ∈ ts, t ≠ 0) :
    rm.model = sol ∧ rm.error = c.startErr := by
  rcases C29_within_limit T hw h hr with h1 | ⟨initial, hi', h1, h2⟩
  · exact h1
  · exfalso
    rw [hi] at hi'
    cases hi'
    obtain ⟨ts, h3, h4, h5⟩ := hm rm.model
    unfold saErr at h1
    rw [h3] at h1
    dsimp only at h1
    rw [hc, C40_zero_baseline h4 hn h5] at h1
    rw [hl, ← Except.ok.inj h1] at h2
    exact h2 rfl

/-! ### concrete cases -/

/-- three species; removing `B` costs 5 %, `C` 10 %, both 30 %; `A` must stay -/
def saMetric (m : Mech) : Except Err (List PyF) :=
  .ok [.fin (if m.names = ["A", "B", "C"] then 1 else if m.names = ["A", "C"] then 105/100
    else if m.names = ["A", "B"] then 110/100 else 130/100)]

def exSA (limit : PyF) (greedy : Bool) (path : Text) : SACtx where
  modelFile := "m.yaml".toList
  startErr := .fin 1
  limit := limit
  safe := ["A"]
  phase := []
  greedy := greedy
  path := path
  initial := saMetric
  metrics := saMetric
  tmpDir := "/tmp/a".toList
  evalDir := fun _ => "/tmp/b".toList

def saSol : Mech := ⟨[⟨"A", 0⟩, ⟨"B", 0⟩, ⟨"C", 0⟩], [], 0, 0, [], idealGas⟩

def saWorld : World := ⟨fun f => if f = "m.yaml".toList then some saSol else none, []⟩

theorem exSA_tmp (limit : PyF) (greedy : Bool) (path : Text) : TmpOk (exSA limit greedy path) where
  tmp_ne := by show "/tmp/a".toList ≠ []; decide
  tmp_last := by show "/tmp/a".toList.getLast? ≠ some '/'; decide
  eval_ne _ := by show "/tmp/b".toList ≠ []; decide
  eval_last _ := by show "/tmp/b".toList.getLast? ≠ some '/'; decide
  model_tmp := by
    show ¬ ("/tmp/a".toList ++ ['/'] <+: "m.yaml".toList)
    decide
  model_eval _ := by
    show ¬ ("/tmp/b".toList ++ ['/'] <+: "m.yaml".toList)
    decide
  apart _ f h h' := by
    have h1 : ("/tmp/a".toList ++ ['/']) <+: f := h
    have h2 : ("/tmp/b".toList ++ ['/']) <+: f := h'
    have := List.prefix_of_prefix_length_le h1 h2 (by decide)
    revert this
    decide

theorem exSA_fresh (limit : PyF) (greedy : Bool) (path : Text) :
    Fresh (exSA limit greedy path) saWorld := by
  intro f hf
  unfold saWorld
  dsimp only
  rw [if_neg]
  rintro rfl
  rcases hf with h | ⟨n, h⟩
  · exact (exSA_tmp limit greedy path).model_tmp h
  · exact (exSA_tmp limit greedy path).model_eval n h

/-- what is observed of a run -/
def saView (x : Option SAResult) : Option (Except Err (List String × PyF × Text) × List String) :=
  x.map fun r => (r.result.map fun m => (m.model.names, m.error, m.filename), r.limbo)

/-- C29, C30, C32: `B` is accepted, then `C` is rejected (`initial`) or not tried (`greedy`) -/
example : (match saView (runSA (exSA (.fin 20) false []) [] 4 saWorld) with
    | some (.ok (ns, e, _), l) => decide (ns = ["A", "C"] ∧ e = .fin 5 ∧ l = [])
    | _ => false) = true := by decide +kernel

example : (match saView (runSA (exSA (.fin 20) true []) [] 4 saWorld) with
    | some (.ok (ns, e, _), l) => decide (ns = ["A", "C"] ∧ e = .fin 5 ∧ l = ["C"])
    | _ => false) = true := by decide +kernel

/-- C31: with a generous limit the greedy algorithm raises, the other one removes both -/
example : (match saView (runSA (exSA (.fin 40) true []) [] 4 saWorld) with
    | some (.error e, l) => decide (e = .valueError ∧ l = [])
    | _ => false) = true := by decide +kernel

example : (match saView (runSA (exSA (.fin 40) false []) [] 4 saWorld) with
    | some (.ok (ns, e, _), l) => decide (ns = ["A"] ∧ e = .fin 30 ∧ l = [])
    | _ => false) = true := by decide +kernel

theorem saErr_ex (limit : PyF) (greedy : Bool) (path : Text) (m : Mech) :
    ∃ e, saErr (exSA limit greedy path) [.fin 1] m = .ok (.fin e) ∧ e ≤ 30 := by
  change ∃ e, (match saMetric m with
    | .error e => Except.error e
    | .ok t => calculateError [.fin 1] t) = .ok (.fin e) ∧ e ≤ 30
  unfold saMetric
  dsimp only
  split_ifs
  · exact ⟨0, by decide +kernel, by norm_num⟩
  · exact ⟨5, by decide +kernel, by norm_num⟩
  · exact ⟨10, by decide +kernel, by norm_num⟩
  · exact ⟨30, by decide +kernel, by norm_num⟩

/-- C31: the hypotheses of the refutation are met -/
example : (exSA (.fin 40) true []).initial saSol = .ok [.fin 1] ∧
    saLimbo (exSA (.fin 40) true []).safe saSol [] = ["B", "C"] ∧
    AllWithin (exSA (.fin 40) true []) saSol [] [.fin 1] := by
  refine ⟨by decide +kernel, by decide +kernel, fun l _ _ => ?_⟩
  obtain ⟨e, h1, h2⟩ := saErr_ex (.fin 40) true [] (l.foldl (without (exSA (.fin 40) true [])) saSol)
  refine ⟨.fin e, h1, ?_⟩
  change PyF.lt (.fin 40) (.fin e) = false
  simp only [PyF.lt, decide_eq_false_iff_not, not_lt]
  linarith

/-- C34: the model lies below the output path, the returned name does not exist -/
example : (match runSA (exSA (.fin 20) false "out".toList) [] 4 saWorld with
    | some ⟨.ok m, w, _⟩ => decide (m.filename = "reduced_2.yaml".toList ∧
        (w.fs m.filename).isNone ∧ (w.fs "out/reduced_2.yaml".toList).isSome)
    | _ => false) = true := by decide +kernel

/-- C71: metrics that are NaN for every reduced model -/
def exSANan : SACtx := { exSA (.fin 1) false [] with
  metrics := fun _ => .ok [.nan] }

example : (∀ l : List String, (∀ x ∈ l, x ∈ saLimbo exSANan.safe saSol []) → l ≠ [] →
      saErr exSANan [.fin 1] (l.foldl (without exSANan) saSol) = .ok .nan) ∧
    exSANan.initial saSol = .ok [.fin 1] := by
  refine ⟨fun l _ _ => ?_, by decide +kernel⟩
  show calculateError [.fin 1] [.nan] = .ok .nan
  decide +kernel

/-- C33: a zero baseline -/
def exSAZero : SACtx := { exSA (.fin 20) false [] with
  initial := fun _ => .ok (List.replicate 1 (.fin 0)) }

example : (∀ m, ∃ ts : List ℚ, exSAZero.metrics m = .ok (ts.map .fin) ∧ ts.length = 1 ∧
      ∀ t ∈ ts, t ≠ 0) ∧
    (match saView (runSA exSAZero [] 4 saWorld) with
    | some (.ok (ns, e, _), _) => decide (ns = ["A", "B", "C"] ∧ e = .fin 1)
    | _ => false) = true := by
  refine ⟨fun m => ⟨[_], rfl, rfl, ?_⟩, by decide +kernel⟩
  intro t ht
  rw [List.mem_singleton.1 ht]
  split_ifs <;> norm_num

end Verif
