import Verif.Spec.SA
import Verif.Lemmas.Reduce
import Verif.Lemmas.Sampling
/-!
# Lemmas on sensitivity analysis
-/
namespace Verif
open Spec

/-! ### order of python floats -/

theorem PyF.le_refl' {a : PyF} (h : a ≠ .nan) : a.le a = true := by
  cases a <;> simp_all [PyF.le]

theorem PyF.le_trans' {a b c : PyF} (h : a.le b = true) (h' : b.le c = true) : a.le c = true := by
  cases a <;> cases b <;> cases c <;> simp_all [PyF.le]
  exact h.trans h'

theorem PyF.lt_of_not_le {a b : PyF} (h : a.le b = false) (ha : a ≠ .nan) (hb : b ≠ .nan) :
    b.lt a = true := by
  cases a <;> cases b <;> simp_all [PyF.le, PyF.lt]

theorem PyF.lt_of_lt_of_le' {a b c : PyF} (h : a.lt b = true) (h' : b.le c = true) :
    a.lt c = true := by
  cases a <;> cases b <;> cases c <;> simp_all [PyF.le, PyF.lt]
  exact h.trans_le h'

theorem PyF.le_of_lt' {a b : PyF} (h : a.lt b = true) : a.le b = true := by
  cases a <;> cases b <;> simp_all [PyF.le, PyF.lt]
  exact h.le

/-! ### `argmin` and `min` -/

/-- index `i` with value `b` is the answer of `argmin` on `l` -/
def IsArgmin (l : List PyF) (i : Nat) (b : PyF) : Prop :=
  l[i]? = some b ∧ ((b = .nan ∧ ∀ j < i, l[j]? ≠ some .nan) ∨
    ((∀ x ∈ l, x ≠ .nan) ∧ (∀ x ∈ l, b.le x = true) ∧
      ∀ j < i, ∀ x, l[j]? = some x → b.lt x = true))

theorem argminGo_spec (pre rest : List PyF) (best : PyF) (bi : Nat) (h : IsArgmin pre bi best) :
    ∃ b, IsArgmin (pre ++ rest) (argminGo best bi pre.length rest) b := by
  induction rest generalizing pre best bi with
  | nil => exact ⟨best, by simpa [argminGo] using h⟩
  | cons x xs ih =>
    have hbi : bi < pre.length := (List.getElem?_eq_some_iff.1 h.1).1
    unfold argminGo
    by_cases hb : best = .nan
    · rw [if_pos hb]
      refine ⟨best, ?_, Or.inl ⟨hb, ?_⟩⟩
      · rw [List.getElem?_append_left hbi]; exact h.1
      · intro j hj
        rw [List.getElem?_append_left (by omega)]
        rcases h.2 with ⟨-, h2⟩ | ⟨h2, -⟩
        · exact h2 j hj
        · intro hn; exact h2 _ (List.mem_of_getElem? hn) rfl
    · rw [if_neg hb]
      rcases h.2 with ⟨h2, -⟩ | ⟨h2, h3, h4⟩
      · exact absurd h2 hb
      rw [show pre ++ x :: xs = (pre ++ [x]) ++ xs by simp]
      by_cases hle : best.le x = true
      · rw [if_pos hle]
        have := ih (pre ++ [x]) best bi ?_
        · simpa using this
        · refine ⟨by rw [List.getElem?_append_left hbi]; exact h.1, Or.inr ⟨?_, ?_, ?_⟩⟩
          · intro y hy
            rcases List.mem_append.1 hy with hy | hy
            · exact h2 y hy
            · rw [List.mem_singleton] at hy; subst hy; exact (PyF.le_nan hle).2
          · intro y hy
            rcases List.mem_append.1 hy with hy | hy
            · exact h3 y hy
            · rw [List.mem_singleton] at hy; subst hy; exact hle
          · intro j hj y hy
            rw [List.getElem?_append_left (by omega)] at hy
            exact h4 j hj y hy
      · rw [if_neg hle]
        have hle' : best.le x = false := by simpa using hle
        have := ih (pre ++ [x]) x pre.length ?_
        · simpa using this
        · refine ⟨by simp, ?_⟩
          by_cases hx : x = .nan
          · left
            refine ⟨hx, fun j hj => ?_⟩
            rw [List.getElem?_append_left hj]
            intro hn; exact h2 _ (List.mem_of_getElem? hn) rfl
          · right
            have hlt := PyF.lt_of_not_le hle' hb hx
            refine ⟨?_, ?_, ?_⟩
            · intro y hy
              rcases List.mem_append.1 hy with hy | hy
              · exact h2 y hy
              · rw [List.mem_singleton] at hy; subst hy; exact hx
            · intro y hy
              rcases List.mem_append.1 hy with hy | hy
              · exact PyF.le_of_lt' (PyF.lt_of_lt_of_le' hlt (h3 y hy))
              · rw [List.mem_singleton] at hy; subst hy; exact PyF.le_refl' hx
            · intro j hj y hy
              rw [List.getElem?_append_left hj] at hy
              exact PyF.lt_of_lt_of_le' hlt (h3 y (List.mem_of_getElem? hy))

theorem npArgmin_spec {l : List PyF} {i : Nat} (h : npArgmin l = .ok i) : ∃ b, IsArgmin l i b := by
  cases l with
  | nil => cases h
  | cons x xs =>
    simp only [npArgmin, Except.ok.injEq] at h
    subst h
    have := argminGo_spec [x] xs x 0 ⟨rfl, by
      by_cases hx : x = .nan
      · exact Or.inl ⟨hx, by simp⟩
      · exact Or.inr ⟨by simpa using hx, by simpa using PyF.le_refl' hx, by simp⟩⟩
    simpa using this

theorem npArgmin_nearest {c : SACtx} {errs : List PyF} {cur : PyF} {i : Nat}
    (h : npArgmin (errs.map (fun e => c.dist e cur)) = .ok i) : Nearest c errs cur i := by
  obtain ⟨b, h1, h2⟩ := npArgmin_spec h
  rw [List.getElem?_map] at h1
  rcases he : errs[i]? with _ | e <;> rw [he] at h1
  · simp at h1
  simp only [Option.map_some, Option.some.injEq] at h1
  subst h1
  refine ⟨e, he, ?_⟩
  rcases h2 with ⟨h2, h3⟩ | ⟨h2, h3, h4⟩
  · left
    refine ⟨h2, fun j hj e' he' hn => ?_⟩
    apply h3 j hj
    rw [List.getElem?_map, he']
    simp [hn]
  · right
    refine ⟨fun e' he' => h2 _ (List.mem_map.2 ⟨e', he', rfl⟩),
      fun e' he' => h3 _ (List.mem_map.2 ⟨e', he', rfl⟩), fun j hj e' he' => ?_⟩
    apply h4 j hj
    rw [List.getElem?_map, he']
    rfl

theorem npArgmin_ok {l : List PyF} (h : l ≠ []) : ∃ i, npArgmin l = .ok i := by
  cases l with
  | nil => exact absurd rfl h
  | cons x xs => exact ⟨_, rfl⟩

theorem pyMin_nan (l : List PyF) : l.foldl (fun b y => if y.lt b then y else b) .nan = .nan := by
  induction l with
  | nil => rfl
  | cons z zs ihz =>
    rw [List.foldl_cons]
    have : z.lt .nan = false := by cases z <;> rfl
    rw [this]
    exact ihz

theorem pyMin_fold (xs : List PyF) (b : PyF) (hb : b ≠ .nan) :
    let r := xs.foldl (fun b y => if y.lt b then y else b) b
    r ∈ b :: xs ∧ r ≠ .nan ∧ ∀ x ∈ b :: xs, x ≠ .nan → r.le x = true := by
  induction xs generalizing b with
  | nil =>
    refine ⟨by simp, hb, fun x hx hx' => ?_⟩
    simp at hx
    subst hx
    exact PyF.le_refl' hb
  | cons y ys ih =>
    rw [List.foldl_cons]
    have hb' : (if y.lt b then y else b) ≠ .nan := by
      split_ifs with hy
      · exact (PyF.lt_nan hy).1
      · exact hb
    obtain ⟨h1, h2, h3⟩ := ih (if y.lt b then y else b) hb'
    dsimp only at h1 h2 h3 ⊢
    generalize ys.foldl (fun b y => if y.lt b then y else b) (if y.lt b then y else b) = r at h1 h2 h3
    refine ⟨?_, h2, fun x hx hx0 => ?_⟩
    · rcases List.mem_cons.1 h1 with h1 | h1
      · split_ifs at h1 <;> simp [h1]
      · simp [h1]
    · have h4 := h3 _ List.mem_cons_self hb'
      rcases List.mem_cons.1 hx with rfl | hx
      · split_ifs at h4 with hy
        · exact PyF.le_trans' h4 (PyF.le_of_lt' hy)
        · exact h4
      · rcases List.mem_cons.1 hx with rfl | hx
        · split_ifs at h4 with hy
          · exact h4
          · exact PyF.le_trans' h4 (PyF.le_of_not_lt (by simpa using hy) hb hx0)
        · exact h3 x (by simp [hx]) hx0

theorem pyMin_spec {errs : List PyF} {e : PyF} (h : pyMin errs = .ok e) : Least errs e := by
  cases errs with
  | nil => cases h
  | cons x xs =>
    simp only [pyMin, Except.ok.injEq] at h
    by_cases hx : x = .nan
    · subst hx
      rw [pyMin_nan] at h
      subst h
      exact ⟨by simp, Or.inl ⟨rfl, rfl⟩⟩
    · obtain ⟨h1, h2, h3⟩ := pyMin_fold xs x hx
      rw [h] at h1 h2 h3
      exact ⟨h1, Or.inr ⟨by simpa using hx, h2, h3⟩⟩

theorem PyF.le_antisymm' {a b : PyF} (h : a.le b = true) (h' : b.le a = true) : a = b := by
  cases a <;> cases b <;> simp_all [PyF.le]
  exact le_antisymm h h'

theorem Spec.Least.unique {errs : List PyF} {x y : PyF} (h : Least errs x) (h' : Least errs y) :
    x = y := by
  obtain ⟨h1, h2 | h2⟩ := h <;> obtain ⟨h3, h4 | h4⟩ := h'
  · rw [h2.2, h4.2]
  · exact absurd h2.1 h4.1
  · exact absurd h4.1 h2.1
  · exact PyF.le_antisymm' (h2.2.2 y h3 h4.2.1) (h4.2.2 x h1 h2.2.1)

theorem Spec.Induced.unique {c : SACtx} {initial : List PyF} {base : Mech} {limbo : List String}
    {errs errs' : List PyF} (h : Induced c initial base limbo errs)
    (h' : Induced c initial base limbo errs') : errs = errs' := by
  have h1 := serialMap_ok_iff.2 h
  have h2 := serialMap_ok_iff.2 h'
  rw [h1] at h2
  cases h2
  rfl

theorem PyF.lt_irrefl' (a : PyF) : a.lt a = false := by cases a <;> simp [PyF.lt]

theorem PyF.not_lt_lt {a b : PyF} (h : a.lt b = true) : b.lt a = false := by
  cases a <;> cases b <;> simp_all [PyF.lt]
  exact h.le

theorem Spec.Nearest.unique {c : SACtx} {errs : List PyF} {cur : PyF} {i j : Nat} (h : Nearest c errs cur i)
    (h' : Nearest c errs cur j) : i = j := by
  obtain ⟨a, ha, h⟩ := h
  obtain ⟨b, hb, h'⟩ := h'
  have ma := List.mem_of_getElem? ha
  have mb := List.mem_of_getElem? hb
  rcases h with ⟨h1, h2⟩ | ⟨h1, h2, h3⟩ <;> rcases h' with ⟨h4, h5⟩ | ⟨h4, h5, h6⟩
  · rcases Nat.lt_trichotomy i j with hij | hij | hij
    · exact absurd h1 (h5 i hij a ha)
    · exact hij
    · exact absurd h4 (h2 j hij b hb)
  · exact absurd h1 (h4 a ma)
  · exact absurd h4 (h1 b mb)
  · rcases Nat.lt_trichotomy i j with hij | hij | hij
    · have h7 := PyF.lt_of_lt_of_le' (h6 i hij a ha) (h2 b mb)
      rw [PyF.lt_irrefl'] at h7
      cases h7
    · exact hij
    · have h7 := PyF.lt_of_lt_of_le' (h3 j hij b hb) (h5 a ma)
      rw [PyF.lt_irrefl'] at h7
      cases h7

/-! ### files -/

/-- only files in `P` have changed -/
def Keeps (P : Text → Prop) (w w' : World) : Prop :=
  w'.limbo = w.limbo ∧ ∀ f, ¬ P f → w'.fs f = w.fs f

theorem Keeps.refl (P : Text → Prop) (w : World) : Keeps P w w := ⟨rfl, fun _ _ => rfl⟩

theorem Keeps.trans {P : Text → Prop} {a b c : World} (h : Keeps P a b) (h' : Keeps P b c) :
    Keeps P a c := ⟨h'.1.trans h.1, fun f hf => (h'.2 f hf).trans (h.2 f hf)⟩

theorem Keeps.mono {P Q : Text → Prop} {a b : World} (h : Keeps P a b) (hi : ∀ f, P f → Q f) :
    Keeps Q a b := ⟨h.1, fun f hf => h.2 f (fun hp => hf (hi f hp))⟩

theorem cleanDir_keeps (w : World) (dir : Text) : Keeps (Under dir) w (cleanDir w dir) := by
  refine ⟨rfl, fun f hf => ?_⟩
  unfold cleanDir
  dsimp only
  rw [if_neg]
  intro h
  exact hf (List.isPrefixOf_iff_prefix.1 h)

theorem cleanDir_gone (w : World) {dir f : Text} (h : Under dir f) : (cleanDir w dir).fs f = none := by
  unfold cleanDir
  dsimp only
  rw [if_pos (List.isPrefixOf_iff_prefix.2 h)]

theorem candidateName_ne (sp : String) : candidateName sp ≠ [] := by
  unfold candidateName
  rw [List.append_assoc]
  exact List.cons_ne_nil _ _

theorem candidateName_head (sp : String) : (candidateName sp).head? = some 'r' := by
  unfold candidateName
  rw [List.append_assoc]
  rfl

theorem yamlName_under {dir : Text} (h1 : dir ≠ []) (h2 : dir.getLast? ≠ some '/') (m : Mech)
    (sp : String) : Under dir (yamlName m (candidateName sp) dir) := by
  unfold yamlName
  rw [if_neg (candidateName_ne sp)]
  unfold joinPath
  rw [candidateName_head, if_neg (by decide), if_neg h1, if_neg h2]
  exact ⟨candidateName sp, by simp⟩

/-- what trying to remove a species does -/
theorem tryRemove_spec (c : SACtx) (initial : List PyF) {file dir : Text} (h1 : dir ≠ [])
    (h2 : dir.getLast? ≠ some '/') (sp : String) {w : World} {m : Mech}
    (hw : w.fs file = some m) :
    ∃ fn w1, Under dir fn ∧ Keeps (Under dir) w w1 ∧ w1.fs fn = some (without c m sp) ∧
      tryRemove c initial file dir sp w =
        ((saErr c initial (without c m sp)).map (fun e => (without c m sp, fn, e)), w1) := by
  have hlm : loadModel w file = .ok m := by unfold loadModel; rw [hw]
  refine ⟨yamlName (without c m sp) (candidateName sp) dir,
    w.set (yamlName (without c m sp) (candidateName sp) dir) (some (without c m sp)),
    yamlName_under h1 h2 _ sp, ⟨rfl, fun f hf => ?_⟩, by simp, ?_⟩
  · apply World.set_fs_ne
    rintro rfl
    exact hf (yamlName_under h1 h2 _ sp)
  · unfold tryRemove
    rw [hlm]
    dsimp only
    rw [writeYaml_eq]
    dsimp only
    have : loadModel (w.set (yamlName (without c m sp) (candidateName sp) dir)
        (some (without c m sp))) (yamlName (without c m sp) (candidateName sp) dir) =
        .ok (without c m sp) := by
      unfold loadModel; rw [World.set_fs_same]
    unfold without at this ⊢
    rw [this]
    dsimp only
    rcases saErr c initial (trim m [sp] (candidateName sp) c.phase) with _ | _ <;> rfl

theorem evalLoop_spec (c : SACtx) (initial : List PyF) {file dir : Text} (h1 : dir ≠ [])
    (h2 : dir.getLast? ≠ some '/') (hf : ¬ Under dir file) {m : Mech} (limbo : List String)
    {w : World} (hw : w.fs file = some m) :
    Keeps (Under dir) w (evalLoop c initial file dir limbo w).2 ∧
    (evalLoop c initial file dir limbo w).1 =
      serialMap (fun sp => saErr c initial (without c m sp)) limbo := by
  induction limbo generalizing w with
  | nil => exact ⟨Keeps.refl _ _, rfl⟩
  | cons sp rest ih =>
    obtain ⟨fn, w1, -, k1, -, e1⟩ := tryRemove_spec c initial h1 h2 sp hw
    unfold evalLoop serialMap
    rw [e1]
    rcases he : saErr c initial (without c m sp) with e | e
    · exact ⟨k1, rfl⟩
    · simp only [Except.map]
      obtain ⟨k2, e2⟩ := ih (w := w1) (by rw [k1.2 _ hf]; exact hw)
      rcases hr : evalLoop c initial file dir rest w1 with ⟨_ | errs, w2⟩ <;> rw [hr] at k2 e2
      · dsimp only at k2 e2 ⊢; rw [← e2]; exact ⟨k1.trans k2, rfl⟩
      · dsimp only at k2 e2 ⊢; rw [← e2]; exact ⟨k1.trans k2, rfl⟩

/-- nothing outside the temporary directory of the loop has changed, except that old files in
the directories of the evaluations are gone -/
def Kept (c : SACtx) (w w' : World) : Prop :=
  w'.limbo = w.limbo ∧ ∀ f, ¬ Under c.tmpDir f →
    w'.fs f = w.fs f ∨ (w'.fs f = none ∧ ∃ n, Under (c.evalDir n) f)

theorem Kept.refl (c : SACtx) (w : World) : Kept c w w := ⟨rfl, fun _ _ => Or.inl rfl⟩

theorem Kept.trans {c : SACtx} {w1 w2 w3 : World} (h : Kept c w1 w2) (h' : Kept c w2 w3) :
    Kept c w1 w3 := by
  refine ⟨h'.1.trans h.1, fun f hf => ?_⟩
  rcases h'.2 f hf with h2 | h2
  · rw [h2]; exact h.2 f hf
  · exact Or.inr h2

theorem Keeps.kept {c : SACtx} {w w' : World} (h : Keeps (Under c.tmpDir) w w') : Kept c w w' :=
  ⟨h.1, fun f hf => Or.inl (h.2 f hf)⟩

theorem evalSpecies_spec {c : SACtx} (T : TmpOk c) (initial : List PyF) {file : Text}
    (hf : ∀ n, ¬ Under (c.evalDir n) file) {m : Mech} (limbo : List String) {w : World}
    (hw : w.fs file = some m) :
    Keeps (fun f => ∃ n, Under (c.evalDir n) f) w (evalSpecies c initial file limbo w).2 ∧
    Kept c w (evalSpecies c initial file limbo w).2 ∧
    (evalSpecies c initial file limbo w).1 =
      serialMap (fun sp => saErr c initial (without c m sp)) limbo := by
  obtain ⟨k1, e1⟩ := evalLoop_spec c initial (T.eval_ne limbo.length) (T.eval_last limbo.length)
    (hf limbo.length) limbo hw
  unfold evalSpecies
  dsimp only
  have k2 := k1.trans (cleanDir_keeps _ (c.evalDir limbo.length))
  refine ⟨k2.mono fun f h => ⟨_, h⟩, ⟨k2.1, fun f _ => ?_⟩, e1⟩
  by_cases h : Under (c.evalDir limbo.length) f
  · exact Or.inr ⟨cleanDir_gone _ h, _, h⟩
  · exact Or.inl (k2.2 f h)

/-! ### the loop -/

/-- invariant of the loop -/
structure SAInv (c : SACtx) (initial : List PyF) (w0 : World) (base : Mech) (s : SAState) :
    Prop where
  file : s.w.fs s.cur.filename = some s.cur.model
  place : ∀ n, ¬ Under (c.evalDir n) s.cur.filename
  induced : Induced c initial base s.limbo s.errs
  base : c.greedy = true → base = s.cur.model
  keeps : Kept c w0 s.w

/-- what one pass through the loop does -/
theorem saStep_spec {c : SACtx} (T : TmpOk c) {initial : List PyF} {w0 : World} {base : Mech}
    {s : SAState} (I : SAInv c initial w0 base s) (hl : s.limbo ≠ []) :
    ∃ i sp, Nearest c s.errs s.cur.error i ∧ s.limbo[i]? = some sp ∧
    (match saErr c initial (without c s.cur.model sp) with
    | .error e => ∃ s', saStep c initial s = .raise e s' ∧ s'.limbo = s.limbo.eraseIdx i ∧
        Kept c w0 s'.w
    | .ok e' =>
      if c.limit.lt e' then
        ∃ s', saStep c initial s = .stop s' ∧ s'.limbo = s.limbo.eraseIdx i ∧ s'.cur = s.cur ∧
          Kept c w0 s'.w
      else ∃ cur w1, cur.model = without c s.cur.model sp ∧ cur.error = e' ∧
        Under c.tmpDir cur.filename ∧ w1.fs cur.filename = some cur.model ∧
        Kept c w0 w1 ∧
        if c.greedy then
          (match serialMap (fun x => saErr c initial (without c cur.model x))
            (s.limbo.eraseIdx i) with
          | .error e => ∃ errs, saStep c initial s = .raise e ⟨cur, s.limbo.eraseIdx i, errs, w1⟩
          | .ok errs' =>
            match pyMin errs' with
            | .error e => saStep c initial s = .raise e ⟨cur, s.limbo.eraseIdx i, errs', w1⟩
            | .ok least => saStep c initial s =
              if c.limit.lt least then .stop ⟨cur, s.limbo.eraseIdx i, errs', w1⟩
              else .more ⟨cur, s.limbo.eraseIdx i, errs', w1⟩)
        else saStep c initial s = .more ⟨cur, s.limbo.eraseIdx i, s.errs.eraseIdx i, w1⟩) := by
  have hlen : s.errs.length = s.limbo.length := (List.Forall₂.length_eq I.induced).symm
  have hne : s.errs.map (fun e => c.dist e s.cur.error) ≠ [] := by
    intro h
    have := congrArg List.length h
    rw [List.length_map, hlen] at this
    exact hl (List.length_eq_zero_iff.1 this)
  obtain ⟨i, hi⟩ := npArgmin_ok hne
  have hn := npArgmin_nearest hi
  have hil : i < s.limbo.length := by
    obtain ⟨e, he, -⟩ := hn
    rw [← hlen]
    exact (List.getElem?_eq_some_iff.1 he).1
  have hsp : s.limbo[i]? = some s.limbo[i] := List.getElem?_eq_getElem hil
  refine ⟨i, s.limbo[i], hn, hsp, ?_⟩
  generalize s.limbo[i] = sp at hsp
  obtain ⟨fn, w1, u1, k1, f1, e1⟩ := tryRemove_spec c initial T.tmp_ne T.tmp_last sp I.file
  have kw : Kept c w0 w1 := I.keeps.trans k1.kept
  unfold saStep
  rw [hi]
  dsimp only
  rw [hsp]
  dsimp only
  rw [e1]
  rcases he : saErr c initial (without c s.cur.model sp) with e | e'
  · exact ⟨_, rfl, rfl, kw⟩
  · simp only [Except.map]
    by_cases hlim : c.limit.lt e' = true
    · rw [if_pos hlim, if_pos hlim]
      exact ⟨_, rfl, rfl, rfl, kw⟩
    · rw [if_neg hlim, if_neg hlim]
      by_cases hg : c.greedy = true
      · obtain ⟨k2, k3, e2⟩ := evalSpecies_spec T initial (fun n => T.apart n fn u1)
          (s.limbo.eraseIdx i) f1
        rcases hr : evalSpecies c initial fn (s.limbo.eraseIdx i) w1 with ⟨r, w2⟩
        rw [hr] at k2 k3 e2
        dsimp only at k2 k3 e2
        refine ⟨⟨without c s.cur.model sp, fn, e', none⟩, w2, rfl, rfl, u1, ?_, ?_, ?_⟩
        · show w2.fs fn = _
          rw [k2.2 fn (fun ⟨n, h⟩ => T.apart n fn u1 h)]
          exact f1
        · exact kw.trans k3
        · simp only [hg, if_true]
          rw [← e2]
          rcases r with e | errs'
          · exact ⟨_, rfl⟩
          · dsimp only
            rcases pyMin errs' with e | least <;> rfl
      · refine ⟨⟨without c s.cur.model sp, fn, e', none⟩, w1, rfl, rfl, u1, f1, kw, ?_⟩
        rw [if_neg hg, if_neg hg]

theorem Spec.Induced.erase {c : SACtx} {initial : List PyF} {base : Mech} {limbo : List String}
    {errs : List PyF} (h : Induced c initial base limbo errs) (i : Nat) :
    Induced c initial base (limbo.eraseIdx i) (errs.eraseIdx i) := by
  unfold Induced at *
  induction h generalizing i with
  | nil => exact .nil
  | cons h1 h2 ih =>
    cases i with
    | zero => exact h2
    | succ i => exact .cons h1 (ih i)

/-- a finished loop followed the specified course -/
theorem saLoop_course {c : SACtx} (T : TmpOk c) {initial : List PyF} {w0 : World} (fuel : Nat)
    {base : Mech} {s : SAState} (I : SAInv c initial w0 base s) {r : Except Err Unit} {s' : SAState}
    (h : saLoop c initial fuel s = some (r, s')) :
    Kept c w0 s'.w ∧ (r = .ok () →
      ∃ acc, Course c initial base s.cur.model s.cur.error s.limbo acc s'.cur.model s'.cur.error
        s'.limbo) := by
  induction fuel generalizing base s with
  | zero => cases h
  | succ fuel ih =>
    unfold saLoop at h
    by_cases hl : s.limbo = []
    · rw [if_pos hl] at h
      cases h
      refine ⟨I.keeps, fun _ => ⟨[], ?_⟩⟩
      rw [hl]
      exact .done
    rw [if_neg hl] at h
    obtain ⟨i, sp, hn, hsp, H⟩ := saStep_spec T I hl
    rcases he : saErr c initial (without c s.cur.model sp) with e | e' <;> rw [he] at H <;>
      dsimp only at H
    · obtain ⟨s1, h1, h2, h3⟩ := H
      rw [h1] at h
      cases h
      exact ⟨h3, fun h => by cases h⟩
    by_cases hlim : c.limit.lt e' = true
    · rw [if_pos hlim] at H
      obtain ⟨s1, h1, h2, h3, h4⟩ := H
      rw [h1] at h
      cases h
      refine ⟨h4, fun _ => ⟨[], ?_⟩⟩
      rw [h2, h3]
      exact .reject I.induced hn hsp he hlim
    rw [if_neg hlim] at H
    obtain ⟨cur, w1, m1, m2, u1, f1, k1, H⟩ := H
    have hlim' : c.limit.lt e' = false := by simpa using hlim
    by_cases hg : c.greedy = true
    · rw [if_pos hg] at H
      rcases hs : serialMap (fun x => saErr c initial (without c cur.model x))
        (s.limbo.eraseIdx i) with e | errs' <;> rw [hs] at H <;> dsimp only at H
      · obtain ⟨_, H⟩ := H
        rw [H] at h
        cases h
        exact ⟨k1, fun h => by cases h⟩
      have hind : Induced c initial cur.model (s.limbo.eraseIdx i) errs' := serialMap_ok_iff.1 hs
      rcases hm : pyMin errs' with e | least <;> rw [hm] at H <;> dsimp only at H
      · rw [H] at h
        cases h
        exact ⟨k1, fun h => by cases h⟩
      have p := pyMin_spec hm
      by_cases hl2 : c.limit.lt least = true
      · rw [if_pos hl2] at H
        rw [H] at h
        cases h
        refine ⟨k1, fun _ => ⟨[sp], ?_⟩⟩
        dsimp only
        rw [m2, m1]
        rw [m1] at hind
        exact .last I.induced hn hsp he hlim' hg hind p hl2
      · rw [if_neg hl2] at H
        rw [H] at h
        dsimp only at h
        obtain ⟨q1, q2⟩ := ih (base := cur.model) ⟨f1, fun n => T.apart n _ u1, hind,
          fun _ => rfl, k1⟩ h
        refine ⟨q1, fun hr => ?_⟩
        obtain ⟨acc, q⟩ := q2 hr
        refine ⟨sp :: acc, ?_⟩
        dsimp only at q
        rw [m2, m1] at q
        rw [m1] at hind
        refine .accept I.induced hn hsp he hlim' (fun _ => ⟨errs', least, hind, p,
          by simpa using hl2⟩) ?_
        rw [if_pos hg]
        exact q
    · rw [if_neg hg] at H
      rw [H] at h
      dsimp only at h
      obtain ⟨q1, q2⟩ := ih (base := base) ⟨f1, fun n => T.apart n _ u1, I.induced.erase i,
        fun h => absurd h hg, k1⟩ h
      refine ⟨q1, fun hr => ?_⟩
      obtain ⟨acc, q⟩ := q2 hr
      refine ⟨sp :: acc, ?_⟩
      dsimp only at q
      rw [m2, m1] at q
      refine .accept I.induced hn hsp he hlim' (fun h => absurd h hg) ?_
      rw [if_neg hg]
      exact q

/-- a pass that goes on leaves one species less -/
theorem saStep_more {c : SACtx} {initial : List PyF} {s s' : SAState}
    (h : saStep c initial s = .more s') : s'.limbo.length + 1 = s.limbo.length := by
  unfold saStep at h
  rcases h1 : npArgmin (s.errs.map (fun e => c.dist e s.cur.error)) with e | i <;> rw [h1] at h
  · cases h
  dsimp only at h
  rcases h2 : s.limbo[i]? with _ | sp <;> rw [h2] at h
  · cases h
  have hi := (List.getElem?_eq_some_iff.1 h2).1
  dsimp only at h
  have hlen : (s.limbo.eraseIdx i).length + 1 = s.limbo.length := by
    rw [List.length_eraseIdx_of_lt hi]; omega
  rcases h3 : tryRemove c initial s.cur.filename c.tmpDir sp s.w with ⟨_ | ⟨a, b, e⟩, w1⟩ <;>
    rw [h3] at h
  · cases h
  dsimp only at h
  by_cases h4 : c.limit.lt e = true
  · rw [if_pos h4] at h; cases h
  rw [if_neg h4] at h
  by_cases h5 : c.greedy = true
  · rw [if_pos h5] at h
    rcases h6 : evalSpecies c initial b (s.limbo.eraseIdx i) w1 with ⟨_ | errs, w2⟩ <;> rw [h6] at h
    · cases h
    dsimp only at h
    rcases h7 : pyMin errs with _ | least <;> rw [h7] at h
    · cases h
    dsimp only at h
    by_cases h8 : c.limit.lt least = true
    · rw [if_pos h8] at h; cases h
    · rw [if_neg h8] at h; cases h; exact hlen
  · rw [if_neg h5] at h; cases h; exact hlen

theorem saLoop_terminates {c : SACtx} {initial : List PyF} (fuel : Nat) (s : SAState)
    (h : s.limbo.length < fuel) : ∃ x, saLoop c initial fuel s = some x := by
  induction fuel generalizing s with
  | zero => omega
  | succ fuel ih =>
    unfold saLoop
    split_ifs
    · exact ⟨_, rfl⟩
    · rcases hs : saStep c initial s with s1 | s1 | ⟨e, s1⟩
      · have := saStep_more hs
        exact ih s1 (by omega)
      · exact ⟨_, rfl⟩
      · exact ⟨_, rfl⟩

theorem saLoop_fuel {c : SACtx} {initial : List PyF} (fuel : Nat) (s : SAState)
    {x : Except Err Unit × SAState} (h : saLoop c initial fuel s = some x) :
    saLoop c initial (fuel + 1) s = some x := by
  induction fuel generalizing s with
  | zero => cases h
  | succ fuel ih =>
    unfold saLoop at h ⊢
    split_ifs at h ⊢
    · exact h
    · rcases hs : saStep c initial s with s1 | s1 | ⟨e, s1⟩ <;> rw [hs] at h
      · exact ih s1 h
      · exact h
      · exact h

/-! ### what a course means -/

theorem without_names (c : SACtx) (m : Mech) (sp : String) :
    (without c m sp).names = m.names.filter (fun x => !([sp].contains x)) := by
  unfold without Mech.names
  rw [trim_species]
  unfold finalSpecies
  rw [List.filter_map]
  rfl

theorem Spec.Course.removed {c : SACtx} {initial : List PyF} {base m : Mech} {e : PyF}
    {limbo acc : List String} {mf : Mech} {ef : PyF} {rest : List String}
    (h : Course c initial base m e limbo acc mf ef rest) :
    mf.names = m.names.filter (fun x => !(acc.contains x)) := by
  induction h with
  | done => simp
  | reject => simp
  | accept _ _ _ _ _ _ _ ih =>
    rw [ih, without_names, List.filter_filter]
    congr 1
    funext x
    simp [Bool.and_comm]
  | last => rw [without_names]

/-- the final model is the starting one without the accepted species, one after the other -/
theorem Spec.Course.model {c : SACtx} {initial : List PyF} {base m : Mech} {e : PyF}
    {limbo acc : List String} {mf : Mech} {ef : PyF} {rest : List String}
    (h : Course c initial base m e limbo acc mf ef rest) :
    mf = acc.foldl (without c) m := by
  induction h with
  | done => rfl
  | reject => rfl
  | accept _ _ _ _ _ _ _ ih => exact ih
  | last => rfl

theorem getElem?_perm {α} {l : List α} {i : Nat} {x : α} (h : l[i]? = some x) :
    List.Perm (x :: l.eraseIdx i) l := by
  obtain ⟨hi, rfl⟩ := List.getElem?_eq_some_iff.1 h
  exact List.getElem_cons_eraseIdx_perm hi

/-- the accepted species, those left and at most one rejected one make up the list -/
theorem Spec.Course.perm {c : SACtx} {initial : List PyF} {base m : Mech} {e : PyF}
    {limbo acc : List String} {mf : Mech} {ef : PyF} {rest : List String}
    (h : Course c initial base m e limbo acc mf ef rest) :
    (acc ++ rest).Perm limbo ∨ ∃ x, (x :: (acc ++ rest)).Perm limbo := by
  induction h with
  | done => exact Or.inl (.refl _)
  | reject _ _ hs => exact Or.inr ⟨_, getElem?_perm hs⟩
  | accept _ _ hs _ _ _ _ ih =>
    rcases ih with ih | ⟨x, ih⟩
    · exact Or.inl ((List.Perm.cons _ ih).trans (getElem?_perm hs))
    · refine Or.inr ⟨x, ?_⟩
      refine (List.Perm.swap _ _ _).trans ?_
      exact (List.Perm.cons _ ih).trans (getElem?_perm hs)
  | last _ _ hs => exact Or.inl (getElem?_perm hs)

theorem Spec.Course.error {c : SACtx} {initial : List PyF} {base m : Mech} {e : PyF}
    {limbo acc : List String} {mf : Mech} {ef : PyF} {rest : List String}
    (h : Course c initial base m e limbo acc mf ef rest) :
    (acc = [] ∧ mf = m ∧ ef = e) ∨
      (acc ≠ [] ∧ saErr c initial mf = .ok ef ∧ c.limit.lt ef = false) := by
  induction h with
  | done => exact Or.inl ⟨rfl, rfl, rfl⟩
  | reject => exact Or.inl ⟨rfl, rfl, rfl⟩
  | accept _ _ _ he hl _ _ ih =>
    rcases ih with ⟨h1, h2, h3⟩ | ⟨h1, h2, h3⟩
    · exact Or.inr ⟨by simp, by rw [h2, h3]; exact he, by rw [h3]; exact hl⟩
    · exact Or.inr ⟨by simp, h2, h3⟩
  | last _ _ _ he hl => exact Or.inr ⟨by simp, he, hl⟩

/-- without re-evaluation, all candidates are accepted when no removal exceeds the limit -/
theorem Spec.Course.complete {c : SACtx} {initial : List PyF} {base m : Mech} {e : PyF}
    {limbo acc : List String} {mf : Mech} {ef : PyF} {rest : List String} {sol : Mech}
    {L : List String} (h : Course c initial base m e limbo acc mf ef rest)
    (hall : ∀ l : List String, (∀ x ∈ l, x ∈ L) → l ≠ [] → ∀ e,
      saErr c initial (l.foldl (without c) sol) = .ok e → c.limit.lt e = false)
    (hg : c.greedy = false) (gone : List String) (hgone : ∀ x ∈ gone, x ∈ L)
    (hm : m = gone.foldl (without c) sol) (hL : ∀ x ∈ limbo, x ∈ L) :
    ∀ x ∈ limbo, x ∈ acc := by
  induction h generalizing gone with
  | done => simp
  | @reject _ _ _ _ _ _ sp e' _ _ hs he hl =>
    exfalso
    have := hall (gone ++ [sp]) (by
      intro x hx
      rcases List.mem_append.1 hx with hx | hx
      · exact hgone x hx
      · rw [List.mem_singleton.1 hx]; exact hL sp (List.mem_of_getElem? hs)) (by simp) e' (by
        rw [List.foldl_append, ← hm]; exact he)
    rw [hl] at this
    cases this
  | @accept _ _ _ _ _ _ sp _ _ _ _ _ _ _ hs _ _ _ _ ih =>
    intro x hx
    rcases List.mem_cons.1 ((getElem?_perm hs).symm.subset hx) with rfl | hx'
    · simp
    · refine List.mem_cons_of_mem _ (ih (gone ++ [sp]) ?_ ?_ ?_ x hx')
      · intro y hy
        rcases List.mem_append.1 hy with hy | hy
        · exact hgone y hy
        · rw [List.mem_singleton.1 hy]; exact hL sp (List.mem_of_getElem? hs)
      · rw [List.foldl_append, ← hm]; rfl
      · exact fun y hy => hL y ((List.eraseIdx_sublist _ _).subset hy)
  | last _ _ _ _ _ hg' => rw [hg] at hg'; cases hg'

/-! ### when the loop raises -/

theorem serialMap_ok_of {κ β} {f : κ → Except Err β} {l : List κ} (h : ∀ x ∈ l, ∃ y, f x = .ok y) :
    ∃ ys, serialMap f l = .ok ys := by
  induction l with
  | nil => exact ⟨[], rfl⟩
  | cons x xs ih =>
    obtain ⟨y, hy⟩ := h x (by simp)
    obtain ⟨ys, hys⟩ := ih (fun z hz => h z (by simp [hz]))
    refine ⟨y :: ys, ?_⟩
    unfold serialMap
    rw [hy, hys]

theorem Forall2_exists_right {α β} {R : α → β → Prop} {l : List α} {l' : List β}
    (h : List.Forall₂ R l l') {y : β} (hy : y ∈ l') : ∃ x ∈ l, R x y := by
  induction h with
  | nil => simp at hy
  | cons h1 _ ih =>
    rcases List.mem_cons.1 hy with rfl | hy
    · exact ⟨_, by simp, h1⟩
    · obtain ⟨x, hx, hr⟩ := ih hy
      exact ⟨x, by simp [hx], hr⟩

theorem pyMin_ok {l : List PyF} (h : l ≠ []) : ∃ e, pyMin l = .ok e := by
  cases l with
  | nil => exact absurd rfl h
  | cons x xs => exact ⟨_, rfl⟩

theorem saLoop_raises {c : SACtx} (T : TmpOk c) {initial : List PyF} {w0 : World} {sol : Mech}
    {L : List String}
    (hE : ∀ l : List String, (∀ x ∈ l, x ∈ L) → l ≠ [] → ∃ e, saErr c initial (l.foldl (without c) sol) = .ok e)
    (fuel : Nat) {base : Mech} {s : SAState} (I : SAInv c initial w0 base s)
    {gone : List String} (hgone : ∀ x ∈ gone, x ∈ L) (hcur : s.cur.model = gone.foldl (without c) sol)
    (hL : ∀ x ∈ s.limbo, x ∈ L) {r : Except Err Unit} {s' : SAState}
    (h : saLoop c initial fuel s = some (r, s')) :
    (r = .ok () ∨ (c.greedy = true ∧ r = .error .valueError ∧ s'.limbo = [])) ∧
    ((∀ l : List String, (∀ x ∈ l, x ∈ L) → l ≠ [] → ∀ e,
        saErr c initial (l.foldl (without c) sol) = .ok e → c.limit.lt e = false) →
      (c.greedy = true → s.limbo ≠ [] → r = .error .valueError) ∧ s'.limbo = []) := by
  induction fuel generalizing base s gone with
  | zero => cases h
  | succ fuel ih =>
    unfold saLoop at h
    by_cases hl : s.limbo = []
    · rw [if_pos hl] at h
      cases h
      exact ⟨Or.inl rfl, fun _ => ⟨fun _ h => absurd hl h, hl⟩⟩
    rw [if_neg hl] at h
    obtain ⟨i, sp, hn, hsp, H⟩ := saStep_spec T I hl
    have hspL : sp ∈ L := hL sp (List.mem_of_getElem? hsp)
    have hrest : ∀ x ∈ s.limbo.eraseIdx i, x ∈ L := fun x hx =>
      hL x ((List.eraseIdx_sublist _ _).subset hx)
    have hstep : ∀ x ∈ gone ++ [sp], x ∈ L := by
      intro x hx
      rcases List.mem_append.1 hx with hx | hx
      · exact hgone x hx
      · rw [List.mem_singleton.1 hx]; exact hspL
    have hw : without c s.cur.model sp = (gone ++ [sp]).foldl (without c) sol := by
      rw [List.foldl_append, hcur]; rfl
    obtain ⟨e', he⟩ := hE (gone ++ [sp]) hstep (by simp)
    rw [hw] at H
    rw [he] at H
    dsimp only at H
    by_cases hlim : c.limit.lt e' = true
    · rw [if_pos hlim] at H
      obtain ⟨s1, h1, h2, h3, h4⟩ := H
      rw [h1] at h
      cases h
      refine ⟨Or.inl rfl, fun hall => ?_⟩
      have := hall _ hstep (by simp) e' he
      rw [hlim] at this
      cases this
    rw [if_neg hlim] at H
    obtain ⟨cur, w1, m1, m2, u1, f1, k1, H⟩ := H
    by_cases hg : c.greedy = true
    · rw [if_pos hg] at H
      obtain ⟨errs', hs⟩ := serialMap_ok_of (f := fun x => saErr c initial (without c cur.model x))
        (l := s.limbo.eraseIdx i) (by
          intro x hx
          obtain ⟨y, hy⟩ := hE (gone ++ [sp] ++ [x]) (by
            intro z hz
            rcases List.mem_append.1 hz with hz | hz
            · exact hstep z hz
            · rw [List.mem_singleton.1 hz]; exact hrest x hx) (by simp)
          refine ⟨y, ?_⟩
          rw [List.foldl_append, ← m1] at hy
          exact hy)
      rw [hs] at H
      dsimp only at H
      have hind : Induced c initial cur.model (s.limbo.eraseIdx i) errs' := serialMap_ok_iff.1 hs
      have hlen : (s.limbo.eraseIdx i).length = errs'.length := List.Forall₂.length_eq hind
      by_cases hne : s.limbo.eraseIdx i = []
      · have : errs' = [] := List.length_eq_zero_iff.1 (by rw [← hlen, hne]; rfl)
        rw [this] at H
        change saStep c initial s = _ at H
        rw [H] at h
        cases h
        exact ⟨Or.inr ⟨hg, rfl, hne⟩, fun _ => ⟨fun _ _ => rfl, hne⟩⟩
      · have hne' : errs' ≠ [] := by
          intro h0
          rw [h0] at hlen
          exact hne (List.length_eq_zero_iff.1 hlen)
        obtain ⟨least, hm⟩ := pyMin_ok hne'
        rw [hm] at H
        dsimp only at H
        have p2 := (pyMin_spec hm).1
        by_cases hl2 : c.limit.lt least = true
        · rw [if_pos hl2] at H
          rw [H] at h
          cases h
          refine ⟨Or.inl rfl, fun hall => ?_⟩
          exfalso
          obtain ⟨x, hx, hxe⟩ := Forall2_exists_right hind p2
          have := hall (gone ++ [sp] ++ [x]) (by
            intro z hz
            rcases List.mem_append.1 hz with hz | hz
            · exact hstep z hz
            · rw [List.mem_singleton.1 hz]; exact hrest x hx) (by simp) least (by
              rw [List.foldl_append, ← m1]; exact hxe)
          rw [hl2] at this
          cases this
        · rw [if_neg hl2] at H
          rw [H] at h
          dsimp only at h
          obtain ⟨q1, q2⟩ := ih (base := cur.model) (s := ⟨cur, s.limbo.eraseIdx i, errs', w1⟩)
            ⟨f1, fun n => T.apart n _ u1, hind, fun _ => rfl, k1⟩ hstep m1 hrest h
          refine ⟨q1, fun hall => ?_⟩
          obtain ⟨q3, q4⟩ := q2 hall
          exact ⟨fun _ _ => q3 hg hne, q4⟩
    · rw [if_neg hg] at H
      rw [H] at h
      dsimp only at h
      obtain ⟨q1, q2⟩ := ih (base := base)
        (s := ⟨cur, s.limbo.eraseIdx i, s.errs.eraseIdx i, w1⟩)
        ⟨f1, fun n => T.apart n _ u1, I.induced.erase i, fun h => absurd h hg, k1⟩ hstep m1 hrest h
      exact ⟨q1, fun hall => ⟨fun h => absurd h hg, (q2 hall).2⟩⟩

/-! ### `run_sa` as a whole -/

/-- the beginning of `run_sa` -/
theorem runSA_start {c : SACtx} (T : TmpOk c) {w : World} {sol : Mech}
    (hw : w.fs c.modelFile = some sol) {limbo : List String} {fuel : Nat} {r : SAResult}
    (h : runSA c limbo fuel w = some r) :
    (∃ e, r.result = .error e ∧ r.limbo = limbo ∧ r.w = w ∧ c.initial sol = .error e) ∨
    ∃ initial, c.initial sol = .ok initial ∧
    ((∃ e, r.result = .error e ∧ r.limbo = saLimbo c.safe sol limbo ∧ Kept c w r.w ∧
      Keeps (fun f => ∃ n, Under (c.evalDir n) f) w r.w ∧
      serialMap (fun sp => saErr c initial (without c sol sp)) (saLimbo c.safe sol limbo) = .error e) ∨
    ∃ errs w1 r' s', SAInv c initial w sol
        ⟨⟨sol, c.modelFile, c.startErr, none⟩, saLimbo c.safe sol limbo, errs, w1⟩ ∧
      saLoop c initial fuel ⟨⟨sol, c.modelFile, c.startErr, none⟩, saLimbo c.safe sol limbo, errs,
        w1⟩ = some (r', s') ∧ r.limbo = s'.limbo ∧
      ((∃ e, r' = .error e ∧ r.result = .error e ∧ r.w = cleanDir s'.w c.tmpDir) ∨
       (r' = .ok () ∧
        r.result = .ok ⟨s'.cur.model, reducedName s'.cur.model.nSpecies, s'.cur.error, none⟩ ∧
        r.w = (cleanDir s'.w c.tmpDir).set (joinPath c.path (reducedName s'.cur.model.nSpecies))
          (some s'.cur.model)))) := by
  have hlm : loadModel w c.modelFile = .ok sol := by unfold loadModel; rw [hw]
  unfold runSA at h
  rw [hlm] at h
  dsimp only at h
  rcases hi : c.initial sol with e | initial <;> rw [hi] at h
  · cases h
    exact Or.inl ⟨e, rfl, rfl, rfl, rfl⟩
  refine Or.inr ⟨initial, rfl, ?_⟩
  dsimp only at h
  obtain ⟨k1, k2, e1⟩ := evalSpecies_spec T initial T.model_eval (saLimbo c.safe sol limbo) hw
  rcases hr : evalSpecies c initial c.modelFile (saLimbo c.safe sol limbo) w with ⟨_ | errs, w1⟩ <;>
    rw [hr] at h k1 k2 e1
  · cases h
    exact Or.inl ⟨_, rfl, rfl, k2, k1, e1.symm⟩
  right
  dsimp only at h k1 k2 e1
  refine ⟨errs, w1, ?_⟩
  rcases hloop : saLoop c initial fuel ⟨⟨sol, c.modelFile, c.startErr, none⟩,
    saLimbo c.safe sol limbo, errs, w1⟩ with _ | ⟨r', s'⟩ <;> rw [hloop] at h
  · cases h
  refine ⟨r', s', ⟨?_, T.model_eval, serialMap_ok_iff.1 e1.symm, fun _ => rfl, k2⟩, rfl, ?_⟩
  · show w1.fs c.modelFile = some sol
    rw [k1.2 _ (fun ⟨n, hn⟩ => T.model_eval n hn)]
    exact hw
  rcases r' with e | _
  · cases h
    exact ⟨rfl, Or.inl ⟨_, rfl, rfl, rfl⟩⟩
  · dsimp only at h
    rw [writeYaml_eq] at h
    cases h
    refine ⟨rfl, Or.inr ⟨rfl, rfl, ?_⟩⟩
    dsimp only
    unfold yamlName
    rw [if_neg (reducedName_ne_nil _)]

end Verif
