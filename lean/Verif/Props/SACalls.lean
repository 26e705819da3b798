import Verif.Model.SACalls
import Verif.Props.SA
/-!
# How many models a sensitivity analysis simulates (C133), and how many of them twice (C134)
-/
namespace Verif
open Spec

/-- the same analysis with other results of simulations -/
abbrev SACtx.withMetrics (c : SACtx) (f : Mech → Except Err (List PyF)) : SACtx := { c with metrics := f }

theorem tryRemove_agree {c : SACtx} {initial : List PyF} {file dir : Text} {sp : String} {w : World}
    {f : Mech → Except Err (List PyF)} (h : ∀ m ∈ tryCalls c file dir sp w, f m = c.metrics m) :
    tryRemove (c.withMetrics f) initial file dir sp w = tryRemove c initial file dir sp w := by
  unfold tryCalls at h
  unfold tryRemove
  generalize loadModel w file = A at h ⊢
  rcases A with e | sol
  · rfl
  dsimp only at h ⊢
  rcases hw : writeYaml w (trim sol [sp] (candidateName sp) c.phase) (candidateName sp) dir with ⟨fn, w1⟩
  rw [hw] at h
  dsimp only at h ⊢
  generalize loadModel w1 fn = A at h ⊢
  rcases A with e | m
  · rfl
  dsimp only at h ⊢
  unfold saErr
  dsimp only
  rw [h m (by simp)]

theorem evalLoop_agree {c : SACtx} {initial : List PyF} {file dir : Text} {f : Mech → Except Err (List PyF)} :
    ∀ {limbo : List String} {w : World}, (∀ m ∈ evalCalls c initial file dir limbo w, f m = c.metrics m) →
    evalLoop (c.withMetrics f) initial file dir limbo w = evalLoop c initial file dir limbo w
  | [], _, _ => rfl
  | sp :: rest, w, h => by
    rw [evalCalls] at h
    rw [evalLoop, evalLoop, tryRemove_agree (fun m hm => h m (by simp [hm]))]
    rcases ht : tryRemove c initial file dir sp w with ⟨_ | ⟨a, b, e⟩, w1⟩
    · rfl
    · rw [ht] at h
      dsimp only
      rw [evalLoop_agree (fun m hm => h m (by simp [hm]))]

theorem saStep_agree {c : SACtx} {initial : List PyF} {s : SAState} {f : Mech → Except Err (List PyF)}
    (h : ∀ m ∈ (stepCalls c initial s).1 ++ (stepCalls c initial s).2, f m = c.metrics m) :
    saStep (c.withMetrics f) initial s = saStep c initial s := by
  unfold stepCalls saChoice at h
  unfold saStep
  dsimp only
  generalize npArgmin (s.errs.map (fun e => c.dist e s.cur.error)) = A at h ⊢
  rcases A with e | idx
  · rfl
  dsimp only at h ⊢
  generalize s.limbo[idx]? = A at h ⊢
  rcases A with _ | sp
  · rfl
  simp only [Option.map_some] at h
  dsimp only
  rw [tryRemove_agree (fun m hm => h m (by simp [hm]))]
  rcases ht : tryRemove c initial s.cur.filename c.tmpDir sp s.w with ⟨_ | ⟨a, b, e⟩, w1⟩
  · rfl
  rw [ht] at h
  dsimp only at h ⊢
  by_cases hl : c.limit.lt e = true
  · rw [if_pos hl, if_pos hl]
  rw [if_neg hl] at h
  rw [if_neg hl, if_neg hl]
  by_cases hg : c.greedy = true
  · rw [if_pos hg] at h
    rw [if_pos hg, if_pos hg]
    have : evalSpecies (c.withMetrics f) initial b (s.limbo.eraseIdx idx) w1 = evalSpecies c initial b (s.limbo.eraseIdx idx) w1 := by
      unfold evalSpecies
      dsimp only
      rw [evalLoop_agree (fun m hm => h m (by simp [hm]))]
    rw [this]
  · rw [if_neg hg, if_neg hg]

theorem saLoop_agree {c : SACtx} {initial : List PyF} {f : Mech → Except Err (List PyF)} : ∀ {fuel : Nat} {s : SAState},
    (∀ p ∈ saLoopCalls c initial fuel s, ∀ m ∈ p.1 ++ p.2, f m = c.metrics m) →
    saLoop (c.withMetrics f) initial fuel s = saLoop c initial fuel s
  | 0, _, _ => rfl
  | fuel + 1, s, h => by
    rw [saLoopCalls] at h
    rw [saLoop, saLoop]
    by_cases hl : s.limbo = []
    · rw [if_pos hl, if_pos hl]
    rw [if_neg hl] at h
    rw [if_neg hl, if_neg hl, saStep_agree (h _ (by simp))]
    rcases hs : saStep c initial s with s1 | s1 | ⟨e, s1⟩
    · rw [hs] at h
      dsimp only
      exact saLoop_agree (fun p hp => h p (by simp [hp]))
    · rfl
    · rfl

/-- **C133** (the record is complete): a sensitivity analysis depends on the simulations of no other models than those recorded. -/
theorem C133_calls {c : SACtx} {limbo : List String} {fuel : Nat} {w : World} {f : Mech → Except Err (List PyF)}
    (h : ∀ m ∈ allCalls (saCalls c limbo fuel w), f m = c.metrics m) :
    runSA { c with metrics := f } limbo fuel w = runSA c limbo fuel w := by
  unfold allCalls saCalls at h
  unfold runSA
  dsimp only
  generalize loadModel w c.modelFile = A at h ⊢
  rcases A with e | sol
  · rfl
  dsimp only at h ⊢
  generalize c.initial sol = A at h ⊢
  rcases A with e | initial
  · rfl
  dsimp only at h ⊢
  have h1 : evalSpecies (c.withMetrics f) initial c.modelFile (saLimbo c.safe sol limbo) w =
      evalSpecies c initial c.modelFile (saLimbo c.safe sol limbo) w := by
    unfold evalSpecies
    dsimp only
    rw [evalLoop_agree (fun m hm => h m (by simp [hm]))]
  rw [h1]
  rcases he : evalSpecies c initial c.modelFile (saLimbo c.safe sol limbo) w with ⟨_ | errs, w1⟩
  · rfl
  rw [he] at h
  dsimp only at h ⊢
  rw [saLoop_agree (c := c) (f := f) (fun p hp m hm => h m (by
    rw [List.mem_append, List.mem_flatten]
    exact .inr ⟨_, List.mem_map.2 ⟨p, hp, rfl⟩, hm⟩))]

/-! ## how many -/

theorem tryCalls_length (c : SACtx) (file dir : Text) (sp : String) (w : World) : (tryCalls c file dir sp w).length ≤ 1 := by
  unfold tryCalls
  rcases loadModel w file with e | sol
  · simp
  dsimp only
  rcases writeYaml w (trim sol [sp] (candidateName sp) c.phase) (candidateName sp) dir with ⟨fn, w1⟩
  dsimp only
  rcases loadModel w1 fn with e | m <;> simp

theorem evalCalls_length (c : SACtx) (initial : List PyF) (file dir : Text) : ∀ (limbo : List String) (w : World),
    (evalCalls c initial file dir limbo w).length ≤ limbo.length
  | [], _ => by simp [evalCalls]
  | sp :: rest, w => by
    rw [evalCalls, List.length_append, List.length_cons]
    have h1 := tryCalls_length c file dir sp w
    rcases tryRemove c initial file dir sp w with ⟨_ | x, w1⟩
    · simp; omega
    · dsimp only
      have := evalCalls_length c initial file dir rest w1
      omega

theorem stepCalls_length (c : SACtx) (initial : List PyF) (s : SAState) : (stepCalls c initial s).1.length ≤ 1 ∧
    (stepCalls c initial s).2.length ≤ (if c.greedy then s.limbo.length - 1 else 0) := by
  unfold stepCalls saChoice
  rcases npArgmin (s.errs.map (fun e => c.dist e s.cur.error)) with e | idx
  · simp
  dsimp only
  rcases hi : s.limbo[idx]? with _ | sp
  · simp
  simp only [Option.map_some]
  refine ⟨tryCalls_length _ _ _ _ _, ?_⟩
  rcases tryRemove c initial s.cur.filename c.tmpDir sp s.w with ⟨_ | ⟨a, b, e⟩, w1⟩
  · simp
  dsimp only
  by_cases hl : c.limit.lt e = true
  · rw [if_pos hl]; simp
  rw [if_neg hl]
  by_cases hg : c.greedy = true
  · rw [if_pos hg, if_pos hg]
    have h1 := evalCalls_length c initial b (c.evalDir (s.limbo.eraseIdx idx).length) (s.limbo.eraseIdx idx) w1
    rw [List.length_eraseIdx_of_lt (List.getElem?_eq_some_iff.1 hi).1] at h1 ⊢
    exact h1
  · rw [if_neg hg]; simp

theorem saLoopCalls_length (c : SACtx) (initial : List PyF) : ∀ (fuel : Nat) (s : SAState),
    (((saLoopCalls c initial fuel s).map fun p => p.1 ++ p.2).flatten).length ≤
      (if c.greedy then s.limbo.length * (s.limbo.length + 1) / 2 else s.limbo.length)
  | 0, s => by simp [saLoopCalls]
  | fuel + 1, s => by
    rw [saLoopCalls]
    by_cases hl : s.limbo = []
    · rw [if_pos hl]; simp
    rw [if_neg hl, List.map_cons, List.flatten_cons, List.length_append, List.length_append]
    obtain ⟨h1, h2⟩ := stepCalls_length c initial s
    have hpos : 0 < s.limbo.length := List.length_pos_iff.2 hl
    have arith : ∀ x, x ≤ (if c.greedy then (s.limbo.length - 1) * s.limbo.length / 2 else s.limbo.length - 1) →
        (stepCalls c initial s).1.length + (stepCalls c initial s).2.length + x ≤
          (if c.greedy then s.limbo.length * (s.limbo.length + 1) / 2 else s.limbo.length) := by
      intro x hrest
      obtain ⟨k, hk⟩ : ∃ k, s.limbo.length = k + 1 := ⟨s.limbo.length - 1, by omega⟩
      rw [hk] at h2 hrest ⊢
      rw [Nat.add_sub_cancel] at h2 hrest
      by_cases hg : c.greedy = true
      · rw [if_pos hg] at h2 hrest ⊢
        have e2 : (k + 1) * (k + 1 + 1) / 2 = k * (k + 1) / 2 + (k + 1) := by
          rw [show (k + 1) * (k + 1 + 1) = k * (k + 1) + (k + 1) * 2 by ring, Nat.add_mul_div_right _ _ (by norm_num)]
        omega
      · rw [if_neg hg] at h2 hrest ⊢
        omega
    apply arith
    rcases hs : saStep c initial s with s1 | s1 | ⟨e, s1⟩
    · have hm := saStep_more hs
      have := saLoopCalls_length c initial fuel s1
      dsimp only
      have e1 : s1.limbo.length = s.limbo.length - 1 := by omega
      rw [e1, Nat.sub_add_cancel hpos] at this
      exact this
    · simp
    · simp

/-- **C133**: a sensitivity analysis with `k` candidates simulates at most `2 k` models, or `k + k (k + 1) / 2` with the greedy
algorithm. -/
theorem C133_bound {c : SACtx} {limbo : List String} {w : World} {sol : Mech} (fuel : Nat) (hw : w.fs c.modelFile = some sol) :
    (allCalls (saCalls c limbo fuel w)).length ≤
      (saLimbo c.safe sol limbo).length +
        (if c.greedy then (saLimbo c.safe sol limbo).length * ((saLimbo c.safe sol limbo).length + 1) / 2
          else (saLimbo c.safe sol limbo).length) := by
  unfold allCalls saCalls
  have : loadModel w c.modelFile = .ok sol := by unfold loadModel; rw [hw]
  rw [this]
  dsimp only
  rcases c.initial sol with e | initial
  · simp
  dsimp only
  rw [List.length_append]
  refine Nat.add_le_add (evalCalls_length _ _ _ _ _ _) ?_
  rcases evalSpecies c initial c.modelFile (saLimbo c.safe sol limbo) w with ⟨_ | errs, w1⟩
  · simp
  · exact saLoopCalls_length c initial fuel _

/-! ## which ones -/

theorem tryCalls_spec (c : SACtx) {file dir : Text} (sp : String) {w : World} {m : Mech} (hw : w.fs file = some m) :
    tryCalls c file dir sp w = [without c m sp] := by
  have hlm : loadModel w file = .ok m := by unfold loadModel; rw [hw]
  unfold tryCalls
  rw [hlm]
  dsimp only
  rw [writeYaml_eq]
  dsimp only
  have : loadModel (w.set (yamlName (without c m sp) (candidateName sp) dir)
      (some (without c m sp))) (yamlName (without c m sp) (candidateName sp) dir) = .ok (without c m sp) := by
    unfold loadModel; rw [World.set_fs_same]
  unfold without at this ⊢
  rw [this]

theorem evalCalls_ok (c : SACtx) (initial : List PyF) {file dir : Text} (h1 : dir ≠ [])
    (h2 : dir.getLast? ≠ some '/') (hf : ¬ Under dir file) {m : Mech} (limbo : List String)
    {w : World} (hw : w.fs file = some m) {errs : List PyF}
    (he : serialMap (fun sp => saErr c initial (without c m sp)) limbo = .ok errs) :
    evalCalls c initial file dir limbo w = limbo.map (without c m) := by
  induction limbo generalizing w errs with
  | nil => rfl
  | cons sp rest ih =>
    obtain ⟨fn, w1, -, k1, -, e1⟩ := tryRemove_spec c initial h1 h2 sp hw
    rw [evalCalls, tryCalls_spec c sp hw, e1]
    unfold serialMap at he
    rcases h3 : saErr c initial (without c m sp) with e | e
    · rw [h3] at he; cases he
    rw [h3] at he
    simp only [Except.map]
    rcases h4 : serialMap (fun sp => saErr c initial (without c m sp)) rest with e' | es
    · rw [h4] at he; cases he
    rw [ih (by rw [k1.2 _ hf]; exact hw) h4]
    rfl

theorem evalCalls_prefix (c : SACtx) (initial : List PyF) {file dir : Text} (h1 : dir ≠ [])
    (h2 : dir.getLast? ≠ some '/') (hf : ¬ Under dir file) {m : Mech} (limbo : List String)
    {w : World} (hw : w.fs file = some m) : evalCalls c initial file dir limbo w <+: limbo.map (without c m) := by
  induction limbo generalizing w with
  | nil => exact List.prefix_rfl
  | cons sp rest ih =>
    obtain ⟨fn, w1, -, k1, -, e1⟩ := tryRemove_spec c initial h1 h2 sp hw
    rw [evalCalls, tryCalls_spec c sp hw, e1, List.map_cons]
    change _ :: _ <+: _
    rw [List.cons_prefix_cons]
    refine ⟨rfl, ?_⟩
    rcases saErr c initial (without c m sp) with e | e
    · exact List.nil_prefix
    · exact ih (by rw [k1.2 _ hf]; exact hw)

/-- what one pass through the loop simulates, and what it leaves -/
theorem step_record {c : SACtx} (T : TmpOk c) {initial : List PyF} {w0 : World} {base : Mech}
    {s : SAState} (I : SAInv c initial w0 base s) (hl : s.limbo ≠ []) :
    ∃ i sp, s.limbo[i]? = some sp ∧ (stepCalls c initial s).1 = [without c s.cur.model sp] ∧
      (c.greedy = false → (stepCalls c initial s).2 = []) ∧
      (stepCalls c initial s).2 <+: (s.limbo.eraseIdx i).map (without c (without c s.cur.model sp)) ∧
      ((∀ e, saErr c initial (without c s.cur.model sp) = .ok e → c.limit.lt e = false) →
        (∃ e, saErr c initial (without c s.cur.model sp) = .ok e) → c.greedy = true →
        (∃ errs, serialMap (fun x => saErr c initial (without c (without c s.cur.model sp) x)) (s.limbo.eraseIdx i) = .ok errs) →
        (stepCalls c initial s).2 = (s.limbo.eraseIdx i).map (without c (without c s.cur.model sp))) ∧
      ∀ s1, saStep c initial s = .more s1 →
        s1.limbo = s.limbo.eraseIdx i ∧ s1.cur.model = without c s.cur.model sp ∧
        SAInv c initial w0 (if c.greedy then s1.cur.model else base) s1 ∧
        (c.greedy = true → (stepCalls c initial s).2 = s1.limbo.map (without c s1.cur.model)) := by
  have hlen : s.errs.length = s.limbo.length := (List.Forall₂.length_eq I.induced).symm
  have hne : s.errs.map (fun e => c.dist e s.cur.error) ≠ [] := by
    intro h
    have := congrArg List.length h
    rw [List.length_map, hlen] at this
    exact hl (List.length_eq_zero_iff.1 this)
  obtain ⟨i, hi⟩ := npArgmin_ok hne
  have hil : i < s.limbo.length := by
    obtain ⟨e, he, -⟩ := npArgmin_nearest hi
    rw [← hlen]
    exact (List.getElem?_eq_some_iff.1 he).1
  have hsp : s.limbo[i]? = some s.limbo[i] := List.getElem?_eq_getElem hil
  refine ⟨i, s.limbo[i], hsp, ?_⟩
  generalize s.limbo[i] = sp at hsp
  obtain ⟨fn, w1, u1, k1, f1, e1⟩ := tryRemove_spec c initial T.tmp_ne T.tmp_last sp I.file
  have kw : Kept c w0 w1 := I.keeps.trans k1.kept
  have hch : saChoice c s = some (i, sp) := by
    unfold saChoice; rw [hi]; dsimp only; rw [hsp]; rfl
  have hc1 : (stepCalls c initial s).1 = [without c s.cur.model sp] := by
    unfold stepCalls; rw [hch]; dsimp only; exact tryCalls_spec c sp I.file
  refine ⟨hc1, ?_, ?_, ?_, ?_⟩
  · intro hg
    unfold stepCalls
    rw [hch]
    dsimp only
    rw [e1]
    rcases saErr c initial (without c s.cur.model sp) with e | e'
    · rfl
    · simp [Except.map, hg]
  · unfold stepCalls
    rw [hch]
    dsimp only
    rw [e1]
    rcases saErr c initial (without c s.cur.model sp) with e | e'
    · exact List.nil_prefix
    · simp only [Except.map]
      split_ifs
      · exact List.nil_prefix
      · exact evalCalls_prefix c initial (T.eval_ne _) (T.eval_last _) (T.apart _ fn u1) _ f1
      · exact List.nil_prefix
  · rintro hlim ⟨e, he⟩ hg ⟨errs, hs⟩
    unfold stepCalls
    rw [hch]
    dsimp only
    rw [e1, he]
    simp only [Except.map, hlim e he, hg]
    exact evalCalls_ok c initial (T.eval_ne _) (T.eval_last _) (T.apart _ fn u1) _ f1 hs
  intro s1 h
  unfold saStep at h
  rw [hi] at h
  dsimp only at h
  rw [hsp] at h
  dsimp only at h
  rw [e1] at h
  rcases he : saErr c initial (without c s.cur.model sp) with e | e'
  · rw [he] at h; cases h
  rw [he] at h
  simp only [Except.map] at h
  by_cases hlim : c.limit.lt e' = true
  · rw [if_pos hlim] at h; cases h
  rw [if_neg hlim] at h
  by_cases hg : c.greedy = true
  · rw [if_pos hg] at h
    obtain ⟨k2, k3, e2⟩ := evalSpecies_spec T initial (fun n => T.apart n fn u1) (s.limbo.eraseIdx i) f1
    rcases hr : evalSpecies c initial fn (s.limbo.eraseIdx i) w1 with ⟨r, w2⟩
    rw [hr] at k2 k3 e2 h
    dsimp only at k2 k3 e2 h
    rcases r with e | errs'
    · cases h
    dsimp only at h
    rcases hm : pyMin errs' with e | least
    · rw [hm] at h; cases h
    rw [hm] at h
    dsimp only at h
    by_cases hl2 : c.limit.lt least = true
    · rw [if_pos hl2] at h; cases h
    rw [if_neg hl2] at h
    cases h
    refine ⟨rfl, rfl, ?_, fun _ => ?_⟩
    · rw [if_pos hg]
      refine ⟨?_, fun n => T.apart n fn u1, serialMap_ok_iff.1 e2.symm, fun _ => rfl, kw.trans k3⟩
      show w2.fs fn = _
      rw [k2.2 fn (fun ⟨n, h⟩ => T.apart n fn u1 h)]
      exact f1
    · unfold stepCalls
      rw [hch]
      dsimp only
      rw [e1, he]
      simp only [Except.map, hlim, hg]
      exact evalCalls_ok c initial (T.eval_ne _) (T.eval_last _) (T.apart _ fn u1) _ f1 e2.symm
  · rw [if_neg hg] at h
    cases h
    refine ⟨rfl, rfl, ?_, fun h => absurd h hg⟩
    rw [if_neg hg]
    exact ⟨f1, fun n => T.apart n fn u1, I.induced.erase i, fun h => absurd h hg, kw⟩

/-- when every removal is within the limit the loop goes on, except that the greedy algorithm raises after the last one -/
theorem step_goes {c : SACtx} (T : TmpOk c) {initial : List PyF} {w0 : World} {base : Mech}
    {s : SAState} (I : SAInv c initial w0 base s) (hl : s.limbo ≠ [])
    (h1 : ∀ x ∈ s.limbo, ∃ e, saErr c initial (without c s.cur.model x) = .ok e ∧ c.limit.lt e = false)
    (h2 : ∀ x ∈ s.limbo, ∀ y ∈ s.limbo, ∃ e, saErr c initial (without c (without c s.cur.model x) y) = .ok e ∧ c.limit.lt e = false) :
    (∃ s1, saStep c initial s = .more s1) ∨ (c.greedy = true ∧ s.limbo.length = 1 ∧ ∀ s1, saStep c initial s ≠ .more s1) := by
  obtain ⟨i, sp, -, hsp, H⟩ := saStep_spec T I hl
  have hm := List.mem_of_getElem? hsp
  obtain ⟨e, he, hlim⟩ := h1 sp hm
  rw [he] at H
  dsimp only at H
  rw [if_neg (by simp [hlim])] at H
  obtain ⟨cur, w1, m1, -, -, -, -, H⟩ := H
  by_cases hg : c.greedy = true
  swap
  · rw [if_neg hg] at H
    exact Or.inl ⟨_, H⟩
  rw [if_pos hg] at H
  have h3 : ∀ x ∈ s.limbo.eraseIdx i, ∃ e, saErr c initial (without c cur.model x) = .ok e ∧ c.limit.lt e = false := by
    intro x hx
    rw [m1]
    exact h2 sp hm x ((List.eraseIdx_sublist _ _).subset hx)
  obtain ⟨errs', hs⟩ := serialMap_ok_of (f := fun x => saErr c initial (without c cur.model x))
    (l := s.limbo.eraseIdx i) (fun x hx => (h3 x hx).imp fun _ h => h.1)
  rw [hs] at H
  dsimp only at H
  have hind : Induced c initial cur.model (s.limbo.eraseIdx i) errs' := serialMap_ok_iff.1 hs
  have hlen : (s.limbo.eraseIdx i).length = errs'.length := List.Forall₂.length_eq hind
  have hil := (List.getElem?_eq_some_iff.1 hsp).1
  rw [List.length_eraseIdx_of_lt hil] at hlen
  rcases errs' with _ | ⟨a, l⟩
  · right
    change saStep c initial s = .raise _ _ at H
    refine ⟨hg, by simp at hlen; omega, fun s1 h => ?_⟩
    rw [H] at h
    cases h
  · left
    obtain ⟨least, hmin⟩ := pyMin_ok (l := a :: l) (by simp)
    rw [hmin] at H
    dsimp only at H
    obtain ⟨x, hx, hxe⟩ := Forall2_exists_right hind (pyMin_spec hmin).1
    obtain ⟨e2, h4, h5⟩ := h3 x hx
    rw [hxe] at h4
    cases h4
    rw [h5] at H
    exact ⟨_, H⟩

theorem SAInv.within {c : SACtx} {initial : List PyF} {sol : Mech} {L gone : List String} {m : Mech} {limbo : List String}
    (hall : ∀ l : List String, (∀ x ∈ l, x ∈ L) → l ≠ [] → ∃ e, saErr c initial (l.foldl (without c) sol) = .ok e ∧ c.limit.lt e = false)
    (hgone : ∀ x ∈ gone, x ∈ L) (hcur : m = gone.foldl (without c) sol) (hL : ∀ x ∈ limbo, x ∈ L) :
    (∀ x ∈ limbo, ∃ e, saErr c initial (without c m x) = .ok e ∧ c.limit.lt e = false) ∧
    (∀ x ∈ limbo, ∀ y ∈ limbo, ∃ e, saErr c initial (without c (without c m x) y) = .ok e ∧ c.limit.lt e = false) := by
  subst hcur
  constructor
  · intro x hx
    have := hall (gone ++ [x]) (by
      intro z hz
      rcases List.mem_append.1 hz with hz | hz
      · exact hgone z hz
      · rw [List.mem_singleton.1 hz]; exact hL x hx) (by simp)
    rwa [List.foldl_append] at this
  · intro x hx y hy
    have := hall (gone ++ [x, y]) (by
      intro z hz
      rcases List.mem_append.1 hz with hz | hz
      · exact hgone z hz
      · rcases List.mem_cons.1 hz with rfl | hz
        · exact hL z hx
        · rw [List.mem_singleton.1 hz]; exact hL y hy) (by simp)
    rwa [List.foldl_append] at this

theorem saLoopCalls_all {c : SACtx} (T : TmpOk c) {initial : List PyF} {w0 : World} {sol : Mech} {L : List String}
    (hall : ∀ l : List String, (∀ x ∈ l, x ∈ L) → l ≠ [] → ∃ e, saErr c initial (l.foldl (without c) sol) = .ok e ∧ c.limit.lt e = false)
    (fuel : Nat) {base : Mech} {s : SAState} (I : SAInv c initial w0 base s)
    {gone : List String} (hgone : ∀ x ∈ gone, x ∈ L) (hcur : s.cur.model = gone.foldl (without c) sol)
    (hL : ∀ x ∈ s.limbo, x ∈ L) (hf : s.limbo.length ≤ fuel) :
    (((saLoopCalls c initial fuel s).map fun p => p.1 ++ p.2).flatten).length =
      if c.greedy then s.limbo.length * (s.limbo.length + 1) / 2 else s.limbo.length := by
  induction fuel generalizing base s gone with
  | zero =>
    have : s.limbo.length = 0 := by omega
    rw [this]
    simp [saLoopCalls]
  | succ fuel ih =>
    rw [saLoopCalls]
    by_cases hl : s.limbo = []
    · rw [if_pos hl, hl]; simp
    rw [if_neg hl]
    obtain ⟨w1, w2⟩ := SAInv.within hall hgone hcur hL
    obtain ⟨i, sp, hsp, c1, c2, -, c3, c4⟩ := step_record T I hl
    have hm := List.mem_of_getElem? hsp
    have hil := (List.getElem?_eq_some_iff.1 hsp).1
    have hel : (s.limbo.eraseIdx i).length = s.limbo.length - 1 := List.length_eraseIdx_of_lt hil
    have hsub : ∀ x ∈ s.limbo.eraseIdx i, x ∈ s.limbo := fun x hx => (List.eraseIdx_sublist _ _).subset hx
    have hc : (stepCalls c initial s).1.length + (stepCalls c initial s).2.length = if c.greedy then s.limbo.length else 1 := by
      rw [c1]
      by_cases hg : c.greedy = true
      · rw [c3 (fun e he => by obtain ⟨e', h1, h2⟩ := w1 sp hm; rw [he] at h1; cases h1; exact h2)
          ((w1 sp hm).imp fun _ h => h.1) hg
          (serialMap_ok_of fun x hx => (w2 sp hm x (hsub x hx)).imp fun _ h => h.1), if_pos hg, List.length_map, hel]
        simp
        omega
      · rw [c2 (by simpa using hg), if_neg hg]; rfl
    rw [List.map_cons, List.flatten_cons, List.length_append, List.length_append, hc]
    rcases step_goes T I hl w1 w2 with ⟨s1, h1⟩ | ⟨hg, h1, hno⟩
    · rw [h1]
      dsimp only
      obtain ⟨d1, d2, d3, -⟩ := c4 s1 h1
      rw [ih d3 (gone := gone ++ [sp]) (by
        intro z hz
        rcases List.mem_append.1 hz with hz | hz
        · exact hgone z hz
        · rw [List.mem_singleton.1 hz]; exact hL sp hm) (by rw [d2, hcur, List.foldl_append]; rfl)
        (by rw [d1]; exact fun x hx => hL x (hsub x hx)) (by rw [d1, hel]; omega), d1, hel]
      obtain ⟨n, hn⟩ : ∃ n, s.limbo.length = n + 1 := ⟨s.limbo.length - 1, by omega⟩
      rw [hn]
      by_cases hg : c.greedy = true
      · simp only [hg, if_true, Nat.add_sub_cancel]
        have : (n + 1) * (n + 1 + 1) = n * (n + 1) + (n + 1) * 2 := by ring
        rw [this, Nat.add_mul_div_right _ _ (by norm_num)]
        omega
      · simp only [hg]
        simp
        omega
    · have : ((match saStep c initial s with
        | .more s1 => saLoopCalls c initial fuel s1
        | _ => [] : List (List Mech × List Mech))) = [] := by
        rcases h2 : saStep c initial s with s1 | s1 | ⟨e, s1⟩
        · exact absurd h2 (hno s1)
        · rfl
        · rfl
      rcases h2 : saStep c initial s with s1 | s1 | ⟨e, s1⟩
      · exact absurd h2 (hno s1)
      · simp [hg, h1]
      · simp [hg, h1]

/-- the state at the head of the loop -/
theorem saCalls_start {c : SACtx} (T : TmpOk c) {limbo : List String} {w : World} {sol : Mech} {initial : List PyF} (fuel : Nat)
    (hw : w.fs c.modelFile = some sol) (hi : c.initial sol = .ok initial)
    {errs : List PyF} (he : serialMap (fun sp => saErr c initial (without c sol sp)) (saLimbo c.safe sol limbo) = .ok errs) :
    ∃ s, SAInv c initial w sol s ∧ s.cur.model = sol ∧ s.limbo = saLimbo c.safe sol limbo ∧
      saCalls c limbo fuel w = ((saLimbo c.safe sol limbo).map (without c sol), saLoopCalls c initial fuel s) := by
  obtain ⟨k1, k2, e1⟩ := evalSpecies_spec T initial T.model_eval (saLimbo c.safe sol limbo) hw
  rcases hr : evalSpecies c initial c.modelFile (saLimbo c.safe sol limbo) w with ⟨r, w1⟩
  rw [hr] at k1 k2 e1
  dsimp only at k1 k2 e1
  rw [he] at e1
  subst e1
  refine ⟨⟨⟨sol, c.modelFile, c.startErr, none⟩, saLimbo c.safe sol limbo, errs, w1⟩, ⟨?_, T.model_eval, serialMap_ok_iff.1 he, fun _ => rfl, k2⟩,
    rfl, rfl, ?_⟩
  · show w1.fs c.modelFile = _
    rw [k1.2 _ (fun ⟨n, h⟩ => T.model_eval n h)]
    exact hw
  · unfold saCalls
    have : loadModel w c.modelFile = .ok sol := by unfold loadModel; rw [hw]
    rw [this]
    dsimp only
    rw [hi]
    dsimp only
    rw [hr, evalCalls_ok c initial (T.eval_ne _) (T.eval_last _) (T.model_eval _) _ hw he]

/-- **C133**: the bounds are met whenever every removal is within the limit. -/
theorem C133_attained {c : SACtx} (T : TmpOk c) {limbo : List String} {w : World} {sol : Mech} {initial : List PyF} {fuel : Nat}
    (hw : w.fs c.modelFile = some sol) (hi : c.initial sol = .ok initial) (hall : AllWithin c sol limbo initial)
    (hf : (saLimbo c.safe sol limbo).length ≤ fuel) :
    (allCalls (saCalls c limbo fuel w)).length =
      (saLimbo c.safe sol limbo).length +
        (if c.greedy then (saLimbo c.safe sol limbo).length * ((saLimbo c.safe sol limbo).length + 1) / 2
          else (saLimbo c.safe sol limbo).length) := by
  obtain ⟨errs, he⟩ := serialMap_ok_of (f := fun sp => saErr c initial (without c sol sp)) (l := saLimbo c.safe sol limbo)
    (fun x hx => (hall [x] (by simpa using hx) (by simp)).imp fun _ h => h.1)
  obtain ⟨s, I, h1, h2, h3⟩ := saCalls_start T (limbo := limbo) fuel hw hi he
  unfold allCalls
  rw [h3, List.length_append, List.length_map, saLoopCalls_all T hall fuel I (gone := []) (by simp) (by rw [h1]; rfl)
    (by rw [h2]; exact fun _ h => h) (by rw [h2]; exact hf), h2]

/-! ## twice the same -/

/-- each pass simulates, to remove a species, a model of the evaluation before it -/
inductive Spec.Repeats : List Mech → List (List Mech × List Mech) → Prop where
  | nil {E} : Spec.Repeats E []
  | cons {E m F rest} : m ∈ E → Spec.Repeats F rest → Spec.Repeats E (([m], F) :: rest)

theorem saLoopCalls_greedy {c : SACtx} (T : TmpOk c) {initial : List PyF} {w0 : World} (hg : c.greedy = true)
    (fuel : Nat) {base : Mech} {s : SAState} (I : SAInv c initial w0 base s) :
    Spec.Repeats (s.limbo.map (without c s.cur.model)) (saLoopCalls c initial fuel s) := by
  induction fuel generalizing base s with
  | zero => exact .nil
  | succ fuel ih =>
    rw [saLoopCalls]
    by_cases hl : s.limbo = []
    · rw [if_pos hl]; exact .nil
    rw [if_neg hl]
    obtain ⟨i, sp, hsp, c1, -, -, -, c4⟩ := step_record T I hl
    have hm := List.mem_map_of_mem (f := without c s.cur.model) (List.mem_of_getElem? hsp)
    have : stepCalls c initial s = ([without c s.cur.model sp], (stepCalls c initial s).2) := by
      rw [← c1]
    rw [this]
    refine .cons hm ?_
    rcases h1 : saStep c initial s with s1 | s1 | ⟨e, s1⟩
    · obtain ⟨-, -, d3, d4⟩ := c4 s1 h1
      rw [d4 hg]
      exact ih d3
    · exact .nil
    · exact .nil

/-- **C134** (refuted): with at least one candidate, the first removal simulates a model that the evaluation has simulated. -/
theorem C134_first_refuted {c : SACtx} (T : TmpOk c) {limbo : List String} {w : World} {sol : Mech} {initial : List PyF} {fuel : Nat}
    (hw : w.fs c.modelFile = some sol) (hi : c.initial sol = .ok initial)
    {errs : List PyF} (he : serialMap (fun sp => saErr c initial (without c sol sp)) (saLimbo c.safe sol limbo) = .ok errs)
    (hne : saLimbo c.safe sol limbo ≠ []) (hf : fuel ≠ 0) :
    (∃ m ∈ (saCalls c limbo fuel w).1, ∃ F rest, (saCalls c limbo fuel w).2 = ([m], F) :: rest) ∧
    ¬ (allCalls (saCalls c limbo fuel w)).Nodup := by
  have key : ∃ m ∈ (saCalls c limbo fuel w).1, ∃ F rest, (saCalls c limbo fuel w).2 = ([m], F) :: rest := by
    obtain ⟨s, I, h1, h2, h3⟩ := saCalls_start T (limbo := limbo) fuel hw hi he
    obtain ⟨n, rfl⟩ := Nat.exists_eq_succ_of_ne_zero hf
    rw [h3, saLoopCalls, if_neg (by rw [h2]; exact hne)]
    obtain ⟨i, sp, hsp, c1, -⟩ := step_record T I (by rw [h2]; exact hne)
    have : ∀ rest : List (List Mech × List Mech),
        stepCalls c initial s :: rest = ([without c sol sp], (stepCalls c initial s).2) :: rest := by
      intro rest
      rw [← h1, ← c1]
    exact ⟨without c sol sp, List.mem_map_of_mem (by rw [← h2]; exact List.mem_of_getElem? hsp), (stepCalls c initial s).2, _, this _⟩
  refine ⟨key, ?_⟩
  obtain ⟨m, hm, F, rest, h⟩ := key
  intro hn
  unfold allCalls at hn
  rw [h] at hn
  exact (List.nodup_append.1 hn).2.2 m hm m (by simp) rfl

/-- **C134** (refuted): with the greedy algorithm every pass through the loop simulates a model that the evaluation before it has
simulated. -/
theorem C134_greedy_refuted {c : SACtx} (T : TmpOk c) {limbo : List String} {w : World} {sol : Mech} {initial : List PyF} {fuel : Nat}
    (hw : w.fs c.modelFile = some sol) (hi : c.initial sol = .ok initial) (hg : c.greedy = true)
    {errs : List PyF} (he : serialMap (fun sp => saErr c initial (without c sol sp)) (saLimbo c.safe sol limbo) = .ok errs) :
    Spec.Repeats (saCalls c limbo fuel w).1 (saCalls c limbo fuel w).2 := by
  obtain ⟨s, I, h1, h2, h3⟩ := saCalls_start T (limbo := limbo) fuel hw hi he
  rw [h3, ← h2, ← h1]
  exact saLoopCalls_greedy T hg fuel I

/-! ## otherwise never -/

theorem without_length {c : SACtx} {m : Mech} {sp : String} (hn : m.names.Nodup) (hs : sp ∈ m.names) :
    (without c m sp).names.length + 1 = m.names.length := by
  rw [without_names]
  have : m.names.filter (fun x => !([sp].contains x)) = m.names.erase sp := by
    rw [hn.erase_eq_filter]
    congr 1
    funext x
    by_cases h : x = sp <;> simp [h]
  rw [this, List.length_erase_of_mem hs]
  have := List.length_pos_of_mem hs
  omega

theorem without_nodup {c : SACtx} {m : Mech} {l : List String} (hl : l.Nodup) (hs : ∀ x ∈ l, x ∈ m.names) :
    (l.map (without c m)).Nodup := by
  refine List.Nodup.map_on ?_ hl
  intro x hx y hy h
  by_contra hne
  have h1 : x ∈ (without c m y).names := by
    rw [without_names, List.mem_filter]
    exact ⟨hs x hx, by simp [hne]⟩
  rw [← h, without_names, List.mem_filter] at h1
  simp at h1

/-- what is kept about the models simulated from here on -/
theorem saLoopCalls_once {c : SACtx} (T : TmpOk c) {initial : List PyF} {w0 : World}
    (fuel : Nat) {base : Mech} {s : SAState} (I : SAInv c initial w0 base s) (hn : s.cur.model.names.Nodup)
    (hl : s.limbo.Nodup) (hs : ∀ x ∈ s.limbo, x ∈ s.cur.model.names) :
    ((((saLoopCalls c initial fuel s).map Prod.snd).flatten).Nodup ∧
      ∀ m ∈ ((saLoopCalls c initial fuel s).map Prod.snd).flatten, m.names.length + 2 ≤ s.cur.model.names.length) ∧
    ((((saLoopCalls c initial fuel s).map Prod.fst).flatten).Nodup ∧
      (∀ m ∈ ((saLoopCalls c initial fuel s).map Prod.fst).flatten, m.names.length + 1 ≤ s.cur.model.names.length) ∧
      ∀ m ∈ (((saLoopCalls c initial fuel s).drop 1).map Prod.fst).flatten, m.names.length + 2 ≤ s.cur.model.names.length) := by
  induction fuel generalizing base s with
  | zero => simp [saLoopCalls]
  | succ fuel ih =>
    rw [saLoopCalls]
    by_cases hne : s.limbo = []
    · rw [if_pos hne]; simp
    rw [if_neg hne]
    obtain ⟨i, sp, hsp, c1, -, c2, -, c4⟩ := step_record T I hne
    have hm := hs sp (List.mem_of_getElem? hsp)
    have hlen := without_length (c := c) hn hm
    have hn1 : (without c s.cur.model sp).names.Nodup := by
      rw [without_names]; exact hn.filter _
    have hl1 : (s.limbo.eraseIdx i).Nodup := hl.sublist (List.eraseIdx_sublist _ _)
    have hs1 : ∀ x ∈ s.limbo.eraseIdx i, x ∈ (without c s.cur.model sp).names := by
      intro x hx
      rw [without_names, List.mem_filter]
      refine ⟨hs x ((List.eraseIdx_sublist _ _).subset hx), ?_⟩
      have : x ≠ sp := by
        rintro rfl
        have hil := (List.getElem?_eq_some_iff.1 hsp)
        obtain ⟨hil, hge⟩ := hil
        obtain ⟨j, hj, hjx⟩ := List.mem_eraseIdx_iff_getElem?.1 hx
        obtain ⟨hjl, hjx⟩ := List.getElem?_eq_some_iff.1 hjx
        exact hj ((List.Nodup.getElem_inj_iff hl).1 (hjx.trans hge.symm))
      simp [this]
    have e1 : (stepCalls c initial s).2.Nodup := (without_nodup hl1 hs1).sublist c2.sublist
    have e2 : ∀ m ∈ (stepCalls c initial s).2, m.names.length + 2 = s.cur.model.names.length := by
      intro m hmm
      obtain ⟨x, hx, rfl⟩ := List.mem_map.1 (c2.subset hmm)
      have := without_length (c := c) hn1 (hs1 x hx)
      omega
    rcases h1 : saStep c initial s with s1 | s1 | ⟨e, s1⟩
    · obtain ⟨d1, d2, d3, -⟩ := c4 s1 h1
      obtain ⟨⟨q1, q2⟩, q3, q4, -⟩ := ih d3 (by rw [d2]; exact hn1) (by rw [d1]; exact hl1) (by rw [d1, d2]; exact hs1)
      rw [d2] at q2 q4
      simp only [List.map_cons, List.flatten_cons, c1, List.drop_succ_cons, List.drop_zero]
      refine ⟨⟨List.nodup_append.2 ⟨e1, q1, ?_⟩, ?_⟩, ?_, ?_, ?_⟩
      · rintro a ha b hb rfl
        have := q2 a hb
        have := e2 a ha
        omega
      · intro m hmm
        rcases List.mem_append.1 hmm with h | h
        · exact le_of_eq (e2 m h)
        · have := q2 m h; omega
      · refine List.nodup_append.2 ⟨by simp, q3, ?_⟩
        rintro a ha b hb rfl
        rw [List.mem_singleton] at ha
        have := q4 a hb
        rw [ha] at this
        omega
      · intro m hmm
        rcases List.mem_append.1 hmm with h | h
        · rw [List.mem_singleton.1 h]; omega
        · have := q4 m h; omega
      · intro m hmm
        have := q4 m hmm; omega
    all_goals
      simp only [List.map_cons, List.map_nil, List.flatten_cons, List.flatten_nil, List.append_nil, c1, List.drop_succ_cons, List.drop_nil]
      refine ⟨⟨e1, fun m hm => le_of_eq (e2 m hm)⟩, by simp, fun m h => ?_, by simp⟩
      rw [List.mem_singleton.1 h]; omega

/-- **C134** (partial): with distinct candidates among the species, no evaluation simulates a model of any evaluation; and no removal
simulates a model of another removal or, from the second on, of the first evaluation.  The loop of the algorithm `initial` has no
other evaluations, so that its first removal is the only repetition. -/
theorem C134_once_partial {c : SACtx} (T : TmpOk c) {limbo : List String} {w : World} {sol : Mech} {initial : List PyF} {fuel : Nat}
    (hw : w.fs c.modelFile = some sol) (hi : c.initial sol = .ok initial)
    {errs : List PyF} (he : serialMap (fun sp => saErr c initial (without c sol sp)) (saLimbo c.safe sol limbo) = .ok errs)
    (hn : sol.names.Nodup) (hl : (saLimbo c.safe sol limbo).Nodup) (hs : ∀ x ∈ saLimbo c.safe sol limbo, x ∈ sol.names) :
    ((saCalls c limbo fuel w).1 ++ ((saCalls c limbo fuel w).2.map Prod.snd).flatten).Nodup ∧
    ((saCalls c limbo fuel w).1 ++ (((saCalls c limbo fuel w).2.drop 1).map Prod.fst).flatten).Nodup ∧
    (c.greedy = false → ∀ p ∈ (saCalls c limbo fuel w).2, p.2 = []) := by
  obtain ⟨s, I, h1, h2, h3⟩ := saCalls_start T (limbo := limbo) fuel hw hi he
  rw [← h2] at hl hs
  rw [← h1] at hn hs
  obtain ⟨⟨q1, q2⟩, q3, -, q4⟩ := saLoopCalls_once T fuel I hn hl hs
  rw [h3, ← h2, ← h1]
  have hE : ∀ m ∈ s.limbo.map (without c s.cur.model), m.names.length + 1 = s.cur.model.names.length := by
    intro m hm
    obtain ⟨x, hx, rfl⟩ := List.mem_map.1 hm
    exact without_length hn (hs x hx)
  refine ⟨List.nodup_append.2 ⟨without_nodup hl hs, q1, ?_⟩, List.nodup_append.2 ⟨without_nodup hl hs, ?_, ?_⟩, ?_⟩
  · rintro a ha b hb rfl
    have := hE a ha
    have := q2 a hb
    omega
  · refine q3.sublist (List.Sublist.flatten ?_)
    exact (List.drop_sublist _ _).map _
  · rintro a ha b hb rfl
    have := hE a ha
    have := q4 a hb
    omega
  · intro hg
    clear q1 q2 q3 q4 h3 hE hn hl hs h1 h2 he
    induction fuel generalizing s with
    | zero => simp [saLoopCalls]
    | succ fuel ih =>
      intro p hp
      dsimp only at hp
      rw [saLoopCalls] at hp
      split_ifs at hp with hne
      · cases hp
      obtain ⟨i, sp, hsp, c1, c2, -, -, c4⟩ := step_record T I hne
      rcases List.mem_cons.1 hp with rfl | hp
      · exact c2 hg
      rcases h1 : saStep c initial s with s1 | s1 | ⟨e, s1⟩ <;> rw [h1] at hp
      · obtain ⟨-, -, d3, -⟩ := c4 s1 h1
        rw [hg] at d3
        exact ih s1 d3 p hp
      · cases hp
      · cases hp

/-! ## not vacuous -/

/-- C133: with two candidates and a generous limit, four simulations, or five with the greedy algorithm -/
example : (allCalls (saCalls (exSA (.fin 40) false []) [] 4 saWorld)).length = 4 ∧
    (allCalls (saCalls (exSA (.fin 40) true []) [] 4 saWorld)).length = 5 ∧
    (allCalls (saCalls (exSA (.fin 20) true []) [] 4 saWorld)).length = 4 := by decide +kernel

/-- C134: the models simulated, by their species -/
example : (allCalls (saCalls (exSA (.fin 40) true []) [] 4 saWorld)).map Mech.names =
    [["A", "C"], ["A", "B"], ["A", "C"], ["A"], ["A"]] := by decide +kernel

example : TmpOk (exSA (.fin 40) true []) ∧ saWorld.fs (exSA (.fin 40) true []).modelFile = some saSol ∧
    saSol.names.Nodup ∧ (saLimbo (exSA (.fin 40) true []).safe saSol []).Nodup ∧
    (∀ x ∈ saLimbo (exSA (.fin 40) true []).safe saSol [], x ∈ saSol.names) ∧
    (∃ errs, serialMap (fun sp => saErr (exSA (.fin 40) true []) [.fin 1] (without (exSA (.fin 40) true []) saSol sp))
      (saLimbo (exSA (.fin 40) true []).safe saSol []) = .ok errs) :=
  ⟨exSA_tmp _ _ _, by rfl, by decide +kernel, by decide +kernel, by decide +kernel,
    serialMap_ok_of fun x _ => (saErr_ex (.fin 40) true [] _).elim fun _ h => ⟨_, h.1⟩⟩

end Verif
