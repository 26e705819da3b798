import Verif.Lemmas.Defaults
/-!
# Stating what holds anyway (C150)
-/
namespace Verif
open Spec

/-- documents with one more entry -/
theorem construct_more {l1 l2 : List (YScalar × YNode)} {e : YScalar × YNode} {key : String} {v : PyV} (S : States key v e (l1 ++ l2)) :
    (∀ u, construct (.map (l1 ++ e :: l2)) = .ok u → ∃ d d', u = .dict d ∧ construct (.map (l1 ++ l2)) = .ok (.dict d') ∧
      OneMore d d' key v) ∧
    (∀ u, construct (.map (l1 ++ l2)) = .ok u → ∃ u', construct (.map (l1 ++ e :: l2)) = .ok u') := by
  obtain ⟨k, x⟩ := e
  obtain ⟨hk, hkt, hx, hno⟩ := S
  have hk := heading_value hk hkt
  dsimp only at hk hx
  constructor
  · intro u h
    obtain ⟨ps, h1, rfl⟩ := construct_map_iff.1 h
    obtain ⟨p1, p2, q1, q2, rfl⟩ := forall2_split h1
    cases q2 with
    | @cons _ p _ p2 q q2 =>
      obtain ⟨a, b⟩ := p
      dsimp only at q
      rw [hk, hx] at q
      obtain ⟨e1, e2⟩ := q
      cases e1
      cases e2
      have hno : ∀ p ∈ p1 ++ p2, p.1 ≠ .str key := by
        intro p hp hs
        obtain ⟨e, he, hep, -⟩ := forall2_right (List.rel_append q1 q2) hp
        rw [hs] at hep
        exact hno e he (scalarValue_str hep)
      exact ⟨_, _, rfl, construct_map_iff.2 ⟨_, List.rel_append q1 q2, rfl⟩, fun key' hne => entryOf_left hne,
        entryOf_last fun p hp => hno p (by simp [hp]), entryOf_absent hno⟩
  · exact (construct_leave hk hx).2

/-- the same up to the least speed of a flame -/
theorem readInputs_floor {load : PyV → PyV → Except Err (List String)} {y y' : YNode} {v : PyV}
    (h1 : ∀ u, construct y = .ok u → ∃ u', construct y' = .ok u' ∧
      parseDyn load u = (parseDyn load u').map fun R => { R with minFlameSpeed := v })
    (h2 : ∀ u', construct y' = .ok u' → ∃ u, construct y = .ok u) :
    readInputs load y = (readInputs load y').map fun R => { R with minFlameSpeed := v } := by
  unfold readInputs
  cases hy : construct y with
  | ok u =>
    obtain ⟨u', e1, e2⟩ := h1 u hy
    rw [e1]
    exact e2
  | error e =>
    cases hy' : construct y' with
    | ok u' =>
      obtain ⟨u, e1⟩ := h2 u' hy'
      rw [hy] at e1
      cases e1
    | error e' =>
      rw [construct_error _ hy, construct_error _ hy']
      rfl

/-- **C150**, reading: stating a default in one more entry, of the document or of one of its conditions, gives the same inputs or the
same exception.  Only the default of the least speed of a flame is not filled in before the simulations. -/
theorem C150_inputs (load : PyV → PyV → Except Err (List String)) {y y' : YNode} (h : Restates y y') :
    readInputs load y = readInputs load y' ∨
    (∀ R, readInputs load y' = .ok R → R.minFlameSpeed = .sc .none) ∧
      readInputs load y = (readInputs load y').map fun R => { R with minFlameSpeed := pyNum float005 } := by
  cases h with
  | heading hv S =>
    obtain ⟨c1, c2⟩ := construct_more S
    refine Or.inl (readInputs_eq_of (fun u hu => ?_) c2)
    obtain ⟨d, d', rfl, g1, g2⟩ := c1 u hu
    exact ⟨_, g1, parseDyn_same_all load (g2.dict hv).1 (g2.dict hv).2⟩
  | @upper e l1 l2 x v hh hx hv S =>
    obtain ⟨c1, c2⟩ := construct_more S
    refine Or.inl (readInputs_eq_of (fun u hu => ?_) c2)
    obtain ⟨d, d', rfl, g1, g2⟩ := c1 u hu
    have hs : (headOf d' "sensitivity-analysis" (.sc (.bool false))).truthy = true := by
      obtain ⟨m1, k, m2, hm, n1, n2, n3⟩ := hh
      rw [hm] at g1
      obtain ⟨d0, u, e5, e6, e7⟩ := construct_entry g1 (heading_value n1 n2) n3
      cases e5
      rw [hx] at e6
      cases e6
      rw [headOf_some e7, hv]
    exact ⟨_, g1, parseDyn_same_all load (g2.upper hs).1 (g2.upper hs).2⟩
  | floor S =>
    right
    obtain ⟨c1, c2⟩ := construct_more S
    refine ⟨fun R hR => ?_, readInputs_floor (fun u hu => ?_) c2⟩
    · unfold readInputs at hR
      obtain ⟨u', f1, f2⟩ := bind_ok.1 hR
      obtain ⟨u, f3⟩ := c2 u' f1
      obtain ⟨d, d', rfl, g1, g2⟩ := c1 u f3
      rw [f1] at g1
      cases g1
      rw [parseDyn_floor f2, g2.head_absent]
    · obtain ⟨d, d', rfl, g1, g2⟩ := c1 u hu
      refine ⟨_, g1, ?_⟩
      rw [parseDyn_same load g2.floor, g2.head_here]
      rfl
  | @condition key v e l1 l2 m1 m2 h cs1 cs2 hh hc hv S =>
    left
    obtain ⟨hkey, hkm, hkt⟩ := hc
    have hh := heading_value hh hkt
    obtain ⟨c1, c2⟩ := construct_more S
    refine readInputs_eq_of (fun u hu => ?_) (fun u hu => ?_)
    · obtain ⟨ps, h1, rfl⟩ := construct_map_iff.1 hu
      obtain ⟨p1, p2, q1, q2, rfl⟩ := forall2_split h1
      cases q2 with
      | @cons _ p _ p2 q q2 =>
        obtain ⟨a, b⟩ := p
        obtain ⟨e1, e2⟩ := q
        dsimp only at e1 e2
        rw [hh] at e1
        cases e1
        obtain ⟨vs, rfl, f1⟩ := construct_seq e2
        obtain ⟨v1, v2, f3, f2, rfl⟩ := forall2_split f1
        cases f2 with
        | @cons _ w _ v2 f f2 =>
          obtain ⟨d, d', rfl, g1, g2⟩ := c1 w f
          refine ⟨.dict (dictOf (p1 ++ (.str hkey, .list (v1 ++ .dict d' :: v2)) :: p2)), ?_, ?_⟩
          · refine construct_map_iff.2 ⟨_, List.rel_append q1 (.cons ⟨hh, ?_⟩ q2), rfl⟩
            dsimp only
            rw [construct]
            exact except_map_ok.2 ⟨_, constructSeq_ok.2 (List.rel_append f3 (.cons g1 f2)), rfl⟩
          · have hother : ∀ key', key' ≠ hkey → ∀ x,
                headOf (dictOf (p1 ++ (.str hkey, .list (v1 ++ .dict d :: v2)) :: p2)) key' x =
                headOf (dictOf (p1 ++ (.str hkey, .list (v1 ++ .dict d' :: v2)) :: p2)) key' x := by
              intro key' hne x
              unfold headOf
              rw [entryOf_left hne, entryOf_left hne]
            have hne : ∀ key', key' ∉ condHeads → key' ≠ hkey := fun key' h1 h2 => h1 (h2 ▸ hkm)
            refine parseDyn_same_all load ⟨fun g hg => hother _ (hne _ (by revert g; decide)) _, ?_, fun key' hk' => ?_⟩
              (hother _ (hne _ (by decide)) _)
            · unfold upperOf
              rw [hother _ (hne _ (by decide)), hother _ (hne _ (by decide))]
            · by_cases hk : key' = hkey
              · subst hk
                have same : ∀ l : List PyV, List.Forall₂ CaseSame l l := fun l => List.forall₂_same.2 fun _ _ => Or.inl rfl
                have hl : ListSame (.list (v1 ++ .dict d :: v2)) (.list (v1 ++ .dict d' :: v2)) :=
                  Or.inr (Or.inl ⟨_, _, rfl, rfl, List.rel_append (same _) (.cons (g2.case hv) (same _))⟩)
                unfold headOf
                rw [entryOf_dictOf, entryOf_dictOf]
                unfold entryOf
                simp only [List.reverse_append, List.reverse_cons, List.append_assoc, List.find?_append]
                cases p2.reverse.find? (fun p => p.1 == .str key') with
                | some p => exact Or.inl rfl
                | none =>
                  simp only [List.find?_cons, beq_self_eq_true, Option.none_or, Option.some_or, Option.map_some, Option.getD_some]
                  exact hl
              · rw [hother _ hk]; exact Or.inl rfl
    · obtain ⟨ps, h1, rfl⟩ := construct_map_iff.1 hu
      obtain ⟨p1, p2, q1, q2, rfl⟩ := forall2_split h1
      cases q2 with
      | @cons _ p _ p2 q q2 =>
        obtain ⟨e1, e2⟩ := q
        dsimp only at e1 e2
        obtain ⟨vs, hvs, f1⟩ := construct_seq e2
        obtain ⟨v1, v2, f3, f2, rfl⟩ := forall2_split f1
        cases f2 with
        | @cons _ w _ v2 f f2 =>
          obtain ⟨u', g1⟩ := c2 w f
          refine ⟨_, construct_map_iff.2 ⟨_, List.rel_append q1 (.cons (b := (p.1, .list (v1 ++ u' :: v2))) ⟨e1, ?_⟩ q2), rfl⟩⟩
          dsimp only
          rw [construct]
          exact except_map_ok.2 ⟨_, constructSeq_ok.2 (List.rel_append f3 (.cons g1 f2)), rfl⟩

/-- the least speed of a flame, not given or given as 0.05 -/
theorem fullMain_floor (K : Cantera IgnInput Cond FlameInput) (rnd : ℚ → ℚ) (q : MainArgs IgnInput Cond FlameInput) (d : Disk)
    (dfuel fuel saFuel : Nat) (w : World) :
    fullMain (K.inputs (some (.fin float005))) rnd q d dfuel fuel saFuel w = fullMain (K.inputs none) rnd q d dfuel fuel saFuel w := by
  have hs : (K.inputs (some (.fin float005))).sims rnd = (K.inputs none).sims rnd := rfl
  unfold fullMain mainIn
  rw [hs]
  rfl

/-- **C150**: a run of the command whose input file states a default in one more entry ends like the run whose input file leaves the
entry out: same exception or same model, same files, same saved samples. -/
theorem C150_command (K : Cantera IgnInput Cond FlameInput) (rnd : ℚ → ℚ) (sh : Shell) {doc doc' : String → Except Err YNode}
    (h : ∀ f, doc f = doc' f ∨ ∃ y y', doc f = .ok y ∧ doc' f = .ok y' ∧ Restates y y') (args : List String) (d : Disk)
    (dfuel fuel saFuel : Nat) (w : World) :
    programDoc K rnd sh doc args d dfuel fuel saFuel w = programDoc K rnd sh doc' args d dfuel fuel saFuel w := by
  unfold programDoc
  by_cases h0 : args = []
  · rw [if_pos h0, if_pos h0]
  · rw [if_neg h0, if_neg h0]
    cases parseArgs args with
    | error e => rfl
    | ok a =>
      dsimp only
      rcases h (a.input.getD "") with h | ⟨y, y', h1, h2, h3⟩
      · rw [h]
      · rw [h1, h2]
        simp only [bindOk_eq]
        rcases C150_inputs (loadDyn w) h3 with e | ⟨hn, e⟩
        · rw [e]
        · cases hr : readInputs (loadDyn w) y' with
          | error x => rw [e, hr]; rfl
          | ok R =>
            rw [e, hr]
            simp only [map_ok_except]
            have hR := hn R hr
            have ht : toInputs { R with minFlameSpeed := pyNum float005 } =
                (toInputs R).map fun inp => { inp with minFlameSpeed := some (.fin float005) } := by
              unfold toInputs
              rw [hR]
              dsimp only
              generalize toStr R.model = o
              rcases o with _ | _
              · rfl
              rw [Option.bind_some, Option.bind_some]
              generalize toNumber R.error = o
              rcases o with _ | _
              · rfl
              rw [Option.bind_some, Option.bind_some]
              generalize toAll toIgnition R.ignition = o
              rcases o with _ | _
              · rfl
              rw [Option.bind_some, Option.bind_some]
              generalize toAll toCondition R.psr = o
              rcases o with _ | _
              · rfl
              rw [Option.bind_some, Option.bind_some]
              generalize toAll toFlame R.flame = o
              rcases o with _ | _
              · rfl
              rw [Option.bind_some, Option.bind_some]
              generalize toStr R.method = o
              rcases o with _ | _
              · rfl
              rw [Option.bind_some, Option.bind_some]
              generalize toNames R.targets = o
              rcases o with _ | _
              · rfl
              rw [Option.bind_some, Option.bind_some]
              generalize toNames R.safe = o
              rcases o with _ | _
              · rfl
              rw [Option.bind_some, Option.bind_some]
              generalize toBool R.sensitivity = o
              rcases o with _ | _
              · rfl
              rw [Option.bind_some, Option.bind_some]
              generalize toOption R.upper = o
              rcases o with _ | _
              · rfl
              rw [Option.bind_some, Option.bind_some]
              generalize toStr R.sensitivityType = o
              rcases o with _ | _
              · rfl
              rw [Option.bind_some, Option.bind_some]
              generalize toStr R.phase = o
              rcases o with _ | _
              · rfl
              rw [Option.bind_some, Option.bind_some]
              rfl
            have hm : ∀ inp, toInputs R = some inp → inp.minFlameSpeed = none := by
              intro inp hi
              unfold toInputs at hi
              simp only [Option.bind_eq_some_iff, Option.map_eq_some_iff] at hi
              obtain ⟨_, _, _, _, _, _, _, _, _, _, _, _, _, _, _, _, _, _, _, _, _, _, _, _, mfs, hf, rfl⟩ := hi
              rw [hR] at hf
              exact (Option.some.inj hf).symm
            rw [ht]
            cases hi : toInputs R with
            | none => rfl
            | some inp =>
              obtain ⟨m, err, ign, psr, flame, meth, tg, sf, sa, up, st, ph, mfs⟩ := inp
              have := hm _ hi
              dsimp only at this
              subst this
              simp only [Option.map_some, fullMain_floor]
              rfl

/-! ## not vacuous -/

theorem construct_plain {t : String} {v : PyS} (h : scalarValue (exPlain t) = .ok v) : construct (.scalar (exPlain t)) = .ok (.sc v) := by
  rw [construct, h]
  rfl

/-- **C150** (the values): the default threshold and width are the binary64 number nearest to one tenth, which is also what `0.1`
in a file is read as; the default least flame speed is that nearest to one twentieth, read from `0.05`. -/
theorem C150_values :
    float01 = 3602879701896397 / 2 ^ 55 ∧ construct (.scalar (exPlain "0.1")) = .ok (.sc (.num (.fin (3602879701896397 / 2 ^ 55)))) ∧
    float005 = 3602879701896397 / 2 ^ 56 ∧
    construct (.scalar (exPlain "0.05")) = .ok (.sc (.num (.fin (3602879701896397 / 2 ^ 56)))) ∧
    (∀ k : ℤ, |float01 - 1 / 10| ≤ |(k : ℚ) / 2 ^ 56 - 1 / 10|) ∧ ∀ k : ℤ, |float005 - 1 / 20| ≤ |(k : ℚ) / 2 ^ 57 - 1 / 20| := by
  have h1 : float01 = 3602879701896397 / 2 ^ 55 := by decide +kernel
  have h2 : float005 = 3602879701896397 / 2 ^ 56 := by decide +kernel
  refine ⟨h1, construct_plain (by decide +kernel), h2, construct_plain (by decide +kernel), fun k => ?_, fun k => ?_⟩
  · rw [h1]
    rcases le_or_gt k 7205759403792793 with hk | hk
    · have : (k : ℚ) ≤ 7205759403792793 := by exact_mod_cast hk
      rw [abs_of_nonneg (by norm_num), abs_of_nonpos (by linarith)]
      linarith
    · have : (7205759403792794 : ℚ) ≤ k := by exact_mod_cast hk
      rw [abs_of_nonneg (by norm_num), abs_of_nonneg (by linarith)]
      linarith
  · rw [h2]
    rcases le_or_gt k 7205759403792793 with hk | hk
    · have : (k : ℚ) ≤ 7205759403792793 := by exact_mod_cast hk
      rw [abs_of_nonneg (by norm_num), abs_of_nonpos (by linarith)]
      linarith
    · have : (7205759403792794 : ℚ) ≤ k := by exact_mod_cast hk
      rw [abs_of_nonneg (by norm_num), abs_of_nonneg (by linarith)]
      linarith

/-- the entries of a document like `exDocument`, with more entries and more in its condition -/
def exStated (more case : List (YScalar × YNode)) : YNode :=
  .map ([(exPlain "model", .scalar (exPlain "gas.yaml")), (exPlain "error", .scalar (exPlain "10")),
    (exPlain "sensitivity-analysis", .scalar (exPlain "True"))] ++ (more ++
    [(exPlain "psr-conditions", .seq ([] ++ (.map ([(exPlain "temperature", .scalar (exPlain "1000")),
      (exPlain "pressure", .scalar (exPlain "1.0"))] ++ (case ++ [(exPlain "reactants", .map [(exPlain "O2", .scalar (exPlain "1"))])]))) :: []))]))

/-- the last step before the simulations of a document: the upper threshold, the type of the composition and the least speed of a
flame -/
def exReads (y : YNode) : Option (Bool × Bool × Bool) :=
  match (readInputs exLoadDyn y).toOption with
  | some R => some ((toOption R.upper == some (some (.fin float01))), R.psr.all fun k => k.compType.isStr "mole",
      toOption R.minFlameSpeed == some none)
  | none => none

/-- the document is accepted; stating other values makes a difference -/
example : exReads (exStated [] []) = some (true, true, true) ∧
    exReads (exStated [(exPlain "upper-threshold", .scalar (exPlain "0.1"))] []) = some (true, true, true) ∧
    exReads (exStated [(exPlain "upper-threshold", .scalar (exPlain "0.2"))] []) = some (false, true, true) ∧
    exReads (exStated [] [(exPlain "composition-type", .scalar (exPlain "mole"))]) = some (true, true, true) ∧
    exReads (exStated [] [(exPlain "composition-type", .scalar (exPlain "mass"))]) = some (true, false, true) ∧
    exReads (exStated [(exPlain "min-flame-speed", .scalar (exPlain "0.05"))] []) = some (true, true, false) := by
  decide +kernel

/-- C150: its hypotheses, for the upper threshold -/
example : Restates (exStated [(exPlain "upper-threshold", .scalar (exPlain "0.1"))] []) (exStated [] []) := by
  refine .upper (l1 := [_, _, _]) (l2 := [_]) (x := .scalar (exPlain "True")) (v := .sc (.bool true)) ?_ (construct_plain (by decide +kernel)) rfl ?_
  · exact ⟨[_, _], _, [_], rfl, .inr ⟨'s', _, rfl, by decide, by decide +kernel, by decide +kernel⟩, rfl, by decide +kernel⟩
  · exact ⟨.inr ⟨'u', _, rfl, by decide, by decide +kernel, by decide +kernel⟩, rfl, construct_plain (by decide +kernel), by decide +kernel⟩

/-- for the least speed of a flame -/
example : Restates (exStated [(exPlain "min-flame-speed", .scalar (exPlain "0.05"))] []) (exStated [] []) := by
  refine .floor (l1 := [_, _, _]) (l2 := [_]) ?_
  exact ⟨.inr ⟨'m', _, rfl, by decide, by decide +kernel, by decide +kernel⟩, rfl, construct_plain (by decide +kernel), by decide +kernel⟩

/-- for another heading -/
example : Restates (exStated [(exPlain "retained-species", .seq [])] []) (exStated [] []) := by
  refine .heading (key := "retained-species") (v := .list []) (l1 := [_, _, _]) (l2 := [_]) (by simp [topDefaults]) ?_
  exact ⟨.inr ⟨'r', _, rfl, by decide, by decide +kernel, by decide +kernel⟩, rfl, by rw [construct]; rfl, by decide +kernel⟩

/-- for an entry of a condition -/
example : Restates (exStated [] [(exPlain "composition-type", .scalar (exPlain "mole"))]) (exStated [] []) := by
  refine .condition (key := "composition-type") (v := pyStr "mole") (l1 := [_, _]) (l2 := [_]) (m1 := [_, _, _]) (m2 := []) (cs1 := [])
    (cs2 := []) (.inr ⟨'p', _, rfl, by decide, by decide +kernel, by decide +kernel⟩)
    ⟨"psr-conditions", by decide, rfl⟩ (by simp [caseDefaults, pyStr]) ?_
  exact ⟨.inr ⟨'c', _, rfl, by decide, by decide +kernel, by decide +kernel⟩, rfl, construct_plain (by decide +kernel), by decide +kernel⟩

end Verif
