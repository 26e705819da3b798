import Verif.Props.Yaml
/-!
# A heading without entries (C132)
-/
namespace Verif
open Spec

theorem bindOk_eq {α β} (a : α) (f : α → Except Err β) : ((Except.ok a : Except Err α) >>= f) = f a := rfl

theorem construct_blank {x : YNode} (h : Nothing x) : construct x = .ok (.sc .none) := by
  obtain ⟨s, rfl, h1, h2⟩ := h
  rw [construct, scalar_nullWord h1 h2]
  rfl

/-- Refutes C132: a document with nothing after one of these headings is never accepted. -/
theorem C132_blank_refuted {load : PyV → PyV → Except Err (List String)} {y x : YNode} {key : String}
    (hk : key ∈ ["targets", "retained-species", "autoignition-conditions", "psr-conditions", "laminar-flame-conditions"])
    (hh : Heading y key x) (hx : Nothing x) : ∀ R, readInputs load y ≠ .ok R := by
  intro R h
  obtain ⟨d, names, u, -, hA, h1, h2⟩ := accepted_heading h hh
  rw [construct_blank hx] at h1
  cases h1
  simp only [List.mem_cons, List.not_mem_nil, or_false] at hk
  rcases hk with rfl | rfl | rfl | rfl | rfl
  · have := hA.named
    rw [h2] at this
    cases this
  · have := hA.retained
    rw [h2] at this
    cases this
  · obtain ⟨l, this, -⟩ := hA.ignition
    rw [h2] at this
    cases this
  · obtain ⟨l, this, -⟩ := hA.psr
    rw [h2] at this
    cases this
  · obtain ⟨l, this, -⟩ := hA.flame
    rw [h2] at this
    cases this

/-- Refutes C132 for conditions: nor is a document with nothing after `fuel`, `oxidizer` or `reactants` of a condition. -/
theorem C132_mixture_refuted {load : PyV → PyV → Except Err (List String)} {y c x : YNode} {part : String}
    (hc : Condition y c) (hp : part ∈ ["fuel", "oxidizer", "reactants"]) (hh : Heading c part x) (hx : Nothing x) :
    ∀ R, readInputs load y ≠ .ok R := by
  intro R h
  obtain ⟨names, v, k, h1, hk, f, o, r, k1, k2, k3⟩ := accepted_condition h hc
  obtain ⟨d, u, rfl, h2, h3⟩ := constructed_heading h1 hh
  rw [construct_blank hx] at h2
  cases h2
  obtain ⟨d', hd, -, -, -, e1, e2, e3⟩ := hk.dict
  cases hd
  simp only [List.mem_cons, List.not_mem_nil, or_false] at hp
  rcases hp with rfl | rfl | rfl
  · rw [e1, h3] at k1; cases k1
  · rw [e2, h3] at k2; cases k2
  · rw [e3, h3] at k3; cases k3

/-! ## headings that may be left empty -/

theorem construct_map_iff {l : List (YScalar × YNode)} {v : PyV} :
    construct (.map l) = .ok v ↔ ∃ ps, List.Forall₂ (fun e p => scalarValue e.1 = .ok p.1 ∧ construct e.2 = .ok p.2) l ps ∧
      v = .dict (dictOf ps) := by
  constructor
  · intro h
    obtain ⟨ps, h1, h2⟩ := construct_map h
    exact ⟨ps, constructPairs_ok.1 h1, h2⟩
  · rintro ⟨ps, h1, rfl⟩
    rw [construct]
    exact except_map_ok.2 ⟨ps, constructPairs_ok.2 h1, rfl⟩

theorem entryOf_left {l1 l2 : List (PyS × PyV)} {key key' : String} {u : PyV} (h : key' ≠ key) :
    entryOf (dictOf (l1 ++ (.str key, u) :: l2)) key' = entryOf (dictOf (l1 ++ l2)) key' := by
  rw [entryOf_dictOf, entryOf_dictOf]
  unfold entryOf
  simp only [List.reverse_append, List.reverse_cons, List.append_assoc, List.find?_append]
  have : ∀ u : PyV, List.find? (fun p : PyS × PyV => p.1 == .str key') [(PyS.str key, u)] = none := by
    intro u
    simp [Ne.symm h]
  rw [this, Option.none_or]

theorem entryOf_absent {l : List (PyS × PyV)} {key : String} (h : ∀ p ∈ l, p.1 ≠ .str key) : entryOf (dictOf l) key = none := by
  rw [entryOf_dictOf]
  unfold entryOf
  rw [List.find?_eq_none.2 ?_]
  · rfl
  · intro p hp
    simpa using h p (List.mem_reverse.1 hp)

/-- the dictionaries of a document with a blank entry and of the one without it -/
structure Beside (d d' : List (PyS × PyV)) (key : String) : Prop where
  other : ∀ key', key' ≠ key → entryOf d key' = entryOf d' key'
  blank : entryOf d key = some (.sc .none)
  absent : entryOf d' key = none

theorem blank_documents {load : PyV → PyV → Except Err (List String)} {l1 l2 : List (YScalar × YNode)} {k : YScalar} {x : YNode}
    {key : String} (hk : LooksText k) (hk' : k.text = key.toList) (hx : Nothing x) (h1 : ∀ e ∈ l1 ++ l2, e.1.text ≠ key.toList)
    {f : InputsDyn → InputsDyn → Prop}
    (hab : ∀ d d', Beside d d' key → ∀ R, parseDyn load (.dict d) = .ok R ↔ ∃ R', parseDyn load (.dict d') = .ok R' ∧ f R R') (R : InputsDyn) :
    readInputs load (.map (l1 ++ (k, x) :: l2)) = .ok R ↔ ∃ R', readInputs load (.map (l1 ++ l2)) = .ok R' ∧ f R R' := by
  have hbes : ∀ p1 p2, List.Forall₂ (fun e p => scalarValue e.1 = .ok p.1 ∧ construct e.2 = .ok p.2) l1 p1 →
      List.Forall₂ (fun e p => scalarValue e.1 = .ok p.1 ∧ construct e.2 = .ok p.2) l2 p2 →
      Beside (dictOf (p1 ++ (.str key, .sc .none) :: p2)) (dictOf (p1 ++ p2)) key := by
    intro p1 p2 g1 g2
    have hno : ∀ p ∈ p1 ++ p2, p.1 ≠ .str key := by
      intro p hp hs
      obtain ⟨e, he, hep, -⟩ := forall2_right (List.rel_append g1 g2) p hp
      rw [hs] at hep
      exact h1 e he (scalarValue_str hep)
    exact ⟨fun key' hne => entryOf_left hne, entryOf_last fun p hp => hno p (by simp [hp]), entryOf_absent hno⟩
  unfold readInputs
  simp only [bind_ok, construct_map_iff]
  constructor
  · rintro ⟨_, ⟨ps, hps, rfl⟩, hR⟩
    obtain ⟨p1, p2, q1, q2, rfl⟩ := forall2_split hps
    cases q2 with
    | @cons _ p _ p2 q q2 =>
      obtain ⟨pk, pv⟩ := p
      dsimp only at q
      rw [heading_value hk hk', construct_blank hx] at q
      obtain ⟨r1, r2⟩ := q
      cases r1; cases r2
      obtain ⟨R', hR', hf⟩ := (hab _ _ (hbes p1 p2 q1 q2) R).1 hR
      exact ⟨R', ⟨_, ⟨_, List.rel_append q1 q2, rfl⟩, hR'⟩, hf⟩
  · rintro ⟨R', ⟨_, ⟨ps, hps, rfl⟩, hR'⟩, hf⟩
    obtain ⟨p1, p2, q1, q2, rfl⟩ := forall2_split hps
    exact ⟨_, ⟨p1 ++ (.str key, .sc .none) :: p2,
      List.rel_append q1 (.cons ⟨heading_value hk hk', construct_blank hx⟩ q2), rfl⟩,
      (hab _ _ (hbes p1 p2 q1 q2) R).2 ⟨R', hR', hf⟩⟩

theorem Beside.head {d d' : List (PyS × PyV)} {key key' : String} (h : Beside d d' key) (hne : key' ≠ key) (v : PyV) :
    headOf d key' v = headOf d' key' v := by
  unfold headOf; rw [h.other key' hne]

theorem Beside.head_blank {d d' : List (PyS × PyV)} {key : String} (h : Beside d d' key) (v : PyV) :
    headOf d key v = .sc .none := headOf_some h.blank v

theorem Beside.head_absent {d d' : List (PyS × PyV)} {key : String} (h : Beside d d' key) (v : PyV) :
    headOf d' key v = v := by
  unfold headOf; rw [h.absent]; rfl

/-- **C132** (limits): nothing after `upper-threshold` or `min-flame-speed` is the same as leaving the heading out. -/
theorem C132_blank_partial {load : PyV → PyV → Except Err (List String)} {l1 l2 : List (YScalar × YNode)} {k : YScalar} {x : YNode}
    {key : String} (hkey : key = "upper-threshold" ∨ key = "min-flame-speed") (hk : LooksText k) (hk' : k.text = key.toList)
    (hx : Nothing x) (h1 : ∀ e ∈ l1 ++ l2, e.1.text ≠ key.toList) (R : InputsDyn) :
    readInputs load (.map (l1 ++ (k, x) :: l2)) = .ok R ↔ readInputs load (.map (l1 ++ l2)) = .ok R := by
  rw [blank_documents hk hk' hx h1 (f := fun R R' => R = R')]
  · simp
  · intro d d' hb R
    simp only [exists_eq_right']
    have : parseDyn load (.dict d) = parseDyn load (.dict d') := by
      unfold parseDyn
      simp only [get_headOf, bindOk_eq]
      rcases hkey with rfl | rfl
      · simp only [hb.head (key' := "model") (by decide), hb.head (key' := "error") (by decide), hb.head (key' := "method") (by decide),
          hb.head (key' := "sensitivity-analysis") (by decide), hb.head (key' := "targets") (by decide),
          hb.head (key' := "sensitivity-type") (by decide), hb.head (key' := "retained-species") (by decide),
          hb.head (key' := "phase-name") (by decide), hb.head (key' := "min-flame-speed") (by decide),
          hb.head (key' := "autoignition-conditions") (by decide), hb.head (key' := "psr-conditions") (by decide),
          hb.head (key' := "laminar-flame-conditions") (by decide), hb.head_blank, hb.head_absent]
      · simp only [hb.head (key' := "model") (by decide), hb.head (key' := "error") (by decide), hb.head (key' := "method") (by decide),
          hb.head (key' := "sensitivity-analysis") (by decide), hb.head (key' := "targets") (by decide),
          hb.head (key' := "sensitivity-type") (by decide), hb.head (key' := "retained-species") (by decide),
          hb.head (key' := "phase-name") (by decide), hb.head (key' := "upper-threshold") (by decide),
          hb.head (key' := "autoignition-conditions") (by decide), hb.head (key' := "psr-conditions") (by decide),
          hb.head (key' := "laminar-flame-conditions") (by decide), hb.head_blank, hb.head_absent]
    rw [this]

/-- **C132** (choices): with nothing after `method` or `sensitivity-analysis` the document is accepted just when it is without the
heading, and the two results differ in nothing but what stands for "not given", which is false in both. -/
theorem C132_choice_partial {load : PyV → PyV → Except Err (List String)} {l1 l2 : List (YScalar × YNode)} {k : YScalar} {x : YNode}
    (hk : LooksText k) (hx : Nothing x) (R : InputsDyn) :
    (k.text = "method".toList → (∀ e ∈ l1 ++ l2, e.1.text ≠ "method".toList) →
      (readInputs load (.map (l1 ++ (k, x) :: l2)) = .ok R ↔
        ∃ R', readInputs load (.map (l1 ++ l2)) = .ok R' ∧ R'.method = pyStr "" ∧ R = { R' with method := .sc .none })) ∧
    (k.text = "sensitivity-analysis".toList → (∀ e ∈ l1 ++ l2, e.1.text ≠ "sensitivity-analysis".toList) →
      (readInputs load (.map (l1 ++ (k, x) :: l2)) = .ok R ↔
        ∃ R', readInputs load (.map (l1 ++ l2)) = .ok R' ∧ R'.sensitivity = .sc (.bool false) ∧
          R = { R' with sensitivity := .sc .none })) := by
  constructor
  · intro hk' h1
    apply blank_documents hk hk' hx h1
    intro d d' hb R
    unfold parseDyn
    simp only [get_headOf, bindOk_eq, bind_ok, Except.ok.injEq]
    simp only [hb.head (key' := "model") (by decide), hb.head (key' := "error") (by decide), hb.head (key' := "upper-threshold") (by decide),
          hb.head (key' := "sensitivity-analysis") (by decide), hb.head (key' := "targets") (by decide),
          hb.head (key' := "sensitivity-type") (by decide), hb.head (key' := "retained-species") (by decide),
          hb.head (key' := "phase-name") (by decide), hb.head (key' := "min-flame-speed") (by decide),
          hb.head (key' := "autoignition-conditions") (by decide), hb.head (key' := "psr-conditions") (by decide),
          hb.head (key' := "laminar-flame-conditions") (by decide), hb.head_blank, hb.head_absent]
    constructor
    · rintro ⟨x1, h1, x2, h2, y1, g1, y2, g2, names, g3, y4, g4, y5, g5, y6, g6, l1, g7, y8, g8, l2, g9, y10, g10, l3, g11, y12, g12, y13, g13, rfl⟩
      exact ⟨_, ⟨x1, h1, x2, h2, y1, g1, y2, g2, names, g3, y4, g4, y5, g5, y6, g6, l1, g7, y8, g8, l2, g9, y10, g10, l3, g11, y12, g12, y13, g13, rfl⟩, rfl, rfl⟩
    · rintro ⟨_, ⟨x1, h1, x2, h2, y1, g1, y2, g2, names, g3, y4, g4, y5, g5, y6, g6, l1, g7, y8, g8, l2, g9, y10, g10, l3, g11, y12, g12, y13, g13, rfl⟩, -, rfl⟩
      exact ⟨x1, h1, x2, h2, y1, g1, y2, g2, names, g3, y4, g4, y5, g5, y6, g6, l1, g7, y8, g8, l2, g9, y10, g10, l3, g11, y12, g12, y13, g13, rfl⟩
  · intro hk' h1
    apply blank_documents hk hk' hx h1
    intro d d' hb R
    unfold parseDyn
    simp only [get_headOf, bindOk_eq, bind_ok, Except.ok.injEq]
    simp only [hb.head (key' := "model") (by decide), hb.head (key' := "error") (by decide), hb.head (key' := "upper-threshold") (by decide),
          hb.head (key' := "method") (by decide), hb.head (key' := "targets") (by decide),
          hb.head (key' := "sensitivity-type") (by decide), hb.head (key' := "retained-species") (by decide),
          hb.head (key' := "phase-name") (by decide), hb.head (key' := "min-flame-speed") (by decide),
          hb.head (key' := "autoignition-conditions") (by decide), hb.head (key' := "psr-conditions") (by decide),
          hb.head (key' := "laminar-flame-conditions") (by decide), hb.head_blank, hb.head_absent]
    constructor
    · rintro ⟨x1, h1, x2, h2, y1, g1, y2, g2, names, g3, y4, g4, y5, g5, y6, g6, l1, g7, y8, g8, l2, g9, y10, g10, l3, g11, y12, g12, y13, g13, rfl⟩
      exact ⟨_, ⟨x1, h1, x2, h2, y1, g1, y2, g2, names, g3, y4, g4, y5, g5, y6, g6, l1, g7, y8, g8, l2, g9, y10, g10, l3, g11, y12, g12, y13, g13, rfl⟩, rfl, rfl⟩
    · rintro ⟨_, ⟨x1, h1, x2, h2, y1, g1, y2, g2, names, g3, y4, g4, y5, g5, y6, g6, l1, g7, y8, g8, l2, g9, y10, g10, l3, g11, y12, g12, y13, g13, rfl⟩, -, rfl⟩
      exact ⟨x1, h1, x2, h2, y1, g1, y2, g2, names, g3, y4, g4, y5, g5, y6, g6, l1, g7, y8, g8, l2, g9, y10, g10, l3, g11, y12, g12, y13, g13, rfl⟩

/-- Refutes C132 for `sensitivity-type`: nothing after it gives the greedy algorithm, leaving it out the one with the initial
errors. -/
theorem C132_type_refuted {load : PyV → PyV → Except Err (List String)} {l1 l2 : List (YScalar × YNode)} {k : YScalar} {x : YNode}
    (hk : LooksText k) (hx : Nothing x) (hk' : k.text = "sensitivity-type".toList)
    (h1 : ∀ e ∈ l1 ++ l2, e.1.text ≠ "sensitivity-type".toList) {R R' : InputsDyn}
    (h : readInputs load (.map (l1 ++ (k, x) :: l2)) = .ok R) (h' : readInputs load (.map (l1 ++ l2)) = .ok R') :
    saType R.sensitivityType = pyStr "greedy" ∧ saType R'.sensitivityType = pyStr "initial" := by
  have hty : ∀ {y : YNode} {Q : InputsDyn}, readInputs load y = .ok Q →
      ∃ d, construct y = .ok (.dict d) ∧ Q.sensitivityType = headOf d "sensitivity-type" (pyStr "initial") := by
    intro y Q hQ
    unfold readInputs at hQ
    obtain ⟨v, e1, e2⟩ := bind_ok.1 hQ
    obtain ⟨d, -, rfl, -⟩ := parseDyn_accepted e2
    refine ⟨d, e1, ?_⟩
    unfold parseDyn at e2
    simp only [get_headOf, bind_ok, Except.ok.injEq, exists_eq_left'] at e2
    obtain ⟨x1, h1, x2, h2, y1, g1, y2, g2, names, g3, y4, g4, y5, g5, y6, g6, l1, g7, y8, g8, l2, g9, y10, g10, l3, g11, y12, g12, y13, g13, rfl⟩ := e2
    rfl
  obtain ⟨d, e1, e2⟩ := hty h
  obtain ⟨d', e3, e4⟩ := hty h'
  obtain ⟨d0, u, e5, e6, e7⟩ := construct_entry e1 (heading_value hk hk') (fun e he => h1 e (by simp [he]))
  cases e5
  rw [construct_blank hx] at e6
  cases e6
  rw [headOf_some e7] at e2
  obtain ⟨ps, q1, q2⟩ := construct_map_iff.1 e3
  cases q2
  have : entryOf (dictOf ps) "sensitivity-type" = none := entryOf_absent fun p hp hs => by
    obtain ⟨e, he, hep, -⟩ := forall2_right q1 p hp
    rw [hs] at hep
    exact h1 e he (scalarValue_str hep)
  unfold headOf at e4
  rw [this] at e4
  rw [e2, e4]
  exact ⟨rfl, rfl⟩

/-! ### examples -/

/-- a document with sensitivity analysis and one more entry -/
def exBlank (more : List (YScalar × YNode)) (fuel : List (YScalar × YNode)) : YNode :=
  .map ([(exPlain "model", .scalar (exPlain "gas.yaml")), (exPlain "error", .scalar (exPlain "10"))] ++ (more ++
    [(exPlain "sensitivity-analysis", .scalar (exPlain "yes")),
    (exPlain "psr-conditions", .seq [.map ([(exPlain "temperature", .scalar (exPlain "1000")),
      (exPlain "pressure", .scalar (exPlain "1.0")), (exPlain "reactants", .map [(exPlain "H2", .scalar (exPlain "1"))])] ++ fuel)])]))

/-- nothing after the heading -/
def exNothing : YNode := .scalar (exPlain "")

example : (readInputs exLoadDyn (exBlank [] [])).toOption.isSome = true ∧
    (readInputs exLoadDyn (exBlank [(exPlain "targets", exNothing)] [])).toOption.isSome = false ∧
    (readInputs exLoadDyn (exBlank [(exPlain "retained-species", exNothing)] [])).toOption.isSome = false ∧
    (readInputs exLoadDyn (exBlank [(exPlain "laminar-flame-conditions", exNothing)] [])).toOption.isSome = false ∧
    (readInputs exLoadDyn (exBlank [] [(exPlain "fuel", exNothing)])).toOption.isSome = false ∧
    (readInputs exLoadDyn (exBlank [(exPlain "upper-threshold", exNothing)] [])).toOption.isSome = true ∧
    (readInputs exLoadDyn (exBlank [(exPlain "method", exNothing)] [])).toOption.isSome = true ∧
    (readInputs exLoadDyn (exBlank [(exPlain "sensitivity-type", exNothing)] [])).toOption.isSome = true := by
  decide +kernel

example : Nothing exNothing := ⟨_, rfl, rfl, by decide +kernel⟩

example : Heading (exBlank [(exPlain "targets", exNothing)] []) "targets" exNothing :=
  ⟨[_, _], _, [_, _], rfl, .inr ⟨'t', _, rfl, by decide, by decide +kernel, by decide +kernel⟩, rfl, by decide +kernel⟩

end Verif
