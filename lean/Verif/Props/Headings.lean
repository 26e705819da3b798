import Verif.Lemmas.ParseAlike
/-!
# Headings nobody asks for, and the order of headings (C135, C136)
-/
namespace Verif
open Spec

/-- leaving out an entry with readable key and value does not change whether a mapping can be constructed -/
theorem construct_leave {l1 l2 : List (YScalar × YNode)} {k : YScalar} {x : YNode} {kv : PyS} {v : PyV}
    (hk : scalarValue k = .ok kv) (hx : construct x = .ok v) :
    (∀ u, construct (.map (l1 ++ (k, x) :: l2)) = .ok u → ∃ p1 p2, u = .dict (dictOf (p1 ++ (kv, v) :: p2)) ∧
      construct (.map (l1 ++ l2)) = .ok (.dict (dictOf (p1 ++ p2))) ∧
      List.Forall₂ (fun e p => scalarValue e.1 = .ok p.1 ∧ construct e.2 = .ok p.2) l2 p2) ∧
    (∀ u, construct (.map (l1 ++ l2)) = .ok u → ∃ u', construct (.map (l1 ++ (k, x) :: l2)) = .ok u') := by
  constructor
  · intro u h
    obtain ⟨ps, h1, rfl⟩ := construct_map_iff.1 h
    obtain ⟨p1, p2, q1, q2, rfl⟩ := forall2_split h1
    cases q2 with
    | @cons _ p _ p2 q q2 =>
      obtain ⟨a, b⟩ := p
      dsimp only at q
      rw [hk, hx] at q
      obtain ⟨e1, e2⟩ := q
      cases e1
      cases e2
      exact ⟨p1, p2, rfl, construct_map_iff.2 ⟨_, List.rel_append q1 q2, rfl⟩, q2⟩
  · intro u h
    obtain ⟨ps, h1, rfl⟩ := construct_map_iff.1 h
    obtain ⟨p1, p2, q1, q2, rfl⟩ := forall2_split h1
    exact ⟨_, construct_map_iff.2 ⟨p1 ++ (kv, v) :: p2, List.rel_append q1 (.cons ⟨hk, hx⟩ q2), rfl⟩⟩

theorem key_ne {k : YScalar} {kv : PyS} (hk : scalarValue k = .ok kv) {keys : List String} (h : ∀ key ∈ keys, k.text ≠ key.toList) :
    ∀ key ∈ keys, kv ≠ .str key := by
  rintro key hkey rfl
  exact h key hkey (scalarValue_str hk)

/-- Refutes C135: an entry of the document under a heading that does not exist is passed over, wherever it stands and whatever it
says. -/
theorem C135_heading_refuted (load : PyV → PyV → Except Err (List String)) {l1 l2 : List (YScalar × YNode)} {k : YScalar} {x : YNode}
    (hk : LooksText k) (hx : ∃ v, construct x = .ok v) (hn : ∀ key ∈ topKeys, k.text ≠ key.toList) :
    readInputs load (.map (l1 ++ (k, x) :: l2)) = readInputs load (.map (l1 ++ l2)) := by
  obtain ⟨v, hx⟩ := hx
  have hk := C131_names_partial hk
  obtain ⟨c1, c2⟩ := construct_leave (l1 := l1) (l2 := l2) hk hx
  refine readInputs_eq_of (fun u hu => ?_) c2
  obtain ⟨p1, p2, rfl, h1, -⟩ := c1 u hu
  exact ⟨_, h1, parseDyn_alike load fun key hkey => Or.inl (dictOf_leave (key_ne hk hn key hkey))⟩

/-- Refutes C135: of two entries under one heading the first is passed over. -/
theorem C135_repeated_refuted (load : PyV → PyV → Except Err (List String)) {l1 l2 : List (YScalar × YNode)} {k : YScalar} {x : YNode}
    (hk : LooksText k) (hx : ∃ v, construct x = .ok v) (hr : ∃ e ∈ l2, LooksText e.1 ∧ e.1.text = k.text) :
    readInputs load (.map (l1 ++ (k, x) :: l2)) = readInputs load (.map (l1 ++ l2)) := by
  obtain ⟨v, hx⟩ := hx
  obtain ⟨e, he, hl, ht⟩ := hr
  have hk := C131_names_partial hk
  have hl := C131_names_partial hl
  rw [ht] at hl
  obtain ⟨c1, c2⟩ := construct_leave (l1 := l1) (l2 := l2) hk hx
  refine readInputs_eq_of (fun u hu => ?_) c2
  obtain ⟨p1, p2, rfl, h1, h2⟩ := c1 u hu
  refine ⟨_, h1, parseDyn_alike load fun key hkey => Or.inl (dictOf_again ?_ key)⟩
  obtain ⟨p, hp, h3, -⟩ := forall2_left h2 e he
  rw [hl] at h3
  cases p
  cases h3
  exact ⟨_, hp⟩

/-- Refutes C135 for conditions: so is an entry of a condition under a heading that does not exist. -/
theorem C135_condition_refuted (load : PyV → PyV → Except Err (List String)) {m1 m2 : List (YScalar × YNode)} {h : YScalar}
    {cs1 cs2 : List YNode} {l1 l2 : List (YScalar × YNode)} {k : YScalar} {x : YNode}
    (hh : LooksText h) (hc : ∃ key ∈ condHeads, h.text = key.toList)
    (hk : LooksText k) (hx : ∃ v, construct x = .ok v) (hn : ∀ key ∈ caseKeys, k.text ≠ key.toList) :
    readInputs load (.map (m1 ++ (h, .seq (cs1 ++ .map (l1 ++ (k, x) :: l2) :: cs2)) :: m2)) =
      readInputs load (.map (m1 ++ (h, .seq (cs1 ++ .map (l1 ++ l2) :: cs2)) :: m2)) := by
  obtain ⟨v, hx⟩ := hx
  obtain ⟨hkey, hkm, hkt⟩ := hc
  have hh := heading_value hh hkt
  have hk := C131_names_partial hk
  obtain ⟨c1, c2⟩ := construct_leave (l1 := l1) (l2 := l2) hk hx
  refine readInputs_eq_of (fun u hu => ?_) (fun u hu => ?_)
  · obtain ⟨ps, h1, rfl⟩ := construct_map_iff.1 hu
    obtain ⟨p1, p2, q1, q2, rfl⟩ := forall2_split h1
    cases q2 with
    | @cons _ p _ p2 q q2 =>
      obtain ⟨a, b⟩ := p
      obtain ⟨e1, e2⟩ := q
      dsimp only at e1 e2
      rw [hh] at e1
      cases e1
      obtain ⟨vs, rfl, f1⟩ := construct_seq e2
      obtain ⟨v1, v2, f3, f2, rfl⟩ := forall2_split f1
      cases f2 with
      | @cons _ w _ v2 f f2 =>
        obtain ⟨r1, r2, rfl, g1, -⟩ := c1 w f
        refine ⟨.dict (dictOf (p1 ++ (.str hkey, .list (v1 ++ .dict (dictOf (r1 ++ r2)) :: v2)) :: p2)), ?_, ?_⟩
        · refine construct_map_iff.2 ⟨_, List.rel_append q1 (.cons ⟨hh, ?_⟩ q2), rfl⟩
          dsimp only
          rw [construct]
          exact except_map_ok.2 ⟨_, constructSeq_ok.2 (List.rel_append f3 (.cons g1 f2)), rfl⟩
        · refine parseDyn_alike load fun key hkey => dictOf_alike ?_ key
          have samep : ∀ l : List (PyS × PyV), List.Forall₂ PairAlike l l := fun l => List.forall₂_same.2 fun _ _ => ⟨rfl, Or.inl rfl⟩
          refine List.rel_append (samep _) (.cons ⟨rfl, Or.inr ⟨⟨_, hkm, rfl⟩, Or.inr ⟨_, _, rfl, rfl, ?_⟩⟩⟩ (samep _))
          have same : ∀ l : List PyV, List.Forall₂ CaseAlike l l := fun l => List.forall₂_same.2 fun _ _ => Or.inl rfl
          have here : CaseAlike (.dict (dictOf (r1 ++ (.str (String.ofList k.text), v) :: r2))) (.dict (dictOf (r1 ++ r2))) :=
            Or.inr ⟨_, _, rfl, rfl, fun key hkey => dictOf_leave (key_ne hk hn key hkey)⟩
          exact List.rel_append (same _) (.cons here (same _))
  · obtain ⟨ps, h1, rfl⟩ := construct_map_iff.1 hu
    obtain ⟨p1, p2, q1, q2, rfl⟩ := forall2_split h1
    cases q2 with
    | @cons _ p _ p2 q q2 =>
      obtain ⟨e1, e2⟩ := q
      dsimp only at e1 e2
      obtain ⟨vs, hvs, f1⟩ := construct_seq e2
      obtain ⟨v1, v2, f3, f2, rfl⟩ := forall2_split f1
      cases f2 with
      | @cons _ w _ v2 f f2 =>
        obtain ⟨u', g1⟩ := c2 w f
        refine ⟨_, construct_map_iff.2 ⟨_, List.rel_append q1 (.cons (b := (p.1, .list (v1 ++ u' :: v2))) ⟨e1, ?_⟩ q2), rfl⟩⟩
        dsimp only
        rw [construct]
        exact except_map_ok.2 ⟨_, constructSeq_ok.2 (List.rel_append f3 (.cons g1 f2)), rfl⟩

/-- **C135** (partial): an unknown method, kind of autoignition, type of composition or species is refused. -/
theorem C135_values_partial {load : PyV → PyV → Except Err (List String)} {v : PyV} {R : InputsDyn} (h : parseDyn load v = .ok R) :
    (R.method.truthy = true → ∃ s ∈ ["DRG", "DRGEP", "PFA"], R.method = pyStr s) ∧
    (∀ k ∈ R.ignition, ∃ s ∈ ["constant volume", "constant pressure"], k.extra.head? = some (pyStr s)) ∧
    (∀ k ∈ R.ignition ++ R.psr ++ R.flame, ∃ s ∈ ["mole", "mass"], k.compType = pyStr s) ∧
    ∃ names, load R.model R.phase = .ok names ∧
      ∀ k ∈ R.ignition ++ R.psr ++ R.flame, ∀ d, (k.fuel = .dict d ∨ k.oxidizer = .dict d ∨ k.reactants = .dict d) →
        ∀ e ∈ d, ∃ s ∈ names, e.1 = .str s := by
  have isStr : ∀ {v : PyV} {s : String}, v.isStr s = true → v = pyStr s := by
    intro v s h
    unfold PyV.isStr at h
    split at h
    · rw [beq_iff_eq] at h; rw [h]; rfl
    · cases h
  have pyA : ∀ {b : Bool}, pyAssert b = .ok () → b = true := by
    intro b h; cases b
    · cases h
    · rfl
  have comp : ∀ {names : List String} {k : CondDyn}, compositionDyn names k = .ok () →
      (∃ s ∈ ["mole", "mass"], k.compType = pyStr s) ∧
      ∀ d, (k.fuel = .dict d ∨ k.oxidizer = .dict d ∨ k.reactants = .dict d) → ∀ e ∈ d, ∃ s ∈ names, e.1 = .str s := by
    intro names k h
    obtain ⟨-, hc⟩ := compositionDyn_ok h
    constructor
    · unfold compositionDyn at h
      simp only [bind_ok] at h
      obtain ⟨_, _, _, _, _, _, _, h1, _⟩ := h
      have := pyA h1
      rw [Bool.or_eq_true] at this
      rcases this with h | h
      · exact ⟨"mole", by simp, isStr h⟩
      · exact ⟨"mass", by simp, isStr h⟩
    · intro d hd e he
      have ht : (PyV.dict d).truthy = true := by
        cases d with
        | nil => cases he
        | cons => rfl
      have : amountsDyn names (.dict d) = .ok () := by
        rcases hd with h | h | h
        · exact hc _ (Or.inl h.symm) ht
        · exact hc _ (Or.inr (Or.inl h.symm)) ht
        · exact hc _ (Or.inr (Or.inr h.symm)) ht
      obtain ⟨⟨s, h1, h2⟩, -⟩ := entriesDyn_ok this e he
      exact ⟨s, h2, h1⟩
  obtain ⟨d, names, rfl, hA⟩ := parseDyn_accepted h
  obtain ⟨l1, -, c1⟩ := hA.ignition
  obtain ⟨l2, -, c2⟩ := hA.psr
  obtain ⟨l3, -, c3⟩ := hA.flame
  have hcond : ∀ k ∈ R.ignition ++ R.psr ++ R.flame, compositionDyn names k = .ok () := by
    intro k hk
    rcases List.mem_append.1 hk with hk | hk
    · rcases List.mem_append.1 hk with hk | hk
      · obtain ⟨c, -, h1⟩ := forall2_right (casesDyn_ok.1 c1) k hk
        exact (ignitionDyn_ok h1).4
      · obtain ⟨c, -, h1⟩ := forall2_right (casesDyn_ok.1 c2) k hk
        exact (psrDyn_ok h1).4
    · obtain ⟨c, -, h1⟩ := forall2_right (casesDyn_ok.1 c3) k hk
      exact (flameDyn_ok h1).4
  unfold parseDyn at h
  simp only [get_headOf, bind_ok, Except.ok.injEq, exists_eq_left'] at h
  obtain ⟨_, _, _, _, _, _, _, hm, names', hl, _, _, _, _, _, _, _, _, _, _, _, _, _, _, _, _, _, _, _, _, h11⟩ := h
  subst h11
  refine ⟨fun ht => ?_, fun k hk => ?_, fun k hk => (comp (hcond k hk)).1, names, hA.loaded, fun k hk => (comp (hcond k hk)).2⟩
  · dsimp only at ht ⊢
    unfold pyWhen at hm
    rw [if_pos ht] at hm
    obtain ⟨_, h1, -⟩ := bind_ok.1 hm
    obtain ⟨s, hs, h2⟩ := List.any_eq_true.1 (pyA h1)
    exact ⟨s, hs, isStr h2⟩
  · obtain ⟨c, -, h1⟩ := forall2_right (casesDyn_ok.1 c1) k hk
    unfold ignitionDyn at h1
    simp only [bind_ok, Except.ok.injEq] at h1
    obtain ⟨kind, _, e, _, st, _, k', h2, _, h3, _, _, _, _, _, _, rfl⟩ := h1
    have hex : k'.extra = [kind, e, st] := by
      unfold condDyn at h2
      simp only [bind_ok, Except.ok.injEq] at h2
      obtain ⟨_, _, _, _, _, _, _, _, _, _, _, _, _, _, rfl⟩ := h2
      rfl
    rw [hex]
    have := pyA h3
    rw [Bool.or_eq_true] at this
    rcases this with h | h
    · exact ⟨"constant volume", by simp, by rw [isStr h]; rfl⟩
    · exact ⟨"constant pressure", by simp, by rw [isStr h]; rfl⟩

/-! ## order -/

theorem construct_perm {l l' : List (YScalar × YNode)} (hd : Distinct l) (hp : l.Perm l') {v : PyV} (h : construct (.map l) = .ok v) :
    ∃ ps ps', v = .dict (dictOf ps) ∧ List.Forall₂ (fun e p => scalarValue e.1 = .ok p.1 ∧ construct e.2 = .ok p.2) l' ps' ∧
      ∀ key, entryOf (dictOf ps) key = entryOf (dictOf ps') key := by
  obtain ⟨ps, h1, rfl⟩ := construct_map_iff.1 h
  obtain ⟨ps', h2, h3⟩ := List.perm_comp_forall₂ hp.symm h1
  refine ⟨ps, ps', rfl, h2, fun key => dictOf_perm h3.symm ?_ key⟩
  have : ps.map Prod.fst = l.map fun e => PyS.str (String.ofList e.1.text) := by
    have hl := hd.1
    clear h2 h3 hp hd h
    induction h1 with
    | nil => rfl
    | cons a _ ih =>
      rw [List.map_cons, List.map_cons, ih (fun e he => hl e (List.mem_cons_of_mem _ he))]
      have := a.1
      rw [C131_names_partial (hl _ List.mem_cons_self)] at this
      rw [Except.ok.inj this]
  rw [this]
  have hn := hd.2
  rw [show (l.map fun e => PyS.str (String.ofList e.1.text)) = (l.map fun e => e.1.text).map fun t => PyS.str (String.ofList t) by simp]
  refine hn.map ?_
  intro a b h
  simp only [PyS.str.injEq] at h
  simpa using congrArg String.toList h

theorem construct_case {c c' : YNode} (h : CaseReorder c c') {v : PyV} (hv : construct c = .ok v) :
    ∃ v', construct c' = .ok v' ∧ CaseAlike v v' := by
  cases h with
  | same => exact ⟨v, hv, Or.inl rfl⟩
  | @perm l l' hd hp =>
    obtain ⟨ps, ps', rfl, h1, h2⟩ := construct_perm hd hp hv
    exact ⟨_, construct_map_iff.2 ⟨ps', h1, rfl⟩, Or.inr ⟨_, _, rfl, rfl, fun key _ => h2 key⟩⟩

theorem Spec.CaseReorder.symm {c c' : YNode} (h : CaseReorder c c') : CaseReorder c' c := by
  cases h with
  | same => exact .same _
  | perm hd hp =>
    refine .perm ⟨fun e he => hd.1 e (hp.mem_iff.2 he), ?_⟩ hp.symm
    exact (hp.map _).nodup_iff.1 hd.2

theorem construct_entries {l l' : List (YScalar × YNode)} (h : List.Forall₂ EntryReorder l l') : ∀ {ps : List (PyS × PyV)},
    List.Forall₂ (fun e p => scalarValue e.1 = .ok p.1 ∧ construct e.2 = .ok p.2) l ps →
    ∃ ps', List.Forall₂ (fun e p => scalarValue e.1 = .ok p.1 ∧ construct e.2 = .ok p.2) l' ps' ∧ List.Forall₂ PairAlike ps ps' := by
  induction h with
  | nil => intro ps h; cases h; exact ⟨[], .nil, .nil⟩
  | @cons e e' l l' h1 _ ih =>
    intro ps h
    cases h with
    | @cons _ p _ ps q q2 =>
      obtain ⟨ps', r1, r2⟩ := ih q2
      obtain ⟨a, b⟩ := p
      obtain ⟨q3, q4⟩ := q
      dsimp only at q3 q4
      obtain ⟨g1, g2⟩ := h1
      rcases g2 with g2 | ⟨⟨key, hkey, hkt⟩, cs, cs', f1, f2, f3⟩
      · refine ⟨(a, b) :: ps', .cons ⟨by rw [← g1]; exact q3, by rw [← g2]; exact q4⟩ r1, .cons ⟨rfl, Or.inl rfl⟩ r2⟩
      · rw [f1] at q4
        obtain ⟨vs, rfl, k1⟩ := construct_seq q4
        have : ∃ vs', List.Forall₂ (fun x v => construct x = .ok v) cs' vs' ∧ List.Forall₂ CaseAlike vs vs' := by
          clear q4 f1 f2
          induction f3 generalizing vs with
          | nil => cases k1; exact ⟨[], .nil, .nil⟩
          | cons m1 _ ih2 =>
            cases k1 with
            | cons k2 k3 =>
              obtain ⟨v', n1, n2⟩ := construct_case m1 k2
              obtain ⟨vs', n3, n4⟩ := ih2 _ k3
              exact ⟨v' :: vs', .cons n1 n3, .cons n2 n4⟩
        obtain ⟨vs', n1, n2⟩ := this
        by_cases hstr : a = .str key
        · refine ⟨(a, .list vs') :: ps', .cons ⟨by rw [← g1]; exact q3, ?_⟩ r1,
            .cons ⟨rfl, Or.inr ⟨⟨key, hkey, hstr⟩, Or.inr ⟨_, _, rfl, rfl, n2⟩⟩⟩ r2⟩
          rw [f2, construct]
          exact except_map_ok.2 ⟨_, constructSeq_ok.2 n1, rfl⟩
        · exfalso
          have : LooksText e.1 := by
            right
            simp only [condHeads, List.mem_cons, List.not_mem_nil, or_false] at hkey
            rcases hkey with rfl | rfl | rfl <;> rw [hkt] <;> exact ⟨_, _, rfl, by decide, by decide, by decide⟩
          rw [heading_value this hkt] at q3
          cases q3
          exact hstr rfl

/-- **C136**: the order of the headings of the input file and of the entries of its conditions does not matter: the same inputs or
the same exception come out. -/
theorem C136_order (load : PyV → PyV → Except Err (List String)) {y y' : YNode} (h : Reorder y y') :
    readInputs load y = readInputs load y' := by
  obtain ⟨l, l1, l', rfl, rfl, hd, hp, h1⟩ := h
  refine readInputs_eq_of (fun v hv => ?_) (fun v hv => ?_)
  · obtain ⟨ps, ps1, rfl, h2, h3⟩ := construct_perm hd hp hv
    obtain ⟨ps', h4, h5⟩ := construct_entries h1 h2
    refine ⟨_, construct_map_iff.2 ⟨ps', h4, rfl⟩, parseDyn_alike load fun key hkey => ?_⟩
    have := dictOf_alike h5 key
    unfold EntryAlike at this ⊢
    rw [h3]
    exact this
  · obtain ⟨ps, h2, -⟩ := construct_map_iff.1 hv
    have h1' : List.Forall₂ EntryReorder l' l1 := by
      refine List.Forall₂.imp ?_ h1.flip
      rintro e e' ⟨g1, g2⟩
      refine ⟨g1.symm, ?_⟩
      rcases g2 with g2 | ⟨g2, cs, cs', g3, g4, g5⟩
      · exact Or.inl g2.symm
      · rw [g1] at g2
        exact Or.inr ⟨g2, cs', cs, g4, g3, List.Forall₂.imp (fun _ _ h => h.symm) g5.flip⟩
    obtain ⟨ps', h4, -⟩ := construct_entries h1' h2
    obtain ⟨ps'', h5, -⟩ := List.perm_comp_forall₂ hp h4
    exact ⟨_, construct_map_iff.2 ⟨ps'', h5, rfl⟩⟩

/-! ## not vacuous -/

/-- the entries of a document like `exDocument`, with one more -/
def exEntries (k : YScalar) (x : YNode) : List (YScalar × YNode) :=
  [(exPlain "model", .scalar (exPlain "gas.yaml")), (exPlain "error", .scalar (exPlain "10")),
    (exPlain "method", .scalar (exPlain "DRG")), (k, x), (exPlain "targets", .seq [.scalar (exPlain "H2")]),
    (exPlain "psr-conditions", .seq [.map [
      (exPlain "temperature", .scalar (exPlain "1000")), (exPlain "pressure", .scalar (exPlain "1.0")),
      (exPlain "reactants", .map [(exPlain "O2", .scalar (exPlain "1"))])]])]

/-- the retained species of a document -/
def exSafe (y : YNode) : Option (List String) :=
  match (readInputs exLoadDyn y).toOption with
  | some R => (match R.safe with
    | .list l => some (l.filterMap fun v => match v with | .sc (.str s) => some s | _ => none)
    | _ => none)
  | none => none

/-- C135: `retained-species` with an underscore: the nitrogen is not retained -/
example : exSafe (.map (exEntries (exPlain "retained-species") (.seq [.scalar (exPlain "N2")]))) = some ["N2", "O2"] ∧
    exSafe (.map (exEntries (exPlain "retained_species") (.seq [.scalar (exPlain "N2")]))) = some ["O2"] := by decide +kernel

/-- C135: its hypotheses -/
example : LooksText (exPlain "retained_species") ∧ (∃ v, construct (.seq [.scalar (exPlain "N2")]) = .ok v) ∧
    (∀ key ∈ topKeys, (exPlain "retained_species").text ≠ key.toList) := by
  refine ⟨.inr ⟨'r', _, rfl, by decide, by decide +kernel, by decide +kernel⟩, ⟨.list [.sc (.str "N2")], ?_⟩, by decide +kernel⟩
  have : scalarValue (exPlain "N2") = .ok (.str "N2") := by decide +kernel
  simp [construct, constructSeq, this, Except.map]
  rfl

/-- C136: a document and the same with its headings and the entries of its condition reversed -/
example : Reorder
    (.map [(exPlain "model", .scalar (exPlain "gas.yaml")), (exPlain "psr-conditions", .seq [.map [
      (exPlain "temperature", .scalar (exPlain "1000")), (exPlain "pressure", .scalar (exPlain "1.0"))]])])
    (.map [(exPlain "psr-conditions", .seq [.map [
      (exPlain "pressure", .scalar (exPlain "1.0")), (exPlain "temperature", .scalar (exPlain "1000"))]]),
      (exPlain "model", .scalar (exPlain "gas.yaml"))]) := by
  have lt : ∀ {c : Char} {t : Text}, plainStart c = true → (c :: t) ∉ boolSpellings → (c :: t) ∉ nullSpellings → LooksText ⟨true, c :: t⟩ :=
    fun h1 h2 h3 => .inr ⟨_, _, rfl, h1, h2, h3⟩
  refine ⟨_, _, _, rfl, rfl, ⟨?_, by decide +kernel⟩, List.Perm.swap _ _ _, .cons ⟨rfl, .inr ⟨⟨"psr-conditions", by decide, rfl⟩, _, _, rfl, rfl,
    .cons (.perm ⟨?_, by decide +kernel⟩ (List.Perm.swap _ _ _)) .nil⟩⟩ (.cons ⟨rfl, .inl rfl⟩ .nil)⟩
  · intro e he
    simp only [List.mem_cons, List.not_mem_nil, or_false] at he
    rcases he with rfl | rfl
    · exact lt (c := 'm') (t := "odel".toList) (by decide) (by decide +kernel) (by decide +kernel)
    · exact lt (c := 'p') (t := "sr-conditions".toList) (by decide) (by decide +kernel) (by decide +kernel)
  · intro e he
    simp only [List.mem_cons, List.not_mem_nil, or_false] at he
    rcases he with rfl | rfl
    · exact lt (c := 't') (t := "emperature".toList) (by decide) (by decide +kernel) (by decide +kernel)
    · exact lt (c := 'p') (t := "ressure".toList) (by decide) (by decide +kernel) (by decide +kernel)

end Verif
