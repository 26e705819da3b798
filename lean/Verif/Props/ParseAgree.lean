import Verif.Lemmas.ParseAgree
import Verif.Props.Headings
import Verif.Props.Inputs
/-!
# From the file to the dictionary (C98)
-/
namespace Verif
open Spec

/-- **C98** for files: reading a document whose values have the documented types gives what the checks of the dictionary with
these values give, or the same exception. -/
theorem C98_file {load' : PyV → PyV → Except Err (List String)} {load : String → String → Except Err (List String)}
    (hload : ∀ m p, load' (pyStr m) (pyStr p) = load m p) {y : YNode} {v : PyV} {I : InputDict}
    (hy : construct y = .ok v) (h : Represents v I) :
    RelE IsInputs (readInputs load' y) ((parseInputs load I).map Prod.fst) := by
  unfold readInputs
  rw [hy]
  show RelE IsInputs (parseDyn load' v) _
  obtain ⟨t, ht, ht'⟩ := h.targets
  obtain ⟨u, hu, hu'⟩ := h.upper
  obtain ⟨r, hr, hr'⟩ := h.retained
  obtain ⟨m, hm, hm'⟩ := h.minFlameSpeed
  obtain ⟨x1, i1, j1⟩ := h.ignition
  obtain ⟨x2, i2, j2⟩ := h.psr
  obtain ⟨x3, i3, j3⟩ := h.flame
  obtain ⟨⟨l1, k1, f1⟩, b1⟩ := iter_agree j1
  obtain ⟨⟨l2, k2, f2⟩, b2⟩ := iter_agree j2
  obtain ⟨⟨l3, k3, f3⟩, b3⟩ := iter_agree j3
  have hmap : ∀ {α β γ : Type} {x : Except Err α} {f : α → Except Err β} {g : β → γ},
      (x >>= f).map g = x >>= fun a => (f a).map g := by
    intro α β γ x f g
    cases x <;> rfl
  unfold parseDyn parseInputs
  simp only [h.model, h.error, h.method, h.sensitivity, ht, hu, h.sensitivityType, hr, h.phase, hm, i1, i2, i3, k1, k2, k3, b1, b2, b3,
    bindOk_eq, hload, hmap, IsNames.check ht', IsNames.check hr', IsNames.truthy ht']
  refine .unit rfl (.unit rfl (.unit rfl (.unit ?_ ?_)))
  · have : (["DRG", "DRGEP", "PFA"].any fun s => (pyStr I.method).isStr s) = ["DRG", "DRGEP", "PFA"].contains I.method := rfl
    rw [this]
    rfl
  have hl : RelE Eq (load I.model I.phase) (load I.model I.phase) := by
    cases load I.model I.phase <;> exact rfl
  refine hl.bind fun names names' hn => ?_
  subst hn
  refine .unit rfl (.unit rfl (.unit rfl ?_))
  refine (cases_agree (ignition_agree names) f1).bind fun a1 c1 g1 => ?_
  refine (cases_agree (psr_agree names) f2).bind fun a2 c2 g2 => ?_
  refine (cases_agree (flame_agree names) f3).bind fun a3 c3 g3 => ?_
  have hcond : List.Forall₂ IsCond (a1 ++ a2 ++ a3) (c1.map (·.toCond) ++ c2 ++ c3.map (·.toCond)) := by
    refine List.rel_append (List.rel_append ?_ g2) ?_
    · rw [List.forall₂_map_right_iff]
      exact g1.imp fun _ _ h => h.1
    · rw [List.forall₂_map_right_iff]
      exact g3.imp fun _ _ h => h.1
  refine (retainAll_agree ht' hcond hr').bind fun s s' hs => ?_
  refine ⟨rfl, rfl, g1, g2, g3, rfl, ht', hs, rfl, ?_, rfl, rfl, hm'⟩
  dsimp only
  cases hI : I.upper with
  | none =>
    rw [hI] at hu'
    cases hu'
    cases I.sensitivity <;> rfl
  | some q =>
    rw [hI] at hu'
    cases hu'
    have e1 : (PyV.sc (PyS.num q)).truthy = !(q.eq (.fin 0)) := rfl
    have e2 : (PyV.sc (PyS.bool I.sensitivity)).truthy = I.sensitivity := rfl
    simp only [e1, e2, Bool.not_not]
    by_cases hc : (q.eq (.fin 0) && I.sensitivity) = true
    · rw [if_pos hc, if_pos hc]; rfl
    · rw [if_neg hc, if_neg hc]; rfl

/-- **C98** for files (partial, as `C98_accepted_partial`): such a document is accepted exactly when it is well formed and has no key
without a value among the parts of a mixture. -/
theorem C98_file_accepted_partial {load' : PyV → PyV → Except Err (List String)} {load : String → String → Except Err (List String)}
    (hload : ∀ m p, load' (pyStr m) (pyStr p) = load m p) {y : YNode} {v : PyV} {I : InputDict} {ts ss : List String}
    (hy : construct y = .ok v) (h : Represents v I) (L : Lists I ts ss) :
    (∃ R, readInputs load' y = .ok R) ↔ ∃ names, load I.model I.phase = .ok names ∧ WellFormed names I ts ss ∧ NoBareKeys I := by
  rw [← C98_accepted_partial L]
  have := C98_file hload hy h
  cases h1 : readInputs load' y with
  | error e => cases h2 : parseInputs load I with
    | error e' => exact iff_of_false (by rintro ⟨_, h⟩; cases h) (by rintro ⟨_, _, h⟩; cases h)
    | ok r => rw [h1, h2] at this; exact this.elim
  | ok R => cases h2 : parseInputs load I with
    | error e' => rw [h1, h2] at this; exact this.elim
    | ok r => exact ⟨fun _ => ⟨r.1, r.2, rfl⟩, fun _ => ⟨R, rfl⟩⟩

/-- **C98** for files: every exception of such a document with values of the right types is `AssertionError` or what loading the model
raises. -/
theorem C98_file_rejected_partial {load' : PyV → PyV → Except Err (List String)} {load : String → String → Except Err (List String)}
    (hload : ∀ m p, load' (pyStr m) (pyStr p) = load m p) {y : YNode} {v : PyV} {I : InputDict} {ts ss : List String}
    (hy : construct y = .ok v) (h : Represents v I) (L : Lists I ts ss) (T : WellTyped I) (B : NoBareKeys I) {e : Err}
    (he : readInputs load' y = .error e) : e = .assertionError ∨ load I.model I.phase = .error e := by
  have := C98_file hload hy h
  rw [he] at this
  cases h2 : parseInputs load I with
  | ok r => rw [h2] at this; exact this.elim
  | error e' =>
    rw [h2] at this
    cases (show e = e' from this)
    exact C98_rejected_partial L T B h2

/-! ## not vacuous -/

/-- the dictionary of a document -/
def exFileDict : InputDict where
  model := "gas.yaml"
  error := .fin 10
  method := "DRG"
  sensitivity := false
  targets := .list ["H2"]
  upper := none
  sensitivityType := "initial"
  retained := some (.list ["N2"])
  phase := ""
  minFlameSpeed := none
  ignition := []
  psr := [[("temperature", .num (.fin 1000)), ("pressure", .num (.fin 1)), ("reactants", .dict [("O2", .num (.fin 1))])]]
  flame := []

/-- what is read from it -/
def exFileValue : PyV := .dict
  [(.str "model", pyStr "gas.yaml"), (.str "error", pyNum 10), (.str "method", pyStr "DRG"),
    (.str "retained-species", .list [pyStr "N2"]), (.str "targets", .list [pyStr "H2"]),
    (.str "psr-conditions", .list [.dict [(.str "temperature", pyNum 1000), (.str "pressure", pyNum 1),
      (.str "reactants", .dict [(.str "O2", pyNum 1)])]])]

theorem exFile_read : construct (.map (exEntries (exPlain "retained-species") (.seq [.scalar (exPlain "N2")]))) = .ok exFileValue := by
  have h : ∀ s ∈ ["model", "gas.yaml", "error", "method", "DRG", "retained-species", "targets", "psr-conditions", "temperature",
      "pressure", "reactants", "O2", "N2", "H2"], scalarValue (exPlain s) = .ok (.str s) := by decide +kernel
  have n1 : scalarValue (exPlain "10") = .ok (.num (.fin 10)) := by decide +kernel
  have n2 : scalarValue (exPlain "1000") = .ok (.num (.fin 1000)) := by decide +kernel
  have n3 : scalarValue (exPlain "1.0") = .ok (.num (.fin 1)) := by decide +kernel
  have n4 : scalarValue (exPlain "1") = .ok (.num (.fin 1)) := by decide +kernel
  simp only [List.forall_mem_cons] at h
  obtain ⟨h1, h2, h3, h4, h5, h6, h7, h8, h9, h10, h11, h12, h13, h14, -⟩ := h
  simp only [exEntries, construct, constructPairs, constructSeq, h1, h2, h3, h4, h5, h6, h7, h8, h9, h10, h11, h12, h13, h14, n1, n2, n3, n4,
    Except.map, bindOk_eq]
  rfl

/-- C98 for files: the hypotheses are met -/
example : Represents exFileValue exFileDict ∧ Lists exFileDict ["H2"] ["N2"] :=
  ⟨⟨rfl, rfl, rfl, rfl, ⟨_, rfl, rfl⟩, ⟨_, rfl, rfl⟩, rfl, ⟨_, rfl, rfl⟩, rfl, ⟨_, rfl, rfl⟩, ⟨_, rfl, .inr ⟨rfl, rfl⟩⟩,
    ⟨_, rfl, .inl ⟨_, rfl, .cons ⟨_, rfl, .cons ⟨rfl, rfl⟩ (.cons ⟨rfl, rfl⟩ (.cons ⟨rfl, _, rfl, .cons ⟨rfl, rfl⟩ .nil⟩ .nil))⟩ .nil⟩⟩,
    ⟨_, rfl, .inr ⟨rfl, rfl⟩⟩⟩, ⟨rfl, .inl rfl⟩⟩

end Verif
