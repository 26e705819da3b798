import Verif.Spec.Defaults
import Verif.Props.Headings
import Verif.Lemmas.ProgramDoc
/-!
# Lemmas on entries that state what holds anyway
-/
namespace Verif
open Spec

/-- the entries of a condition with what stands for a missing one -/
def caseGets : List (String × PyV) :=
  [("kind", pyStr ""), ("temperature", pyNum 0), ("pressure", pyNum 0), ("end-time", pyNum 0), ("max-steps", pyNum 10000),
   ("width", pyNum float01), ("equivalence-ratio", pyNum 0), ("fuel", .list []), ("oxidizer", .list []), ("reactants", .list []),
   ("composition-type", pyStr "mole")]

/-- conditions that say the same -/
def CaseSame (v v' : PyV) : Prop :=
  v = v' ∨ ∃ d d', v = .dict d ∧ v' = .dict d' ∧ ∀ g ∈ caseGets, headOf d g.1 g.2 = headOf d' g.1 g.2

/-- nothing -/
def NoCases (v : PyV) : Prop := v = .list [] ∨ v = .dict []

/-- lists of conditions that say the same -/
def ListSame (v v' : PyV) : Prop :=
  v = v' ∨ (∃ l l', v = .list l ∧ v' = .list l' ∧ List.Forall₂ CaseSame l l') ∨ (NoCases v ∧ NoCases v')

theorem CaseSame.get {v v' : PyV} (h : CaseSame v v') {key : String} {x : PyV} (hk : (key, x) ∈ caseGets) : v.get key x = v'.get key x := by
  rcases h with rfl | ⟨d, d', rfl, rfl, h⟩
  · rfl
  · rw [get_headOf, get_headOf, h _ hk]

theorem condDyn_same {v v' : PyV} (h : CaseSame v v') (ex : List PyV) : condDyn v ex = condDyn v' ex := by
  unfold condDyn
  rw [h.get (key := "temperature") (by simp [caseGets]), h.get (key := "pressure") (by simp [caseGets]),
    h.get (key := "equivalence-ratio") (by simp [caseGets]), h.get (key := "fuel") (by simp [caseGets]),
    h.get (key := "oxidizer") (by simp [caseGets]), h.get (key := "reactants") (by simp [caseGets]),
    h.get (key := "composition-type") (by simp [caseGets])]

theorem ignitionDyn_same (names : List String) {v v' : PyV} (h : CaseSame v v') : ignitionDyn names v = ignitionDyn names v' := by
  unfold ignitionDyn
  simp only [condDyn_same h]
  rw [h.get (key := "kind") (by simp [caseGets]), h.get (key := "end-time") (by simp [caseGets]),
    h.get (key := "max-steps") (by simp [caseGets])]

theorem psrDyn_same (names : List String) {v v' : PyV} (h : CaseSame v v') : psrDyn names v = psrDyn names v' := by
  unfold psrDyn
  rw [condDyn_same h]

theorem flameDyn_same (names : List String) {v v' : PyV} (h : CaseSame v v') : flameDyn names v = flameDyn names v' := by
  unfold flameDyn
  simp only [condDyn_same h]
  rw [h.get (key := "width") (by simp [caseGets])]

theorem casesDyn_same {parse : PyV → Except Err CondDyn} (hp : ∀ {v v'}, CaseSame v v' → parse v = parse v') {l l' : List PyV}
    (h : List.Forall₂ CaseSame l l') : casesDyn parse l = casesDyn parse l' := by
  induction h with
  | nil => rfl
  | cons h1 _ ih => rw [casesDyn, casesDyn, hp h1, ih]

theorem ListSame.truthy {v v' : PyV} (h : ListSame v v') : v.truthy = v'.truthy := by
  rcases h with rfl | ⟨l, l', rfl, rfl, h⟩ | ⟨h1, h2⟩
  · rfl
  · cases h <;> rfl
  · rcases h1 with rfl | rfl <;> rcases h2 with rfl | rfl <;> rfl

theorem ListSame.cases {v v' : PyV} (h : ListSame v v') {parse : PyV → Except Err CondDyn}
    (hp : ∀ {v v'}, CaseSame v v' → parse v = parse v') {β} (k : List CondDyn → Except Err β) :
    (v.iter >>= fun l => casesDyn parse l >>= k) = (v'.iter >>= fun l => casesDyn parse l >>= k) := by
  rcases h with rfl | ⟨l, l', rfl, rfl, h⟩ | ⟨h1, h2⟩
  · rfl
  · simp only [PyV.iter, bindOk_eq]
    rw [casesDyn_same hp h]
  · rcases h1 with rfl | rfl <;> rcases h2 with rfl | rfl <;> rfl

/-- the options with what stands for a missing one -/
def topGets : List (String × PyV) :=
  [("model", pyStr ""), ("error", pyNum 0), ("method", pyStr ""), ("sensitivity-analysis", .sc (.bool false)), ("targets", .list []),
   ("sensitivity-type", pyStr "initial"), ("retained-species", .list []), ("phase-name", pyStr "")]

/-- the upper threshold in use -/
def upperOf (d : List (PyS × PyV)) : PyV :=
  if !(headOf d "upper-threshold" (.sc .none)).truthy && (headOf d "sensitivity-analysis" (.sc (.bool false))).truthy then pyNum float01
  else headOf d "upper-threshold" (.sc .none)

/-- dictionaries that say the same, except for the least speed of a flame -/
structure DictSame (d d' : List (PyS × PyV)) : Prop where
  top : ∀ g ∈ topGets, headOf d g.1 g.2 = headOf d' g.1 g.2
  upper : upperOf d = upperOf d'
  conds : ∀ key ∈ condHeads, ListSame (headOf d key (.dict [])) (headOf d' key (.dict []))

theorem map_bind_except {α β γ} (f : β → γ) (x : Except Err α) (g : α → Except Err β) :
    Except.map f (x >>= g) = x >>= fun a => Except.map f (g a) := by
  cases x <;> rfl

theorem map_ok_except {β γ} (f : β → γ) (b : β) : Except.map f (Except.ok b : Except Err β) = .ok (f b) := rfl

theorem parseDyn_same (load : PyV → PyV → Except Err (List String)) {d d' : List (PyS × PyV)} (h : DictSame d d') :
    parseDyn load (.dict d) =
      (parseDyn load (.dict d')).map fun R => { R with minFlameSpeed := headOf d "min-flame-speed" (.sc .none) } := by
  unfold parseDyn
  simp only [get_headOf, bindOk_eq, map_bind_except, map_ok_except]
  have hu := h.upper
  unfold upperOf at hu
  simp only [hu]
  rw [h.top ("model", pyStr "") (by simp [topGets]), h.top ("error", pyNum 0) (by simp [topGets]),
    h.top ("method", pyStr "") (by simp [topGets]), h.top ("sensitivity-analysis", .sc (.bool false)) (by simp [topGets]),
    h.top ("targets", .list []) (by simp [topGets]), h.top ("sensitivity-type", pyStr "initial") (by simp [topGets]),
    h.top ("retained-species", .list []) (by simp [topGets]), h.top ("phase-name", pyStr "") (by simp [topGets])]
  have a1 := h.conds "autoignition-conditions" (by decide)
  have a2 := h.conds "psr-conditions" (by decide)
  have a3 := h.conds "laminar-flame-conditions" (by decide)
  rw [a1.truthy, a2.truthy, a3.truthy]
  generalize headOf d "autoignition-conditions" (.dict []) = v1 at a1 ⊢
  generalize headOf d "psr-conditions" (.dict []) = v2 at a2 ⊢
  generalize headOf d "laminar-flame-conditions" (.dict []) = v3 at a3 ⊢
  simp only [a1.cases (ignitionDyn_same _), a2.cases (psrDyn_same _), a3.cases (flameDyn_same _)]

theorem parseDyn_floor {load : PyV → PyV → Except Err (List String)} {d : List (PyS × PyV)} {R : InputsDyn}
    (h : parseDyn load (.dict d) = .ok R) : R.minFlameSpeed = headOf d "min-flame-speed" (.sc .none) := by
  unfold parseDyn at h
  simp only [get_headOf, bind_ok, Except.ok.injEq, exists_eq_left'] at h
  obtain ⟨x1, h1, x2, h2, y1, g1, y2, g2, names, g3, y4, g4, y5, g5, y6, g6, l1, g7, y8, g8, l2, g9, y10, g10, l3, g11, y12, g12, y13, g13, rfl⟩ := h
  rfl

/-- with the same least speed of a flame the inputs are the same -/
theorem parseDyn_same_all (load : PyV → PyV → Except Err (List String)) {d d' : List (PyS × PyV)} (h : DictSame d d')
    (hf : headOf d "min-flame-speed" (.sc .none) = headOf d' "min-flame-speed" (.sc .none)) :
    parseDyn load (.dict d) = parseDyn load (.dict d') := by
  rw [parseDyn_same load h, hf]
  cases hd : parseDyn load (.dict d') with
  | error e => rfl
  | ok R => rw [← parseDyn_floor hd]; rfl

/-! ### dictionaries with one more entry -/

/-- one more entry -/
structure OneMore (d d' : List (PyS × PyV)) (key : String) (v : PyV) : Prop where
  other : ∀ key', key' ≠ key → entryOf d key' = entryOf d' key'
  here : entryOf d key = some v
  absent : entryOf d' key = none

theorem OneMore.head {d d' : List (PyS × PyV)} {key key' : String} {v : PyV} (h : OneMore d d' key v) (hne : key' ≠ key) (x : PyV) :
    headOf d key' x = headOf d' key' x := by
  unfold headOf; rw [h.other key' hne]

theorem OneMore.head_here {d d' : List (PyS × PyV)} {key : String} {v : PyV} (h : OneMore d d' key v) (x : PyV) :
    headOf d key x = v := headOf_some h.here x

theorem OneMore.head_absent {d d' : List (PyS × PyV)} {key : String} {v : PyV} (h : OneMore d d' key v) (x : PyV) :
    headOf d' key x = x := by
  unfold headOf; rw [h.absent]; rfl

/-- a default stated -/
theorem OneMore.case {d d' : List (PyS × PyV)} {key : String} {v : PyV} (h : OneMore d d' key v) (hv : (key, v) ∈ caseDefaults) :
    CaseSame (.dict d) (.dict d') := by
  refine Or.inr ⟨d, d', rfl, rfl, ?_⟩
  rintro ⟨key', x⟩ hg
  dsimp only
  by_cases hne : key' = key
  · subst hne
    rw [h.head_here, h.head_absent]
    simp only [caseGets, List.mem_cons, Prod.mk.injEq, List.not_mem_nil, or_false] at hg
    simp only [caseDefaults, List.mem_cons, Prod.mk.injEq, List.not_mem_nil, or_false] at hv
    rcases hg with ⟨rfl, rfl⟩ | ⟨rfl, rfl⟩ | ⟨rfl, rfl⟩ | ⟨rfl, rfl⟩ | ⟨rfl, rfl⟩ | ⟨rfl, rfl⟩ | ⟨rfl, rfl⟩ | ⟨rfl, rfl⟩ | ⟨rfl, rfl⟩ |
      ⟨rfl, rfl⟩ | ⟨rfl, rfl⟩ <;> simpa [pyStr, pyNum] using hv
  · exact h.head hne x

theorem OneMore.dict {d d' : List (PyS × PyV)} {key : String} {v : PyV} (h : OneMore d d' key v) (hv : (key, v) ∈ topDefaults) :
    DictSame d d' ∧ headOf d "min-flame-speed" (.sc .none) = headOf d' "min-flame-speed" (.sc .none) := by
  have htop : ∀ g ∈ topGets ++ [("upper-threshold", PyV.sc .none), ("min-flame-speed", PyV.sc .none)],
      headOf d g.1 g.2 = headOf d' g.1 g.2 := by
    rintro ⟨key', x⟩ hg
    dsimp only
    by_cases hne : key' = key
    · subst hne
      rw [h.head_here, h.head_absent]
      simp only [topGets, List.cons_append, List.nil_append, List.mem_cons, Prod.mk.injEq, List.not_mem_nil, or_false] at hg
      simp only [topDefaults, List.mem_cons, Prod.mk.injEq, List.not_mem_nil, or_false] at hv
      rcases hg with ⟨rfl, rfl⟩ | ⟨rfl, rfl⟩ | ⟨rfl, rfl⟩ | ⟨rfl, rfl⟩ | ⟨rfl, rfl⟩ | ⟨rfl, rfl⟩ | ⟨rfl, rfl⟩ | ⟨rfl, rfl⟩ | ⟨rfl, rfl⟩ |
        ⟨rfl, rfl⟩ <;> simpa [pyStr, pyNum] using hv
    · exact h.head hne x
  refine ⟨⟨fun g hg => htop g (by simp [hg]), ?_, fun key' hk => ?_⟩, htop ("min-flame-speed", .sc .none) (by simp)⟩
  · unfold upperOf
    rw [htop ("upper-threshold", .sc .none) (by simp), htop ("sensitivity-analysis", .sc (.bool false)) (by simp [topGets])]
  · by_cases hne : key' = key
    · subst hne
      rw [h.head_here, h.head_absent]
      refine Or.inr (Or.inr ⟨Or.inl ?_, Or.inr rfl⟩)
      simp only [condHeads, List.mem_cons, List.not_mem_nil, or_false] at hk
      simp only [topDefaults, List.mem_cons, Prod.mk.injEq, List.not_mem_nil, or_false] at hv
      rcases hk with rfl | rfl | rfl <;> simpa using hv
    · rw [h.head hne]; exact Or.inl rfl

theorem OneMore.upper {d d' : List (PyS × PyV)} (h : OneMore d d' "upper-threshold" (pyNum float01))
    (hs : (headOf d' "sensitivity-analysis" (.sc (.bool false))).truthy = true) :
    DictSame d d' ∧ headOf d "min-flame-speed" (.sc .none) = headOf d' "min-flame-speed" (.sc .none) := by
  refine ⟨⟨fun g hg => h.head (by revert g; decide) _, ?_, fun key' hk => ?_⟩, h.head (by decide) _⟩
  · unfold upperOf
    rw [h.head_here, h.head_absent, h.head (by decide), hs]
    simp [PyV.truthy, PyS.truthy, pyNum]
  · rw [h.head (by revert key'; decide)]; exact Or.inl rfl

theorem OneMore.floor {d d' : List (PyS × PyV)} {v : PyV} (h : OneMore d d' "min-flame-speed" v) : DictSame d d' := by
  refine ⟨fun g hg => h.head (by revert g; decide) _, ?_, fun key' hk => ?_⟩
  · unfold upperOf
    rw [h.head (by decide), h.head (by decide)]
  · rw [h.head (by revert key'; decide)]; exact Or.inl rfl

end Verif
