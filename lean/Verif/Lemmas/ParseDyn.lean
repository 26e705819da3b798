import Verif.Lemmas.YamlScalar
/-!
# Lemmas on checking inputs of any type
-/
namespace Verif
open Spec

/-- value under a heading, or the default -/
def headOf (d : List (PyS × PyV)) (key : String) (v : PyV) : PyV := (entryOf d key).getD v

theorem get_headOf (d : List (PyS × PyV)) (key : String) (v : PyV) : (PyV.dict d).get key v = .ok (headOf d key v) := rfl

theorem headOf_some {d : List (PyS × PyV)} {key : String} {u : PyV} (h : entryOf d key = some u) (v : PyV) :
    headOf d key v = u := by unfold headOf; rw [h]; rfl

theorem get_not_dict {v : PyV} {key : String} {x u : PyV} (h : v.get key x = .ok u) : ∃ d, v = .dict d := by
  cases v with
  | dict d => exact ⟨d, rfl⟩
  | sc => cases h
  | list => cases h

/-- what an accepted input has been checked for -/
structure Accepted (load : PyV → PyV → Except Err (List String)) (d : List (PyS × PyV)) (R : InputsDyn)
    (names : List String) : Prop where
  loaded : load (headOf d "model" (pyStr "")) (headOf d "phase-name" (pyStr "")) = .ok names
  error : R.error = headOf d "error" (pyNum 0)
  targets : R.targets = headOf d "targets" (.list [])
  named : namesDyn names (headOf d "targets" (.list [])) = .ok ()
  retained : namesDyn names (headOf d "retained-species" (.list [])) = .ok ()
  ignition : ∃ l, (headOf d "autoignition-conditions" (.dict [])).iter = .ok l ∧ casesDyn (ignitionDyn names) l = .ok R.ignition
  psr : ∃ l, (headOf d "psr-conditions" (.dict [])).iter = .ok l ∧ casesDyn (psrDyn names) l = .ok R.psr
  flame : ∃ l, (headOf d "laminar-flame-conditions" (.dict [])).iter = .ok l ∧ casesDyn (flameDyn names) l = .ok R.flame
  safe : retainAllDyn R.targets (R.ignition ++ R.psr ++ R.flame) (headOf d "retained-species" (.list [])) = .ok R.safe

theorem parseDyn_accepted {load : PyV → PyV → Except Err (List String)} {v : PyV} {R : InputsDyn} (h : parseDyn load v = .ok R) :
    ∃ d names, v = .dict d ∧ Accepted load d R names := by
  have hd : ∃ d, v = .dict d := by
    unfold parseDyn at h
    obtain ⟨_, h1, -⟩ := bind_ok.1 h
    exact get_not_dict h1
  obtain ⟨d, rfl⟩ := hd
  unfold parseDyn at h
  simp only [get_headOf, bind_ok, Except.ok.injEq, exists_eq_left'] at h
  obtain ⟨_, _, _, _, _, _, _, _, names, h1, _, h2, _, h3, _, _, l1, h4, ign, h5, l2, h6, psr, h7, l3, h8, fl, h9, safe, h10, h11⟩ := h
  subst h11
  exact ⟨d, names, rfl, h1, rfl, rfl, h2, h3, ⟨l1, h4, h5⟩, ⟨l2, h6, h7⟩, ⟨l3, h8, h9⟩, h10⟩

theorem readInputs_accepted {load : PyV → PyV → Except Err (List String)} {y : YNode} {R : InputsDyn}
    (h : readInputs load y = .ok R) : ∃ d names, construct y = .ok (.dict d) ∧ Accepted load d R names := by
  unfold readInputs at h
  obtain ⟨v, h1, h2⟩ := bind_ok.1 h
  obtain ⟨d, names, rfl, h3⟩ := parseDyn_accepted h2
  exact ⟨d, names, h1, h3⟩

/-- the value under a heading of an accepted document -/
theorem accepted_entry {load : PyV → PyV → Except Err (List String)} {l1 l2 : List (YScalar × YNode)} {k : YScalar} {x : YNode}
    {key : String} {R : InputsDyn} (h : readInputs load (.map (l1 ++ (k, x) :: l2)) = .ok R)
    (hk : scalarValue k = .ok (.str key)) (h2 : ∀ e ∈ l2, e.1.text ≠ key.toList) :
    ∃ d names u, Accepted load d R names ∧ construct x = .ok u ∧ ∀ v, headOf d key v = u := by
  obtain ⟨d, names, h1, h3⟩ := readInputs_accepted h
  obtain ⟨d', u, h4, h5, h6⟩ := construct_entry h1 hk h2
  cases h4
  exact ⟨d, names, u, h3, h5, headOf_some h6⟩

theorem casesDyn_ok {parse : PyV → Except Err CondDyn} : ∀ {l : List PyV} {ks : List CondDyn},
    casesDyn parse l = .ok ks ↔ List.Forall₂ (fun c k => parse c = .ok k) l ks := by
  intro l
  induction l with
  | nil =>
    intro ks
    rw [casesDyn]
    constructor
    · intro h; cases h; exact .nil
    · intro h; cases h; rfl
  | cons x l ih =>
    intro ks
    rw [casesDyn]
    constructor
    · intro h
      obtain ⟨v, h2, h⟩ := bind_ok.1 h
      obtain ⟨vs, h3, h⟩ := bind_ok.1 h
      cases h
      exact .cons h2 (ih.1 h3)
    · intro h
      cases h with
      | cons h1 h2 => exact bind_ok.2 ⟨_, h1, bind_ok.2 ⟨_, ih.2 h2, rfl⟩⟩

/-- a composition that passed the checks names species of the model only, with positive amounts -/
theorem entriesDyn_ok {names : List String} : ∀ {l : List (PyS × PyV)}, entriesDyn names l = .ok () →
    ∀ p ∈ l, (∃ s, p.1 = .str s ∧ s ∈ names) ∧ p.2.gt0 = .ok true := by
  intro l
  induction l with
  | nil => intro _ p hp; cases hp
  | cons q l ih =>
    intro h p hp
    obtain ⟨k, v⟩ := q
    rw [entriesDyn] at h
    obtain ⟨b, h1, h⟩ := bind_ok.1 h
    obtain ⟨_, h2, h⟩ := bind_ok.1 h
    obtain ⟨_, h3, h⟩ := bind_ok.1 h
    rcases List.mem_cons.1 hp with rfl | hp
    · have hb : b = true := by
        unfold assertKey at h2
        by_contra hb
        rw [if_neg hb] at h2; cases h2
      subst hb
      have hin : k.isIn names = true := by
        unfold assertKey at h3
        by_contra hb
        rw [if_neg hb] at h3; cases h3
      refine ⟨?_, h1⟩
      cases k with
      | str s => exact ⟨s, rfl, by simpa [PyS.isIn] using hin⟩
      | _ => cases hin
    · exact ih h p hp

end Verif
