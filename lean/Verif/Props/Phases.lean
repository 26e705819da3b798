import Verif.Lemmas.Phases
import Verif.Spec.Phases
import Verif.Lemmas.Path
import Verif.Props.ConcurrentMain
/-!
# Model files with several phases (C143)
-/
namespace Verif
open FsProg Spec

theorem selectPhase_iff {phase : Text} {l : List Mech} {sol : Mech} :
    selectPhase phase l = some sol ↔ IsPhase phase l sol := by
  unfold selectPhase IsPhase
  by_cases h : phase = []
  · rw [if_pos h]
    constructor
    · intro hh
      cases l with
      | nil => cases hh
      | cons a t => cases hh; exact ⟨[], t, rfl, fun _ => rfl, fun g => absurd h g⟩
    · rintro ⟨l1, l2, rfl, h1, _⟩
      rw [h1 h]; rfl
  · rw [if_neg h, List.find?_eq_some_iff_append]
    constructor
    · rintro ⟨hn, l1, l2, rfl, h1⟩
      exact ⟨l1, l2, rfl, fun g => absurd g h, fun _ => ⟨by simpa using hn, fun m hm => by simpa using h1 m hm⟩⟩
    · rintro ⟨l1, l2, rfl, _, h2⟩
      obtain ⟨h3, h4⟩ := h2 h
      exact ⟨by simpa using h3, l1, l2, rfl, fun m hm => by simpa using h4 m hm⟩

/-- the model file and the files that exist -/
theorem agrees_model {phase file : Text} {pf : PhaseFs} {fs : Fs} {l : List Mech} {sol : Mech}
    (hl : pf file = some l) (hsel : IsPhase phase l sol) (hw : fs file = some sol)
    (hex : ∀ f, (pf f).isSome = (fs f).isSome) : Agrees phase (· = file) pf fs := by
  refine ⟨hex, ?_⟩
  rintro f rfl
  rw [hl, hw]
  exact selectPhase_iff.mpr hsel

/-- **C143.** A reduction of a model file with any number of phases does what the reduction of a
file with just the named phase (the first one, if none is named) does: the result is the same,
and so is every file that the run writes, which has one phase; all other files keep their phases.
-/
theorem C143_phase_partial (p : MainIn) (w : World) (pf : PhaseFs) {l : List Mech} {sol : Mech}
    (hl : pf p.modelFile = some l) (hsel : IsPhase p.phase l sol) (hw : w.fs p.modelFile = some sol)
    (hex : ∀ f, (pf f).isSome = (w.fs f).isSome) (h : (runMain p w).1 ≠ none) :
    (mainPhases p w.limbo pf).1 = ((runMain p w).1, (runMain p w).2.limbo) ∧
    ∀ f, ((mainPhases p w.limbo pf).2 f = pf f ∧ (runMain p w).2.fs f = w.fs f) ∨
      (mainPhases p w.limbo pf).2 f = ((runMain p w).2.fs f).map ([·]) := by
  have hs := safe_mainP (makes_named p.modelFile p.phase) w.limbo (S := (· = p.modelFile)) rfl
  have e := aloneIn_safe hs (agrees_model hl hsel hw hex) (pf0 := pf) (fs0 := w.fs) fun f => .inl ⟨rfl, rfl⟩
  rw [C138_main_alone p w h] at e
  exact e

/-- **C143.** So the phases that are not named have no effect. -/
theorem C143_others_partial (p : MainIn) (dflt : List String) (pf pf' : PhaseFs) {l l' : List Mech} {sol : Mech}
    (hl : pf p.modelFile = some l) (hsel : IsPhase p.phase l sol) (hl' : pf' p.modelFile = some l')
    (hsel' : IsPhase p.phase l' sol) (hex : ∀ f, (pf f).isSome = (pf' f).isSome) :
    (mainPhases p dflt pf).1 = (mainPhases p dflt pf').1 ∧
    ∀ f, ((mainPhases p dflt pf).2 f = pf f ∧ (mainPhases p dflt pf').2 f = pf' f) ∨
      (mainPhases p dflt pf).2 f = (mainPhases p dflt pf').2 f := by
  have hs := safe_mainP (makes_named p.modelFile p.phase) dflt (S := (· = p.modelFile)) rfl
  refine aloneIn_same hs ⟨hex, ?_⟩ fun f => .inl ⟨rfl, rfl⟩
  rintro f rfl
  rw [hl, hl']
  exact (selectPhase_iff.mpr hsel).trans (selectPhase_iff.mpr hsel').symm

/-- **C143.** When the phase was named, the reduced model has that name too: it can be loaded
with the same input. -/
theorem C143_named_partial (p : MainIn) (dflt : List String) (pf : PhaseFs) {l : List Mech} {sol : Mech}
    (hl : pf p.modelFile = some l) (hsel : IsPhase p.phase l sol) (hp : p.phase ≠ []) {rm : RModel}
    (h : (mainPhases p dflt pf).1.1 = some (.ok rm)) : rm.model.name = p.phase ∧ IsPhase p.phase [rm.model] rm.model := by
  have hs := safe_mainP (makes_named p.modelFile p.phase) dflt (S := (· = p.modelFile)) rfl
  let fs : Fs := fun f => if f = p.modelFile then some sol else (pf f).map fun _ => sol
  have hw : fs p.modelFile = some sol := if_pos rfl
  have hex : ∀ f, (pf f).isSome = (fs f).isSome := by
    intro f
    change _ = (if f = p.modelFile then some sol else (pf f).map fun _ => sol).isSome
    split
    · rename_i hf; rw [hf, hl]; rfl
    · rw [Option.isSome_map]
  have e := (aloneIn_safe hs (agrees_model hl hsel hw hex) (pf0 := pf) (fs0 := fs) fun f => .inl ⟨rfl, rfl⟩).1
  obtain ⟨_, q⟩ := alone_safe hs (fs := fs) (by
    rintro f m rfl hm
    rw [hw] at hm
    injection hm with hm
    subst hm
    exact selectPhase_named (selectPhase_iff.mpr hsel))
  have hn : rm.model.name = p.phase := (q rm (by rw [← e]; exact h)).resolve_left hp
  exact ⟨hn, [], [], rfl, fun _ => rfl, fun _ => ⟨hn, by simp⟩⟩

/-- **C143.** If the file has no phase of that name, no reduction takes place and nothing is
written: the run ends with Cantera's error. -/
theorem C143_missing_partial (p : MainIn) (dflt : List String) (pf : PhaseFs) {l : List Mech}
    (hl : pf p.modelFile = some l) (hno : ∀ sol, ¬ IsPhase p.phase l sol)
    (hm : p.method.bind methodOf ≠ none ∧ p.targets ≠ [] ∨ p.method = none ∧ p.sensitivity = true) :
    mainPhases p dflt pf = ((some (.error .runtimeError), dflt), pf) := by
  have hnone : (pf p.modelFile).bind (selectPhase p.phase) = none := by
    rw [hl, Option.bind_some]
    cases hs : selectPhase p.phase l with
    | none => rfl
    | some m => exact absurd (selectPhase_iff.mp hs) (hno m)
  unfold mainPhases mainP
  rcases hm with ⟨h1, h2⟩ | ⟨h1, h2⟩
  · obtain ⟨m, hm⟩ := Option.ne_none_iff_exists'.mp h1
    have hmn : ¬ (p.method = none ∨ p.method = some "") := by
      rintro (h | h) <;> rw [h] at hm <;> simp [methodOf] at hm
    rw [if_neg (by simp [h2]), if_neg (by
      intro h
      simp only [Bool.and_eq_true, Bool.or_eq_true, decide_eq_true_eq] at h
      exact hmn h.1), hm]
    have hf : (p.ctx m).modelFile = p.modelFile := rfl
    simp only [methodP, FsProg.bind, aloneIn, hf, hnone]
  · rw [h1]
    have hf : ∀ e, (p.saCtx p.modelFile e).modelFile = p.modelFile := fun _ => rfl
    simp [h2, saStageP, saP, FsProg.bind, aloneIn, hf, hnone]

/-- **C143, negation.** When no phase was named, the reduced model no longer has the name of its
phase, for every model whose name does not itself begin with `reduced_`: unless nothing was
removed (and no method was run), the written model cannot be loaded under the name of the phase
it was made from. -/
theorem C143_unnamed_refuted (p : MainIn) (w : World) (hp : p.phase = []) {sol : Mech}
    (hw : w.fs p.modelFile = some sol) (hn : sol.name ≠ []) (hr : ¬ "reduced_".toList <+: sol.name)
    {rm : RModel} (h : (runMain p w).1 = some (.ok rm)) (hne : rm.model ≠ sol) :
    ∀ m, ¬ IsPhase sol.name [rm.model] m := by
  have M : Makes (fun m => m = sol ∨ "reduced_".toList <+: m.name) p.modelFile p.phase := by
    rw [hp]; exact makes_reduced _ _
  have hs := safe_mainP M w.limbo (S := (· = p.modelFile)) rfl
  obtain ⟨_, q⟩ := alone_safe hs (fs := w.fs) (by
    rintro f m rfl hm
    rw [hw] at hm
    injection hm with hm
    exact .inl hm.symm)
  rw [C138_main_alone p w (by rw [h]; simp)] at q
  have hpre := (q rm h).resolve_left hne
  intro m hm
  have hsome := selectPhase_iff.mpr hm
  unfold selectPhase at hsome
  rw [if_neg hn] at hsome
  have hname : rm.model.name = sol.name := by
    by_contra hc
    simp [hc] at hsome
  rw [hname] at hpre
  exact hr hpre

/-! ### a case -/

/-- the model of `Props/Main` as the phase `gas` behind another one -/
def exPhases : List Mech :=
  [{ exMainMech ["X", "A"] with name := "surf".toList }, { bsSol with name := "gas".toList },
    { exMainMech ["Y"] with name := "gas".toList }]

def exPhaseFs : PhaseFs := fun f => if f = "m.yaml".toList then some exPhases else none

example : IsPhase "gas".toList exPhases { bsSol with name := "gas".toList } ∧
    IsPhase [] exPhases { exMainMech ["X", "A"] with name := "surf".toList } ∧
    ∀ sol, ¬ IsPhase "liquid".toList exPhases sol := by
  refine ⟨selectPhase_iff.mp (by decide +kernel), selectPhase_iff.mp (by decide +kernel), fun sol h => ?_⟩
  have h' := selectPhase_iff.mpr h
  rw [show selectPhase "liquid".toList exPhases = none by decide +kernel] at h'
  cases h'

/-- the phase `gas` is reduced as in `Props/Main`, and the reduced model is called `gas` -/
example :
    let x := mainPhases { exMain "PFA" [] with phase := "gas".toList } [] exPhaseFs
    (x.1.1.map fun r => r.toOption.map fun r => (r.model.names, r.model.name)) =
      some (some (["A", "C"], "gas".toList)) ∧
    (x.2 "reduced_2.yaml".toList).map (·.map (·.names)) = some [["A", "C"]] ∧
    (x.2 "m.yaml".toList) = some exPhases := by
  decide +kernel

/-- without a name for the phase of a file with this model only, it is called `reduced_m` -/
example :
    let w : World := ⟨fun f => if f = "m.yaml".toList then some { bsSol with name := "gas".toList } else none, []⟩
    ((runMain (exMain "PFA" []) w).1.map fun r => r.toOption.map fun r => r.model.name) =
      some (some "reduced_m".toList) := by
  decide +kernel

end Verif
