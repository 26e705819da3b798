import Verif.Spec.Reduce
import Verif.Lemmas.Trim
import Verif.Props.Graph
import Verif.Props.Importance
import Mathlib.Tactic.Linarith
import Mathlib.Tactic.FieldSimp
import Mathlib.Tactic.Ring
namespace Verif
open Spec

/-! ### equations of the functions in which no simulation raises -/

theorem reduceDrg_eq (c : Ctx) (thr : ℚ) (prev : Option RModel) (w : World) :
    reduceDrg c thr prev w =
  match loadModel w c.modelFile with
  | .error e => (.error e, w)
  | .ok sol =>
  match retained c.matrices sol.names c.targets thr with
  | .error e => (.error e, w)
  | .ok ret =>
  match sameCount prev ret.length with
  | some p => (.ok p, w)
  | none =>
  let removed := sol.names.filter (fun sp => !((ret ++ c.safe).contains sp))
  match buildCandidate c c.sim sol removed w with
  | (.error e, w1) => (.error e, w1)
  | (.ok (red, fn, err), w1) =>
  match truthy c.upper with
  | none => (.ok ⟨red, fn, err, some []⟩, w1)
  | some u =>
  match retained c.matrices sol.names c.targets u with
  | .error e => (.error e, w1)
  | .ok limbo => (.ok ⟨red, fn, err, some limbo⟩, w1) := rfl

theorem reducePfa_eq (c : Ctx) (thr : ℚ) (prev : Option RModel) (w : World) :
    reducePfa c thr prev w =
  match loadModel w c.modelFile with
  | .error e => (.error e, w)
  | .ok sol =>
  match retained c.matrices sol.names c.targets thr with
  | .error e => (.error e, w)
  | .ok ret =>
  match sameCount prev ret.length with
  | some p => (.ok p, w)
  | none =>
  let removed := sol.names.filter (fun sp => !((ret ++ c.safe).contains sp))
  match buildCandidate c c.sim sol removed w with
  | (.error e, w1) => (.error e, w1)
  | (.ok (red, fn, err), w1) =>
  match truthy c.upper with
  | none => (.ok ⟨red, fn, err, some []⟩, w1)
  | some u =>
  match c.matrices.getLast? with
  | none => (.error .unboundLocal, w1)
  | some M =>
  match trimDrg M sol.names c.targets u with
  | .error e => (.error e, w1)
  | .ok l =>
  let limbo := sol.names.filter (fun sp => !((ret ++ l ++ c.safe ++ removed).contains sp))
  (.ok ⟨red, fn, err, some limbo⟩, w1) := rfl

theorem reduceDrgep_eq (c : Ctx) (imp : String → Option ℚ) (thr : ℚ) (prev : Option RModel)
    (w : World) : reduceDrgep c imp thr prev w =
  match loadModel w c.modelFile with
  | .error e => (.error e, w)
  | .ok sol =>
  match removedDrgep imp c.safe thr sol.names with
  | .error e => (.error e, w)
  | .ok removed =>
  match (match prev with
    | some p => if (removed.length : Int) = (sol.nSpecies : Int) - p.model.nSpecies then some p else none
    | none => none) with
  | some p => (.ok p, w)
  | none =>
  match buildCandidate c c.sim sol removed w with
  | (.error e, w1) => (.error e, w1)
  | (.ok (red, fn, err), w1) => (.ok ⟨red, fn, err, none⟩, w1) := rfl

theorem runDrg_eq (c : Ctx) (rnd : ℚ → ℚ) (limit : PyF) (fuel : Nat) (w : World) :
    runDrg c rnd limit fuel w =
  match loadModel w c.modelFile with
  | .error e => (some (.error e), w)
  | .ok sol =>
      if c.targets = [] then (some (.error .assertionError), w)
      else runWith (reduceDrg c) (finishDrg (reduceDrg c) rnd limit c.path) rnd (rnd (1 / 100000))
        limit fuel (loopInit rnd sol c.modelFile w) := rfl

theorem runPfa_eq (c : Ctx) (rnd : ℚ → ℚ) (limit : PyF) (fuel : Nat) (w : World) :
    runPfa c rnd limit fuel w =
  match loadModel w c.modelFile with
  | .error e => (some (.error e), w)
  | .ok sol =>
      if c.targets = [] then (some (.error .assertionError), w)
      else runWith (reducePfa c) (finishOther (reducePfa c) rnd limit c.path) rnd (rnd (1 / 100000))
        limit fuel (loopInit rnd sol c.modelFile w) := rfl

theorem runDrgep_eq (c : Ctx) (rnd : ℚ → ℚ) (limit : PyF) (dfuel fuel : Nat) (w : World) :
    runDrgep c rnd limit dfuel fuel w =
  match loadModel w c.modelFile with
  | .error e => (some (.error e), w)
  | .ok sol =>
      if c.targets = [] then (some (.error .assertionError), w)
      else
        match getImportanceCoeffs c.rndMul sol.names c.targets c.matrices dfuel with
        | .error e => (some (.error e), w)
        | .ok imp =>
            match runWith (reduceDrgep c imp) (finishOther (reduceDrgep c imp) rnd limit c.path) rnd
                (rnd (1 / 1000000)) limit fuel (loopInit rnd sol c.modelFile w) with
            | (some (.ok r), w1) =>
                let x := appendLimbo r w1 (limboDrgep c imp r)
                (some (.ok x.1), x.2)
            | other => other := rfl

/-! ### number comparisons -/

theorem PyF.not_lt_of_le {a b : PyF} (h : a.le b = true) : b.lt a = false := by
  cases a <;> cases b <;> simp_all [PyF.le, PyF.lt]

theorem PyF.le_of_not_lt {a b : PyF} (h : b.lt a = false) (ha : a ≠ .nan) (hb : b ≠ .nan) :
    a.le b = true := by
  cases a <;> cases b <;> simp_all [PyF.le, PyF.lt]

theorem PyF.le_nan {a b : PyF} (h : a.le b = true) : a ≠ .nan ∧ b ≠ .nan := by
  cases a <;> cases b <;> simp_all [PyF.le]

theorem PyF.lt_nan {a b : PyF} (h : a.lt b = true) : a ≠ .nan ∧ b ≠ .nan := by
  cases a <;> cases b <;> simp_all [PyF.lt]

/-! ### file system -/

@[simp] theorem World.set_fs_same (w : World) (f : Text) (c : Option Mech) : (w.set f c).fs f = c := by
  simp [World.set]

theorem World.set_fs_ne (w : World) (f g : Text) (c : Option Mech) (h : g ≠ f) :
    (w.set f c).fs g = w.fs g := by
  simp [World.set, h]

@[simp] theorem World.set_set (w : World) (f : Text) (c d : Option Mech) :
    (w.set f c).set f d = w.set f d := by
  unfold World.set
  congr 1
  funext g
  by_cases h : g = f <;> simp [h]

@[simp] theorem World.set_limbo (w : World) (f : Text) (c : Option Mech) : (w.set f c).limbo = w.limbo := rfl

theorem writeYaml_eq (w : World) (m : Mech) (name path : Text) :
    writeYaml w m name path = (yamlName m name path, w.set (yamlName m name path) (some m)) := by
  unfold writeYaml
  dsimp only
  split_ifs <;> simp

theorem reducedName_ne_nil (n : Nat) : reducedName n ≠ [] := by
  unfold reducedName
  intro h
  have h1 := (List.append_eq_nil_iff.1 (List.append_eq_nil_iff.1 h).1).1
  revert h1
  decide

/-- the file a candidate with `n` species is written to -/
def redFile (c : Ctx) (n : Nat) : Text := joinPath c.path (reducedName n)

theorem yamlName_reduced (c : Ctx) (m : Mech) (n : Nat) :
    yamlName m (reducedName n) c.path = redFile c n := by
  simp [yamlName, reducedName_ne_nil, redFile]

/-- the candidate model for a list of removed species -/
def trimmed (c : Ctx) (sol : Mech) (removed : List String) : Mech :=
  trim sol removed ("reduced_".toList ++ c.modelFile) c.phase

theorem buildCandidate_eq (c : Ctx) (sol : Mech) (removed : List String) (w : World) :
    buildCandidate c c.sim sol removed w =
      (.ok (trimmed c sol removed, redFile c (trimmed c sol removed).nSpecies,
        c.errOf (trimmed c sol removed)),
       w.set (redFile c (trimmed c sol removed).nSpecies) (some (trimmed c sol removed))) := by
  unfold buildCandidate
  dsimp only
  rw [writeYaml_eq, yamlName_reduced]
  simp only [loadModel, World.set_fs_same]
  rfl

/-! ### contract of a reduction step, without assumptions on the files -/

/-- what every reduction step guarantees about the files -/
structure FileSafe (c : Ctx) (reduce : ReduceFn) : Prop where
  touches : ∀ thr prev w f, (∀ n, f ≠ redFile c n) → (reduce thr prev w).2.fs f = w.fs f
  limbo : ∀ thr prev w, (reduce thr prev w).2.limbo = w.limbo
  result : ∀ thr prev w r, (reduce thr prev w).1 = .ok r →
    (prev = some r ∧ (reduce thr prev w).2 = w) ∨
    (r.filename = redFile c r.model.nSpecies ∧ (reduce thr prev w).2.fs r.filename = some r.model)
  error : ∀ thr prev w e, (reduce thr prev w).1 = .error e → e ≠ .fileNotFound

theorem trimDrg_error {M : NMat} {names targets : List String} {thr : ℚ} {e : Err}
    (h : trimDrg M names targets thr = .error e) : e = .keyError := by
  by_cases ht : ∀ t ∈ targets, t ∈ names
  · obtain ⟨l, h1, -⟩ := graphSearch_spec (thresholdGraph_ok M names thr) targets ht
    unfold trimDrg at h
    rw [h1] at h; cases h
  · push Not at ht
    rw [C11_trim_missing_target M names targets thr ht] at h
    cases h; rfl

theorem retainedLoop_error {names targets : List String} {thr : ℚ} {e : Err} (Ms : List NMat)
    (acc : List String) (h : retainedLoop names targets thr Ms acc = .error e) :
    e = .keyError := by
  induction Ms generalizing acc with
  | nil => simp [retainedLoop] at h
  | cons M Ms ih =>
    unfold retainedLoop at h
    rcases hm : trimDrg M names targets thr with e' | l
    · rw [hm] at h
      simp only [Except.error.injEq] at h
      subst h
      exact trimDrg_error hm
    · rw [hm] at h; exact ih _ h

theorem retained_error {Ms : List NMat} {names targets : List String} {thr : ℚ} {e : Err}
    (h : retained Ms names targets thr = .error e) : e = .keyError := by
  unfold retained at h
  rcases hl : retainedLoop names targets thr Ms [] with e' | l
  · rw [hl] at h
    simp only [Except.map, Except.error.injEq] at h
    subst h
    exact retainedLoop_error Ms [] hl
  · rw [hl] at h; simp [Except.map] at h

theorem loadModel_error {w : World} {f : Text} {e : Err} (h : loadModel w f = .error e) :
    e = .runtimeError := by
  unfold loadModel at h
  split at h
  · cases h
  · cases h; rfl

theorem removedDrgep_error {imp : String → Option ℚ} {safe : List String} {thr : ℚ} {e : Err}
    (l : List String) (h : removedDrgep imp safe thr l = .error e) : e = .keyError := by
  induction l with
  | nil => simp [removedDrgep] at h
  | cons a l ih =>
    unfold removedDrgep at h
    rcases ha : imp a with _ | x <;> rw [ha] at h
    · simp only [Except.error.injEq] at h; exact h.symm
    · rcases hl : removedDrgep imp safe thr l with e' | r
      · rw [hl] at h; simp only [Except.error.injEq] at h; subst h; exact ih hl
      · rw [hl] at h; simp at h

theorem sameCount_some {prev : Option RModel} {n : Nat} {p : RModel}
    (h : sameCount prev n = some p) : prev = some p ∧ n = p.model.nSpecies := by
  unfold sameCount at h
  split at h
  · split_ifs at h with h1
    simp only [Option.some.injEq] at h
    subst h
    exact ⟨rfl, h1⟩
  · cases h

theorem reduceDrg_fileSafe (c : Ctx) : FileSafe c (reduceDrg c) := by
  have key : ∀ thr prev w,
      (∀ f, (∀ n, f ≠ redFile c n) → (reduceDrg c thr prev w).2.fs f = w.fs f) ∧
      (reduceDrg c thr prev w).2.limbo = w.limbo ∧
      (∀ r, (reduceDrg c thr prev w).1 = .ok r →
        (prev = some r ∧ (reduceDrg c thr prev w).2 = w) ∨
        (r.filename = redFile c r.model.nSpecies ∧
          (reduceDrg c thr prev w).2.fs r.filename = some r.model)) ∧
      (∀ e, (reduceDrg c thr prev w).1 = .error e → e ≠ .fileNotFound) := by
    intro thr prev w
    rw [reduceDrg_eq]
    rcases hl : loadModel w c.modelFile with e | sol
    · refine ⟨fun _ _ => rfl, rfl, by simp, ?_⟩
      intro e' he'; simp at he'; subst he'; rw [loadModel_error hl]; decide
    · dsimp only
      rcases hr : retained c.matrices sol.names c.targets thr with e | ret
      · refine ⟨fun _ _ => rfl, rfl, by simp, ?_⟩
        intro e' he'; simp at he'; subst he'; rw [retained_error hr]; decide
      · dsimp only
        rcases hs : sameCount prev ret.length with _ | p
        · dsimp only
          rw [buildCandidate_eq]
          dsimp only
          rcases truthy c.upper with _ | u
          · refine ⟨fun f hf => World.set_fs_ne _ _ _ _ (hf _), rfl, ?_, by simp⟩
            intro r hr'; simp at hr'; subst hr'; right; simp
          · dsimp only
            rcases hu : retained c.matrices sol.names c.targets u with e | l
            · refine ⟨fun f hf => World.set_fs_ne _ _ _ _ (hf _), rfl, by simp, ?_⟩
              intro e' he'; simp at he'; subst he'; rw [retained_error hu]; decide
            · refine ⟨fun f hf => World.set_fs_ne _ _ _ _ (hf _), rfl, ?_, by simp⟩
              intro r hr'; simp at hr'; subst hr'; right; simp
        · refine ⟨fun _ _ => rfl, rfl, ?_, by simp⟩
          intro r hr'; simp at hr'; subst hr'
          exact Or.inl ⟨(sameCount_some hs).1, rfl⟩
  exact ⟨fun a b d => (key a b d).1, fun a b d => (key a b d).2.1, fun a b d => (key a b d).2.2.1,
    fun a b d => (key a b d).2.2.2⟩

theorem reducePfa_fileSafe (c : Ctx) : FileSafe c (reducePfa c) := by
  have key : ∀ thr prev w,
      (∀ f, (∀ n, f ≠ redFile c n) → (reducePfa c thr prev w).2.fs f = w.fs f) ∧
      (reducePfa c thr prev w).2.limbo = w.limbo ∧
      (∀ r, (reducePfa c thr prev w).1 = .ok r →
        (prev = some r ∧ (reducePfa c thr prev w).2 = w) ∨
        (r.filename = redFile c r.model.nSpecies ∧
          (reducePfa c thr prev w).2.fs r.filename = some r.model)) ∧
      (∀ e, (reducePfa c thr prev w).1 = .error e → e ≠ .fileNotFound) := by
    intro thr prev w
    rw [reducePfa_eq]
    rcases hl : loadModel w c.modelFile with e | sol
    · refine ⟨fun _ _ => rfl, rfl, by simp, ?_⟩
      intro e' he'; simp at he'; subst he'; rw [loadModel_error hl]; decide
    · dsimp only
      rcases hr : retained c.matrices sol.names c.targets thr with e | ret
      · refine ⟨fun _ _ => rfl, rfl, by simp, ?_⟩
        intro e' he'; simp at he'; subst he'; rw [retained_error hr]; decide
      · dsimp only
        rcases hs : sameCount prev ret.length with _ | p
        · dsimp only
          rw [buildCandidate_eq]
          dsimp only
          rcases truthy c.upper with _ | u
          · refine ⟨fun f hf => World.set_fs_ne _ _ _ _ (hf _), rfl, ?_, by simp⟩
            intro r hr'; simp at hr'; subst hr'; right; simp
          · dsimp only
            rcases c.matrices.getLast? with _ | M
            · refine ⟨fun f hf => World.set_fs_ne _ _ _ _ (hf _), rfl, by simp, ?_⟩
              intro e' he'; simp at he'; subst he'; decide
            · dsimp only
              rcases hu : trimDrg M sol.names c.targets u with e | l
              · refine ⟨fun f hf => World.set_fs_ne _ _ _ _ (hf _), rfl, by simp, ?_⟩
                intro e' he'; simp at he'; subst he'; rw [trimDrg_error hu]; decide
              · refine ⟨fun f hf => World.set_fs_ne _ _ _ _ (hf _), rfl, ?_, by simp⟩
                intro r hr'; simp at hr'; subst hr'; right; simp
        · refine ⟨fun _ _ => rfl, rfl, ?_, by simp⟩
          intro r hr'; simp at hr'; subst hr'
          exact Or.inl ⟨(sameCount_some hs).1, rfl⟩
  exact ⟨fun a b d => (key a b d).1, fun a b d => (key a b d).2.1, fun a b d => (key a b d).2.2.1,
    fun a b d => (key a b d).2.2.2⟩

theorem reduceDrgep_fileSafe (c : Ctx) (imp : String → Option ℚ) :
    FileSafe c (reduceDrgep c imp) := by
  have key : ∀ thr prev w,
      (∀ f, (∀ n, f ≠ redFile c n) → (reduceDrgep c imp thr prev w).2.fs f = w.fs f) ∧
      (reduceDrgep c imp thr prev w).2.limbo = w.limbo ∧
      (∀ r, (reduceDrgep c imp thr prev w).1 = .ok r →
        (prev = some r ∧ (reduceDrgep c imp thr prev w).2 = w) ∨
        (r.filename = redFile c r.model.nSpecies ∧
          (reduceDrgep c imp thr prev w).2.fs r.filename = some r.model)) ∧
      (∀ e, (reduceDrgep c imp thr prev w).1 = .error e → e ≠ .fileNotFound) := by
    intro thr prev w
    rw [reduceDrgep_eq]
    rcases hl : loadModel w c.modelFile with e | sol
    · refine ⟨fun _ _ => rfl, rfl, by simp, ?_⟩
      intro e' he'; simp at he'; subst he'; rw [loadModel_error hl]; decide
    · dsimp only
      rcases hr : removedDrgep imp c.safe thr sol.names with e | rem
      · refine ⟨fun _ _ => rfl, rfl, by simp, ?_⟩
        intro e' he'; simp at he'; subst he'; rw [removedDrgep_error _ hr]; decide
      · dsimp only
        have fresh : ∀ (x : Except Err RModel × World), x =
            (match buildCandidate c c.sim sol rem w with
              | (.error e, w1) => (.error e, w1)
              | (.ok (red, fn, err), w1) => (.ok ⟨red, fn, err, none⟩, w1)) →
            (∀ f, (∀ n, f ≠ redFile c n) → x.2.fs f = w.fs f) ∧ x.2.limbo = w.limbo ∧
            (∀ r, x.1 = .ok r → (prev = some r ∧ x.2 = w) ∨
              (r.filename = redFile c r.model.nSpecies ∧ x.2.fs r.filename = some r.model)) ∧
            (∀ e, x.1 = .error e → e ≠ .fileNotFound) := by
          rintro x rfl
          rw [buildCandidate_eq]
          refine ⟨fun f hf => World.set_fs_ne _ _ _ _ (hf _), rfl, ?_, by simp⟩
          intro r hr'; simp at hr'; subst hr'; right; simp
        rcases prev with _ | p
        · exact fresh _ rfl
        · dsimp only
          split_ifs
          · refine ⟨fun _ _ => rfl, rfl, ?_, by simp⟩
            intro r hr'; simp at hr'; subst hr'
            exact Or.inl ⟨rfl, rfl⟩
          · exact fresh _ rfl
  exact ⟨fun a b d => (key a b d).1, fun a b d => (key a b d).2.1, fun a b d => (key a b d).2.2.1,
    fun a b d => (key a b d).2.2.2⟩

/-! ### file safety of the loops -/

def Outcome.world : Outcome → World
  | .running s => s.w
  | .left s => s.w
  | .raised _ w => w

theorem loopStep_touches {c : Ctx} {reduce : ReduceFn} (h : FileSafe c reduce) (rnd : ℚ → ℚ)
    (ex : ℚ) (limit : PyF) (s : LoopState) :
    (∀ f, (∀ n, f ≠ redFile c n) → (loopStep reduce rnd ex limit s).world.fs f = s.w.fs f) ∧
    (loopStep reduce rnd ex limit s).world.limbo = s.w.limbo ∧
    (∀ e w, loopStep reduce rnd ex limit s = .raised e w → e ≠ .fileNotFound) ∧
    (∀ t, loopStep reduce rnd ex limit s = .left t → t = s) := by
  unfold loopStep
  split_ifs with h1
  · rcases hr : reduce s.thr (some s.prev) s.w with ⟨res, w1⟩
    have ht := h.touches s.thr (some s.prev) s.w
    have hl := h.limbo s.thr (some s.prev) s.w
    have hres := h.result s.thr (some s.prev) s.w
    have herr := h.error s.thr (some s.prev) s.w
    rw [hr] at ht hl hres herr
    dsimp only at ht hl hres herr
    rcases res with e | r
    · refine ⟨ht, hl, ?_, by simp⟩
      intro e' w' he'
      simp only [Outcome.raised.injEq] at he'
      obtain ⟨rfl, rfl⟩ := he'
      exact herr e rfl
    · dsimp only
      split_ifs with h2 h3 h4
      · refine ⟨ht, hl, ?_, by simp⟩
        intro e' w' he'
        simp only [Outcome.raised.injEq] at he'
        obtain ⟨rfl, rfl⟩ := he'
        decide
      · exact ⟨ht, hl, by simp, by simp⟩
      · rcases hres r rfl with ⟨hp, -⟩ | ⟨hf, hfs⟩
        · simp only [Option.some.injEq] at hp
          rw [hp] at h4
          exact absurd rfl h4
        · have : removeFile w1 r.filename = (.ok (), w1.set r.filename none) := by
            simp [removeFile, hfs]
          rw [this]
          dsimp only
          refine ⟨?_, hl, by simp, by simp⟩
          intro f hne
          show (w1.set r.filename none).fs f = s.w.fs f
          rw [World.set_fs_ne _ _ _ _ (hf ▸ hne _)]
          exact ht f hne
      · exact ⟨ht, hl, by simp, by simp⟩
  · refine ⟨fun _ _ => rfl, rfl, by simp, ?_⟩
    intro t ht
    simp only [Outcome.left.injEq] at ht
    exact ht.symm

theorem whileLoop_touches {c : Ctx} {reduce : ReduceFn} (h : FileSafe c reduce) (rnd : ℚ → ℚ)
    (ex : ℚ) (limit : PyF) (k : Nat) (s : LoopState) :
    (∀ f, (∀ n, f ≠ redFile c n) → (whileLoop reduce rnd ex limit k s).world.fs f = s.w.fs f) ∧
    (whileLoop reduce rnd ex limit k s).world.limbo = s.w.limbo ∧
    (∀ e w, whileLoop reduce rnd ex limit k s = .raised e w → e ≠ .fileNotFound) := by
  induction k generalizing s with
  | zero => exact ⟨fun _ _ => rfl, rfl, by simp [whileLoop]⟩
  | succ k ih =>
    obtain ⟨h1, h2, h3, h4⟩ := loopStep_touches h rnd ex limit s
    unfold whileLoop
    rcases hst : loopStep reduce rnd ex limit s with t | t | ⟨e, w⟩
    · rw [hst] at h1 h2
      obtain ⟨i1, i2, i3⟩ := ih t
      exact ⟨fun f hf => (i1 f hf).trans (h1 f hf), i2.trans h2, i3⟩
    · rw [hst] at h1 h2
      exact ⟨h1, h2, by simp⟩
    · rw [hst] at h1 h2
      refine ⟨h1, h2, ?_⟩
      intro e' w' he'
      simp only [Outcome.raised.injEq] at he'
      obtain ⟨rfl, rfl⟩ := he'
      exact h3 e w hst

/-- what the code after the loop does, in both variants -/
def FinishSafe (c : Ctx) (finish : LoopState → Except Err RModel × World) : Prop :=
  ∀ s, (∀ f, (∀ n, f ≠ redFile c n) → (finish s).2.fs f = s.w.fs f) ∧
    (finish s).2.limbo = s.w.limbo ∧
    (∀ r, (finish s).1 = .ok r →
      r.filename = redFile c r.model.nSpecies ∧ (finish s).2.fs r.filename = some r.model) ∧
    (∀ e, (finish s).1 = .error e → e ≠ .fileNotFound)

theorem reduce_none_safe {c : Ctx} {reduce : ReduceFn} (h : FileSafe c reduce) (thr : ℚ) (w : World) :
    (∀ f, (∀ n, f ≠ redFile c n) → (reduce thr none w).2.fs f = w.fs f) ∧
    (reduce thr none w).2.limbo = w.limbo ∧
    (∀ r, (reduce thr none w).1 = .ok r →
      r.filename = redFile c r.model.nSpecies ∧ (reduce thr none w).2.fs r.filename = some r.model) ∧
    (∀ e, (reduce thr none w).1 = .error e → e ≠ .fileNotFound) := by
  refine ⟨h.touches _ _ _, h.limbo _ _ _, ?_, h.error _ _ _⟩
  intro r hr
  rcases h.result _ _ _ r hr with ⟨h1, -⟩ | h1
  · cases h1
  · exact h1

theorem writeYamlTuple_safe (c : Ctx) (w : World) (n : Nat) :
    (∀ f, (∀ n, f ≠ redFile c n) → (writeYamlTuple w (reducedName n) c.path).2.fs f = w.fs f) ∧
    (writeYamlTuple w (reducedName n) c.path).2.limbo = w.limbo ∧
    (writeYamlTuple w (reducedName n) c.path).1 = .error .attributeError := by
  unfold writeYamlTuple
  dsimp only
  split_ifs
  · exact ⟨fun f hf => World.set_fs_ne _ _ _ _ (hf n), rfl, rfl⟩
  · exact ⟨fun _ _ => rfl, rfl, rfl⟩

theorem finishDrg_safe {c : Ctx} {reduce : ReduceFn} (h : FileSafe c reduce) (rnd : ℚ → ℚ)
    (limit : PyF) : FinishSafe c (finishDrg reduce rnd limit c.path) := by
  intro s
  unfold finishDrg
  split_ifs
  · exact reduce_none_safe h _ _
  · rcases s.last with _ | r
    · exact ⟨fun _ _ => rfl, rfl, by simp, by simp⟩
    · obtain ⟨h1, h2, h3⟩ := writeYamlTuple_safe c s.w r.model.nSpecies
      dsimp only
      rcases hw : writeYamlTuple s.w (reducedName r.model.nSpecies) c.path with ⟨res, w⟩
      rw [hw] at h1 h2 h3
      dsimp only at h1 h2 h3
      subst h3
      exact ⟨h1, h2, by simp, by simp⟩

theorem finishOther_safe {c : Ctx} {reduce : ReduceFn} (h : FileSafe c reduce) (rnd : ℚ → ℚ)
    (limit : PyF) : FinishSafe c (finishOther reduce rnd limit c.path) := by
  intro s
  unfold finishOther
  rcases s.last with _ | r
  · exact ⟨fun _ _ => rfl, rfl, by simp, by simp⟩
  · dsimp only
    split_ifs
    · exact reduce_none_safe h _ _
    · obtain ⟨h1, h2, h3⟩ := writeYamlTuple_safe c s.w r.model.nSpecies
      rcases hw : writeYamlTuple s.w (reducedName r.model.nSpecies) c.path with ⟨res, w⟩
      rw [hw] at h1 h2 h3
      dsimp only at h1 h2 h3
      subst h3
      exact ⟨h1, h2, by simp, by simp⟩

/-- file safety of a run -/
def RunSafe (c : Ctx) (w : World) (x : RunResult) : Prop :=
  (∀ f, (∀ n, f ≠ redFile c n) → x.2.fs f = w.fs f) ∧
  (∀ r, x.1 = some (.ok r) →
    r.filename = redFile c r.model.nSpecies ∧ x.2.fs r.filename = some r.model) ∧
  x.1 ≠ some (.error .fileNotFound)

theorem runWith_safe {c : Ctx} {reduce : ReduceFn} (h : FileSafe c reduce)
    {finish : LoopState → Except Err RModel × World} (hf : FinishSafe c finish) (rnd : ℚ → ℚ)
    (ex : ℚ) (limit : PyF) (fuel : Nat) (s : LoopState) :
    RunSafe c s.w (runWith reduce finish rnd ex limit fuel s) ∧
    (runWith reduce finish rnd ex limit fuel s).2.limbo = s.w.limbo := by
  obtain ⟨h1, h2, h3⟩ := whileLoop_touches h rnd ex limit fuel s
  unfold runWith RunSafe
  rcases hst : whileLoop reduce rnd ex limit fuel s with t | t | ⟨e, w⟩
  · rw [hst] at h1 h2
    exact ⟨⟨h1, by simp, by simp⟩, h2⟩
  · rw [hst] at h1 h2
    obtain ⟨f1, f2, f3, f4⟩ := hf t
    refine ⟨⟨fun f hne => (f1 f hne).trans (h1 f hne), ?_, ?_⟩, f2.trans h2⟩
    · intro r hr; simp only [Option.some.injEq] at hr; exact f3 r hr
    · intro he; simp only [Option.some.injEq] at he; exact f4 _ he rfl
  · rw [hst] at h1 h2
    refine ⟨⟨h1, by simp, ?_⟩, h2⟩
    intro he
    simp only [Option.some.injEq, Except.error.injEq] at he
    exact h3 e w hst he

end Verif
