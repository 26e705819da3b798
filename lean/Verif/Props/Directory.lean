import Verif.Lemmas.Directory
import Verif.Spec.Directory
import Verif.Props.ConcurrentMain
/-!
# C147: a run whose directory for results does not exist
-/
namespace Verif
open Spec FsProg

theorem Spec.Missing.nothing {p : MainIn} {fs : Fs} (M : Missing p fs) : NoneThere (liesIn p.path) fs :=
  fun f hf => M.empty f (liesIn_iff.1 hf)

theorem Spec.Missing.results {p : MainIn} {fs : Fs} (M : Missing p fs) : Results (liesIn p.path) p.path where
  own := by
    rintro f ⟨n, rfl⟩
    rw [liesIn_iff, joinPath_reduced, if_neg M.name.1, if_neg M.name.2]
    exact ⟨reducedName n, by simp⟩

/-- **C147, what holds.** With a method, alone or followed by sensitivity analysis, a run whose
directory for results is missing returns no model and changes no file, whether or not cantera
reports that it could not write. -/
theorem C147_method_partial {p : MainIn} {fs : Fs} (M : Missing p fs) {m : Method}
    (hm : p.method.bind methodOf = some m) (silent : Bool) (dflt : List String) :
    (∀ r, (mainGone p (liesIn p.path) silent dflt fs).1 ≠ some (.ok r)) ∧ (mainGone p (liesIn p.path) silent dflt fs).2 = fs := by
  unfold mainGone mainP
  rw [hm]
  by_cases h1 : ((some m).isSome && decide (p.targets = [])) = true
  · rw [if_pos h1]; exact ⟨by (intro r h; cases h), rfl⟩
  rw [if_neg h1]
  by_cases h2 : ((decide (p.method = none) || decide (p.method = some "")) && !p.sensitivity) = true
  · rw [if_pos h2]; exact ⟨by (intro r h; cases h), rfl⟩
  · rw [if_neg h2]
    dsimp only
    clear h1 h2
    obtain ⟨h1, h2⟩ := noModel_methodP (silent := silent) (gone := liesIn p.path) m (c := p.ctx m) M.results p.sim p.rnd
      p.limit p.dfuel p.fuel dflt M.nothing
    rw [gone_bind]
    generalize (methodP m (p.ctx m) p.sim p.rnd p.limit p.dfuel p.fuel dflt).aloneGone (liesIn p.path) silent fs = x at h1 h2
    rcases x with ⟨_ | ⟨o, l⟩, fs1⟩
    · obtain rfl : fs1 = fs := h1
      exact ⟨by (intro r h; cases h), rfl⟩
    · obtain rfl : fs1 = fs := h1
      have h3 := h2 _ rfl
      rcases o with _ | e | r
      · exact ⟨by (intro r h; cases h), rfl⟩
      · exact ⟨by (intro r h; cases h), rfl⟩
      · exact absurd rfl (h3 r)

theorem gone_main_sa {p : MainIn} {fs : Fs} (M : Missing p fs) (T : TmpNames p) (hm : p.method.bind methodOf = none)
    (silent : Bool) (dflt : List String) :
    (silent = true → (mainGone p (liesIn p.path) silent dflt fs).1 = ((mainP p dflt).alone fs).1.1) ∧
    (silent = false → ∀ r, (mainGone p (liesIn p.path) silent dflt fs).1 ≠ some (.ok r)) ∧
    ∀ f, ¬ InTmp p f → (mainGone p (liesIn p.path) silent dflt fs).2 f = fs f := by
  unfold mainGone mainP
  rw [hm]
  split_ifs
  · exact ⟨fun _ => rfl, by (intro _ r h; cases h), fun _ _ => rfl⟩
  · exact ⟨fun _ => rfl, by (intro _ r h; cases h), fun _ _ => rfl⟩
  · unfold saStageP
    have hT : TmpOf (p.saCtx p.modelFile (.fin 0)) (fun _ => True) (InTmp p) :=
      ⟨T.tmp, T.eval, fun _ _ => trivial, fun _ h => .inl h, fun _ _ _ => trivial, fun n _ h => .inr ⟨n, h⟩⟩
    obtain ⟨h1, h2, h3⟩ := gone_saP (silent := silent) hT (fun f h => by rw [← Bool.not_eq_true, liesIn_iff]; exact M.tmp f h) M.results [] p.saFuel M.nothing
    rw [gone_bind, alone_bind]
    generalize (saP (p.saCtx p.modelFile (.fin 0)) [] p.saFuel).aloneGone (liesIn p.path) silent fs = x at h1 h2 h3
    generalize (saP (p.saCtx p.modelFile (.fin 0)) [] p.saFuel).alone fs = y at h1
    rcases x with ⟨_ | _ | ⟨o, l⟩, fs1⟩ <;> dsimp only at h1 h2 h3 ⊢
    · exact ⟨fun hs => by (cases h1 hs), by (intro _ r h; cases h), h3⟩
    · refine ⟨fun hs => ?_, by (intro _ r h; cases h), h3⟩
      rw [← Option.some.inj (h1 hs)]
      rfl
    · refine ⟨fun hs => ?_, ?_, h3⟩
      · rw [← Option.some.inj (h1 hs)]
        rfl
      · intro hs r h
        have : o = .ok r := Option.some.inj h
        exact h2 hs r l (by rw [this])
  · exact ⟨fun _ => rfl, by (intro _ r h; cases h), fun _ _ => rfl⟩

/-- **C147, what holds.** Where cantera reports that a file could not be written, no run whose
directory for results is missing returns a model, and files outside the temporary directories are
as before. -/
theorem C147_reported_partial {p : MainIn} {fs : Fs} (M : Missing p fs) (T : TmpNames p) (dflt : List String) :
    (∀ r, (mainGone p (liesIn p.path) false dflt fs).1 ≠ some (.ok r)) ∧
    ∀ f, ¬ InTmp p f → (mainGone p (liesIn p.path) false dflt fs).2 f = fs f := by
  rcases hm : p.method.bind methodOf with _ | m
  · obtain ⟨_, h2, h3⟩ := gone_main_sa M T hm false dflt
    exact ⟨h2 rfl, h3⟩
  · obtain ⟨h1, h2⟩ := C147_method_partial M hm false dflt
    exact ⟨h1, fun f _ => by rw [h2]⟩

/-- **C147, refuted.** Where cantera does not report it, sensitivity analysis without a method
returns in a missing directory exactly what it returns in an existing one, and in particular a model
whenever it would there; but no file is below the directory afterwards, so the name in that model is
that of no file. -/
theorem C147_analysis_refuted {p : MainIn} {w : World} (M : Missing p w.fs) (T : TmpNames p)
    (hm : p.method.bind methodOf = none) (h : (runMain p w).1 ≠ none) :
    (mainGone p (liesIn p.path) true w.limbo w.fs).1 = (runMain p w).1 ∧
    (∀ f, Under p.path f → (mainGone p (liesIn p.path) true w.limbo w.fs).2 f = none) ∧
    ∀ f, ¬ InTmp p f → (mainGone p (liesIn p.path) true w.limbo w.fs).2 f = w.fs f := by
  obtain ⟨h1, _, h3⟩ := gone_main_sa M T hm true w.limbo
  refine ⟨?_, fun f hf => ?_, h3⟩
  · rw [h1 rfl, C138_main_alone p w h]
  · rw [h3 f fun ht => M.tmp f ht hf, M.empty f hf]

/-! ### a case -/

/-- The hypotheses are met in the directory `a`, with temporary directories `s` and `t`. -/
theorem exMainIn_missing (method : String) : Missing (exMainIn ['a'] ['s'] ['t'] method) bsWorld.fs where
  name := ⟨by simp [exMainIn], by simp [exMainIn]⟩
  empty := by
    intro f hf
    have h : f.head? = some 'a' := head_under hf
    change (if f = "m.yaml".toList then some bsSol else none) = none
    rw [if_neg]
    rintro rfl
    exact absurd h (by decide +kernel)
  tmp := fun f h g => by
    have g' : f.head? = some 'a' := head_under g
    rcases h with h | ⟨_, h⟩
    · have : f.head? = some 's' := head_under h
      rw [g'] at this; simp at this
    · have : f.head? = some 't' := head_under h
      rw [g'] at this; simp at this

/-- with DRG there, an error -/
example (silent : Bool) : (mainGone (exMainIn ['a'] ['s'] ['t'] "DRG") (liesIn ['a']) silent [] bsWorld.fs).1.map
    (fun r => match r with | .ok _ => true | .error _ => false) = some false := by
  cases silent <;> decide +kernel

/-- sensitivity analysis alone there: a model, and nothing in `a` -/
example : (mainGone { exMainIn ['a'] ['s'] ['t'] "" with method := none } (liesIn ['a']) true [] bsWorld.fs).1.map
    (fun r => match r with | .ok r => (r.model.names, r.filename) | .error _ => ([], [])) =
      some (["A", "C"], "reduced_2.yaml".toList) := by
  decide +kernel

example : TmpNames (exMainIn ['a'] ['s'] ['t'] "") ∧
    ({ exMainIn ['a'] ['s'] ['t'] "" with method := none } : MainIn).method.bind methodOf = none ∧
    (runMain { exMainIn ['a'] ['s'] ['t'] "" with method := none } bsWorld).1.isSome = true :=
  ⟨⟨⟨by simp [exMainIn], by simp [exMainIn]⟩, fun _ => ⟨by simp [exMainIn], by simp [exMainIn]⟩⟩, rfl,
    by decide +kernel⟩

end Verif
