import Verif.Lemmas.ConcurrentMain
import Verif.Props.Concurrent
import Verif.Props.Main
/-!
# Whole reductions at the same time (C138)
-/
namespace Verif
open FsProg Spec

/-- **C138.** By itself, the program of `main`, sensitivity analysis included, does what `main`
does (when the fuel is enough). -/
theorem C138_main_alone (p : MainIn) (w : World) (h : (runMain p w).1 ≠ none) :
    (mainP p w.limbo).alone w.fs = (((runMain p w).1, (runMain p w).2.limbo), (runMain p w).2.fs) := by
  unfold mainP
  unfold runMain at h ⊢
  by_cases h1 : ((p.method.bind methodOf).isSome && decide (p.targets = [])) = true
  · rw [if_pos h1, if_pos h1]; rfl
  · rw [if_neg h1] at h
    rw [if_neg h1, if_neg h1]
    by_cases h2 : ((decide (p.method = none) || decide (p.method = some "")) && !p.sensitivity) = true
    · rw [if_pos h2, if_pos h2]; rfl
    · rw [if_neg h2] at h
      rw [if_neg h2, if_neg h2]
      generalize p.method.bind methodOf = o at h ⊢
      rcases o with _ | m
      · dsimp only at h ⊢
        by_cases h3 : p.sensitivity = true
        · rw [if_pos h3] at h
          rw [if_pos h3, if_pos h3]
          exact alone_saStage _ _ _ _ _ w h
        · rw [if_neg h3, if_neg h3]; rfl
      · dsimp only at h ⊢
        have e := C138_alone m (p.ctx m) p.sim p.rnd p.limit p.dfuel p.fuel w
        rw [alone_bind, e]
        dsimp only
        generalize runMethodS m (p.ctx m) p.sim p.rnd p.limit p.dfuel p.fuel w = A at h ⊢
        obtain ⟨a, w1⟩ := A
        rcases a with _ | _ | r
        · rfl
        · rfl
        · dsimp only at h ⊢
          by_cases h3 : p.sensitivity = true
          · rw [if_pos h3] at h
            rw [if_pos h3, if_pos h3]
            exact alone_saStage _ _ _ _ _ w1 h
          · rw [if_neg h3, if_neg h3]; rfl

/-- **C138.** Two whole reductions at the same time, with or without sensitivity analysis, do not
disturb each other if their directories are apart, however their operations are interleaved:
each ends with the result it has by itself, its files are those it leaves by itself, and all
other files are untouched. -/
theorem C138_main_partial {p p' : MainIn} (A : Apart p p') (T : TmpNames p) (T' : TmpNames p') {w w' : World}
    (hfs : w'.fs = w.fs) (h : (runMain p w).1 ≠ none) (h' : (runMain p' w').1 ≠ none) (l : List Bool) :
    let x := both l (mainP p w.limbo) (mainP p' w'.limbo) w.fs
    (∀ a, x.1 = .done a → a = ((runMain p w).1, (runMain p w).2.limbo) ∧
      ∀ f, MainOwn p f → x.2.2 f = (runMain p w).2.fs f) ∧
    (∀ a, x.2.1 = .done a → a = ((runMain p' w').1, (runMain p' w').2.limbo) ∧
      ∀ f, MainOwn p' f → x.2.2 f = (runMain p' w').2.fs f) ∧
    ∀ f, ¬ MainOwn p f → ¬ MainOwn p' f → x.2.2 f = w.fs f := by
  intro x
  have hp := within_mainP T w.limbo
  have hq := within_mainP T' w'.limbo
  have d1 : ∀ f, MainOwn p f → ¬ MainOwn p' f := by
    rintro f (hf | hf)
    · rintro (hf' | hf')
      · exact ownFile_disjoint A.dir A.dir' A.ne hf hf'
      · exact A.tmp' f hf' (.inl hf)
    · exact A.tmp f hf
  have h1 : ∀ f, RunReads p f ∨ MainOwn p f → ¬ MainOwn p' f := by
    rintro f ((rfl | hf) | hf)
    · exact A.model
    · exact d1 f hf
    · exact d1 f hf
  have h2 : ∀ f, RunReads p' f ∨ MainOwn p' f → ¬ MainOwn p f := by
    rintro f ((rfl | hf) | hf)
    · exact A.model'
    · exact fun g => d1 f g hf
    · exact fun g => d1 f g hf
  obtain ⟨a1, a2⟩ := both_fst h1 l hp hq w.fs
  obtain ⟨b1, b2⟩ := both_snd h2 l hp hq w.fs
  have e1 := C138_main_alone p w h
  have e2 := C138_main_alone p' w' h'
  rw [hfs] at e2
  refine ⟨?_, ?_, both_others l hp hq w.fs⟩
  · intro a ha
    rw [e1] at a1 a2
    change (x.1.alone x.2.2).1 = _ at a1
    change ∀ f, _ → (x.1.alone x.2.2).2 f = _ at a2
    rw [ha] at a1 a2
    exact ⟨a1, fun f hf => a2 f (.inr hf)⟩
  · intro a ha
    rw [e2] at b1 b2
    change (x.2.1.alone x.2.2).1 = _ at b1
    change ∀ f, _ → (x.2.1.alone x.2.2).2 f = _ at b2
    rw [ha] at b1 b2
    exact ⟨b1, fun f hf => b2 f (.inr hf)⟩

/-- **C138.** Nor does one keep the other from ending. -/
theorem C138_main_ends_partial {p p' : MainIn} (A : Apart p p') (T : TmpNames p) (T' : TmpNames p')
    (dflt dflt' : List String) (fs : Fs) :
    ∃ N, ∀ l : List Bool, N ≤ l.count true → ∃ a, (both l (mainP p dflt) (mainP p' dflt') fs).1 = .done a := by
  refine ⟨_, fun l hl => both_ends ?_ l (within_mainP T dflt) (within_mainP T' dflt') fs hl⟩
  rintro f ((rfl | hf) | hf)
  · exact A.model
  · rcases hf with hf | hf
    · rintro (hf' | hf')
      · exact ownFile_disjoint A.dir A.dir' A.ne hf hf'
      · exact A.tmp' f hf' (.inl hf)
    · exact A.tmp f hf
  · rcases hf with hf | hf
    · rintro (hf' | hf')
      · exact ownFile_disjoint A.dir A.dir' A.ne hf hf'
      · exact A.tmp' f hf' (.inl hf)
    · exact A.tmp f hf

/-! ### a case -/

/-- the run of `Props/Main` with results and temporary files in directories of its own -/
def exMainIn (path tmp eval : Text) (method : String) : MainIn :=
  { exMain method [] with path := path, tmpDir := tmp, evalDir := fun _ => eval }

theorem head_under {dir f : Text} {c : Char} (h : Under (c :: dir) f) : f.head? = some c := by
  obtain ⟨t, rfl⟩ := h
  rfl

theorem head_own {c : Char} {dir f : Text} (h : OwnFile (c :: dir) f) : f.head? = some c := by
  obtain ⟨n, rfl⟩ := h
  rw [joinPath_reduced, if_neg (by simp)]
  split <;> rfl

/-- where the first character of a file of the run can be -/
theorem head_main {c1 c2 c3 : Char} {method : String} {f : Text}
    (h : MainOwn (exMainIn [c1] [c2] [c3] method) f) :
    f.head? = some c1 ∨ f.head? = some c2 ∨ f.head? = some c3 := by
  rcases h with h | h | ⟨_, h⟩
  · exact .inl (head_own h)
  · exact .inr (.inl (head_under h))
  · exact .inr (.inr (head_under h))

/-- The hypotheses of `C138_main_partial` are met in the directories `a` and `b`, with temporary
directories `s`, `t` and `u`, `v`. -/
theorem exMainIn_apart (method method' : String) :
    Apart (exMainIn ['a'] ['s'] ['t'] method) (exMainIn ['b'] ['u'] ['v'] method') where
  dir := .inr ⟨by simp [exMainIn], by simp [exMainIn]⟩
  dir' := .inr ⟨by simp [exMainIn], by simp [exMainIn]⟩
  ne := by change ['a'] ≠ ['b']; decide
  tmp := fun f h g => by
    have h' : f.head? = some 's' ∨ f.head? = some 't' := by
      rcases h with h | ⟨_, h⟩
      · exact .inl (head_under h)
      · exact .inr (head_under h)
    rcases head_main g with g | g | g <;> rcases h' with h | h <;> rw [g] at h <;> simp at h
  tmp' := fun f h g => by
    have h' : f.head? = some 'u' ∨ f.head? = some 'v' := by
      rcases h with h | ⟨_, h⟩
      · exact .inl (head_under h)
      · exact .inr (head_under h)
    rcases head_main g with g | g | g <;> rcases h' with h | h <;> rw [g] at h <;> simp at h
  model := fun g => by
    rcases head_main g with g | g | g <;> exact absurd g (by change ¬ some 'm' = _; decide)
  model' := fun g => by
    rcases head_main g with g | g | g <;> exact absurd g (by change ¬ some 'm' = _; decide)

example (method : String) (a s t : Char) (h : s ≠ '/') (h' : t ≠ '/') : TmpNames (exMainIn [a] [s] [t] method) :=
  ⟨⟨by simp [exMainIn], by simpa [exMainIn] using h⟩, fun _ => ⟨by simp [exMainIn], by simpa [exMainIn] using h'⟩⟩

/-- DRG and PFA, each with sensitivity analysis, taking turns there: `{C}` and `{A, C}` as when
they run alone (see `Props/Main`). -/
example :
    let x := both ((List.replicate 80 [true, false]).flatten)
      (mainP (exMainIn ['a'] ['s'] ['t'] "DRG") []) (mainP (exMainIn ['b'] ['u'] ['v'] "PFA") []) bsWorld.fs
    doneView x.1 = some (.ok (["C"], .fin 0)) ∧ doneView x.2.1 = some (.ok (["A", "C"], .fin 0)) := by
  decide +kernel

end Verif
