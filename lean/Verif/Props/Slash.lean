import Verif.Lemmas.Slash
import Verif.Spec.Slash
import Verif.Props.ConcurrentMain
/-!
# C148: sensitivity analysis whatever species are called
-/
namespace Verif
open Spec FsProg
variable {c : SACtx} {gone : Text → Bool} {fs : Fs} {sol : Mech} {sp : String} {limbo : List String}

theorem deeper_candidate (dir : Text) (h : '/' ∈ sp.toList) : deeper dir (dir ++ '/' :: candidateName sp) = true := by
  unfold deeper liesIn
  have h1 : (dir ++ '/' :: candidateName sp).drop (dir.length + 1) = candidateName sp := by
    rw [List.drop_append]; simp
  rw [h1]
  simp [(slash_candidateName sp).2 h]

/-- **C148, refuted.** If one candidate has a slash in its name, sensitivity analysis returns no model,
whatever the model, the limit and the simulations: the file for the model without that species would be in
a directory that does not exist.  All candidates are tried first, so nothing is removed before. -/
theorem C148_slash_refuted (F : FreshDirs c gone fs) (hw : fs c.modelFile = some sol)
    (hsp : sp ∈ saLimbo c.safe sol limbo) (hs : '/' ∈ sp.toList) (silent : Bool) (fuel : Nat) :
    ∃ e fs', saGone c gone silent limbo fuel fs = (some (.error e), fs') := by
  have key := slash_saP (silent := silent) (fuel := fuel) hw F.eval hsp
    (fun n => (F.missing _).2 (.inr ⟨n, deeper_candidate _ hs⟩)) F.nothing
  unfold saGone
  rcases hx : (saP c limbo fuel).aloneGone gone silent fs with ⟨_ | r, fs1⟩
  · exact ⟨_, _, rfl⟩
  · obtain ⟨e, l, rfl⟩ := key r (by rw [hx])
    exact ⟨e, fs1, rfl⟩

/-- **C148, refuted.** So `main` without a method returns no model of any file in which a species that is neither a target nor
retained has a slash in its name. -/
theorem C148_main_refuted {p : MainIn} (F : FreshDirs (p.saCtx p.modelFile (.fin 0)) gone fs)
    (hw : fs p.modelFile = some sol) (hm : p.method.bind methodOf = none) (hsp : sp ∈ sol.names)
    (ht : sp ∉ p.targets) (hsafe : sp ∉ p.safe) (hs : '/' ∈ sp.toList) (silent : Bool) (dflt : List String) :
    ∃ e fs', mainGone p gone silent dflt fs = (some (.error e), fs') := by
  have key := slash_saP (c := p.saCtx p.modelFile (.fin 0)) (silent := silent) (fuel := p.saFuel) (limbo := []) hw F.eval
    (by
      show sp ∈ saLimbo (p.targets ++ p.safe) sol []
      unfold saLimbo
      rw [if_pos rfl, List.mem_filter]
      simp [hsp, ht, hsafe])
    (fun n => (F.missing _).2 (.inr ⟨n, deeper_candidate _ hs⟩)) F.nothing
  unfold mainGone mainP
  rw [hm]
  by_cases h2 : ((decide (p.method = none) || decide (p.method = some "")) && !p.sensitivity) = true
  · rw [if_pos h2]
    exact ⟨_, _, rfl⟩
  rw [if_neg (by simp), if_neg h2]
  dsimp only
  by_cases h3 : p.sensitivity = true
  · rw [if_pos h3]
    unfold saStageP
    rw [gone_bind]
    rcases hx : (saP (p.saCtx p.modelFile (.fin 0)) [] p.saFuel).aloneGone gone silent fs with ⟨_ | r, fs1⟩
    · exact ⟨_, _, rfl⟩
    · obtain ⟨e, l, rfl⟩ := key r (by rw [hx])
      exact ⟨e, fs1, rfl⟩
  · rw [if_neg h3]
    exact ⟨_, _, rfl⟩

/-- **C148, what holds.** If no candidate has a slash in its name, the analysis does what it does without regard to
directories, also if other species do. -/
theorem C148_plain_partial {w : World} (F : FreshDirs c gone w.fs) (W : CanWrite c gone) (hw : w.fs c.modelFile = some sol)
    (hs : ∀ sp ∈ saLimbo c.safe sol limbo, '/' ∉ sp.toList) (silent : Bool) (fuel : Nat) {r : SAResult}
    (h : runSA c limbo fuel w = some r) :
    saGone c gone silent limbo fuel w.fs = (some r.result, r.w.fs) := by
  have key := plain_saP (gone := gone) (silent := silent) (W := fun f => gone f = false)
    ⟨F.tmp, F.eval, W.tmp, W.eval⟩ (fun _ h => h) W.own fuel hw hs
  unfold saGone
  rw [key]
  rw [alone_saP] at h
  generalize (saP c limbo fuel).alone w.fs = x at h
  rcases x with ⟨_ | x, fs1⟩
  · cases h
  · cases h
    rfl

/-- **C148, what holds.** DRG, DRGEP and PFA without sensitivity analysis do not use the names of species in file names:
they do what they do without regard to directories. -/
theorem C148_method_partial {p : MainIn} {w : World} (hgone : ∀ f, OwnFile p.path f → gone f = false) {m : Method}
    (hm : p.method.bind methodOf = some m) (hs : p.sensitivity = false) (silent : Bool) (h : (runMain p w).1 ≠ none) :
    mainGone p gone silent w.limbo w.fs = ((runMain p w).1, (runMain p w).2.fs) := by
  have hT : TouchesOnly (ReadsOf (p.ctx m)) (OwnFile p.path) (mainP p w.limbo) := by
    unfold mainP
    rw [hm]
    split
    · exact .done _
    split
    · exact .done _
    · dsimp only
      refine within_bind (within_methodP m (p.ctx m) p.sim p.rnd p.limit p.dfuel p.fuel w.limbo) fun x => ?_
      split
      · rw [if_neg (by simp [hs])]; exact .done _
      · exact .done _
  unfold mainGone
  rw [gone_same hT hgone, C138_main_alone p w h]

/-! ### a case -/

/-- sensitivity analysis of a model with the given species -/
def slashIn : MainIn := { exMainIn ['a'] ['s'] ['t'] "" with method := none }

/-- a file with a model of the given species -/
def slashFs (l : List String) : Fs := fun f => if f = "m.yaml".toList then some { exMainMech l with reactions := [] } else none

/-- no directories in `s` and `t` -/
def slashGone (f : Text) : Bool := deeper ['s'] f || deeper ['t'] f

theorem head_deeper {ch : Char} {f : Text} (h : deeper [ch] f = true) : f.head? = some ch := by
  unfold deeper at h
  rw [Bool.and_eq_true] at h
  exact head_under (liesIn_iff.1 h.1)

/-- The hypotheses of the theorems are met. -/
theorem slash_fresh (l : List String) (file : Text) (e : PyF) : FreshDirs (slashIn.saCtx file e) slashGone (slashFs l) where
  tmp := ⟨by simp [slashIn, exMainIn, MainIn.saCtx], by simp [slashIn, exMainIn, MainIn.saCtx]⟩
  eval := fun _ => ⟨by simp [slashIn, exMainIn, MainIn.saCtx], by simp [slashIn, exMainIn, MainIn.saCtx]⟩
  missing := fun f => by
    show (deeper ['s'] f || deeper ['t'] f) = true ↔ deeper ['s'] f = true ∨ ∃ _ : Nat, deeper ['t'] f = true
    simp
  nothing := fun f h => by
    unfold slashFs
    rw [if_neg]
    rintro rfl
    revert h
    decide +kernel

theorem slash_writable (file : Text) (e : PyF) : CanWrite (slashIn.saCtx file e) slashGone where
  tmp := fun rest h => by
    show (deeper ['s'] ('s' :: '/' :: rest) || deeper ['t'] ('s' :: '/' :: rest)) = false
    simp [deeper, liesIn, h]
  eval := fun _ rest h => by
    show (deeper ['s'] ('t' :: '/' :: rest) || deeper ['t'] ('t' :: '/' :: rest)) = false
    simp [deeper, liesIn, h]
  own := fun f h => by
    have h1 : f.head? = some 'a' := head_own h
    by_contra hc
    rw [Bool.not_eq_false] at hc
    unfold slashGone at hc
    rw [Bool.or_eq_true] at hc
    rcases hc with hc | hc <;> rw [head_deeper hc] at h1 <;> simp at h1

/-- A species `B` is removed; called `B/2`, it makes the run fail. -/
example : ((mainGone slashIn slashGone true [] (slashFs ["A", "B", "C"])).1.map fun r =>
      match r with | .ok r => r.model.names | .error _ => []) = some ["A", "C"] ∧
    ((mainGone slashIn slashGone true [] (slashFs ["A", "B/2", "C"])).1.map fun r =>
      match r with | .ok r => r.model.names | .error _ => []) = some [] := by
  decide +kernel

end Verif
