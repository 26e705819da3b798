import Verif.Lemmas.Directory
/-!
# Species names with a slash in file names
-/
namespace Verif
open FsProg Spec
variable {gone : Text → Bool} {silent : Bool}

/-- a program writes only files in `W`; it may read and remove any -/
inductive Writes {α} (W : Text → Prop) : FsProg α → Prop
  | done (a : α) : Writes W (.done a)
  | read {f : Text} {k : Option Mech → FsProg α} : (∀ o, Writes W (k o)) → Writes W (.read f k)
  | look {f : Text} {k : Bool → FsProg α} : (∀ b, Writes W (k b)) → Writes W (.look f k)
  | write {f : Text} {m : Mech} {k : FsProg α} : W f → Writes W k → Writes W (.write f m k)
  | remove {f : Text} {k : Bool → FsProg α} : (∀ b, Writes W (k b)) → Writes W (.remove f k)
  | clean {dir : Text} {k : FsProg α} : Writes W k → Writes W (.clean dir k)

theorem writes_same {α} {W : Text → Prop} {p : FsProg α} (hp : Writes W p) (hW : ∀ f, W f → gone f = false) (fs : Fs) :
    p.aloneGone gone silent fs = (some (p.alone fs).1, (p.alone fs).2) := by
  induction hp generalizing fs with
  | done a => rfl
  | read _ ih => exact ih _ _
  | look _ ih => exact ih _ _
  | write h _ ih =>
    simp only [aloneGone, alone]
    rw [hW _ h]
    exact ih _
  | remove _ ih => exact ih _ _
  | clean _ ih => exact ih _

theorem writes_bind_ends {α β} {W : Text → Prop} {Q : α → Prop} {p : FsProg α} {g : α → FsProg β}
    (hp : Writes W p) (he : Ends Q p) (hg : ∀ a, Q a → Writes W (g a)) : Writes W (p.bind g) := by
  induction hp with
  | done a => cases he with | done h => exact hg a h
  | read _ ih => cases he with | read h' => exact .read fun o => ih o (h' o)
  | look _ ih => cases he with | look h' => exact .look fun o => ih o (h' o)
  | write h _ ih => cases he with | write h' => exact .write h (ih h')
  | remove _ ih => cases he with | remove h' => exact .remove fun o => ih o (h' o)
  | clean _ ih => cases he with | clean h' => exact .clean (ih h')

theorem writes_bind {α β} {W : Text → Prop} {p : FsProg α} {g : α → FsProg β}
    (hp : Writes W p) (hg : ∀ a, Writes W (g a)) : Writes W (p.bind g) :=
  writes_bind_ends hp (ends_true p) fun a _ => hg a

theorem writes_writeP {W : Text → Prop} {out : Text} (m : Mech) (h : W out) : Writes W (writeP m out) := by
  unfold writeP
  refine .look fun o => ?_
  split
  · refine .remove fun b => ?_
    split
    · exact .write h (.done _)
    · exact .done _
  · exact .write h (.done _)

/-- files in the directory itself may be written -/
def DirectIn (W : Text → Prop) (dir : Text) : Prop := ∀ rest : Text, '/' ∉ rest → W (dir ++ '/' :: rest)

theorem yamlName_candidate {dir : Text} (hd : dir ≠ [] ∧ dir.getLast? ≠ some '/') (m : Mech) (sp : String) :
    yamlName m (candidateName sp) dir = dir ++ '/' :: candidateName sp := by
  unfold yamlName
  rw [if_neg (candidateName_ne sp)]
  unfold joinPath
  rw [candidateName_head, if_neg (by decide), if_neg hd.1, if_neg hd.2]

theorem slash_candidateName (sp : String) : '/' ∈ candidateName sp ↔ '/' ∈ sp.toList := by
  unfold candidateName
  have h1 : '/' ∉ "reduced_model_".toList := by decide +kernel
  have h2 : '/' ∉ ".yaml".toList := by decide +kernel
  simp only [List.mem_append]
  tauto

theorem writes_tryRemoveP (c : SACtx) (initial : List PyF) {W : Text → Prop} {file dir : Text} {sp : String}
    (hd : dir ≠ [] ∧ dir.getLast? ≠ some '/') (hW : DirectIn W dir) (hs : '/' ∉ sp.toList) :
    Writes W (tryRemoveP c initial file dir sp) := by
  unfold tryRemoveP
  refine .read fun o => ?_
  split
  · exact .done _
  · rename_i sol
    refine writes_bind (writes_writeP _ ?_) fun x => ?_
    · rw [yamlName_candidate hd]
      exact hW _ (fun h => hs ((slash_candidateName sp).1 h))
    · split
      · exact .done _
      · refine .read fun o => ?_
        split
        · exact .done _
        · split <;> exact .done _

theorem writes_evalLoopP (c : SACtx) (initial : List PyF) {W : Text → Prop} {file dir : Text} {l : List String}
    (hd : dir ≠ [] ∧ dir.getLast? ≠ some '/') (hW : DirectIn W dir) (hs : ∀ sp ∈ l, '/' ∉ sp.toList) :
    Writes W (evalLoopP c initial file dir l) := by
  induction l with
  | nil => exact .done _
  | cons sp rest ih =>
    unfold evalLoopP
    refine writes_bind (writes_tryRemoveP c initial hd hW (hs sp (by simp))) fun x => ?_
    split
    · exact .done _
    · refine writes_bind (ih fun s h => hs s (by simp [h])) fun y => ?_
      split <;> exact .done _

/-- files in the temporary directories may be written -/
structure TmpDirect (c : SACtx) (W : Text → Prop) : Prop where
  tmp : c.tmpDir ≠ [] ∧ c.tmpDir.getLast? ≠ some '/'
  eval : ∀ n, c.evalDir n ≠ [] ∧ (c.evalDir n).getLast? ≠ some '/'
  tmpW : DirectIn W c.tmpDir
  evalW : ∀ n, DirectIn W (c.evalDir n)

variable {c : SACtx} {W : Text → Prop}

theorem writes_evalSpeciesP (T : TmpDirect c W) (initial : List PyF) {file : Text} {l : List String}
    (hs : ∀ sp ∈ l, '/' ∉ sp.toList) : Writes W (evalSpeciesP c initial file l) := by
  unfold evalSpeciesP
  exact writes_bind (writes_evalLoopP c initial (T.eval _) (T.evalW _) hs) fun r => .clean (.done _)

/-- the candidates left have no slash in their names -/
def NextPlain : SANext → Prop
  | .more v => ∀ sp ∈ v.limbo, '/' ∉ sp.toList
  | .stop _ => True
  | .raise _ _ => True

theorem writes_saStepP (T : TmpDirect c W) (initial : List PyF) {v : SAVars} (hs : ∀ sp ∈ v.limbo, '/' ∉ sp.toList) :
    Writes W (saStepP c initial v) := by
  unfold saStepP
  split
  · exact .done _
  · split
    · exact .done _
    · rename_i idx _ _ sp hsp
      refine writes_bind (writes_tryRemoveP c initial T.tmp T.tmpW (hs sp (List.mem_of_getElem? hsp))) fun x => ?_
      split
      · exact .done _
      · split
        · exact .done _
        · split
          · refine writes_bind (writes_evalSpeciesP T initial fun s h => hs s (List.mem_of_mem_eraseIdx h)) fun y => ?_
            split
            · exact .done _
            · split <;> exact .done _
          · exact .done _

theorem plain_saStepP (initial : List PyF) {v : SAVars} (hs : ∀ sp ∈ v.limbo, '/' ∉ sp.toList) :
    Ends NextPlain (saStepP c initial v) := by
  unfold saStepP
  split
  · exact .done trivial
  · split
    · exact .done trivial
    · refine ends_bind (ends_true _) fun x _ => ?_
      split
      · exact .done trivial
      · split
        · exact .done trivial
        · split
          · refine ends_bind (ends_true _) fun y _ => ?_
            split
            · exact .done trivial
            · split
              · exact .done trivial
              · refine .done ?_
                split
                · trivial
                · exact fun s h => hs s (List.mem_of_mem_eraseIdx h)
          · exact .done fun s h => hs s (List.mem_of_mem_eraseIdx h)

theorem writes_saLoopP (T : TmpDirect c W) (initial : List PyF) (fuel : Nat) {v : SAVars}
    (hs : ∀ sp ∈ v.limbo, '/' ∉ sp.toList) : Writes W (saLoopP c initial fuel v) := by
  induction fuel generalizing v with
  | zero => exact .done _
  | succ k ih =>
    unfold saLoopP
    split
    · exact .done _
    · refine writes_bind_ends (writes_saStepP T initial hs) (plain_saStepP initial hs) fun x hx => ?_
      split
      · exact .done _
      · exact .done _
      · exact ih hx

theorem plain_saP (T : TmpDirect c W) (hW : ∀ f, W f → gone f = false) (hown : ∀ f, OwnFile c.path f → W f)
    {limbo : List String} (fuel : Nat) {fs : Fs} {sol : Mech} (hw : fs c.modelFile = some sol)
    (hs : ∀ sp ∈ saLimbo c.safe sol limbo, '/' ∉ sp.toList) :
    (saP c limbo fuel).aloneGone gone silent fs = (some ((saP c limbo fuel).alone fs).1, ((saP c limbo fuel).alone fs).2) := by
  unfold saP
  simp only [aloneGone, alone, hw]
  split
  · rfl
  · refine writes_same (W := W) (writes_bind (writes_evalSpeciesP T _ hs) fun x => ?_) hW fs
    split
    · exact .done _
    · refine writes_bind (writes_saLoopP T _ _ hs) fun y => ?_
      split
      · exact .done _
      · exact .clean (.done _)
      · refine .clean ?_
        rename_i v
        have ho := ownFile_yamlName v.cur.model v.cur.model.nSpecies c.path
        refine writes_bind (writes_writeP _ (hown _ ho)) fun z => ?_
        split <;> exact .done _

/-- what is missing stays missing -/
theorem gone_nothing {α} (p : FsProg α) {fs : Fs} (hn : NoneThere gone fs) :
    NoneThere gone (p.aloneGone gone silent fs).2 := by
  induction p generalizing fs with
  | done a => exact hn
  | read f k ih => exact ih _ hn
  | look f k ih => exact ih _ hn
  | write f m k ih =>
    simp only [aloneGone]
    split_ifs with h1 h2
    · exact ih hn
    · exact hn
    · refine ih fun g hg => ?_
      unfold Fs.put
      rw [if_neg (by rintro rfl; exact h1 hg)]
      exact hn g hg
  | remove f k ih =>
    refine ih _ fun g hg => ?_
    unfold Fs.put
    split_ifs
    · rfl
    · exact hn g hg
  | clean dir k ih =>
    refine ih fun g hg => ?_
    unfold Fs.clean
    split_ifs
    · rfl
    · exact hn g hg

theorem slash_tryRemoveP (c : SACtx) (initial : List PyF) {file dir : Text} {sp : String}
    (hd : dir ≠ [] ∧ dir.getLast? ≠ some '/') (hg : gone (dir ++ '/' :: candidateName sp) = true) {fs : Fs}
    (hn : NoneThere gone fs) : ∀ x, ((tryRemoveP c initial file dir sp).aloneGone gone silent fs).1 ≠ some (.ok x) := by
  intro x h
  unfold tryRemoveP at h
  simp only [aloneGone] at h
  split at h
  · cases h
  · rw [gone_bind, yamlName_candidate hd, gone_writeP hg _ (hn _ hg)] at h
    cases silent
    · cases h
    · simp only [if_true, aloneGone, hn _ hg] at h
      cases h

theorem slash_evalLoopP (c : SACtx) (initial : List PyF) {file dir : Text} {l : List String}
    (hd : dir ≠ [] ∧ dir.getLast? ≠ some '/') {sp : String} (hsp : sp ∈ l)
    (hg : gone (dir ++ '/' :: candidateName sp) = true) {fs : Fs} (hn : NoneThere gone fs) :
    ∀ x, ((evalLoopP c initial file dir l).aloneGone gone silent fs).1 ≠ some (.ok x) := by
  induction l generalizing fs with
  | nil => cases hsp
  | cons s rest ih =>
    intro x h
    unfold evalLoopP at h
    rw [gone_bind] at h
    have hn' := gone_nothing (silent := silent) (tryRemoveP c initial file dir s) hn
    rcases hx : (tryRemoveP c initial file dir s).aloneGone gone silent fs with ⟨_ | e | y, fs1⟩
    · rw [hx] at h; cases h
    · rw [hx] at h; cases h
    · rw [hx] at h hn'
      dsimp only at h hn'
      by_cases hs : s = sp
      · subst hs
        exact slash_tryRemoveP c initial hd hg hn y (by rw [hx])
      · have hmem : sp ∈ rest := by simpa [Ne.symm hs] using hsp
        rw [gone_bind] at h
        have := ih hmem hn'
        rcases hy : (evalLoopP c initial file dir rest).aloneGone gone silent fs1 with ⟨_ | e | z, fs2⟩
        · rw [hy] at h; cases h
        · rw [hy] at h; cases h
        · exact this z (by rw [hy])

theorem slash_saP {limbo : List String} {fuel : Nat} {fs : Fs} {sol : Mech} (hw : fs c.modelFile = some sol)
    (hd : ∀ n, c.evalDir n ≠ [] ∧ (c.evalDir n).getLast? ≠ some '/') {sp : String} (hsp : sp ∈ saLimbo c.safe sol limbo)
    (hg : ∀ n, gone (c.evalDir n ++ '/' :: candidateName sp) = true) (hn : NoneThere gone fs) :
    ∀ r, ((saP c limbo fuel).aloneGone gone silent fs).1 = some r → ∃ e l, r = some (.error e, l) := by
  intro r h
  unfold saP at h
  simp only [aloneGone, hw] at h
  split at h
  · exact ⟨_, _, (Option.some.inj h).symm⟩
  · rename_i initial _
    rw [gone_bind] at h
    unfold evalSpeciesP at h
    rw [gone_bind] at h
    have key := slash_evalLoopP (silent := silent) c initial (file := c.modelFile) (hd (saLimbo c.safe sol limbo).length) hsp (hg _) hn
    rcases hy : (evalLoopP c initial c.modelFile (c.evalDir (saLimbo c.safe sol limbo).length)
      (saLimbo c.safe sol limbo)).aloneGone gone silent fs with ⟨_ | e | z, fs2⟩
    · rw [hy] at h; cases h
    · rw [hy] at h
      simp only [aloneGone] at h
      exact ⟨_, _, (Option.some.inj h).symm⟩
    · exact absurd (by rw [hy]) (key z)

end Verif
