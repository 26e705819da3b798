import Verif.Spec.Files
import Verif.Lemmas.Trim
import Verif.Lemmas.ReduceRun
import Verif.Lemmas.ReduceMethod
/-!
The files of the threshold loop: what each iteration writes and deletes.  The model file may be one of
the numbered files.
-/
namespace Verif
open Spec

/-- the model file holds the starting model, perhaps under another name of the phase -/
def StillThere (c : Ctx) (sol : Mech) (w : World) : Prop := 
  ∃ x y, (y = sol.thermo ∨ y = idealGas) ∧ w.fs c.modelFile = some { sol with name := x, thermo := y }

/-- what a reduction step does when the starting model is in place -/
structure FileSteps (c : Ctx) (sol : Mech) (reduce : ReduceFn) (kept : ℚ → String → Prop)
    (short : ℚ → Nat → Prop) (limbo : ℚ → Option (List String)) : Prop where
  fresh : ∀ t w, StillThere c sol w →
    reduce t none w = (.ok (freshResult c sol kept limbo t),
      w.set (redFile c (candidate c sol kept t).nSpecies) (some (candidate c sol kept t)))
  reuse : ∀ t w p, StillThere c sol w → short t p.model.nSpecies → reduce t (some p) w = (.ok p, w)
  build : ∀ t w p, StillThere c sol w → ¬ short t p.model.nSpecies →
    reduce t (some p) w = reduce t none w
  missing : ∀ t p w, w.fs c.modelFile = none → reduce t p w = (.error .runtimeError, w)
  anti : ∀ t t' s, t ≤ t' → kept t' s → kept t s
  short_full : ∀ t, short t sol.nSpecies → ∀ s ∈ sol.names, kept t s
  short_prev : ∀ t t', t' ≤ t → short t (candidate c sol kept t').nSpecies →
    ∀ s ∈ sol.names, kept t' s → kept t s
  closed : Closed sol

/-- one file replaced or deleted -/
def putFile (c : Ctx) (fs : Text → Option Mech) (n : Nat) (x : Option Mech) : Text → Option Mech :=
  fun g => if g = redFile c n then x else fs g

theorem set_putFile (c : Ctx) (w : World) (n : Nat) (x : Option Mech) :
    (w.set (redFile c n) x).fs = putFile c w.fs n x := rfl

section
variable {c : Ctx} {sol : Mech} {reduce : ReduceFn} {kept : ℚ → String → Prop}
  {short : ℚ → Nat → Prop} {limbo : ℚ → Option (List String)}

theorem candidate_le (t : ℚ) : (candidate c sol kept t).nSpecies ≤ sol.nSpecies := by
  have := removed_length c sol kept t
  omega

theorem candidate_full_iff (t : ℚ) : (candidate c sol kept t).nSpecies = sol.nSpecies ↔
    ∀ s ∈ sol.names, kept t s := by
  classical
  have := removed_length c sol kept t
  constructor
  · intro h
    have h0 : (sol.names.filter (fun s => ¬ kept t s)).length = 0 := by omega
    intro s hs
    have := List.filter_eq_nil_iff.1 (List.eq_nil_of_length_eq_zero h0) s hs
    simpa using this
  · intro h
    have h0 : (sol.names.filter (fun s => ¬ kept t s)) = [] := by
      apply List.filter_eq_nil_iff.2
      intro s hs
      simpa using h s hs
    rw [h0] at this
    simpa using this

theorem candidate_size_anti (A : ∀ t t' s, t ≤ t' → kept t' s → kept t s) {t t' : ℚ} (h : t ≤ t') :
    (candidate c sol kept t').nSpecies ≤ (candidate c sol kept t).nSpecies := by
  classical
  rw [Mech.nSpecies_eq, Mech.nSpecies_eq, candidate_names, candidate_names]
  refine (List.monotone_filter_right _ ?_).length_le
  intro s hs
  have : kept t' s := by simpa using hs
  simpa using A t t' s h this

theorem candidate_same_size (A : ∀ t t' s, t ≤ t' → kept t' s → kept t s) (hn : sol.names.Nodup) {t t' : ℚ}
    (h : (candidate c sol kept t').nSpecies = (candidate c sol kept t).nSpecies) :
    candidate c sol kept t' = candidate c sol kept t := by
  have key : ∀ t t' : ℚ, t ≤ t' → (candidate c sol kept t').nSpecies = (candidate c sol kept t).nSpecies →
      candidate c sol kept t' = candidate c sol kept t := by
    intro t t' hle h
    have hsub : (candidate c sol kept t').names ⊆ (candidate c sol kept t).names := by
      intro s hs
      rw [mem_candidate_names] at hs ⊢
      exact ⟨hs.1, A t t' s hle hs.2⟩
    have := subset_of_length (candidate_names_nodup _ _ hn) hsub
      (by rw [← Mech.nSpecies_eq, ← Mech.nSpecies_eq, h])
    apply candidate_congr
    intro s hs
    exact ⟨A t t' s hle, fun hk => (mem_candidate_names.1 (this (mem_candidate_names.2 ⟨hs, hk⟩))).2⟩
  rcases le_total t t' with hle | hle
  · exact key t t' hle h
  · exact (key t' t hle h.symm).symm

theorem trim_nothing (hc : Closed sol) (f p : Text) :
    ∃ x, trim sol [] f p = { sol with name := x, thermo := idealGas } := by
  obtain ⟨h1, h2⟩ := trim_noop sol [] f p hc (by simp)
  refine ⟨(trim sol [] f p).name, ?_⟩
  rcases sol with ⟨a, b, d, e, n⟩
  unfold trim at h1 h2 ⊢
  dsimp only at h1 h2 ⊢
  rw [h1] at h2 ⊢
  rw [h2]

theorem Rep.size {r : RModel} {t : ℚ} (h : Rep c sol kept r t) :
    r.model.nSpecies = (candidate c sol kept t).nSpecies := by
  rcases h with ⟨h1, -⟩ | ⟨h1, -, h3⟩
  · rw [h1]
  · rw [h1, (candidate_full_iff t).2 h3]

/-- writing the candidate does not lose the starting model -/
theorem FileSteps.keep_set (B : FileSteps c sol reduce kept short limbo) (t : ℚ) {w : World}
    (hnm : redFile c (candidate c sol kept t).nSpecies = c.modelFile →
      (candidate c sol kept t).nSpecies = sol.nSpecies) (h : StillThere c sol w) : StillThere c sol
      (w.set (redFile c (candidate c sol kept t).nSpecies) (some (candidate c sol kept t))) := by
  by_cases hc : redFile c (candidate c sol kept t).nSpecies = c.modelFile
  · obtain ⟨x, hx⟩ := trim_nothing B.closed ("reduced_".toList ++ c.modelFile) c.phase
    refine ⟨x, idealGas, Or.inr rfl, ?_⟩
    rw [hc]
    rw [candidate_full ((candidate_full_iff t).1 (hnm hc)), hx]
    simp [World.set]
  · obtain ⟨x, y, hy, hx⟩ := h
    exact ⟨x, y, hy, by rw [World.set_fs_ne _ _ _ _ (Ne.symm hc)]; exact hx⟩

/-- deleting a candidate of another size than the previous one does not lose the starting model -/
theorem FileSteps.keep_del (B : FileSteps c sol reduce kept short limbo) {t : ℚ} {p : RModel} {w : World}
    (hp : PrevOk c sol kept p t) (hn : p.model.nSpecies ≠ (candidate c sol kept t).nSpecies)
    (hnm : redFile c (candidate c sol kept t).nSpecies = c.modelFile →
      (candidate c sol kept t).nSpecies = sol.nSpecies) (h : StillThere c sol w) :
    StillThere c sol (w.set (redFile c (candidate c sol kept t).nSpecies) none) := by
  by_cases hc : redFile c (candidate c sol kept t).nSpecies = c.modelFile
  · exfalso
    have h1 := hnm hc
    rcases hp with ⟨t', hle, h2, -⟩ | ⟨h2, -⟩
    · have h3 : (candidate c sol kept t).nSpecies ≤ (candidate c sol kept t').nSpecies :=
        candidate_size_anti B.anti hle
      have h4 : (candidate c sol kept t').nSpecies ≤ sol.nSpecies := candidate_le t'
      rw [h2] at hn
      omega
    · rw [h2] at hn
      omega
  · obtain ⟨x, y, hy, hx⟩ := h
    exact ⟨x, y, hy, by rw [World.set_fs_ne _ _ _ _ (Ne.symm hc)]; exact hx⟩

/-- one reduction inside the loop -/
theorem FileSteps.step (B : FileSteps c sol reduce kept short limbo) {p : RModel} {t : ℚ} {w : World}
    (hp : PrevOk c sol kept p t) (hw : StillThere c sol w) :
    (short t p.model.nSpecies → reduce t (some p) w = (.ok p, w) ∧ Rep c sol kept p t) ∧
    (¬ short t p.model.nSpecies → reduce t (some p) w = (.ok (freshResult c sol kept limbo t),
      w.set (redFile c (candidate c sol kept t).nSpecies) (some (candidate c sol kept t)))) := by
  refine ⟨fun hs => ⟨B.reuse t w p hw hs, ?_⟩, fun hs => (B.build t w p hw hs).trans (B.fresh t w hw)⟩
  rcases hp with ⟨t', hle, h1, h2⟩ | ⟨h1, h2⟩
  · left
    rw [h1] at hs
    have : candidate c sol kept t' = candidate c sol kept t := by
      apply candidate_congr
      intro s hsn
      exact ⟨B.short_prev t t' hle hs s hsn, B.anti t' t s hle⟩
    rw [← this]
    exact ⟨h1, h2⟩
  · right
    rw [h1] at hs
    exact ⟨h1, h2, B.short_full t hs⟩

/-! ### files along a run -/

/-- files after `j` rejected starting thresholds -/
noncomputable def afterStart (c : Ctx) (sol : Mech) (kept : ℚ → String → Prop) (rnd : ℚ → ℚ)
    (fs : Text → Option Mech) : Nat → Text → Option Mech
  | 0 => fs
  | j + 1 => putFile c (afterStart c sol kept rnd fs j) (candidate c sol kept (startThr rnd j)).nSpecies
      (some (candidate c sol kept (startThr rnd j)))

/-- size of the previous model at the `i`-th threshold above the `j`-th start -/
noncomputable def prevSize (c : Ctx) (sol : Mech) (kept : ℚ → String → Prop) (rnd : ℚ → ℚ) (j : Nat) : Nat → Nat
  | 0 => sol.nSpecies
  | i + 1 => (candidate c sol kept (gridThr rnd j i)).nSpecies

open Classical in
/-- files after `i` thresholds above the `j`-th start -/
noncomputable def afterGrid (c : Ctx) (sol : Mech) (kept : ℚ → String → Prop) (short : ℚ → Nat → Prop)
    (rnd : ℚ → ℚ) (fs : Text → Option Mech) (j : Nat) : Nat → Text → Option Mech
  | 0 => afterStart c sol kept rnd fs j
  | i + 1 =>
      let before := afterGrid c sol kept short rnd fs j i
      let t := gridThr rnd j i
      if short t (prevSize c sol kept rnd j i) then before
      else putFile c before (candidate c sol kept t).nSpecies
        (if prevSize c sol kept rnd j i = (candidate c sol kept t).nSpecies then some (candidate c sol kept t)
         else none)

structure Files1 (c : Ctx) (sol : Mech) (kept : ℚ → String → Prop) (rnd : ℚ → ℚ) (fs : Text → Option Mech)
    (j : Nat) (s : LoopState) : Prop where
  first : s.first = true
  errCur : s.errCur = .fin 0
  thr : s.thr = startThr rnd j
  inc : s.inc = startThr rnd j
  prevm : s.prev.model = sol
  preve : s.prev.error = .fin 0
  there : StillThere c sol s.w
  files : s.w.fs = afterStart c sol kept rnd fs j

structure Files2 (c : Ctx) (sol : Mech) (kept : ℚ → String → Prop) (short : ℚ → Nat → Prop) (rnd : ℚ → ℚ)
    (fs : Text → Option Mech) (j k : Nat) (s : LoopState) : Prop where
  first : s.first = false
  errCur : s.errCur = s.prev.error
  thr : s.thr = gridThr rnd j (k + 1)
  inc : s.inc = startThr rnd j
  last : s.last = some s.prev
  rep : Rep c sol kept s.prev (gridThr rnd j k)
  there : StillThere c sol s.w
  files : s.w.fs = afterGrid c sol kept short rnd fs j (k + 1)

variable {rnd : ℚ → ℚ} {ex : ℚ} {limit : PyF} {fs : Text → Option Mech}

theorem putFile_twice (c : Ctx) (f : Text → Option Mech) (n : Nat) (x y : Option Mech) :
    putFile c (putFile c f n x) n y = putFile c f n y := by
  funext g
  unfold putFile
  by_cases h : g = redFile c n <;> simp [h]

/-- an accepted iteration, from either phase -/
theorem accept_step (B : FileSteps c sol reduce kept short limbo) {j i : Nat} {s : LoopState}
    (hle : s.errCur.le limit = true) (hthr : s.thr = gridThr rnd j i) (hinc : s.inc = startThr rnd j)
    (hp : PrevOk c sol kept s.prev (gridThr rnd j i)) (hps : s.prev.model.nSpecies = prevSize c sol kept rnd j i)
    (hw : StillThere c sol s.w) (hfs : s.w.fs = afterGrid c sol kept short rnd fs j i)
    (hnm : redFile c (candidate c sol kept (gridThr rnd j i)).nSpecies = c.modelFile →
      (candidate c sol kept (gridThr rnd j i)).nSpecies = sol.nSpecies)
    (hno : ∀ r, Rep c sol kept r (gridThr rnd j i) → (s.first && limit.lt r.error) = false) :
    ∃ s', loopStep reduce rnd ex limit s = .running s' ∧ Files2 c sol kept short rnd fs j i s' := by
  rw [← hthr] at hp hno hnm
  obtain ⟨b1, b2⟩ := B.step hp hw
  by_cases hs : short s.thr s.prev.model.nSpecies
  · obtain ⟨e, hr⟩ := b1 hs
    refine ⟨{ first := false, errCur := s.prev.error, thr := rnd (s.thr + s.inc), inc := s.inc,
              prev := s.prev, last := some s.prev, w := s.w }, ?_, ?_⟩
    · unfold loopStep
      rw [if_pos hle, e]
      dsimp only
      rw [hno _ hr, if_neg (by simp), if_neg (by simp)]
    · refine ⟨rfl, rfl, ?_, hinc, rfl, hthr ▸ hr, hw, ?_⟩
      · simp [gridThr, hthr, hinc]
      · dsimp only
        unfold afterGrid
        dsimp only
        rw [if_pos (by rw [← hthr, ← hps]; exact hs)]
        exact hfs
  · have e := b2 hs
    have hr : Rep c sol kept (freshResult c sol kept limbo s.thr) s.thr := Or.inl ⟨rfl, rfl⟩
    have hs' : ¬ short (gridThr rnd j i) (prevSize c sol kept rnd j i) := by rw [← hthr, ← hps]; exact hs
    by_cases hn : s.prev.model.nSpecies ≠ (candidate c sol kept s.thr).nSpecies
    · refine ⟨{ first := false, errCur := (freshResult c sol kept limbo s.thr).error,
                thr := rnd (s.thr + s.inc), inc := s.inc, prev := freshResult c sol kept limbo s.thr,
                last := some (freshResult c sol kept limbo s.thr),
                w := (s.w.set (redFile c (candidate c sol kept s.thr).nSpecies)
                  (some (candidate c sol kept s.thr))).set (redFile c (candidate c sol kept s.thr).nSpecies) none },
                ?_, ?_⟩
      · unfold loopStep
        rw [if_pos hle, e]
        dsimp only
        rw [hno _ hr, if_neg (by simp),
          if_pos (show s.prev.model.nSpecies ≠ (freshResult c sol kept limbo s.thr).model.nSpecies from hn)]
        have : removeFile (s.w.set (redFile c (candidate c sol kept s.thr).nSpecies)
            (some (candidate c sol kept s.thr))) (freshResult c sol kept limbo s.thr).filename = (.ok (),
            (s.w.set (redFile c (candidate c sol kept s.thr).nSpecies)
            (some (candidate c sol kept s.thr))).set (redFile c (candidate c sol kept s.thr).nSpecies) none) := by
          rw [removeFile, if_pos (by simp [freshResult])]
          rfl
        rw [this]
      · refine ⟨rfl, rfl, ?_, hinc, rfl, hthr ▸ hr, B.keep_del hp hn hnm (B.keep_set _ hnm hw), ?_⟩
        · simp [gridThr, hthr, hinc]
        · dsimp only
          unfold afterGrid
          dsimp only
          rw [if_neg hs', if_neg (by rw [← hps, ← hthr]; exact hn), set_putFile, set_putFile, putFile_twice,
            hfs, hthr]
    · push Not at hn
      refine ⟨{ first := false, errCur := (freshResult c sol kept limbo s.thr).error,
                thr := rnd (s.thr + s.inc), inc := s.inc, prev := freshResult c sol kept limbo s.thr,
                last := some (freshResult c sol kept limbo s.thr),
                w := s.w.set (redFile c (candidate c sol kept s.thr).nSpecies)
                  (some (candidate c sol kept s.thr)) }, ?_, ?_⟩
      · unfold loopStep
        rw [if_pos hle, e]
        dsimp only
        rw [hno _ hr, if_neg (by simp),
          if_neg (show ¬ s.prev.model.nSpecies ≠ (freshResult c sol kept limbo s.thr).model.nSpecies from
            fun h => h hn)]
      · refine ⟨rfl, rfl, ?_, hinc, rfl, hthr ▸ hr, B.keep_set _ hnm hw, ?_⟩
        · simp [gridThr, hthr, hinc]
        · dsimp only
          unfold afterGrid
          dsimp only
          rw [if_neg hs', if_pos (by rw [← hps, ← hthr]; exact hn), set_putFile, hfs, hthr]

theorem files1_reject (B : FileSteps c sol reduce kept short limbo) (hl : LimitOk c sol limit) {j : Nat}
    {s : LoopState} (h : Files1 c sol kept rnd fs j s) (he : Exceeds c sol kept limit (startThr rnd j))
    (hnm : redFile c (candidate c sol kept (startThr rnd j)).nSpecies = c.modelFile →
      (candidate c sol kept (startThr rnd j)).nSpecies = sol.nSpecies) :
    (startThr rnd (j + 1) ≤ ex → ∃ w, loopStep reduce rnd ex limit s = .raised .systemExit w ∧
      w.fs = afterStart c sol kept rnd fs (j + 1)) ∧
    (¬ startThr rnd (j + 1) ≤ ex → ∃ s', loopStep reduce rnd ex limit s = .running s' ∧
      Files1 c sol kept rnd fs (j + 1) s') := by
  have hp : PrevOk c sol kept s.prev s.thr := Or.inr ⟨h.prevm, h.preve⟩
  obtain ⟨b1, b2⟩ := B.step hp h.there
  have hle : s.errCur.le limit = true := by rw [h.errCur]; exact hl.nonneg
  by_cases hs : short s.thr s.prev.model.nSpecies
  · exfalso
    obtain ⟨-, hr⟩ := b1 hs
    rw [h.thr] at hr
    have := (hr.lt_iff hl).2 he
    rw [h.preve, PyF.not_lt_of_le hl.nonneg] at this
    cases this
  · have e := b2 hs
    have hr : Rep c sol kept (freshResult c sol kept limbo s.thr) s.thr := Or.inl ⟨rfl, rfl⟩
    have hlt : limit.lt (freshResult c sol kept limbo s.thr).error = true := by
      rw [hr.lt_iff hl, h.thr]; exact he
    have hfs : (s.w.set (redFile c (candidate c sol kept s.thr).nSpecies)
        (some (candidate c sol kept s.thr))).fs = afterStart c sol kept rnd fs (j + 1) := by
      rw [set_putFile, h.files, h.thr]; rfl
    constructor
    · intro hx
      refine ⟨_, ?_, hfs⟩
      unfold loopStep
      rw [if_pos hle, e]
      dsimp only
      rw [if_pos (by rw [h.first, hlt]; rfl), if_pos (by rw [h.thr]; exact hx)]
    · intro hx
      refine ⟨{ s with errCur := .fin 0, thr := rnd (s.thr / 10), inc := rnd (s.inc / 10),
                       last := some (freshResult c sol kept limbo s.thr),
                       w := s.w.set (redFile c (candidate c sol kept s.thr).nSpecies)
                        (some (candidate c sol kept s.thr)) }, ?_, ?_⟩
      · unfold loopStep
        rw [if_pos hle, e]
        dsimp only
        rw [if_pos (by rw [h.first, hlt]; rfl), if_neg (by rw [h.thr]; exact hx)]
      · exact ⟨h.first, rfl, by simp [h.thr, startThr], by simp [h.inc, startThr], h.prevm, h.preve,
          B.keep_set _ (by rw [h.thr]; exact hnm) h.there, hfs⟩

theorem files1_accept (B : FileSteps c sol reduce kept short limbo) (hl : LimitOk c sol limit) {j : Nat}
    {s : LoopState} (h : Files1 c sol kept rnd fs j s) (he : ¬ Exceeds c sol kept limit (startThr rnd j))
    (hnm : redFile c (candidate c sol kept (startThr rnd j)).nSpecies = c.modelFile →
      (candidate c sol kept (startThr rnd j)).nSpecies = sol.nSpecies) :
    ∃ s', loopStep reduce rnd ex limit s = .running s' ∧ Files2 c sol kept short rnd fs j 0 s' := by
  refine accept_step B (by rw [h.errCur]; exact hl.nonneg) h.thr h.inc (Or.inr ⟨h.prevm, h.preve⟩)
    (by rw [h.prevm]; rfl) h.there h.files hnm ?_
  intro r hr
  rw [Bool.and_eq_false_iff]
  right
  rw [← Bool.not_eq_true, hr.lt_iff hl]
  exact he

theorem files2_accept (B : FileSteps c sol reduce kept short limbo) (hl : LimitOk c sol limit) {j k : Nat}
    (hmono : gridThr rnd j k ≤ gridThr rnd j (k + 1)) {s : LoopState}
    (h : Files2 c sol kept short rnd fs j k s) (hm : Meets c sol kept limit (gridThr rnd j k))
    (hnm : redFile c (candidate c sol kept (gridThr rnd j (k + 1))).nSpecies = c.modelFile →
      (candidate c sol kept (gridThr rnd j (k + 1))).nSpecies = sol.nSpecies) :
    ∃ s', loopStep reduce rnd ex limit s = .running s' ∧ Files2 c sol kept short rnd fs j (k + 1) s' := by
  refine accept_step B (by rw [h.errCur]; exact (h.rep.le_iff hl).2 hm) h.thr h.inc (h.rep.prevOk hmono)
    (by rw [h.rep.size]; rfl) h.there h.files hnm ?_
  intro r hr
  rw [h.first]
  rfl

theorem files2_left (hl : LimitOk c sol limit) {j k : Nat} {s : LoopState}
    (h : Files2 c sol kept short rnd fs j k s) (hm : ¬ Meets c sol kept limit (gridThr rnd j k)) :
    loopStep reduce rnd ex limit s = .left s := by
  unfold loopStep
  rw [if_neg (by rw [h.errCur, h.rep.le_iff hl]; exact hm)]

/-- how a run ends, with the files it leaves -/
inductive FilesEnd (c : Ctx) (sol : Mech) (kept : ℚ → String → Prop) (short : ℚ → Nat → Prop)
    (limbo : ℚ → Option (List String)) (rnd : ℚ → ℚ) (ex : ℚ) (limit : PyF) (fs : Text → Option Mech) :
    RunResult → Prop
  | running (w : World) : FilesEnd c sol kept short limbo rnd ex limit fs (none, w)
  | exit (j : Nat) (w : World) (h1 : ∀ i ≤ j, Exceeds c sol kept limit (startThr rnd i))
      (h3 : startThr rnd (j + 1) ≤ ex) (hw : w.fs = afterStart c sol kept rnd fs (j + 1)) :
      FilesEnd c sol kept short limbo rnd ex limit fs (some (.error .systemExit), w)
  | done (j k : Nat) (w : World) (h1 : ∀ i < j, Exceeds c sol kept limit (startThr rnd i))
      (h2 : ∀ i ≤ k, Meets c sol kept limit (gridThr rnd j i))
      (h3 : Exceeds c sol kept limit (gridThr rnd j (k + 1)))
      (h4 : ∀ i ≤ j, i ≠ 0 → ¬ startThr rnd i ≤ ex)
      (hs : StillThere c sol w)
      (hw : w.fs = putFile c (afterGrid c sol kept short rnd fs j (k + 2))
        (candidate c sol kept (finalThr rnd j k)).nSpecies (some (candidate c sol kept (finalThr rnd j k)))) :
      FilesEnd c sol kept short limbo rnd ex limit fs
        (some (.ok (freshResult c sol kept limbo (finalThr rnd j k))), w)
  | undefined (j k : Nat) (w : World) :
      FilesEnd c sol kept short limbo rnd ex limit fs (some (.error .attributeError), w)

theorem files_phase2 (B : FileSteps c sol reduce kept short limbo) (hl : LimitOk c sol limit)
    (hnm : ∀ n, redFile c n = c.modelFile → n = sol.nSpecies)
    (hmono : ∀ j k, gridThr rnd j k ≤ gridThr rnd j (k + 1))
    {finish : LoopState → Except Err RModel × World} (hf : FinishOk reduce limit rnd c.path finish)
    {j : Nat} (hx : ∀ i < j, Exceeds c sol kept limit (startThr rnd i))
    (hx2 : ∀ i ≤ j, i ≠ 0 → ¬ startThr rnd i ≤ ex)
    (hn : ¬ Exceeds c sol kept limit (startThr rnd j))
    (fuel : Nat) : ∀ (k : Nat) (s : LoopState), Files2 c sol kept short rnd fs j k s →
      (∀ i < k, Meets c sol kept limit (gridThr rnd j i)) →
      FilesEnd c sol kept short limbo rnd ex limit fs (runWith reduce finish rnd ex limit fuel s) := by
  induction fuel with
  | zero => intro k s _ _; exact .running _
  | succ fuel ih =>
    intro k s h hk
    by_cases hm : Meets c sol kept limit (gridThr rnd j k)
    · obtain ⟨s', e1, e2⟩ := files2_accept (ex := ex) B hl (hmono j k) h hm (hnm _)
      have := ih (k + 1) s' e2 (by
        intro i hi
        rcases Nat.lt_succ_iff_lt_or_eq.1 hi with h | rfl
        · exact hk i h
        · exact hm)
      unfold runWith whileLoop
      rw [e1]
      exact this
    · have e := files2_left (reduce := reduce) (ex := ex) hl h hm
      unfold runWith whileLoop
      rw [e]
      dsimp only
      obtain ⟨f1, f2⟩ := hf s h.last h.errCur
      by_cases he : Exceeds c sol kept limit (gridThr rnd j k)
      · obtain ⟨k', rfl⟩ : ∃ k', k = k' + 1 := by
          rcases k with _ | k'
          · exact absurd he hn
          · exact ⟨k', rfl⟩
        rw [f1 ((h.rep.lt_iff hl).2 he), B.fresh _ _ h.there]
        have hb : backStep rnd s = finalThr rnd j k' := by
          simp [backStep, finalThr, h.thr, h.inc]
        rw [hb]
        refine .done j k' _ hx (fun i hi => hk i (by omega)) he hx2 (B.keep_set _ (hnm _) h.there) ?_
        rw [set_putFile, h.files]
      · have := f2 (by rw [← Bool.not_eq_true, h.rep.lt_iff hl]; exact he)
        rw [this]
        exact .undefined j k _

theorem files_phase1 (B : FileSteps c sol reduce kept short limbo) (hl : LimitOk c sol limit)
    (hnm : ∀ n, redFile c n = c.modelFile → n = sol.nSpecies)
    (hmono : ∀ j k, gridThr rnd j k ≤ gridThr rnd j (k + 1))
    {finish : LoopState → Except Err RModel × World} (hf : FinishOk reduce limit rnd c.path finish)
    (fuel : Nat) : ∀ (j : Nat) (s : LoopState), Files1 c sol kept rnd fs j s →
      (∀ i < j, Exceeds c sol kept limit (startThr rnd i)) →
      (∀ i ≤ j, i ≠ 0 → ¬ startThr rnd i ≤ ex) →
      FilesEnd c sol kept short limbo rnd ex limit fs (runWith reduce finish rnd ex limit fuel s) := by
  induction fuel with
  | zero => intro j s _ _ _; exact .running _
  | succ fuel ih =>
    intro j s h hj hj2
    by_cases he : Exceeds c sol kept limit (startThr rnd j)
    · obtain ⟨s1, s2⟩ := files1_reject (ex := ex) B hl h he (hnm _)
      have hj' : ∀ i ≤ j, Exceeds c sol kept limit (startThr rnd i) := by
        intro i hi
        rcases Nat.lt_or_eq_of_le hi with h | rfl
        · exact hj i h
        · exact he
      by_cases hx : startThr rnd (j + 1) ≤ ex
      · obtain ⟨w, e, hw⟩ := s1 hx
        unfold runWith whileLoop
        rw [e]
        exact .exit j _ hj' hx hw
      · obtain ⟨s', e1, e2⟩ := s2 hx
        have := ih (j + 1) s' e2 (fun i hi => hj' i (by omega)) (by
          intro i hi hi0
          rcases Nat.lt_or_eq_of_le hi with h | rfl
          · exact hj2 i (by omega) hi0
          · exact hx)
        unfold runWith whileLoop
        rw [e1]
        exact this
    · obtain ⟨s', e1, e2⟩ := files1_accept (ex := ex) (short := short) B hl h he (hnm _)
      have := files_phase2 (ex := ex) B hl hnm hmono hf hj hj2 he fuel 0 s' e2 (by intro i hi; omega)
      unfold runWith whileLoop
      rw [e1]
      exact this

/-- every run ends in one of the four ways and leaves these files -/
theorem files_end (B : FileSteps c sol reduce kept short limbo) (hl : LimitOk c sol limit)
    (hnm : ∀ n, redFile c n = c.modelFile → n = sol.nSpecies)
    (hmono : ∀ j k, gridThr rnd j k ≤ gridThr rnd j (k + 1))
    {finish : LoopState → Except Err RModel × World} (hf : FinishOk reduce limit rnd c.path finish)
    (fuel : Nat) {w : World} (hw : w.fs c.modelFile = some sol) :
    FilesEnd c sol kept short limbo rnd ex limit w.fs
      (runWith reduce finish rnd ex limit fuel (loopInit rnd sol c.modelFile w)) :=
  files_phase1 B hl hnm hmono hf fuel 0 _ ⟨rfl, rfl, rfl, rfl, rfl, rfl, ⟨sol.name, sol.thermo, Or.inl rfl, hw⟩, rfl⟩
    (by intro i hi; omega) (by intro i hi h; omega)

end

/-! ### the three methods -/

theorem reduceDrg_steps {c : Ctx} {sol : Mech} (hn : sol.names.Nodup) (ht : ∀ t ∈ c.targets, t ∈ sol.names)
    (hcl : Closed sol) :
    FileSteps c sol (reduceDrg c) (KeptDrg c sol) (ShortDrg c sol) (fun _ => limboDrg c sol) where
  fresh t w hw := by
    obtain ⟨x, y, -, hx⟩ := hw
    exact reduceDrg_fresh' (sol := { sol with name := x, thermo := y }) hn ht t w hx none (by simp)
  reuse t w p hw hs := by
    obtain ⟨x, y, -, hx⟩ := hw
    obtain ⟨ret, h1, h2⟩ := hs
    rw [reduceDrg_eq]
    rw [loadModel_ok hx]
    dsimp only
    rw [show ({ sol with name := x, thermo := y } : Mech).names = sol.names from rfl, h1]
    dsimp only
    simp only [sameCount, h2, if_true]
  build t w p hw hs := by
    obtain ⟨x, y, -, hx⟩ := hw
    rw [reduceDrg_fresh' (sol := { sol with name := x, thermo := y }) hn ht t w hx none (by simp),
      reduceDrg_fresh' (sol := { sol with name := x, thermo := y }) hn ht t w hx (some p)]
    intro q hq
    obtain rfl : p = q := by simpa using hq
    exact hs
  missing t p w hw := by
    rw [reduceDrg_eq, show loadModel w c.modelFile = .error .runtimeError by unfold loadModel; rw [hw]]
  anti t t' s h hk := keptDrg_anti c sol t t' s h hk
  short_full := shortDrg_full' hn ht
  short_prev := shortDrg_prev' hn ht
  closed := hcl

theorem reducePfa_steps {c : Ctx} {sol : Mech} (hn : sol.names.Nodup) (ht : ∀ t ∈ c.targets, t ∈ sol.names)
    (hu : truthy c.upper = none ∨ c.matrices ≠ [])
    (hcl : Closed sol) :
    FileSteps c sol (reducePfa c) (KeptDrg c sol) (ShortDrg c sol) (fun _ => some []) where
  fresh t w hw := by
    obtain ⟨x, y, -, hx⟩ := hw
    exact reducePfa_fresh' (sol := { sol with name := x, thermo := y }) hn ht hu t w hx none (by simp)
  reuse t w p hw hs := by
    obtain ⟨x, y, -, hx⟩ := hw
    obtain ⟨ret, h1, h2⟩ := hs
    rw [reducePfa_eq]
    rw [loadModel_ok hx]
    dsimp only
    rw [show ({ sol with name := x, thermo := y } : Mech).names = sol.names from rfl, h1]
    dsimp only
    simp only [sameCount, h2, if_true]
  build t w p hw hs := by
    obtain ⟨x, y, -, hx⟩ := hw
    rw [reducePfa_fresh' (sol := { sol with name := x, thermo := y }) hn ht hu t w hx none (by simp),
      reducePfa_fresh' (sol := { sol with name := x, thermo := y }) hn ht hu t w hx (some p)]
    intro q hq
    obtain rfl : p = q := by simpa using hq
    exact hs
  missing t p w hw := by
    rw [reducePfa_eq, show loadModel w c.modelFile = .error .runtimeError by unfold loadModel; rw [hw]]
  anti t t' s h hk := keptDrg_anti c sol t t' s h hk
  short_full := shortDrg_full' hn ht
  short_prev := shortDrg_prev' hn ht
  closed := hcl

theorem reduceDrgep_steps {c : Ctx} {sol : Mech} {imp : String → Option ℚ} (hn : sol.names.Nodup)
    (hi : ∀ s ∈ sol.names, (imp s).isSome)
    (hcl : Closed sol) :
    FileSteps c sol (reduceDrgep c imp) (KeptDrgep c imp) (ShortDrgep c sol imp) (fun _ => none) where
  fresh t w hw := by
    obtain ⟨x, y, -, hx⟩ := hw
    exact reduceDrgep_fresh (sol := { sol with name := x, thermo := y }) hi t w hx none (by simp)
  reuse t w p hw hs := by
    obtain ⟨x, y, -, hx⟩ := hw
    obtain ⟨ret, h1, h2⟩ := hs
    rw [reduceDrgep_eq]
    rw [loadModel_ok hx]
    dsimp only
    rw [show ({ sol with name := x, thermo := y } : Mech).names = sol.names from rfl, h1]
    dsimp only
    rw [show ({ sol with name := x, thermo := y } : Mech).nSpecies = sol.nSpecies from rfl, if_pos h2]
  build t w p hw hs := by
    obtain ⟨x, y, -, hx⟩ := hw
    rw [reduceDrgep_fresh (sol := { sol with name := x, thermo := y }) hi t w hx none (by simp),
      reduceDrgep_fresh (sol := { sol with name := x, thermo := y }) hi t w hx (some p)]
    intro q hq
    obtain rfl : p = q := by simpa using hq
    exact hs
  missing t p w hw := by
    rw [reduceDrgep_eq, show loadModel w c.modelFile = .error .runtimeError by unfold loadModel; rw [hw]]
  anti t t' s h hk := keptDrgep_anti c imp t t' s h hk
  short_full := shortDrgep_full hi
  short_prev := shortDrgep_prev hn hi
  closed := hcl

theorem FileSteps.congr {c : Ctx} {sol : Mech} {reduce : ReduceFn} {kept kept' : ℚ → String → Prop}
    {short : ℚ → Nat → Prop} {limbo : ℚ → Option (List String)}
    (B : FileSteps c sol reduce kept short limbo) (hk : ∀ t, ∀ s ∈ sol.names, kept t s ↔ kept' t s)
    (hanti : ∀ t t' s, t ≤ t' → kept' t' s → kept' t s) : FileSteps c sol reduce kept' short limbo := by
  have hc : ∀ t, candidate c sol kept t = candidate c sol kept' t := by
    classical
    intro t
    rw [candidate_eq, candidate_eq]
    congr 1
    apply List.filter_congr
    intro s hs
    simp [hk t s hs]
  refine ⟨?_, B.reuse, B.build, B.missing, hanti, ?_, ?_, B.closed⟩
  · intro t w hw
    have := B.fresh t w hw
    unfold freshResult at this ⊢
    rw [hc t] at this
    exact this
  · intro t h s hs
    exact (hk t s hs).1 (B.short_full t h s hs)
  · intro t t' hle h s hs h'
    rw [← hc] at h
    exact (hk t s hs).1 (B.short_prev t t' hle h s hs ((hk t' s hs).2 h'))

/-- when a method takes the previous model of `n` species for the candidate at `t` -/
def ReusedAt (m : Method) (c : Ctx) (sol : Mech) (short : ℚ → Nat → Prop) : Prop :=
  match m with
  | .drgep => ∀ t n, short t n ↔ n = candSize m c sol t
  | _ => ∀ t n, short t n ↔ ∃ ret, retained c.matrices sol.names c.targets t = .ok ret ∧ ret.length = n

/-- a run of a method is a run of the generic loop, files included -/
structure IsFileRun (m : Method) (c : Ctx) (sol : Mech) (dfuel : Nat) (reduce : ReduceFn)
    (finish : (ℚ → ℚ) → PyF → LoopState → Except Err RModel × World)
    (short : ℚ → Nat → Prop) (limbo : ℚ → Option (List String)) : Prop where
  steps : FileSteps c sol reduce (Kept m c sol) short limbo
  finishOk : ∀ rnd limit, FinishOk reduce limit rnd c.path (finish rnd limit)
  eqErr : ∀ rnd limit fuel w e w', w.fs c.modelFile = some sol →
    runWith reduce (finish rnd limit) rnd (exitThr m rnd) limit fuel (loopInit rnd sol c.modelFile w) =
      (some (.error e), w') → runMethod m c rnd limit dfuel fuel w = (some (.error e), w')
  reused : ReusedAt m c sol short
  eq : (∀ n, redFile c n = c.modelFile → n = sol.nSpecies) → ∀ rnd limit, LimitOk c sol limit → (∀ j k, gridThr rnd j k ≤ gridThr rnd j (k + 1)) →
    ∀ fuel w, w.fs c.modelFile = some sol →
    (runMethod m c rnd limit dfuel fuel w).1 =
      (runWith reduce (finish rnd limit) rnd (exitThr m rnd) limit fuel (loopInit rnd sol c.modelFile w)).1 ∧
    (runMethod m c rnd limit dfuel fuel w).2.fs =
      (runWith reduce (finish rnd limit) rnd (exitThr m rnd) limit fuel (loopInit rnd sol c.modelFile w)).2.fs

theorem method_isFileRun {m : Method} {c : Ctx} {sol : Mech} (U : AnyStart m c sol) :
    ∃ N, ∀ dfuel ≥ N, ∃ reduce finish short limbo,
      IsFileRun m c sol dfuel reduce finish short limbo := by
  cases m with
  | drg =>
    refine ⟨0, fun dfuel _ => ⟨_, fun rnd limit => finishDrg (reduceDrg c) rnd limit c.path, _, _,
      reduceDrg_steps U.nodup U.targets U.closed, fun rnd limit => finishDrg_ok _, ?_, fun t n => Iff.rfl, ?_⟩⟩
    · intro rnd limit fuel w e w' hw h
      show runDrg c rnd limit fuel w = _
      rw [runDrg_eq, loadModel_ok hw]
      dsimp only
      rw [if_neg U.target]
      exact h
    intro _ rnd limit _ _ fuel w hw
    show (runDrg c rnd limit fuel w).1 = _ ∧ (runDrg c rnd limit fuel w).2.fs = _
    rw [runDrg_eq, loadModel_ok hw]
    dsimp only
    rw [if_neg U.target]
    exact ⟨rfl, rfl⟩
  | pfa =>
    refine ⟨0, fun dfuel _ => ⟨_, fun rnd limit => finishOther (reducePfa c) rnd limit c.path, _, _,
      reducePfa_steps U.nodup U.targets (U.upper rfl) U.closed, fun rnd limit => finishOther_ok _,
      ?_, fun t n => Iff.rfl, ?_⟩⟩
    · intro rnd limit fuel w e w' hw h
      show runPfa c rnd limit fuel w = _
      rw [runPfa_eq, loadModel_ok hw]
      dsimp only
      rw [if_neg U.target]
      exact h
    intro _ rnd limit _ _ fuel w hw
    show (runPfa c rnd limit fuel w).1 = _ ∧ (runPfa c rnd limit fuel w).2.fs = _
    rw [runPfa_eq, loadModel_ok hw]
    dsimp only
    rw [if_neg U.target]
    exact ⟨rfl, rfl⟩
  | drgep =>
    obtain ⟨N, imp, h1, -, h3⟩ := C16_importance (U.unit rfl).1 U.nodup U.targets (U.unit rfl).2
    have hi : ∀ s ∈ sol.names, (imp s).isSome := by
      intro s hs
      obtain ⟨x, hx, -⟩ := h3 s hs
      rw [hx]; rfl
    have hk : ∀ t, ∀ s ∈ sol.names, KeptDrgep c imp t s ↔ Kept .drgep c sol t s := by
      intro t s hs
      obtain ⟨x, hx, hg⟩ := h3 s hs
      exact keptDrgep_iff hx hg t
    have B := (reduceDrgep_steps (c := c) U.nodup hi U.closed).congr hk (by
      rintro t t' s hle (⟨y, hy, hl⟩ | h2)
      · exact Or.inl ⟨y, hy, hle.trans hl⟩
      · exact Or.inr h2)
    refine ⟨N, fun dfuel hd => ⟨_, fun rnd limit => finishOther (reduceDrgep c imp) rnd limit c.path,
      _, _, B, fun rnd limit => finishOther_ok _, ?_, ?_, ?_⟩⟩
    · intro rnd limit fuel w e w' hw h
      show runDrgep c rnd limit dfuel fuel w = _
      have h : runWith (reduceDrgep c imp) (finishOther (reduceDrgep c imp) rnd limit c.path) rnd
        (rnd (1 / 1000000)) limit fuel (loopInit rnd sol c.modelFile w) = _ := h
      rw [runDrgep_eq, loadModel_ok hw]
      dsimp only
      rw [if_neg U.target, h1 dfuel hd]
      dsimp only
      rw [h]
    · intro t n
      classical
      have hc : candidate c sol (KeptDrgep c imp) t = candidate c sol (Kept .drgep c sol) t := by
        rw [candidate_eq, candidate_eq]
        congr 1
        apply List.filter_congr
        intro s hs
        simp [hk t s hs]
      have hlen := removed_length c sol (KeptDrgep c imp) t
      unfold candSize
      rw [← hc]
      unfold ShortDrgep
      rw [removedDrgep_spec c imp t _ hi]
      constructor
      · rintro ⟨rem, e, h⟩
        simp only [Except.ok.injEq] at e
        rw [← e] at h
        omega
      · intro h
        refine ⟨_, rfl, ?_⟩
        omega
    · intro hnm rnd limit hl hmono fuel w hw
      show (runDrgep c rnd limit dfuel fuel w).1 = _ ∧ (runDrgep c rnd limit dfuel fuel w).2.fs = _
      have hend := files_end (ex := rnd (1 / 1000000)) B hl hnm hmono (finish := finishOther (reduceDrgep c imp) rnd limit c.path)
        (finishOther_ok _) fuel hw
      rw [runDrgep_eq, loadModel_ok hw]
      dsimp only
      rw [if_neg U.target, h1 dfuel hd]
      dsimp only
      show _ = (runWith (reduceDrgep c imp) (finishOther (reduceDrgep c imp) rnd limit c.path) rnd
        (rnd (1 / 1000000)) limit fuel (loopInit rnd sol c.modelFile w)).1 ∧ _ =
        (runWith (reduceDrgep c imp) (finishOther (reduceDrgep c imp) rnd limit c.path) rnd
        (rnd (1 / 1000000)) limit fuel (loopInit rnd sol c.modelFile w)).2.fs
      generalize runWith (reduceDrgep c imp) (finishOther (reduceDrgep c imp) rnd limit c.path) rnd
        (rnd (1 / 1000000)) limit fuel (loopInit rnd sol c.modelFile w) = x at hend ⊢
      cases hend with
      | running w => exact ⟨rfl, rfl⟩
      | exit => exact ⟨rfl, rfl⟩
      | undefined => exact ⟨rfl, rfl⟩
      | done => exact ⟨rfl, rfl⟩

end Verif
