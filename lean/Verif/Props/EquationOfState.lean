import Verif.Lemmas.EquationOfState
import Verif.Props.Provenance
import Verif.Props.FullMain
import Verif.Model.MainRound
import Verif.Lemmas.FullStart
import Verif.Lemmas.ReduceFiles
/-!
# The thermodynamic model (C144)
-/
namespace Verif
open Spec

/-- Refutes C144: whatever the equation of state of the starting model, what a run with a method returns is an ideal gas. -/
theorem C144_ideal_refuted {p : MainIn} {w w' : World} {r : RModel} (hm : (p.method.bind methodOf).isSome = true)
    (h : runMain p w = (some (.ok r), w')) : IsIdealGas r.model := by
  unfold runMain at h
  split at h
  · cases h
  split at h
  · cases h
  split at h
  · rename_i m _
    have h1 := fun r w' => ideal_method (m := m) (c := p.ctx m) (sim := p.sim) (rnd := p.rnd) (limit := p.limit)
      (dfuel := p.dfuel) (fuel := p.fuel) (w := w) (w' := w') (r := r)
    generalize runMethodS m (p.ctx m) p.sim p.rnd p.limit p.dfuel p.fuel w = y at h h1
    obtain ⟨_ | e | r0, w1⟩ := y
    · cases h
    · cases h
    · have h2 := h1 r0 w1 rfl
      dsimp only at h
      split at h
      · unfold saStage at h
        split at h
        · cases h
        · rename_i x hx
          have h3 := (good_runSA (I := IsIdealGas) (fun m e f p _ => ideal_trim m e f p) _ _ _ _ h2.2 x hx).2
          exact (h3 r (by injection h with h; injection h)).1
      · cases h; exact h2.1
  · rename_i hn
    rw [hn] at hm
    cases hm

/-- The same with sampling, in exact arithmetic and with rounding. -/
theorem C144_sampled_refuted {K : Cantera ι π φ} {rnd rndThr : ℚ → ℚ} {R : ℚ → PyF} {q : MainArgs ι π φ} {d : Disk}
    {dfuel fuel saFuel : Nat} {w w' : World} {r : RModel} {evs : List Ev} (hm : (q.method.bind methodOf).isSome = true)
    (h : fullMain K rnd q d dfuel fuel saFuel w = ((some (.ok r), w'), evs) ∨
      fullMainR R K rnd rndThr q d dfuel fuel saFuel w = ((some (.ok r), w'), evs)) : IsIdealGas r.model := by
  rcases h with h | h
  · unfold fullMain at h
    split at h
    · cases h
    split at h
    · cases h
    split at h
    · rename_i hn
      rw [hn] at hm
      cases hm
    split at h
    · cases h
    dsimp only at h
    split at h
    · cases h
    · exact C144_ideal_refuted (p := mainIn _ _ q _ _ _ _ _ _) hm (congrArg Prod.fst h)
  · unfold fullMainR at h
    split at h
    · cases h
    split at h
    · cases h
    split at h
    · rename_i hn
      rw [hn] at hm
      cases hm
    split at h
    · cases h
    dsimp only at h
    split at h
    · cases h
    · exact C144_ideal_refuted (p := mainInR _ _ _ _ q _ _ _ _ _ _) hm (congrArg Prod.fst h)

/-- Refutes C144 for the files: however a run ends, each file is as before, or holds an ideal gas, or the starting model
itself. -/
theorem C144_files_refuted (p : MainIn) (w : World) (sol : Mech) (hw : w.fs p.modelFile = some sol) :
    OnlyWrites (fun m => IsIdealGas m ∨ m = sol) w (runMain p w).2 ∧
      ∀ r, (runMain p w).1 = some (.ok r) → IsIdealGas r.model ∨ r.model = sol :=
  good_main (fun m e f p _ => Or.inl (ideal_trim m e f p)) p w fun m hm => by
    rw [hw] at hm; cases hm
    exact Or.inr rfl

/-- Refutes C144 for sensitivity analysis alone: a model with fewer species is an ideal gas. -/
theorem C144_fewer_refuted {p : MainIn} {w w' : World} {sol : Mech} {r : RModel} (hw : w.fs p.modelFile = some sol)
    (h : runMain p w = (some (.ok r), w')) (hn : r.model.nSpecies ≠ sol.nSpecies) : IsIdealGas r.model := by
  rcases (C144_files_refuted p w sol hw).2 r (by rw [h]) with h1 | h1
  · exact h1
  · rw [h1] at hn; exact absurd rfl hn

/-- **C144** for ideal gases: all that a run writes and returns is an ideal gas. -/
theorem C144_kept_partial (p : MainIn) (w : World) (sol : Mech) (hw : w.fs p.modelFile = some sol) (hi : IsIdealGas sol) :
    OnlyWrites (fun m => m.thermo = sol.thermo) w (runMain p w).2 ∧
      ∀ r, (runMain p w).1 = some (.ok r) → r.model.thermo = sol.thermo :=
  good_main (I := fun m => m.thermo = sol.thermo) (fun m e f p _ => (ideal_trim m e f p).trans hi.symm) p w fun m hm => by
    rw [hw] at hm; cases hm
    rfl

/-- **C144** for ideal gases: with all species kept, a candidate is the starting model but for its name, and behaves like it
in every simulation that does not depend on names of phases. -/
theorem C144_same_partial {K : Cantera ι π φ} {sol : Mech} (hi : IsIdealGas sol) (hc : Closed sol)
    (hr : ∀ m n, K.reactor { m with name := n } = K.reactor m) (hp : ∀ m n, K.psr { m with name := n } = K.psr m)
    (hf : ∀ m n, K.flame { m with name := n } = K.flame m) (f p : Text) : SameBehaviour K sol (trim sol [] f p) := by
  obtain ⟨x, hx⟩ := trim_nothing hc f p
  have hx' : trim sol [] f p = { sol with name := x } := by
    rw [hx]
    have : sol.thermo = idealGas := hi
    rw [← this]
  rw [hx']
  exact ⟨fun y => congrFun (hr sol x) y, fun y => congrFun (hp sol x) y, fun y => congrFun (hf sol x) y⟩

/-- Refutes C144 and, for other models than ideal gases, C19: if all species are kept at the thresholds 0.01, 0.02, ...,
`(k + 1) / 100` and the candidate at the next one exceeds the limit, then the run returns the starting model as an ideal gas,
with the error that it has as such.  That error may be above the limit: it is not looked at. -/
theorem C144_limit_refuted {m : Method} {c : Ctx} {sol : Mech} (U : Usable m c sol) (hsafe : c.safe = []) {limit : PyF}
    (h0 : (PyF.fin 0).le limit = true) {k : Nat} (hall : ∀ s ∈ sol.names, Spec.Kept m c sol ((k + 1) / 100) s)
    (hsome : ∃ s ∈ sol.names, ¬ Spec.Kept m c sol ((k + 2) / 100) s) (hx : Exceeds c sol (Spec.Kept m c sol) limit ((k + 2) / 100)) :
    ∃ N, ∀ dfuel ≥ N, ∀ fuel ≥ k + 3, ∀ w, w.fs c.modelFile = some sol →
      ∃ r w', runMethod m c id limit dfuel fuel w = (some (.ok r), w') ∧
        r.model = trim sol [] ("reduced_".toList ++ c.modelFile) c.phase ∧ IsIdealGas r.model ∧ r.error = c.errOf r.model := by
  obtain ⟨N, hN⟩ := method_keepsAll U hsafe
  refine ⟨N, fun dfuel hd fuel hfu w hw => ?_⟩
  obtain ⟨reduce, finish, short, limbo, R, hshort⟩ := hN dfuel hd
  have hg : ∀ i : Nat, gridThr id 0 i = ((i : ℚ) + 1) / 100 := by
    intro i
    rw [gridThr_exact, startThr_exact]; norm_num; ring
  have hs : ∀ i ≤ k, short (gridThr id 0 i) sol.nSpecies := by
    intro i hi
    refine hshort _ fun s hsn => R.behaves.anti _ _ s ?_ (hall s hsn)
    rw [hg]
    have : (i : ℚ) ≤ k := by exact_mod_cast hi
    linarith
  have hk1 : gridThr id 0 (k + 1) = ((k : ℚ) + 2) / 100 := by
    rw [hg]; push_cast; ring
  have hn : ¬ short (gridThr id 0 (k + 1)) sol.nSpecies := by
    intro h
    obtain ⟨s, hsn, hk⟩ := hsome
    rw [hk1] at h
    exact hk (R.behaves.short_full _ h s hsn)
  have hrun := run_untouched (ex := exitThr m id) (rnd := id) R.behaves h0 (R.finishOk id limit) hs hn
    (by rw [hk1]; exact hx) (fuel - (k + 3)) hw
  rw [show k + 3 + (fuel - (k + 3)) = fuel by omega, ← R.eq id limit fuel w hw] at hrun
  have hfull : candidate c sol (Spec.Kept m c sol) (finalThr id 0 k) = trim sol [] ("reduced_".toList ++ c.modelFile) c.phase := by
    apply candidate_full
    rw [finalThr_exact, hg]
    exact hall
  refine ⟨_, _, Prod.ext hrun rfl, hfull, ?_, rfl⟩
  show IsIdealGas (candidate c sol (Spec.Kept m c sol) (finalThr id 0 k))
  rw [hfull]
  exact ideal_trim _ _ _ _

/-! ## not vacuous -/

/-- the model of Props/EndToEnd as a real gas -/
def exReal : Mech := { e2eSol with thermo := 1 }

/-- as an ideal gas the mixture ignites ten percent earlier -/
def exRealK : Cantera Unit Unit Unit := { e2eK with
  reactor := fun m _ => .ok { e2eReactor m.names with
    step := fun k => ((e2eReactor m.names).step k).map fun p =>
      { p with time := if m.thermo = idealGas then (match p.time with | .fin t => .fin (t * 9 / 10) | x => x) else p.time } } }

def exRealWorld : World := ⟨fun f => if f = "m.yaml".toList then some exReal else none, []⟩

/-- The limit is five percent.  All species are kept up to the threshold 0.05 and `C` is removed at 0.06, where the error is
about ten percent.  The run returns the four species of the starting model with an error of ten percent. -/
example : ¬ IsIdealGas exReal ∧ e2eArgs.limit = .fin 5 ∧
    runView (fullRun exRealK .drg id id e2eArgs (fun _ => none) 50 20 exRealWorld).1 =
      some (.ok (["A", "B", "C", "D"], .fin 10)) ∧
    runView (fullRun exRealK .drgep id id e2eArgs (fun _ => none) 50 20 exRealWorld).1 =
      some (.ok (["A", "B", "C", "D"], .fin 10)) ∧
    runView (fullMain exRealK id (e2eMain "DRG") (fun _ => none) 50 20 20 exRealWorld).1 =
      some (.ok (["A", "B", "C", "D"], .fin 10)) := by
  refine ⟨by unfold IsIdealGas; decide, rfl, ?_, ?_, ?_⟩
  · decide +kernel
  · decide +kernel
  · decide +kernel

/-- two species, the second of which is removed at the threshold 0.02 -/
def exThSol : Mech := ⟨[⟨"A", 0⟩, ⟨"B", 0⟩], [], 0, 0, [], 1⟩

def exThM : NMat := fun i j => if (i, j) = (0, 1) then 15 / 1000 else 0

def exThCtx : Ctx where
  modelFile := "m.yaml".toList
  targets := ["A"]
  safe := []
  matrices := [exThM]
  errOf := fun m => if m.thermo = idealGas then .fin 10 else .fin 0
  phase := []
  path := []
  upper := none

/-- the hypotheses of `C144_limit_refuted` -/
example : Usable .drg exThCtx exThSol ∧ exThCtx.safe = [] ∧ (PyF.fin 0).le (.fin 5) = true ∧
    (∀ s ∈ exThSol.names, Spec.Kept .drg exThCtx exThSol (((0 : Nat) + 1) / 100) s) ∧
    (∃ s ∈ exThSol.names, ¬ Spec.Kept .drg exThCtx exThSol (((0 : Nat) + 2) / 100) s) ∧
    Exceeds exThCtx exThSol (Spec.Kept .drg exThCtx exThSol) (.fin 5) (((0 : Nat) + 2) / 100) := by
  have hA : ∀ t, Linked exThM exThSol.names ["A"] t "A" := fun t => ⟨"A", by simp, .refl⟩
  refine ⟨⟨⟨by decide, by decide, ?_⟩, by decide, (fun h => by cases h), (fun h => by cases h)⟩, rfl, by decide +kernel,
    ?_, ⟨"B", by decide, ?_⟩, ?_⟩
  · intro n
    show joinPath [] (reducedName n) ≠ "m.yaml".toList
    rw [joinPath_nil]
    apply ne_of_head
    rw [reducedName_head]
    decide
  · intro s hs
    refine Or.inl ⟨exThM, by simp [exThCtx], ?_⟩
    obtain rfl | rfl : s = "A" ∨ s = "B" := by simpa [exThSol, Mech.names] using hs
    · exact hA _
    · exact ⟨"A", by simp [exThCtx], .single ⟨0, 1, rfl, rfl, by unfold exThM; norm_num, by unfold exThM; norm_num⟩⟩
  · rintro (⟨M, hM, t, ht, h⟩ | h)
    · obtain rfl : M = exThM := by simpa [exThCtx] using hM
      obtain rfl : t = "A" := by simpa [exThCtx] using ht
      rcases h.cases_tail with h | ⟨x, _, i, j, _, _, h, h0⟩
      · exact absurd h (by decide)
      · unfold exThM at h h0
        split_ifs at h h0
        · norm_num at h
        · exact h0 rfl
    · simp [exThCtx] at h
  · have h : exThCtx.errOf (candidate exThCtx exThSol (Spec.Kept .drg exThCtx exThSol) (((0 : Nat) + 2) / 100)) = .fin 10 := rfl
    unfold Exceeds
    rw [h]
    decide +kernel

/-- the hypotheses of `C144_kept_partial` and `C144_same_partial` -/
example : IsIdealGas e2eSol ∧ Closed e2eSol ∧ (∀ m n, e2eK.reactor { m with name := n } = e2eK.reactor m) ∧
    (∀ m n, e2eK.psr { m with name := n } = e2eK.psr m) ∧ ∀ m n, e2eK.flame { m with name := n } = e2eK.flame m :=
  ⟨rfl, by
    intro r hr s hs
    simp only [e2eSol, List.mem_cons, List.not_mem_nil, or_false] at hr
    rcases hr with rfl | rfl | rfl <;> simp [Mentions, HasEff] at hs <;> rcases hs with rfl | rfl <;> simp [e2eSol],
    fun _ _ => rfl, fun _ _ => rfl, fun _ _ => rfl⟩

end Verif
