import Verif.Lemmas.WrongType
import Verif.Lemmas.Provenance
import Verif.Props.SAAlone
/-!
# Values of the wrong type (C140)
-/
namespace Verif
open Spec

/-- Refutes C140: whatever is written as error limit, upper threshold, flame speed, choice or type of sensitivity analysis
is accepted, unless python takes it for nothing. -/
theorem C140_option_refuted {load : PyV → PyV → Except Err (List String)} {l1 l2 : List (YScalar × YNode)} {k : YScalar}
    {x x' : YNode} {key : String} {u : PyV} {R : InputsDyn} (h : readInputs load (.map (l1 ++ (k, x) :: l2)) = .ok R)
    (hkey : key ∈ freeKeys) (hk : LooksText k) (hk' : k.text = key.toList) (h2 : ∀ e ∈ l2, e.1.text ≠ key.toList)
    (hx : construct x' = .ok u) (ht : u.truthy = true) :
    readInputs load (.map (l1 ++ (k, x') :: l2)) = .ok (withOption R key u) := by
  unfold readInputs at h ⊢
  obtain ⟨v, h3, h4⟩ := bind_ok.1 h
  obtain ⟨d, d', u0, rfl, h5, -, -, h6, h7⟩ := construct_replace h3 hk hk' h2 hx
  rw [h5]
  exact parseDyn_option hkey h7 h6 ht h4

/-- Refutes C140 for the choice of sensitivity analysis: every word in quotes asks for it, `"no"` and `"false"` included. -/
theorem C140_quoted_refuted {load : PyV → PyV → Except Err (List String)} {l1 l2 : List (YScalar × YNode)} {k : YScalar}
    {x : YNode} {t : Text} {R : InputsDyn} (h : readInputs load (.map (l1 ++ (k, x) :: l2)) = .ok R) (hk : LooksText k)
    (hk' : k.text = "sensitivity-analysis".toList) (h2 : ∀ e ∈ l2, e.1.text ≠ "sensitivity-analysis".toList) (ht : t ≠ []) :
    ∃ R', readInputs load (.map (l1 ++ (k, .scalar ⟨false, t⟩) :: l2)) = .ok R' ∧ R'.sensitivity.truthy = true := by
  have hc : construct (.scalar ⟨false, t⟩) = .ok (pyStr (String.ofList t)) := by
    rw [construct, C131_names_partial (Or.inl rfl)]; rfl
  have htr : (pyStr (String.ofList t)).truthy = true := by
    have : String.ofList t ≠ "" := fun he => ht (by simpa using congrArg String.toList he)
    simpa [PyV.truthy, PyS.truthy, pyStr] using this
  exact ⟨_, C140_option_refuted h (by simp [freeKeys]) hk hk' h2 hc htr, htr⟩

theorem assertPos_ok {v : PyV} (h : assertPos v = .ok ()) : PositiveValue v := by
  unfold assertPos at h
  obtain ⟨b, h1, h2⟩ := bind_ok.1 h
  have hb : b = true := by
    cases b with
    | true => rfl
    | false => cases h2
  subst hb
  cases v with
  | sc s =>
    cases s with
    | num x => left; exact ⟨x, rfl, by simpa [PyV.gt0] using h1⟩
    | bool b => right; simp only [PyV.gt0, Except.ok.injEq] at h1; rw [h1]
    | _ => cases h1
  | _ => cases h1

theorem positive_gt0 {v : PyV} (h : v.gt0 = .ok true) : PositiveValue v :=
  assertPos_ok (by unfold assertPos; rw [h]; rfl)

/-- The part of C140 that holds: temperatures, pressures, amounts, and the width of a flame are numbers above zero or the
word for true in every accepted document. -/
theorem C140_checked_partial {load : PyV → PyV → Except Err (List String)} {v : PyV} {R : InputsDyn} (h : parseDyn load v = .ok R) :
    (∀ k ∈ R.ignition ++ R.psr ++ R.flame, PositiveValue k.temperature ∧ PositiveValue k.pressure ∧
      ∀ d, (k.fuel = .dict d ∨ k.oxidizer = .dict d ∨ k.reactants = .dict d) → ∀ e ∈ d, PositiveValue e.2) ∧
    ∀ k ∈ R.flame, ∀ w ∈ k.extra, PositiveValue w := by
  obtain ⟨d, names, rfl, A⟩ := parseDyn_accepted h
  have comp : ∀ {k : CondDyn}, compositionDyn names k = .ok () → ∀ d, (k.fuel = .dict d ∨ k.oxidizer = .dict d ∨ k.reactants = .dict d) → ∀ e ∈ d, PositiveValue e.2 := by
    intro k hc d hd e he
    unfold compositionDyn at hc
    obtain ⟨_, -, hc⟩ := bind_ok.1 hc
    obtain ⟨_, h0, hc⟩ := bind_ok.1 hc
    obtain ⟨_, h1, -⟩ := bind_ok.1 hc
    have htr : (PyV.dict d).truthy = true := by
      cases d with
      | nil => cases he
      | cons => rfl
    have hmix : (k.fuel = .dict d ∨ k.oxidizer = .dict d) →
        amountsDyn names k.fuel = .ok () ∧ amountsDyn names k.oxidizer = .ok () := by
      intro hfo
      have hm : (k.equiv.truthy || k.fuel.truthy || k.oxidizer.truthy) = true := by
        rcases hfo with hf | hf
        · rw [hf, htr]; simp
        · rw [hf, htr]; simp
      rw [hm, pyWhen] at h0
      simp only [if_true] at h0
      obtain ⟨_, -, h0⟩ := bind_ok.1 h0
      obtain ⟨_, -, h0⟩ := bind_ok.1 h0
      obtain ⟨_, h2, h0⟩ := bind_ok.1 h0
      obtain ⟨_, -, h0⟩ := bind_ok.1 h0
      exact ⟨h2, h0⟩
    rcases hd with hd | hd | hd
    · have := (hmix (Or.inl hd)).1
      rw [hd] at this
      exact positive_gt0 (entriesDyn_ok this e he).2
    · have := (hmix (Or.inr hd)).2
      rw [hd] at this
      exact positive_gt0 (entriesDyn_ok this e he).2
    · rw [hd, htr, pyWhen] at h1
      simp only [if_true] at h1
      exact positive_gt0 (entriesDyn_ok h1 e he).2
  have ign : ∀ k ∈ R.ignition, PositiveValue k.temperature ∧ PositiveValue k.pressure ∧
      ∀ d, (k.fuel = .dict d ∨ k.oxidizer = .dict d ∨ k.reactants = .dict d) → ∀ e ∈ d, PositiveValue e.2 := by
    intro k hk
    obtain ⟨l, -, h2⟩ := A.ignition
    obtain ⟨c, -, h3⟩ := forall2_right (casesDyn_ok.1 h2) k hk
    unfold ignitionDyn at h3
    obtain ⟨_, -, h3⟩ := bind_ok.1 h3
    obtain ⟨_, -, h3⟩ := bind_ok.1 h3
    obtain ⟨_, -, h3⟩ := bind_ok.1 h3
    obtain ⟨_, -, h3⟩ := bind_ok.1 h3
    obtain ⟨_, -, h3⟩ := bind_ok.1 h3
    obtain ⟨_, h4, h3⟩ := bind_ok.1 h3
    obtain ⟨_, h5, h3⟩ := bind_ok.1 h3
    obtain ⟨_, h6, h3⟩ := bind_ok.1 h3
    cases h3
    exact ⟨assertPos_ok h4, assertPos_ok h5, comp h6⟩
  have psr : ∀ k ∈ R.psr, PositiveValue k.temperature ∧ PositiveValue k.pressure ∧
      ∀ d, (k.fuel = .dict d ∨ k.oxidizer = .dict d ∨ k.reactants = .dict d) → ∀ e ∈ d, PositiveValue e.2 := by
    intro k hk
    obtain ⟨l, -, h2⟩ := A.psr
    obtain ⟨c, -, h3⟩ := forall2_right (casesDyn_ok.1 h2) k hk
    unfold psrDyn at h3
    obtain ⟨_, -, h3⟩ := bind_ok.1 h3
    obtain ⟨_, h4, h3⟩ := bind_ok.1 h3
    obtain ⟨_, h5, h3⟩ := bind_ok.1 h3
    obtain ⟨_, h6, h3⟩ := bind_ok.1 h3
    cases h3
    exact ⟨assertPos_ok h4, assertPos_ok h5, comp h6⟩
  have flame : ∀ k ∈ R.flame, (PositiveValue k.temperature ∧ PositiveValue k.pressure ∧
      ∀ d, (k.fuel = .dict d ∨ k.oxidizer = .dict d ∨ k.reactants = .dict d) → ∀ e ∈ d, PositiveValue e.2) ∧ ∀ w ∈ k.extra, PositiveValue w := by
    intro k hk
    obtain ⟨l, -, h2⟩ := A.flame
    obtain ⟨c, -, h3⟩ := forall2_right (casesDyn_ok.1 h2) k hk
    unfold flameDyn at h3
    obtain ⟨width, -, h3⟩ := bind_ok.1 h3
    obtain ⟨k0, hc, h3⟩ := bind_ok.1 h3
    obtain ⟨_, h4, h3⟩ := bind_ok.1 h3
    obtain ⟨_, h5, h3⟩ := bind_ok.1 h3
    obtain ⟨_, h6, h3⟩ := bind_ok.1 h3
    obtain ⟨_, h7, h3⟩ := bind_ok.1 h3
    cases h3
    refine ⟨⟨assertPos_ok h4, assertPos_ok h5, comp h7⟩, ?_⟩
    have hex : k.extra = [width] := by
      unfold condDyn at hc
      simp only [bind_ok] at hc
      obtain ⟨_, -, _, -, _, -, _, -, _, -, _, -, _, -, hc⟩ := hc
      cases hc
      rfl
    rw [hex]
    intro w hw
    rw [List.mem_singleton] at hw
    subst hw
    exact assertPos_ok h6
  refine ⟨fun k hk => ?_, fun k hk => (flame k hk).2⟩
  rcases List.mem_append.1 hk with hk | hk
  · rcases List.mem_append.1 hk with hk | hk
    · exact ign k hk
    · exact psr k hk
  · exact (flame k hk).1

/-- Refutes C140 for the end of an ignition simulation: whatever is written as end time or number of steps is accepted. -/
theorem C140_entry_refuted {load : PyV → PyV → Except Err (List String)} {m1 m2 : List (YScalar × YNode)} {h : YScalar}
    {cs1 cs2 : List YNode} {l1 l2 : List (YScalar × YNode)} {k : YScalar} {x x' : YNode} {key : String} {u : PyV} {R : InputsDyn}
    (hR : readInputs load (.map (m1 ++ (h, .seq (cs1 ++ .map (l1 ++ (k, x) :: l2) :: cs2)) :: m2)) = .ok R)
    (hh : LooksText h) (hh' : h.text = "autoignition-conditions".toList)
    (hm : ∀ e ∈ m2, e.1.text ≠ "autoignition-conditions".toList)
    (hkey : key = "end-time" ∨ key = "max-steps") (hk : LooksText k) (hk' : k.text = key.toList)
    (h2 : ∀ e ∈ l2, e.1.text ≠ key.toList) (hx : construct x' = .ok u) :
    ∃ k1 c ex k2, R.ignition = k1 ++ c :: k2 ∧ k1.length = cs1.length ∧ u ∈ ex ∧
      readInputs load (.map (m1 ++ (h, .seq (cs1 ++ .map (l1 ++ (k, x') :: l2) :: cs2)) :: m2)) =
        .ok { R with ignition := k1 ++ { c with extra := ex } :: k2 } := by
  unfold readInputs at hR ⊢
  obtain ⟨v, h3, h4⟩ := bind_ok.1 hR
  obtain ⟨ps, f1, rfl⟩ := construct_map_iff.1 h3
  obtain ⟨p1, p2, q1, q2, rfl⟩ := forall2_split f1
  cases q2 with
  | @cons _ p _ p2 q q2 =>
    obtain ⟨e1, e2⟩ := q
    obtain ⟨vs, hvs, f1⟩ := construct_seq e2
    obtain ⟨v1, v2, f3, f2, rfl⟩ := forall2_split f1
    cases f2 with
    | @cons _ cv _ v2 f f2 =>
      obtain ⟨d, d', u0, rfl, g1, -, -, g2, g3⟩ := construct_replace f hk hk' h2 hx
      have hseq : construct (.seq (cs1 ++ .map (l1 ++ (k, x') :: l2) :: cs2)) = .ok (.list (v1 ++ .dict d' :: v2)) := by
        rw [construct]
        exact except_map_ok.2 ⟨_, constructSeq_ok.2 (List.rel_append f3 (.cons g1 f2)), rfl⟩
      obtain ⟨D, D', U, hD, r1, r2, r3, r4, r5⟩ := construct_replace h3 hh hh' hm hseq
      rw [hD] at h4
      rw [r1]
      rw [hvs] at e2
      rw [e2] at r2
      cases r2
      exact parseDyn_entry hkey r5 r3 r4 g2 g3 f3.length_eq.symm h4

section
variable {ι π φ : Type} {K : Cantera ι π φ} {rnd : ℚ → ℚ} {q : MainArgs ι π φ} {d : Disk} {dfuel fuel saFuel : Nat} {w : World}

/-- Refutes C140 for a method: where a run with a number as limit returns a model, one with a text fails as late as after
sampling.  It has written the same samples and no model. -/
theorem C140_late_refuted {r : RModel} {w' : World} {evs : List Ev} (hm : (q.method.bind methodOf).isSome = true)
    (h : fullMain K rnd q d dfuel fuel saFuel w = ((some (.ok r), w'), evs)) :
    mainText K rnd q d dfuel w = ((some (.error .typeError), w), evs) := by
  unfold fullMain at h
  unfold mainText
  split at h
  · simp at h
  rename_i c1
  rw [if_neg c1]
  split at h
  · simp at h
  rename_i c2
  rw [if_neg c2]
  cases hmm : q.method.bind methodOf with
  | none => rw [hmm] at hm; cases hm
  | some m =>
    rw [hmm] at h
    dsimp only at h ⊢
    cases hl : loadModel w q.modelFile with
    | error e => rw [hl] at h; simp at h
    | ok sol =>
      rw [hl] at h
      dsimp only at h ⊢
      rcases hs : (sample (K.sims rnd) sol q.conds q.par d).result with e | ⟨base, rows⟩
      · rw [hs] at h; simp at h
      · rw [hs] at h
        dsimp only at h ⊢
        have h1 := congrArg Prod.fst h
        have h2 := congrArg Prod.snd h
        dsimp only at h1 h2
        rw [← h2]
        congr 1
        unfold runMain at h1
        rw [if_neg (by exact c1), if_neg (by exact c2)] at h1
        have hmm' : (mainIn K rnd q (applyEvs d (sample (K.sims rnd) sol q.conds q.par d).evs)
            (rows.map fun r => matrixOf m rnd (K.chem sol r)) base dfuel fuel saFuel).method.bind methodOf = some m := hmm
        have hmm'' : (mainIn K rnd q (applyEvs d (sample (K.sims rnd) sol q.conds q.par d).evs)
            (rows.map fun r => matrixOf m rnd (K.chem sol r)) base dfuel 0 0).method.bind methodOf = some m := hmm
        rw [hmm'] at h1
        dsimp only at h1
        unfold stagesText
        rw [hmm'']
        dsimp only
        rcases methodText_eq m (MainIn.ctx (mainIn K rnd q (applyEvs d (sample (K.sims rnd) sol q.conds q.par d).evs)
            (rows.map fun r => matrixOf m rnd (K.chem sol r)) base dfuel fuel saFuel) m)
            (mainIn K rnd q (applyEvs d (sample (K.sims rnd) sol q.conds q.par d).evs)
            (rows.map fun r => matrixOf m rnd (K.chem sol r)) base dfuel fuel saFuel).sim rnd q.limit dfuel fuel w with h3 | ⟨e, -, h4⟩
        · exact h3
        · exfalso
          change (match runMethodS m _ _ rnd q.limit dfuel fuel w with
            | (some (.ok r), w1) => _
            | other => other) = _ at h1
          rw [h4] at h1
          simp at h1

/-- A run with such a limit that ends otherwise than with this exception ends as it would with any number as limit. -/
theorem C140_same_partial (hs : 0 < saFuel) (h : (mainText K rnd q d dfuel w).1.1 ≠ some (.error .typeError)) :
    fullMain K rnd q d dfuel fuel saFuel w = mainText K rnd q d dfuel w := by
  obtain ⟨sf, rfl⟩ : ∃ sf, saFuel = sf + 1 := ⟨saFuel - 1, by omega⟩
  unfold mainText at h ⊢
  unfold fullMain
  split
  · rfl
  rename_i c1
  rw [if_neg c1] at h
  split
  · rfl
  rename_i c2
  rw [if_neg c2] at h
  cases hmm : q.method.bind methodOf with
  | none =>
    rw [hmm] at h
    dsimp only at h ⊢
    congr 1
    unfold runMain
    rw [if_neg (by exact c1), if_neg (by exact c2)]
    have e1 : (mainIn K rnd q d [] [] dfuel fuel (sf + 1)).method.bind methodOf = none := hmm
    have e2 : (mainIn K rnd q d [] [] dfuel 0 0).method.bind methodOf = none := hmm
    rw [e1]
    unfold stagesText at h ⊢
    rw [e2] at h ⊢
    dsimp only at h ⊢
    by_cases hsa : q.sensitivity = true
    · rw [if_pos (show (mainIn K rnd q d [] [] dfuel fuel (sf + 1)).sensitivity = true from hsa)]
      rw [if_pos (show (mainIn K rnd q d [] [] dfuel 0 0).sensitivity = true from hsa)] at h ⊢
      rcases saText_eq (MainIn.saCtx (mainIn K rnd q d [] [] dfuel 0 0) q.modelFile (.fin 0)) [] sf w with h1 | ⟨l, h1, h2⟩
      · exact absurd h1 h
      · unfold saStage
        have h1' : runSA (MainIn.saCtx (mainIn K rnd q d [] [] dfuel fuel (sf + 1)) q.modelFile (.fin 0)) [] (sf + 1) w = _ := h1
        change (match runSA (MainIn.saCtx (mainIn K rnd q d [] [] dfuel fuel (sf + 1)) q.modelFile (.fin 0)) [] (sf + 1) w with
          | none => _ | some r => _) = _
        rw [h1']
        obtain ⟨x, hx⟩ := Option.isSome_iff_exists.1 h2
        change _ = saText (MainIn.saCtx (mainIn K rnd q d [] [] dfuel 0 0) q.modelFile (.fin 0)) [] w
        rw [hx]
        simp only [Option.map_some, Bool.false_and, Bool.false_eq_true, if_false]
        exact Prod.ext hx.symm rfl
    · rw [if_neg (show ¬ (mainIn K rnd q d [] [] dfuel fuel (sf + 1)).sensitivity = true from hsa)]
      rw [if_neg (show ¬ (mainIn K rnd q d [] [] dfuel 0 0).sensitivity = true from hsa)]
  | some m =>
    rw [hmm] at h
    dsimp only at h ⊢
    cases hl : loadModel w q.modelFile with
    | error e => rfl
    | ok sol =>
      rw [hl] at h
      dsimp only at h ⊢
      rcases hs : (sample (K.sims rnd) sol q.conds q.par d).result with e | ⟨base, rows⟩
      · rfl
      · rw [hs] at h
        dsimp only at h ⊢
        congr 1
        unfold runMain
        rw [if_neg (by exact c1), if_neg (by exact c2)]
        have e1 : ∀ f g, (mainIn K rnd q (applyEvs d (sample (K.sims rnd) sol q.conds q.par d).evs)
            (rows.map fun r => matrixOf m rnd (K.chem sol r)) base dfuel f g).method.bind methodOf = some m := fun _ _ => hmm
        rw [e1]
        unfold stagesText at h ⊢
        rw [e1] at h ⊢
        dsimp only at h ⊢
        rcases methodText_eq m (MainIn.ctx (mainIn K rnd q (applyEvs d (sample (K.sims rnd) sol q.conds q.par d).evs)
            (rows.map fun r => matrixOf m rnd (K.chem sol r)) base dfuel fuel (sf + 1)) m)
            (mainIn K rnd q (applyEvs d (sample (K.sims rnd) sol q.conds q.par d).evs)
            (rows.map fun r => matrixOf m rnd (K.chem sol r)) base dfuel fuel (sf + 1)).sim rnd q.limit dfuel fuel w with h3 | ⟨e, h3, h4⟩
        · have h3' : methodText m (MainIn.ctx (mainIn K rnd q (applyEvs d (sample (K.sims rnd) sol q.conds q.par d).evs)
            (rows.map fun r => matrixOf m rnd (K.chem sol r)) base dfuel 0 0) m) dfuel w = _ := h3
          exact absurd (congrArg Prod.fst h3') h
        · change (match runMethodS m _ _ rnd q.limit dfuel fuel w with
            | (some (.ok r), w1) => _
            | other => other) = _
          rw [h4]
          exact h3.symm

/-- Refutes C140 for sensitivity analysis alone: where a run with a number as limit returns a model, and there is a species
that might be removed, one with a text has simulated the model without each such species when it fails. -/
theorem C140_analysis_refuted {sol : Mech} {r : RModel} {w' : World} {evs : List Ev} (hm : q.method.bind methodOf = none)
    (hl : loadModel w q.modelFile = .ok sol) (hc : ∃ s ∈ sol.names, s ∉ q.targets ∧ s ∉ q.safe) (hs : 0 < saFuel)
    (h : fullMain K rnd q d dfuel fuel saFuel w = ((some (.ok r), w'), evs)) :
    (mainText K rnd q d dfuel w).1.1 = some (.error .typeError) ∧
    ∃ initial errs w1, sampleMetrics (K.sims rnd) sol q.conds q.par true d = .ok initial ∧
      evalSpecies ((mainIn K rnd q d [] [] dfuel 0 0).saCtx q.modelFile (.fin 0)) initial q.modelFile
        (sol.names.filter fun s => !((q.targets ++ q.safe).contains s)) w = (.ok errs, w1) := by
  have hne : sol.names.filter (fun s => !((q.targets ++ q.safe).contains s)) ≠ [] := by
    obtain ⟨s, h1, h2, h3⟩ := hc
    intro he
    have : s ∈ sol.names.filter (fun s => !((q.targets ++ q.safe).contains s)) := by
      rw [List.mem_filter]
      exact ⟨h1, by simp [h2, h3]⟩
    rw [he] at this
    cases this
  have c1 : ¬ ((q.method.bind methodOf).isSome && decide (q.targets = [])) = true := by rw [hm]; simp
  have c2 : ¬ ((decide (q.method = none) || decide (q.method = some "")) && !q.sensitivity) = true := by
    intro hb
    unfold fullMain at h
    rw [if_neg c1, if_pos hb] at h
    simp at h
  have e1 : ∀ f g, (mainIn K rnd q d [] [] dfuel f g).method.bind methodOf = none := fun _ _ => hm
  have hsa : q.sensitivity = true := by
    by_contra hsa
    unfold fullMain at h
    rw [if_neg c1, if_neg c2, hm] at h
    dsimp only at h
    unfold runMain at h
    rw [if_neg (by exact c1), if_neg (by exact c2), e1] at h
    dsimp only at h
    rw [if_neg (show ¬ (mainIn K rnd q d [] [] dfuel fuel saFuel).sensitivity = true from hsa)] at h
    simp at h
  have hrun : ∃ x, runSA ((mainIn K rnd q d [] [] dfuel 0 0).saCtx q.modelFile (.fin 0)) [] saFuel w = some x ∧ x.result = .ok r := by
    unfold fullMain at h
    rw [if_neg c1, if_neg c2, hm] at h
    dsimp only at h
    unfold runMain at h
    rw [if_neg (by exact c1), if_neg (by exact c2), e1] at h
    dsimp only at h
    rw [if_pos (show (mainIn K rnd q d [] [] dfuel fuel saFuel).sensitivity = true from hsa)] at h
    unfold saStage at h
    change ((match runSA ((mainIn K rnd q d [] [] dfuel 0 0).saCtx q.modelFile (.fin 0)) [] saFuel w with
          | none => _ | some r => _), _) = _ at h
    rcases hx : runSA ((mainIn K rnd q d [] [] dfuel 0 0).saCtx q.modelFile (.fin 0)) [] saFuel w with _ | x
    · rw [hx] at h; simp at h
    · rw [hx] at h
      simp only [Prod.mk.injEq, Option.some.injEq] at h
      exact ⟨x, rfl, h.1.1⟩
  obtain ⟨x, hx, hr⟩ := hrun
  have hlim : saLimbo ((mainIn K rnd q d [] [] dfuel 0 0).saCtx q.modelFile (.fin 0)).safe sol [] =
      sol.names.filter fun s => !((q.targets ++ q.safe).contains s) := rfl
  unfold runSA at hx
  rw [show loadModel w ((mainIn K rnd q d [] [] dfuel 0 0).saCtx q.modelFile (.fin 0)).modelFile = .ok sol from hl] at hx
  dsimp only at hx
  rcases hi : sampleMetrics (K.sims rnd) sol q.conds q.par true d with e | initial
  · rw [show ((mainIn K rnd q d [] [] dfuel 0 0).saCtx q.modelFile (.fin 0)).initial sol = .error e from hi] at hx
    simp only [Option.some.injEq] at hx
    rw [← hx] at hr
    cases hr
  have hi' : ((mainIn K rnd q d [] [] dfuel 0 0).saCtx q.modelFile (.fin 0)).initial sol = .ok initial := hi
  rw [hi'] at hx
  dsimp only at hx
  rw [hlim] at hx
  rcases he : evalSpecies ((mainIn K rnd q d [] [] dfuel 0 0).saCtx q.modelFile (.fin 0)) initial q.modelFile
        (sol.names.filter fun s => !((q.targets ++ q.safe).contains s)) w with ⟨e | errs, w1⟩
  · rw [show evalSpecies ((mainIn K rnd q d [] [] dfuel 0 0).saCtx q.modelFile (.fin 0)) initial
      ((mainIn K rnd q d [] [] dfuel 0 0).saCtx q.modelFile (.fin 0)).modelFile
        (sol.names.filter fun s => !((q.targets ++ q.safe).contains s)) w = _ from he] at hx
    simp only [Option.some.injEq] at hx
    rw [← hx] at hr
    cases hr
  refine ⟨?_, initial, errs, w1, rfl, he⟩
  by_contra hne'
  have hsame := C140_same_partial (fuel := fuel) hs hne'
  rw [h] at hsame
  have h1 := congrArg (fun x => x.1.1) hsame
  dsimp only at h1
  unfold mainText at h1
  rw [if_neg c1, if_neg c2, hm] at h1
  dsimp only at h1
  unfold stagesText at h1
  rw [e1] at h1
  dsimp only at h1
  rw [if_pos (show (mainIn K rnd q d [] [] dfuel 0 0).sensitivity = true from hsa)] at h1
  unfold saText at h1
  rw [show loadModel w ((mainIn K rnd q d [] [] dfuel 0 0).saCtx (mainIn K rnd q d [] [] dfuel 0 0).modelFile (.fin 0)).modelFile = .ok sol from hl] at h1
  dsimp only at h1
  rw [show ((mainIn K rnd q d [] [] dfuel 0 0).saCtx (mainIn K rnd q d [] [] dfuel 0 0).modelFile (.fin 0)).initial sol = .ok initial from hi] at h1
  dsimp only at h1
  rw [show saLimbo ((mainIn K rnd q d [] [] dfuel 0 0).saCtx (mainIn K rnd q d [] [] dfuel 0 0).modelFile (.fin 0)).safe sol [] =
      sol.names.filter fun s => !((q.targets ++ q.safe).contains s) from rfl] at h1
  rw [show evalSpecies ((mainIn K rnd q d [] [] dfuel 0 0).saCtx (mainIn K rnd q d [] [] dfuel 0 0).modelFile (.fin 0)) initial
      ((mainIn K rnd q d [] [] dfuel 0 0).saCtx (mainIn K rnd q d [] [] dfuel 0 0).modelFile (.fin 0)).modelFile
        (sol.names.filter fun s => !((q.targets ++ q.safe).contains s)) w = _ from he] at h1
  dsimp only at h1
  rw [if_neg hne] at h1
  split at h1
  · simp at h1
  · split at h1
    · simp at h1
    · split at h1 <;> simp at h1

/-- A run that fails over such a limit has written no model: every file is as before, or gone if it lay in one of the
temporary directories. -/
theorem C140_files_partial (T : TmpOk ((mainIn K rnd q d [] [] dfuel 0 0).saCtx q.modelFile (.fin 0)))
    (h : (mainText K rnd q d dfuel w).1.1 = some (.error .typeError)) (f : Text) :
    (mainText K rnd q d dfuel w).1.2.fs f = w.fs f ∨ ((mainText K rnd q d dfuel w).1.2.fs f = none ∧
      (Under ((mainIn K rnd q d [] [] dfuel 0 0).saCtx q.modelFile (.fin 0)).tmpDir f ∨
        ∃ n, Under (((mainIn K rnd q d [] [] dfuel 0 0).saCtx q.modelFile (.fin 0)).evalDir n) f)) := by
  have hm : ∀ (m : Method) (c : Ctx), (methodText m c dfuel w).2 = w := by
    intro m c
    unfold methodText
    split
    · rfl
    · split
      · rfl
      · split
        · split <;> rfl
        · rfl
  have hsa : ∀ c : SACtx, TmpOk c → (saText c [] w).1 = some (.error .typeError) →
      ((saText c [] w).2.fs f = w.fs f ∨ ((saText c [] w).2.fs f = none ∧ (Under c.tmpDir f ∨ ∃ n, Under (c.evalDir n) f))) := by
    intro c T h
    unfold saText at h ⊢
    split
    · exact Or.inl rfl
    rename_i sol hl
    rw [hl] at h
    dsimp only at h
    split
    · exact Or.inl rfl
    rename_i initial hi
    rw [hi] at h
    dsimp only at h ⊢
    have hw := loadModel_file hl
    obtain ⟨k1, -, -⟩ := evalSpecies_spec T initial T.model_eval (saLimbo c.safe sol []) hw
    have gone : ∀ w1 w2 : World, Keeps (fun f => ∃ n, Under (c.evalDir n) f) w w1 →
        (∀ f, (∃ n, Under (c.evalDir n) f) → w1.fs f = w.fs f ∨ w1.fs f = none) → Keeps (Under c.tmpDir) w1 w2 →
        ((cleanDir w2 c.tmpDir).fs f = w.fs f ∨
          ((cleanDir w2 c.tmpDir).fs f = none ∧ (Under c.tmpDir f ∨ ∃ n, Under (c.evalDir n) f))) := by
      intro w1 w2 a1 a2 a3
      by_cases h1 : Under c.tmpDir f
      · exact Or.inr ⟨cleanDir_gone _ h1, Or.inl h1⟩
      rw [(cleanDir_keeps w2 c.tmpDir).2 f h1, a3.2 f h1]
      by_cases h2 : ∃ n, Under (c.evalDir n) f
      · rcases a2 f h2 with h3 | h3
        · exact Or.inl h3
        · exact Or.inr ⟨h3, Or.inr h2⟩
      · exact Or.inl (a1.2 f h2)
    have k2 : ∀ f, (∃ n, Under (c.evalDir n) f) → (evalSpecies c initial c.modelFile (saLimbo c.safe sol []) w).2.fs f = w.fs f ∨
        (evalSpecies c initial c.modelFile (saLimbo c.safe sol []) w).2.fs f = none := by
      rintro f ⟨n, hn⟩
      obtain ⟨-, k3, -⟩ := evalSpecies_spec T initial T.model_eval (saLimbo c.safe sol []) hw
      rcases k3.2 f (fun ht => T.apart n f ht hn) with h | h
      · exact Or.inl h
      · exact Or.inr h.1
    generalize evalSpecies c initial c.modelFile (saLimbo c.safe sol []) w = ev at h k1 k2 ⊢
    obtain ⟨_ | errs, w1⟩ := ev
    · dsimp only at k1 k2 h ⊢
      by_cases h2 : ∃ n, Under (c.evalDir n) f
      · rcases k2 f h2 with h3 | h3
        · exact Or.inl h3
        · exact Or.inr ⟨h3, Or.inr h2⟩
      · exact Or.inl (k1.2 f h2)
    dsimp only at k1 k2 h ⊢
    have hw1 : w1.fs c.modelFile = some sol := by
      rw [k1.2 _ (fun ⟨n, hn⟩ => T.model_eval n hn)]
      exact hw
    by_cases he : saLimbo c.safe sol [] = []
    · rw [if_pos he] at h
      simp at h
    rw [if_neg he] at h ⊢
    split
    · exact gone w1 w1 k1 k2 (Keeps.refl _ _)
    split
    · exact gone w1 w1 k1 k2 (Keeps.refl _ _)
    rename_i sp _
    obtain ⟨fn, w2, -, k4, -, e4⟩ := tryRemove_spec c initial T.tmp_ne T.tmp_last sp hw1
    rw [e4]
    rcases saErr c initial (without c sol sp) with _ | _ <;> exact gone w1 w2 k1 k2 k4
  unfold mainText at h ⊢
  split
  · exact Or.inl rfl
  split
  · exact Or.inl rfl
  rename_i c1 c2
  rw [if_neg c1, if_neg c2] at h
  split
  · rename_i hn
    rw [hn] at h
    dsimp only at h ⊢
    have hn' : (mainIn K rnd q d [] [] dfuel 0 0).method.bind methodOf = none := hn
    unfold stagesText at h ⊢
    rw [hn'] at h ⊢
    dsimp only at h ⊢
    split
    · rename_i hs
      rw [if_pos hs] at h
      exact hsa _ T h
    · exact Or.inl rfl
  · rename_i m hn
    split
    · exact Or.inl rfl
    · dsimp only
      split
      · exact Or.inl rfl
      · left
        dsimp only
        unfold stagesText
        rename_i base rows _
        rw [show (mainIn K rnd q (applyEvs d _) (List.map (fun r => matrixOf m rnd (K.chem _ r)) rows) base dfuel 0 0).method.bind methodOf
          = some m from hn]
        exact congrArg (fun x : World => x.fs f) (hm m _)
end

/-! ## not vacuous -/

/-- a limit in words, a list as limit, a word as threshold and flame speed, sensitivity analysis with `"no"` in quotes: all
accepted; without quotes `no` means no -/
example : (readInputs exLoadDyn (.map (exEntries (exPlain "error") (.scalar (exPlain "ten percent"))))).toOption.isSome = true ∧
    (readInputs exLoadDyn (.map (exEntries (exPlain "error") (.seq [.scalar (exPlain "10")])))).toOption.isSome = true ∧
    (readInputs exLoadDyn (.map (exEntries (exPlain "upper-threshold") (.scalar (exPlain "high"))))).toOption.isSome = true ∧
    (readInputs exLoadDyn (.map (exEntries (exPlain "min-flame-speed") (.scalar (exPlain "slow"))))).toOption.isSome = true ∧
    ((readInputs exLoadDyn (.map (exEntries (exPlain "sensitivity-analysis") (.scalar (exQuoted "no"))))).toOption.map
      fun R => R.sensitivity.truthy) = some true ∧
    ((readInputs exLoadDyn (.map (exEntries (exPlain "sensitivity-analysis") (.scalar (exPlain "no"))))).toOption.map
      fun R => R.sensitivity.truthy) = some false := by
  decide +kernel

/-- the hypotheses of `C140_option_refuted` -/
example : LooksText (exPlain "error") ∧ (exPlain "error").text = "error".toList ∧ "error" ∈ freeKeys ∧
    construct (.scalar (exPlain "ten percent")) = .ok (pyStr "ten percent") ∧ (pyStr "ten percent").truthy = true :=
  ⟨Or.inr ⟨'e', "rror".toList, by decide +kernel, by decide +kernel, by decide +kernel, by decide +kernel⟩, rfl, by simp [freeKeys],
    by rw [construct, C131_names_partial (Or.inr ⟨'t', "en percent".toList, by decide +kernel, by decide +kernel, by decide +kernel,
      by decide +kernel⟩)]; rfl, by decide +kernel⟩

/-- the document of `exDocument` with an end time -/
def exEndTime (t : YScalar) : YNode :=
  .map ([(exPlain "model", .scalar (exPlain "gas.yaml")), (exPlain "error", .scalar (exPlain "10")),
    (exPlain "method", .scalar (exPlain "DRG")), (exPlain "targets", .seq [.scalar (exPlain "H2")])] ++
    (exPlain "autoignition-conditions", .seq ([] ++ .map ([(exPlain "kind", .scalar (exPlain "constant volume")),
      (exPlain "temperature", .scalar (exPlain "1000")), (exPlain "pressure", .scalar (exPlain "1.0")),
      (exPlain "reactants", .map [(exPlain "O2", .scalar (exPlain "1"))])] ++ (exPlain "end-time", .scalar t) :: []) :: [])) :: [])

example : (readInputs exLoadDyn (exEndTime (exPlain "2.0"))).toOption.isSome = true ∧
    (readInputs exLoadDyn (exEndTime (exPlain "one second"))).toOption.isSome = true := by
  decide +kernel

/-- a method, and sensitivity analysis alone: the run returns a model with the limit 5 and raises with a text, after as many
writes of samples -/
example : runView (fullMain e2eK id (e2eMain "DRG") (fun _ => none) 50 20 20 e2eWorld).1 = some (.ok (["A", "B"], .fin 1)) ∧
    runView (mainText e2eK id (e2eMain "DRG") (fun _ => none) 50 e2eWorld).1 = some (.error .typeError) ∧
    (mainText e2eK id (e2eMain "DRG") (fun _ => none) 50 e2eWorld).2.length > 0 ∧
    runView (mainText e2eK id (e2eAlone []) (fun _ => none) 50 e2eWorld).1 = some (.error .typeError) := by
  decide +kernel

/-- the hypotheses of `C140_files_partial` -/
example : TmpOk ((mainIn e2eK id (e2eAlone []) (fun _ => none) [] [] 50 0 0).saCtx (e2eAlone []).modelFile (.fin 0)) ∧
    (mainText e2eK id (e2eAlone []) (fun _ => none) 50 e2eWorld).1.1.isSome = true :=
  ⟨e2eAlone_tmp _ _ _ _ _ _, by decide +kernel⟩

end Verif
