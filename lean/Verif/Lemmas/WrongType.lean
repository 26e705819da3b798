import Verif.Spec.WrongType
import Verif.Props.Headings
/-!
# Lemmas on inputs with a value of another type
-/
namespace Verif
open Spec

/-- another value under the last heading of this name -/
theorem construct_replace {l1 l2 : List (YScalar × YNode)} {k : YScalar} {x x' : YNode} {key : String} {v u : PyV}
    (h : construct (.map (l1 ++ (k, x) :: l2)) = .ok v) (hk : LooksText k) (hk' : k.text = key.toList)
    (h2 : ∀ e ∈ l2, e.1.text ≠ key.toList) (hx : construct x' = .ok u) :
    ∃ d d' u0, v = .dict d ∧ construct (.map (l1 ++ (k, x') :: l2)) = .ok (.dict d') ∧ construct x = .ok u0 ∧
      entryOf d key = some u0 ∧ entryOf d' key = some u ∧
      ∀ key', key' ≠ key → entryOf d' key' = entryOf d key' := by
  obtain ⟨ps, h1, rfl⟩ := construct_map_iff.1 h
  obtain ⟨p1, p2, q1, q2, rfl⟩ := forall2_split h1
  cases q2 with
  | @cons _ p _ p2 q q2 =>
    obtain ⟨a, b⟩ := p
    dsimp only at q
    rw [heading_value hk hk'] at q
    obtain ⟨e1, e2⟩ := q
    cases e1
    have hlast : ∀ u, entryOf (dictOf (p1 ++ (.str key, u) :: p2)) key = some u := by
      intro u
      refine entryOf_last fun p hp => ?_
      obtain ⟨e, he, hep⟩ := forall2_right q2 p hp
      intro hs
      rw [hs] at hep
      exact h2 e he (scalarValue_str hep.1)
    exact ⟨_, _, b, rfl, construct_map_iff.2 ⟨p1 ++ (.str key, u) :: p2, List.rel_append q1 (.cons ⟨heading_value hk hk', hx⟩ q2), rfl⟩,
      e2, hlast _, hlast _, fun key' hne => entryOf_other hne⟩

theorem parseDyn_option {load : PyV → PyV → Except Err (List String)} {d d' : List (PyS × PyV)} {R : InputsDyn} {key : String}
    {u : PyV} (hkey : key ∈ freeKeys)
    (hsame : ∀ key', key' ≠ key → entryOf d' key' = entryOf d key') (he : entryOf d' key = some u) (ht : u.truthy = true)
    (h : parseDyn load (.dict d) = .ok R) : parseDyn load (.dict d') = .ok (withOption R key u) := by
  have hk : ∀ key' v, key' ≠ key → headOf d' key' v = headOf d key' v := by
    intro key' v hne; unfold headOf; rw [hsame key' hne]
  have hu : ∀ v, headOf d' key v = u := headOf_some he
  unfold parseDyn at h ⊢
  simp only [get_headOf, bind_ok, Except.ok.injEq, exists_eq_left'] at h ⊢
  obtain ⟨x1, h1, x2, h2, y1, g1, y2, g2, names, g3, y4, g4, y5, g5, y6, g6, l1, g7, y8, g8, l2, g9, y10, g10, l3, g11, y12, g12, y13, g13, rfl⟩ := h
  simp only [freeKeys, List.mem_cons, List.not_mem_nil, or_false] at hkey
  have hne : key ≠ "model" ∧ key ≠ "method" ∧ key ≠ "targets" ∧ key ≠ "retained-species" ∧ key ≠ "phase-name" ∧
      key ≠ "autoignition-conditions" ∧ key ≠ "psr-conditions" ∧ key ≠ "laminar-flame-conditions" := by
    rcases hkey with rfl | rfl | rfl | rfl | rfl <;> decide
  obtain ⟨n1, n2, n3, n4, n5, n6, n7, n8⟩ := hne
  rw [hk "model" _ n1.symm, hk "method" _ n2.symm, hk "targets" _ n3.symm, hk "retained-species" _ n4.symm,
    hk "phase-name" _ n5.symm, hk "autoignition-conditions" _ n6.symm, hk "psr-conditions" _ n7.symm,
    hk "laminar-flame-conditions" _ n8.symm]
  rcases hkey with rfl | rfl | rfl | rfl | rfl
  · rw [hk "sensitivity-analysis" _ (by decide), hk "upper-threshold" _ (by decide), hk "sensitivity-type" _ (by decide),
      hk "min-flame-speed" _ (by decide), hu]
    exact ⟨x1, h1, (), by rw [ht]; rfl, y1, g1, y2, g2, names, g3, y4, g4, y5, g5, y6, g6, l1, g7, y8, g8, l2, g9, y10, g10, l3,
      g11, y12, g12, y13, g13, rfl⟩
  · rw [hk "sensitivity-analysis" _ (by decide), hk "error" _ (by decide), hk "sensitivity-type" _ (by decide),
      hk "min-flame-speed" _ (by decide), hu]
    refine ⟨x1, h1, x2, h2, y1, g1, y2, g2, names, g3, y4, g4, y5, g5, y6, g6, l1, g7, y8, g8, l2, g9, y10, g10, l3,
      g11, y12, g12, y13, g13, ?_⟩
    simp [withOption, ht]
  · rw [hk "upper-threshold" _ (by decide), hk "error" _ (by decide), hk "sensitivity-type" _ (by decide),
      hk "min-flame-speed" _ (by decide), hu]
    refine ⟨x1, h1, x2, h2, (), by rw [ht, Bool.or_true]; rfl, y2, g2, names, g3, y4, g4, y5, g5, y6, g6, l1, g7, y8, g8, l2, g9, y10, g10, l3,
      g11, y12, g12, y13, g13, ?_⟩
    have hn : (pyNum float01).truthy = true := by decide +kernel
    simp only [withOption, if_neg (show "sensitivity-analysis" ≠ "error" by decide),
      if_neg (show "sensitivity-analysis" ≠ "upper-threshold" by decide), ht, Bool.and_true, if_true, if_pos rfl]
    rcases hc : (headOf d "upper-threshold" (.sc .none)).truthy <;>
      rcases hs : (headOf d "sensitivity-analysis" (.sc (.bool false))).truthy <;> simp [hc, hn]
  · rw [hk "upper-threshold" _ (by decide), hk "error" _ (by decide), hk "sensitivity-analysis" _ (by decide),
      hk "min-flame-speed" _ (by decide), hu]
    exact ⟨x1, h1, x2, h2, y1, g1, y2, g2, names, g3, y4, g4, y5, g5, y6, g6, l1, g7, y8, g8, l2, g9, y10, g10, l3,
      g11, y12, g12, y13, g13, rfl⟩
  · rw [hk "upper-threshold" _ (by decide), hk "error" _ (by decide), hk "sensitivity-analysis" _ (by decide),
      hk "sensitivity-type" _ (by decide), hu]
    exact ⟨x1, h1, x2, h2, y1, g1, y2, g2, names, g3, y4, g4, y5, g5, y6, g6, l1, g7, y8, g8, l2, g9, y10, g10, l3,
      g11, y12, g12, y13, g13, rfl⟩

/-! ### an entry of a condition -/

/-- only the mixtures of the conditions matter to the list of retained species -/
theorem retainAllDyn_mixtures {targets : PyV} {l l' : List CondDyn}
    (h : List.Forall₂ (fun k k' : CondDyn => k.fuel = k'.fuel ∧ k.oxidizer = k'.oxidizer ∧ k.reactants = k'.reactants) l l') :
    ∀ safe, retainAllDyn targets l safe = retainAllDyn targets l' safe := by
  induction h with
  | nil => intro _; rfl
  | cons h1 _ ih =>
    intro safe
    rw [retainAllDyn, retainAllDyn, h1.1, h1.2.1, h1.2.2]
    simp only [ih]

theorem ignitionDyn_entry {names : List String} {d d' : List (PyS × PyV)} {key : String} {u : PyV} {k : CondDyn}
    (hkey : key = "end-time" ∨ key = "max-steps") (hu : entryOf d' key = some u)
    (hsame : ∀ key', key' ≠ key → entryOf d' key' = entryOf d key') (h : ignitionDyn names (.dict d) = .ok k) :
    ∃ ex, u ∈ ex ∧ ignitionDyn names (.dict d') = .ok { k with extra := ex } := by
  have hk : ∀ key' v, key' ≠ key → headOf d' key' v = headOf d key' v := by
    intro key' v hne; unfold headOf; rw [hsame key' hne]
  have hu : ∀ v, headOf d' key v = u := headOf_some hu
  have n : key ≠ "kind" ∧ key ≠ "temperature" ∧ key ≠ "pressure" ∧ key ≠ "equivalence-ratio" ∧ key ≠ "fuel" ∧ key ≠ "oxidizer" ∧
      key ≠ "reactants" ∧ key ≠ "composition-type" := by
    rcases hkey with rfl | rfl <;> decide
  unfold ignitionDyn condDyn at h ⊢
  simp only [get_headOf, bind_ok, Except.ok.injEq, exists_eq_left'] at h ⊢
  obtain ⟨_, h1, _, h2, _, h3, _, h4, rfl⟩ := h
  rw [hk "kind" _ n.1.symm, hk "temperature" _ n.2.1.symm, hk "pressure" _ n.2.2.1.symm, hk "equivalence-ratio" _ n.2.2.2.1.symm,
    hk "fuel" _ n.2.2.2.2.1.symm, hk "oxidizer" _ n.2.2.2.2.2.1.symm, hk "reactants" _ n.2.2.2.2.2.2.1.symm,
    hk "composition-type" _ n.2.2.2.2.2.2.2.symm]
  refine ⟨[headOf d "kind" (pyStr ""), headOf d' "end-time" (pyNum 0), headOf d' "max-steps" (pyNum 10000)], ?_,
    (), h1, (), h2, (), h3, (), h4, rfl⟩
  rcases hkey with rfl | rfl
  · rw [hu]; simp
  · rw [hu]; simp

theorem parseDyn_entry {load : PyV → PyV → Except Err (List String)} {D D' : List (PyS × PyV)} {v1 v2 : List PyV}
    {d d' : List (PyS × PyV)} {key : String} {u : PyV} {R : InputsDyn} {n : Nat} (hkey : key = "end-time" ∨ key = "max-steps")
    (hsame : ∀ key', key' ≠ "autoignition-conditions" → entryOf D' key' = entryOf D key')
    (hD : entryOf D "autoignition-conditions" = some (.list (v1 ++ .dict d :: v2)))
    (hD' : entryOf D' "autoignition-conditions" = some (.list (v1 ++ .dict d' :: v2)))
    (hu : entryOf d' key = some u) (hd : ∀ key', key' ≠ key → entryOf d' key' = entryOf d key') (hn : v1.length = n)
    (h : parseDyn load (.dict D) = .ok R) :
    ∃ k1 c ex k2, R.ignition = k1 ++ c :: k2 ∧ k1.length = n ∧ u ∈ ex ∧
      parseDyn load (.dict D') = .ok { R with ignition := k1 ++ { c with extra := ex } :: k2 } := by
  have hk : ∀ key' v, key' ≠ "autoignition-conditions" → headOf D' key' v = headOf D key' v := by
    intro key' v hne; unfold headOf; rw [hsame key' hne]
  have hi : headOf D "autoignition-conditions" (.dict []) = .list (v1 ++ .dict d :: v2) := headOf_some hD _
  have hi' : headOf D' "autoignition-conditions" (.dict []) = .list (v1 ++ .dict d' :: v2) := headOf_some hD' _
  unfold parseDyn at h ⊢
  simp only [get_headOf, bind_ok, Except.ok.injEq, exists_eq_left'] at h ⊢
  obtain ⟨x1, h1, x2, h2, y1, g1, y2, g2, names, g3, y4, g4, y5, g5, y6, g6, l1, g7, y8, g8, l2, g9, y10, g10, l3, g11, y12, g12, y13, g13, rfl⟩ := h
  rw [hi] at g6 g7
  cases g7
  obtain ⟨k1, k2, j1, j2, rfl⟩ := forall2_split (casesDyn_ok.1 g8)
  cases j2 with
  | @cons _ c _ k2 j j2 =>
    obtain ⟨ex, hex, hj⟩ := ignitionDyn_entry hkey hu hd j
    refine ⟨k1, c, ex, k2, rfl, by rw [← j1.length_eq, hn], hex, ?_⟩
    rw [hk "model" _ (by decide), hk "error" _ (by decide), hk "method" _ (by decide), hk "sensitivity-analysis" _ (by decide),
      hk "targets" _ (by decide), hk "upper-threshold" _ (by decide), hk "sensitivity-type" _ (by decide),
      hk "retained-species" _ (by decide), hk "phase-name" _ (by decide), hk "min-flame-speed" _ (by decide),
      hk "psr-conditions" _ (by decide), hk "laminar-flame-conditions" _ (by decide), hi']
    refine ⟨x1, h1, x2, h2, y1, g1, y2, g2, names, g3, y4, g4, y5, g5, y6, ?_, _, rfl, k1 ++ { c with extra := ex } :: k2,
      casesDyn_ok.2 (List.rel_append j1 (.cons hj j2)), l2, g9, y10, g10, l3, g11, y12, g12, y13, ?_, rfl⟩
    · rw [← g6]
      have hl : ∀ e : PyV, (PyV.list (v1 ++ e :: v2)).truthy = true := by intro e; cases v1 <;> rfl
      rw [hl, hl]
    · rw [← g13]
      refine retainAllDyn_mixtures ?_ _
      have same : ∀ l : List CondDyn, List.Forall₂ (fun k k' : CondDyn => k.fuel = k'.fuel ∧ k.oxidizer = k'.oxidizer ∧
          k.reactants = k'.reactants) l l := fun l => List.forall₂_same.2 fun _ _ => ⟨rfl, rfl, rfl⟩
      have here : List.Forall₂ (fun k k' : CondDyn => k.fuel = k'.fuel ∧ k.oxidizer = k'.oxidizer ∧
          k.reactants = k'.reactants) ({ c with extra := ex } :: k2) (c :: k2) := .cons ⟨rfl, rfl, rfl⟩ (same k2)
      exact List.rel_append (List.rel_append (List.rel_append (same k1) here) (same _)) (same _)

/-! ### the run -/

variable {ι π φ : Type} {K : Cantera ι π φ} {rnd : ℚ → ℚ} {q : MainArgs ι π φ} {d : Disk} {dfuel fuel saFuel : Nat} {w : World}

/-- with a number as limit a method gets past the first comparison, or fails in the same way -/
theorem methodText_eq (m : Method) (c : Ctx) (sim : Mech → Except Err PyF) (rnd : ℚ → ℚ) (limit : PyF)
    (dfuel fuel : Nat) (w : World) :
    methodText m c dfuel w = (some (.error .typeError), w) ∨
      ∃ e, methodText m c dfuel w = (some (.error e), w) ∧ runMethodS m c sim rnd limit dfuel fuel w = (some (.error e), w) := by
  unfold methodText
  cases hl : loadModel w c.modelFile with
  | error e =>
    right
    refine ⟨e, rfl, ?_⟩
    cases m <;> simp only [runMethodS, runDrgS, runPfaS, runDrgepS, hl]
  | ok sol =>
    dsimp only
    by_cases ht : c.targets = []
    · right
      rw [if_pos ht]
      refine ⟨_, rfl, ?_⟩
      cases m <;> simp only [runMethodS, runDrgS, runPfaS, runDrgepS, hl, if_pos ht]
    · rw [if_neg ht]
      cases m with
      | drg => exact Or.inl rfl
      | pfa => exact Or.inl rfl
      | drgep =>
        dsimp only
        cases hg : getImportanceCoeffs c.rndMul sol.names c.targets c.matrices dfuel with
        | ok _ => exact Or.inl rfl
        | error e =>
          right
          refine ⟨e, rfl, ?_⟩
          simp only [runMethodS, runDrgepS, hl, if_neg ht, hg]

theorem saText_eq (c : SACtx) (limbo : List String) (fuel : Nat) (w : World) :
    (saText c limbo w).1 = some (.error .typeError) ∨
      ∃ l, (runSA c limbo (fuel + 1) w) = ((saText c limbo w).1.map fun r => ⟨r, (saText c limbo w).2, l⟩) ∧
        (saText c limbo w).1.isSome = true := by
  unfold saText runSA
  cases hl : loadModel w c.modelFile with
  | error e => right; exact ⟨_, rfl, rfl⟩
  | ok sol =>
    dsimp only
    cases hi : c.initial sol with
    | error e => right; exact ⟨_, rfl, rfl⟩
    | ok initial =>
      dsimp only
      generalize saLimbo c.safe sol limbo = l1
      rcases he : evalSpecies c initial c.modelFile l1 w with ⟨r, w1⟩
      cases r with
      | error e => right; exact ⟨_, rfl, rfl⟩
      | ok errs =>
        dsimp only
        by_cases hn : l1 = []
        · right
          rw [if_pos hn, saLoop]
          dsimp only
          rw [if_pos hn]
          exact ⟨l1, rfl, rfl⟩
        · rw [if_neg hn]
          cases ha : npArgmin (errs.map (fun e => c.dist e c.startErr)) with
          | error e =>
            right
            rw [saLoop]
            dsimp only
            rw [if_neg hn]
            simp only [saStep, ha]
            exact ⟨l1, rfl, rfl⟩
          | ok idx =>
            dsimp only
            cases hx : l1[idx]? with
            | none =>
              right
              rw [saLoop]
              dsimp only
              rw [if_neg hn]
              simp only [saStep, ha, hx]
              exact ⟨l1, rfl, rfl⟩
            | some sp =>
              dsimp only
              rcases ht : tryRemove c initial c.modelFile c.tmpDir sp w1 with ⟨r, w2⟩
              cases r with
              | ok _ => left; rfl
              | error e =>
                right
                rw [saLoop]
                dsimp only
                rw [if_neg hn]
                simp only [saStep, ha, hx, ht]
                exact ⟨l1.eraseIdx idx, rfl, rfl⟩

end Verif
