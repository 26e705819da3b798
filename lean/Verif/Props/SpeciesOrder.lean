import Verif.Lemmas.SpeciesOrder
import Verif.Lemmas.MatrixRound
import Verif.Model.EndToEnd
import Verif.Props.ReduceCases
/-!
# C106: order of species and reactions in the model file
-/
namespace Verif
open Spec

/-- `σ` and `τ` match species and reactions of two orders of one model at one state: same names,
same coefficients, same rates -/
structure Spec.SameChem {n m n' m' : Nat} (names names' : List String) (c : Chem n m)
    (c' : Chem n' m') (σ : Fin n ≃ Fin n') (τ : Fin m ≃ Fin m') : Prop where
  name : ∀ a : Fin n, names[(a : Nat)]? = names'[((σ a : Fin n') : Nat)]?
  prod : ∀ a r, c'.prod (σ a) (τ r) = c.prod a r
  reac : ∀ a r, c'.reac (σ a) (τ r) = c.reac a r
  rop : ∀ r, c'.rop (τ r) = c.rop r

section
variable {n m n' m' : Nat} {names names' : List String} {c : Chem n m} {c' : Chem n' m'}
  {σ : Fin n ≃ Fin n'} {τ : Fin m ≃ Fin m'}

theorem Spec.SameChem.rate (h : SameChem names names' c c' σ τ) (a : Fin n) (r : Fin m) :
    Spec.rate c' (σ a) (τ r) = Spec.rate c a r := by
  unfold Spec.rate; rw [h.prod, h.reac, h.rop]

theorem Spec.SameChem.involves (h : SameChem names names' c c' σ τ) (a : Fin n) (r : Fin m) :
    Spec.Involves c' (σ a) (τ r) ↔ Spec.Involves c a r := by
  unfold Spec.Involves; rw [h.prod, h.reac]

/-- **C106** (matrices, exact arithmetic): coefficients belong to species, not to positions -/
theorem exact_matrices_reorder (h : SameChem names names' c c' σ τ) (a b : Fin n) :
    drgMatrix c' (σ a) (σ b) = drgMatrix c a b ∧ drgepMatrix c' (σ a) (σ b) = drgepMatrix c a b ∧
      pfaMatrix c' (σ a) (σ b) = pfaMatrix c a b := by
  have hP : ∀ a, Spec.P c' (σ a) = Spec.P c a := by
    intro a; unfold Spec.P; rw [← Equiv.sum_comp τ]; simp only [h.rate]
  have hC : ∀ a, Spec.C c' (σ a) = Spec.C c a := by
    intro a; unfold Spec.C; rw [← Equiv.sum_comp τ]; simp only [h.rate]
  have hp1 : ∀ a b, Spec.pro1 c' (σ a) (σ b) = Spec.pro1 c a b := by
    intro a b
    unfold Spec.pro1 Spec.PAB
    rw [hP, hC, ← Equiv.sum_comp τ]
    simp only [h.rate, h.involves]
  have hc1 : ∀ a b, Spec.con1 c' (σ a) (σ b) = Spec.con1 c a b := by
    intro a b
    unfold Spec.con1 Spec.CAB
    rw [hP, hC, ← Equiv.sum_comp τ]
    simp only [h.rate, h.involves]
  rw [drgMatrix_eq, drgMatrix_eq, drgepMatrix_eq, drgepMatrix_eq, pfaMatrix_eq, pfaMatrix_eq]
  simp only [σ.injective.eq_iff]
  refine ⟨?_, ?_, ?_⟩
  · unfold Spec.drg
    rw [← Equiv.sum_comp τ, ← Equiv.sum_comp τ]
    simp only [h.rate, h.involves]
  · unfold Spec.drgep
    rw [hP, hC, ← Equiv.sum_comp τ]
    simp only [h.rate, h.involves]
  · unfold Spec.pfa
    rw [hp1, hc1, ← Equiv.sum_comp σ, ← Equiv.sum_comp σ]
    simp only [hp1, hc1, σ.injective.eq_iff]

theorem sumOverR_congr {rnd : ℚ → ℚ} {l : List (Fin m)} {f g : Fin m → ℚ} (h : ∀ r, f r = g r) :
    sumOverR rnd l f = sumOverR rnd l g := by
  rw [show f = g from funext h]

/-- **C106** (matrices, any rounding): with the reactions in the same order, DRG and DRGEP
coefficients do not depend on the order of the species -/
theorem rounded_matrices_reorder (rnd : ℚ → ℚ) {c' : Chem n' m}
    (h : SameChem names names' c c' σ (Equiv.refl _)) (a b : Fin n) :
    drgMatrixR rnd c' (σ a) (σ b) = drgMatrixR rnd c a b ∧
      drgepMatrixR rnd c' (σ a) (σ b) = drgepMatrixR rnd c a b := by
  have hv : c'.valid = c.valid := by
    unfold Chem.valid
    apply List.filter_congr
    intro r _
    have := h.rop r
    simp only [Equiv.refl_apply] at this
    rw [this]
  have hw : ∀ b, c'.validWith (σ b) = c.validWith b := by
    intro b
    unfold Chem.validWith Chem.flag
    rw [hv]
    apply List.filter_congr
    intro r _
    have h1 := h.prod b r
    have h2 := h.reac b r
    simp only [Equiv.refl_apply] at h1 h2
    rw [h1, h2]
  have hb : ∀ a r, baseR rnd c' (σ a) r = baseR rnd c a r := by
    intro a r
    have h1 := h.prod a r
    have h2 := h.reac a r
    have h3 := h.rop r
    simp only [Equiv.refl_apply] at h1 h2 h3
    unfold baseR
    rw [h1, h2, h3]
  unfold drgMatrixR drgepMatrixR
  rw [hv]
  constructor
  · by_cases he : c.valid.isEmpty
    · rw [if_pos he, if_pos he]
      simp [fillDiagonal]
    · rw [if_neg he, if_neg he]
      simp only [fillDiagonal, whereDivR, σ.injective.eq_iff, hw]
      simp only [hb]
  · by_cases he : c.valid.isEmpty
    · rw [if_pos he, if_pos he]
      simp [fillDiagonal]
    · rw [if_neg he, if_neg he]
      simp only [fillDiagonal, whereDivR, σ.injective.eq_iff, hw]
      simp only [hb, show baseR rnd c' (σ a) = baseR rnd c a from funext (hb a)]

theorem toN_sameByName {M : Mat n} {M' : Mat n'} (hn : names.length = n)
    (hnd : names'.Nodup) (hσ : ∀ a : Fin n, names[(a : Nat)]? = names'[((σ a : Fin n') : Nat)]?)
    (h : ∀ a b, M' (σ a) (σ b) = M a b) : SameByName names names' M.toN M'.toN := by
  intro i j i' j' a b hi hi' hj hj'
  have key : ∀ (i i' : Nat) (a : String), names[i]? = some a → names'[i']? = some a →
      ∃ hi : i < n, i' = (σ ⟨i, hi⟩ : Nat) := by
    intro i i' a hi hi'
    have hlt : i < n := by rw [← hn]; exact (List.getElem?_eq_some_iff.1 hi).1
    refine ⟨hlt, ?_⟩
    have h1 := hσ ⟨i, hlt⟩
    rw [hi] at h1
    have l1 := (List.getElem?_eq_some_iff.1 hi').1
    exact (List.getElem?_inj l1 hnd).1 (hi'.trans h1)
  obtain ⟨h1, rfl⟩ := key i i' a hi hi'
  obtain ⟨h2, rfl⟩ := key j j' b hj hj'
  unfold Mat.toN
  rw [dif_pos h1, dif_pos h2, dif_pos (σ ⟨i, h1⟩).2, dif_pos (σ ⟨j, h2⟩).2]
  exact (h ⟨i, h1⟩ ⟨j, h2⟩).symm

end

section
variable {c c' : Ctx} {sol sol' : Mech} {meth : Method}

theorem candidate_reorder (R : ReorderedRequest c c' sol sol') (t : ℚ) :
    Reordered (candidate c sol (Kept meth c sol) t) (candidate c' sol' (Kept meth c' sol') t) := by
  classical
  unfold candidate
  rw [R.file, R.phase]
  apply trim_reordered R.model
  intro s
  simp only [List.mem_filter, decide_eq_true_eq, kept_reorder R t s, (Reordered.names R.model).mem_iff]

theorem forall₂_right {α β} {P : α → β → Prop} {l : List α} {l' : List β} (h : List.Forall₂ P l l')
    {y : β} (hy : y ∈ l') : ∃ x ∈ l, P x y := by
  obtain ⟨x, h1, h2⟩ := forall₂_left (List.Forall₂.flip h) hy
  exact ⟨x, h1, h2⟩

theorem usable_reorder (R : ReorderedRequest c c' sol sol') (U : Usable meth c sol) :
    Usable meth c' sol' where
  nodup := (Reordered.names R.model).nodup_iff.1 U.nodup
  targets t ht := (Reordered.names R.model).mem_iff.1 (U.targets t (R.targets ▸ ht))
  noclash n := by rw [R.path, R.file]; exact U.noclash n
  target := by rw [R.targets]; exact U.target
  unit hm := by
    rw [R.rndMul]
    refine ⟨(U.unit hm).1, fun M' hM' i' hi' j' hj' => ?_⟩
    obtain ⟨M, hM, hs⟩ := forall₂_right R.matrices hM'
    have hp := (Reordered.names R.model).symm
    have e1 : sol'.names[i']? = some sol'.names[i'] := List.getElem?_eq_getElem hi'
    have e2 : sol'.names[j']? = some sol'.names[j'] := List.getElem?_eq_getElem hj'
    obtain ⟨i, hi⟩ := mem_getElem?_of_perm hp e1
    obtain ⟨j, hj⟩ := mem_getElem?_of_perm hp e2
    rw [← hs i j i' j' _ _ hi e1 hj e2]
    exact (U.unit hm).2 M hM i (List.getElem?_eq_some_iff.1 hi).1 j (List.getElem?_eq_some_iff.1 hj).1
  upper hm := by
    rw [R.upper]
    refine (U.upper hm).imp id (fun h h0 => h ?_)
    have := R.matrices.length_eq
    rw [h0] at this
    exact List.length_eq_zero_iff.1 this

/-- **C106** (from matrices that belong to species): a reduction of the reordered model returns the
reordered result, with the same file name and error, or fails in the same way. -/
theorem C106_names_partial (R : ReorderedRequest c c' sol sol') (U : Usable meth c sol) {limit : PyF}
    (hl : LimitOk c sol limit) (a : Arith) :
    ∃ N, ∀ dfuel ≥ N, ∀ fuel w w', w.fs c.modelFile = some sol → w'.fs c.modelFile = some sol' →
      SameOutcome (runMethod meth c a.rnd limit dfuel fuel w)
        (runMethod meth c' a.rnd limit dfuel fuel w') := by
  have hl' : LimitOk c' sol' limit := by
    refine ⟨hl.nonneg, ?_⟩
    rw [R.errors _ _ (by rw [R.file, R.phase]; exact trim_reordered R.model (fun s => Iff.rfl) _ _)]
    exact hl.full
  obtain ⟨N, hN⟩ := run_same_errors U (usable_reorder R U)
    (fun t => R.errors _ _ (candidate_reorder R t)) hl hl' a
  refine ⟨N, fun dfuel hd fuel w w' hw hw' => ?_⟩
  rcases hN dfuel hd fuel w w' hw (by rw [R.file]; exact hw') with h | h | ⟨t, lb, lb', h1, h2⟩
  · exact .inl h
  · exact .inr (.inl h)
  · have hc := candidate_reorder (meth := meth) R t
    refine .inr (.inr ⟨_, _, h1, h2, hc, ?_, R.errors _ _ hc⟩)
    simp only [freshResult, redFile, Mech.nSpecies, R.path, hc.species.length_eq]

/-- **C106** (from the chemistry at the sampled states): species and reactions can be listed in any
order if arithmetic is exact; with any rounding, DRG and DRGEP do not depend on the order of the
species.  Missing: rounding and the order of reactions, or PFA. -/
theorem C106_order_partial {rnd : ℚ → ℚ} {σ : Fin sol.names.length ≃ Fin sol'.names.length}
    {τ : Fin sol.reactions.length ≃ Fin sol'.reactions.length}
    {chems : List (Chem sol.names.length sol.reactions.length)}
    {chems' : List (Chem sol'.names.length sol'.reactions.length)}
    (hchem : List.Forall₂ (fun x x' => SameChem sol.names sol'.names x x' σ τ) chems chems')
    (hord : rnd = id ∨ (meth ≠ .pfa ∧ ∀ r, (τ r : Nat) = r))
    (hmodel : Reordered sol sol') (herr : ∀ m m', Reordered m m' → c.errOf m' = c.errOf m)
    (hc : c.matrices = chems.map (matrixOf meth rnd)) (U : Usable meth c sol) {limit : PyF}
    (hl : LimitOk c sol limit) (a : Arith) :
    ∃ N, ∀ dfuel ≥ N, ∀ fuel w w', w.fs c.modelFile = some sol → w'.fs c.modelFile = some sol' →
      SameOutcome (runMethod meth c a.rnd limit dfuel fuel w)
        (runMethod meth { c with matrices := chems'.map (matrixOf meth rnd) } a.rnd limit dfuel
          fuel w') := by
  have hnd : sol'.names.Nodup := (Reordered.names hmodel).nodup_iff.1 U.nodup
  refine C106_names_partial (c := c) (c' := { c with matrices := chems'.map (matrixOf meth rnd) })
    ⟨hmodel, rfl, rfl, rfl, rfl, rfl, rfl, rfl, ?_, herr⟩ U hl a
  rw [hc, List.forall₂_map_left_iff, List.forall₂_map_right_iff]
  refine hchem.imp (fun x x' h => ?_)
  rcases hord with rfl | ⟨hm, hτ⟩
  · have h1 := exact_matrices_reorder h
    obtain ⟨m1, m2, m3⟩ := matrices_id x
    obtain ⟨m1', m2', m3'⟩ := matrices_id x'
    cases meth with
    | drg => exact toN_sameByName rfl hnd h.name (fun a b => by rw [m1, m1']; exact (h1 a b).1)
    | drgep => exact toN_sameByName rfl hnd h.name (fun a b => by rw [m2, m2']; exact (h1 a b).2.1)
    | pfa => exact toN_sameByName rfl hnd h.name (fun a b => by rw [m3, m3']; exact (h1 a b).2.2)
  · have hlen := hmodel.reactions.length_eq
    clear hchem hc
    generalize sol'.reactions.length = k at x' τ hτ h hlen
    subst hlen
    obtain rfl : τ = Equiv.refl _ := by
      ext r; exact hτ r
    have h1 := rounded_matrices_reorder rnd h
    cases meth with
    | drg => exact toN_sameByName rfl hnd h.name (fun a b => (h1 a b).1)
    | drgep => exact toN_sameByName rfl hnd h.name (fun a b => (h1 a b).2)
    | pfa => exact absurd rfl hm

end

/-! ### binary64 -/

/-- a model that lists species `sp` and, for each pair, the reaction of the first into the second -/
def soMech (sp : List String) (l : List (String × String)) : Mech where
  species := sp.map (fun s => ⟨s, 0⟩)
  reactions := l.map (fun p => ⟨[(p.1, 1)], [(p.2, 1)], none, 0⟩)
  transport := 0
  tp := 0
  name := []

def soRate (p : String × String) : ℚ :=
  if p = ("T", "B") then 5764607523034235/576460752303423488
  else if p = ("T", "D") then 5476377146882523/576460752303423488
  else if p = ("T", "Y") then 8831558869273543/9007199254740992
  else if p = ("T", "E") then 1/9007199254740992
  else if p.1 = "L" ∨ p.2 = "L" then 3543014096839651/1152921504606846976
  else if p.1 = "M" ∨ p.2 = "M" then 8995709712475333/2305843009213693952
  else 6976692185982303/2305843009213693952

/-- the chemistry of `soMech` -/
def soChem (sp : List String) (l : List (String × String)) :
    Chem (soMech sp l).names.length (soMech sp l).reactions.length where
  prod a r := if (soMech sp l).names[(a : Nat)]? = l[(r : Nat)]?.map Prod.snd then 1 else 0
  reac a r := if (soMech sp l).names[(a : Nat)]? = l[(r : Nat)]?.map Prod.fst then 1 else 0
  rop r := (l[(r : Nat)]?.map soRate).getD 0

def soCtx (meth : Method) (rnd : ℚ → ℚ) (sp : List String) (l : List (String × String)) : Ctx where
  modelFile := "m.yaml".toList
  targets := ["T"]
  safe := []
  matrices := [matrixOf meth rnd (soChem sp l)]
  errOf m := if "B" ∈ m.names then .fin 0 else .fin 100
  phase := []
  path := []
  upper := none
  rndMul := rnd

def soWorld (sp : List String) (l : List (String × String)) : World where
  fs := fun f => if f = "m.yaml".toList then some (soMech sp l) else none
  limbo := []

theorem soErr {meth : Method} {rnd : ℚ → ℚ} {sp : List String} {l : List (String × String)}
    (m m' : Mech) (h : Reordered m m') : (soCtx meth rnd sp l).errOf m' = (soCtx meth rnd sp l).errOf m := by
  simp only [soCtx, (Reordered.names h).mem_iff]

theorem soCtx_usable {meth : Method} {rnd : ℚ → ℚ} {sp : List String} {l : List (String × String)}
    (hr : RndOk rnd) (hnd : (soMech sp l).names.Nodup) (hT : "T" ∈ (soMech sp l).names)
    (hu : meth = .drgep → UnitMatrix (matrixOf .drgep rnd (soChem sp l)) (soMech sp l).names.length) :
    Usable meth (soCtx meth rnd sp l) (soMech sp l) where
  nodup := hnd
  targets t ht := by
    obtain rfl : t = "T" := by simpa [soCtx] using ht
    exact hT
  noclash n := by
    show joinPath [] (reducedName n) ≠ "m.yaml".toList
    rw [joinPath_nil]
    apply ne_of_head
    rw [reducedName_head]
    decide
  target := by simp [soCtx]
  unit hm := by
    refine ⟨hr, fun M hM => ?_⟩
    subst hm
    obtain rfl : M = matrixOf .drgep rnd (soChem sp l) := by simpa [soCtx] using hM
    exact hu rfl
  upper _ := Or.inl rfl

def soSpecies : List String := ["T", "B", "D", "Y", "E"]
def soOne : List (String × String) := [("T", "B"), ("T", "D"), ("T", "Y"), ("T", "E"), ("T", "E")]
def soTwo : List (String × String) := [("T", "E"), ("T", "E"), ("T", "B"), ("T", "D"), ("T", "Y")]

/-- **C106** is false in binary64 arithmetic, for each method: moving two reactions to the front of
the model changes the last digit of a sum of rates, and with it the returned species. -/
theorem C106_reactions_refuted (meth : Method) :
    ∃ sol sol' c c' w w' r r' w1 w1', ∃ (x : Chem sol.names.length sol.reactions.length)
      (x' : Chem sol'.names.length sol'.reactions.length) (σ : _ ≃ _) (τ : _ ≃ _), Reordered sol sol' ∧ sol'.species = sol.species ∧
      SameChem sol.names sol'.names x x' σ τ ∧ (∀ a, (σ a : Nat) = a) ∧
      c.matrices = [matrixOf meth rnd64 x] ∧ c' = { c with matrices := [matrixOf meth rnd64 x'] } ∧
      (∀ m m', Reordered m m' → c.errOf m' = c.errOf m) ∧
      Usable meth c sol ∧ LimitOk c sol (.fin 1) ∧
      w.fs c.modelFile = some sol ∧ w'.fs c.modelFile = some sol' ∧
      runMethod meth c rnd64 (.fin 1) 30 40 w = (some (.ok r), w1) ∧
      runMethod meth c' rnd64 (.fin 1) 30 40 w' = (some (.ok r'), w1') ∧
      ∃ s ∈ r'.model.names, s ∉ r.model.names := by
  have h : runView (runMethod meth (soCtx meth rnd64 soSpecies soOne) rnd64 (.fin 1) 30 40
      (soWorld soSpecies soOne)) = some (.ok (["T", "B", "Y"], .fin 0)) := by
    cases meth <;> decide +kernel
  have h' : runView (runMethod meth (soCtx meth rnd64 soSpecies soTwo) rnd64 (.fin 1) 30 40
      (soWorld soSpecies soTwo)) = some (.ok (["T", "B", "D", "Y"], .fin 0)) := by
    cases meth <;> decide +kernel
  obtain ⟨r, w1, h1, h2⟩ := runView_ok h
  obtain ⟨r', w1', h1', h2'⟩ := runView_ok h'
  refine ⟨soMech soSpecies soOne, soMech soSpecies soTwo, soCtx meth rnd64 soSpecies soOne,
    soCtx meth rnd64 soSpecies soTwo, soWorld soSpecies soOne, soWorld soSpecies soTwo, r, r', w1, w1',
    soChem soSpecies soOne, soChem soSpecies soTwo, Equiv.refl _,
    (⟨(· + 2), (· + 3), by decide, by decide⟩ : Fin 5 ≃ Fin 5),
    ⟨.refl _, by decide, rfl, rfl, rfl, rfl⟩, rfl, ⟨?_, ?_, ?_, ?_⟩, fun _ => rfl, rfl, rfl, soErr,
    soCtx_usable rndOk_rnd64 (by decide) (by decide) (fun _ => ?_), ⟨by decide +kernel, ?_⟩, rfl, rfl,
    h1, h1', ?_⟩
  · decide +kernel
  · decide +kernel
  · decide +kernel
  · decide +kernel
  · unfold UnitMatrix; decide +kernel
  · cases meth <;> decide +kernel
  · simp only [Prod.mk.injEq] at h2 h2'
    rw [h2.1, h2'.1]
    decide

def soPaths : List (String × String) :=
  [("T", "L"), ("T", "M"), ("T", "N"), ("T", "D"), ("T", "Y"), ("L", "B"), ("M", "B"), ("N", "B")]
def soLMN : List String := ["T", "L", "M", "N", "B", "D", "Y"]
def soNML : List String := ["T", "N", "M", "L", "B", "D", "Y"]

/-- **C106** is false of PFA in binary64 arithmetic even if the reactions keep their order:
swapping two species changes the order in which two-step paths are added up, and with it the
returned species. -/
theorem C106_pfa_species_refuted :
    ∃ sol sol' c c' w w' r r' w1 w1', ∃ (x : Chem sol.names.length sol.reactions.length)
      (x' : Chem sol'.names.length sol'.reactions.length) (σ : _ ≃ _) (τ : _ ≃ _), Reordered sol sol' ∧ sol'.reactions = sol.reactions ∧
      SameChem sol.names sol'.names x x' σ τ ∧ (∀ r, (τ r : Nat) = r) ∧
      c.matrices = [matrixOf .pfa rnd64 x] ∧ c' = { c with matrices := [matrixOf .pfa rnd64 x'] } ∧
      (∀ m m', Reordered m m' → c.errOf m' = c.errOf m) ∧
      Usable .pfa c sol ∧ LimitOk c sol (.fin 1) ∧
      w.fs c.modelFile = some sol ∧ w'.fs c.modelFile = some sol' ∧
      runMethod .pfa c rnd64 (.fin 1) 30 40 w = (some (.ok r), w1) ∧
      runMethod .pfa c' rnd64 (.fin 1) 30 40 w' = (some (.ok r'), w1') ∧
      ∃ s ∈ r'.model.names, s ∉ r.model.names := by
  have h : runView (runMethod .pfa (soCtx .pfa rnd64 soLMN soPaths) rnd64 (.fin 1) 30 40
      (soWorld soLMN soPaths)) = some (.ok (["T", "L", "M", "N", "B", "Y"], .fin 0)) := by
    decide +kernel
  have h' : runView (runMethod .pfa (soCtx .pfa rnd64 soNML soPaths) rnd64 (.fin 1) 30 40
      (soWorld soNML soPaths)) = some (.ok (["T", "N", "M", "L", "B", "D", "Y"], .fin 0)) := by
    decide +kernel
  obtain ⟨r, w1, h1, h2⟩ := runView_ok h
  obtain ⟨r', w1', h1', h2'⟩ := runView_ok h'
  refine ⟨soMech soLMN soPaths, soMech soNML soPaths, soCtx .pfa rnd64 soLMN soPaths,
    soCtx .pfa rnd64 soNML soPaths, soWorld soLMN soPaths, soWorld soNML soPaths, r, r', w1, w1',
    soChem soLMN soPaths, soChem soNML soPaths, (Equiv.swap (1 : Fin 7) 3 : Fin 7 ≃ Fin 7), Equiv.refl _,
    ⟨by decide, .refl _, rfl, rfl, rfl, rfl⟩, rfl, ⟨?_, ?_, ?_, ?_⟩, fun _ => rfl, rfl, rfl, soErr,
    soCtx_usable rndOk_rnd64 (by decide) (by decide) (fun h => by cases h), ⟨by decide +kernel, ?_⟩,
    rfl, rfl, h1, h1', ?_⟩
  · decide +kernel
  · decide +kernel
  · decide +kernel
  · intro r; rfl
  · decide +kernel
  · simp only [Prod.mk.injEq] at h2 h2'
    rw [h2.1, h2'.1]
    decide

/-- In exact arithmetic the first pair of models meets the hypotheses of `C106_order_partial`, and
both runs return the same species. -/
example (meth : Method) : ∃ τ, List.Forall₂ (fun x x' => SameChem (soMech soSpecies soOne).names
      (soMech soSpecies soTwo).names x x' (Equiv.refl _) τ) [soChem soSpecies soOne]
      [soChem soSpecies soTwo] ∧
    Reordered (soMech soSpecies soOne) (soMech soSpecies soTwo) ∧
    Usable meth (soCtx meth id soSpecies soOne) (soMech soSpecies soOne) ∧
    LimitOk (soCtx meth id soSpecies soOne) (soMech soSpecies soOne) (.fin 1) ∧
    (soCtx meth id soSpecies soOne).matrices = [soChem soSpecies soOne].map (matrixOf meth id) ∧
    ∀ l ∈ [soOne, soTwo], runView (runMethod meth (soCtx meth id soSpecies l) id (.fin 1) 30 40
      (soWorld soSpecies l)) = some (.ok (["T", "B", "D", "Y"], .fin 0)) := by
  refine ⟨(⟨(· + 2), (· + 3), by decide, by decide⟩ : Fin 5 ≃ Fin 5), .cons ⟨?_, ?_, ?_, ?_⟩ .nil,
    ⟨.refl _, by decide, rfl, rfl, rfl, rfl⟩, soCtx_usable rndOk_id (by decide) (by decide) (fun _ => ?_),
    ⟨by decide +kernel, ?_⟩, rfl, ?_⟩
  · decide +kernel
  · decide +kernel
  · decide +kernel
  · decide +kernel
  · unfold UnitMatrix; decide +kernel
  · cases meth <;> decide +kernel
  · cases meth <;> decide +kernel

/-- With binary64 arithmetic the second pair meets them for DRG and DRGEP. -/
example (meth : Method) (hm : meth ≠ .pfa) : ∃ σ, List.Forall₂ (fun x x' => SameChem
      (soMech soLMN soPaths).names (soMech soNML soPaths).names x x' σ (Equiv.refl _))
      [soChem soLMN soPaths] [soChem soNML soPaths] ∧
    Reordered (soMech soLMN soPaths) (soMech soNML soPaths) ∧
    Usable meth (soCtx meth rnd64 soLMN soPaths) (soMech soLMN soPaths) ∧
    LimitOk (soCtx meth rnd64 soLMN soPaths) (soMech soLMN soPaths) (.fin 1) ∧
    (soCtx meth rnd64 soLMN soPaths).matrices = [soChem soLMN soPaths].map (matrixOf meth rnd64) := by
  refine ⟨(Equiv.swap (1 : Fin 7) 3 : Fin 7 ≃ Fin 7), .cons ⟨?_, ?_, ?_, fun _ => rfl⟩ .nil,
    ⟨by decide, .refl _, rfl, rfl, rfl, rfl⟩, soCtx_usable rndOk_rnd64 (by decide) (by decide) (fun _ => ?_),
    ⟨by decide +kernel, ?_⟩, rfl⟩
  · decide +kernel
  · decide +kernel
  · decide +kernel
  · unfold UnitMatrix; decide +kernel
  · cases meth <;> decide +kernel

end Verif
