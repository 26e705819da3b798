import Verif.Lemmas.Underflow
import Verif.Props.Published
/-!
# C111: gradual underflow
-/
namespace Verif
open Spec

variable {n m : Nat}

/-- **C111**: however small rates are, the coefficients computed with gradual underflow keep their
ranges. -/
theorem C111_ranges (c : Chem n m) (hn : 2 * n + 2 < 2 ^ 53) (a b : Fin n) :
    (0 ≤ drgMatrixR rnd754 c a b ∧ drgMatrixR rnd754 c a b ≤ 1) ∧
    (0 ≤ drgepMatrixR rnd754 c a b ∧ drgepMatrixR rnd754 c a b ≤ 1) ∧
    (0 ≤ pfaMatrixR rnd754 c a b ∧ pfaMatrixR rnd754 c a b ≤ 2 * n + 2) := by
  refine ⟨C84_drg_range rndOk_rnd754 c a b, C84_drgep_range rndOk_rnd754 rnd754_neg c a b,
    C84_pfa_range rndOk_rnd754 (fun k hk => ?_) c a b⟩
  have := (onGrid_int k).same
  rw [Int.cast_natCast] at this
  rw [this, rnd64_nat (by omega)]

/-- **C111**: at states where rates are whole multiples of rates of progress, however small, or are
normal numbers (and shares not below `10^(-150)`, for PFA), underflow does not change what is kept. -/
theorem C111_kept {meth : Method} {c c' : Ctx} {sol : Mech} {states : List (Chem sol.names.length m)}
    (h : ∀ x ∈ states, Resolved meth x)
    (hM : c.matrices = states.map (matrixOf meth rnd754)) (hr : c.rndMul = rnd754)
    (hM' : c'.matrices = states.map (matrixOf meth rnd64)) (hr' : c'.rndMul = rnd64)
    (ht : c'.targets = c.targets) (hs : c'.safe = c.safe) {t : ℚ} (h0 : 1 / 2 ^ 1022 < t) (s : String) :
    Kept meth c sol t s ↔ Kept meth c' sol t s := by
  have hdrg : KeptDrg c sol t s ↔ KeptDrg c' sol t s := by
    unfold KeptDrg
    rw [hM, hM', ht, hs]
    constructor
    · rintro (⟨M, hm, hl⟩ | hp)
      · obtain ⟨x, hx, rfl⟩ := List.mem_map.1 hm
        exact .inl ⟨_, List.mem_map_of_mem hx, linked_same (matrixOf_same (h x hx)) h0 hl⟩
      · exact .inr hp
    · rintro (⟨M, hm, hl⟩ | hp)
      · obtain ⟨x, hx, rfl⟩ := List.mem_map.1 hm
        exact .inl ⟨_, List.mem_map_of_mem hx, linked_same (fun i j => (matrixOf_same (h x hx) i j).symm) h0 hl⟩
      · exact .inr hp
  cases meth
  · exact hdrg
  · show KeptPath c sol t s ↔ KeptPath c' sol t s
    unfold KeptPath Candidates
    rw [hM, hM', ht, hs, hr, hr']
    have hp : (0 : ℚ) < 1 / 2 ^ 1022 := by positivity
    constructor
    · rintro (⟨y, rfl | ⟨M, hm, u, hu, hl⟩, hy⟩ | hp)
      · exact absurd (hp.trans (lt_of_lt_of_le h0 hy)) (lt_irrefl _)
      · obtain ⟨x, hx, rfl⟩ := List.mem_map.1 hm
        refine .inl ⟨y, .inr ⟨_, List.mem_map_of_mem hx, u, hu, ?_⟩, hy⟩
        exact path_same rndOk_rnd754 rnd754_tiny (fun z hz => rnd754_normal (hz.trans (le_abs_self _)))
          (toN_unit _ (C84_drgep_range rndOk_rnd754 rnd754_neg _)) (matrixOf_same (h x hx)) hl
          (lt_of_lt_of_le h0 hy)
      · exact .inr hp
    · rintro (⟨y, rfl | ⟨M, hm, u, hu, hl⟩, hy⟩ | hp)
      · exact absurd (hp.trans (lt_of_lt_of_le h0 hy)) (lt_irrefl _)
      · obtain ⟨x, hx, rfl⟩ := List.mem_map.1 hm
        refine .inl ⟨y, .inr ⟨_, List.mem_map_of_mem hx, u, hu, ?_⟩, hy⟩
        exact path_same rndOk_rnd64 (rnd64_two_inv 1022)
          (fun z hz => (rnd754_normal (hz.trans (le_abs_self _))).symm)
          (toN_unit _ (C84_drgep_range rndOk_rnd64 rnd64_neg _)) (fun i j => (matrixOf_same (h x hx) i j).symm) hl
          (lt_of_lt_of_le h0 hy)
      · exact .inr hp
  · exact hdrg

section
variable {ι π φ : Type} {K : Cantera ι π φ} {sol : Mech} {q : ReduceArgs ι π φ} {d : Disk} {meth : Method}

theorem finalThr_normal {j : Nat} (hj : j ≤ 4) (k : Nat) : 1 / 2 ^ 1022 < finalThr rnd64 j k := by
  have h : ∀ j < 5, 1 / 10 ^ 8 < rnd64 (gridThr rnd64 j 2 - rnd64 (2 * startThr rnd64 j)) := by decide +kernel
  refine lt_of_le_of_lt tiny_le (lt_of_lt_of_le (h j (by omega)) ?_)
  apply rndOk_rnd64.mono
  have : gridThr rnd64 j 2 ≤ gridThr rnd64 j (k + 2) :=
    monotone_nat_of_le_succ (gridThr_mono rndOk_rnd64 j) (by omega)
  linarith

/-- **C111**: a run in binary64 arithmetic with gradual underflow that returns, keeps what the
published coefficients select, as in C108, if the sampled states are such. -/
theorem C111_run (P : Physical K sol) (Q : Request q sol d)
    (hsize : 4 * sol.reactions.length + sol.names.length + 14 ≤ 2 ^ 51)
    (hlim : (PyF.fin 0).le q.limit = true)
    (hsame : SameBehaviour K sol (trim sol [] ("reduced_".toList ++ q.modelFile) q.phase)) :
    ∃ N, ∀ dfuel ≥ N, ∀ fuel w w' r evs, w.fs q.modelFile = some sol →
      fullRun K meth rnd754 rnd754 q d dfuel fuel w = ((some (.ok r), w'), evs) →
      ∃ base rows j k, Simulated (K.sims rnd754) sol q.conds base rows ∧ j ≤ lastStart meth .ieee ∧
        ((∀ x ∈ rows, Resolved meth (K.chem sol x)) →
        (∀ s ∈ sol.names, KeptPublished meth sol.names q.targets q.safe (rows.map (K.chem sol))
          (above meth sol.names.length sol.reactions.length (finalThr rnd64 j k)) s → s ∈ r.model.names) ∧
        ∀ s ∈ r.model.names, s ∈ sol.names ∧
          KeptPublished meth sol.names q.targets q.safe (rows.map (K.chem sol))
            (below meth sol.names.length sol.reactions.length (finalThr rnd64 j k)) s) := by
  obtain ⟨N, hN⟩ := fullRun_candidate (meth := meth) P Q .ieee .ieee hlim hsame
  refine ⟨N, fun dfuel hd fuel w w' r evs hw h => ?_⟩
  obtain ⟨base, rows, j, k, h1, h2, h3⟩ := hN dfuel hd fuel w w' r evs hw h
  refine ⟨base, rows, j, k, h1, h2, fun hres => ?_⟩
  have hj : j ≤ 4 := by
    have : lastStart meth .ieee ≤ 4 := by cases meth <;> decide
    omega
  have h3' : ∀ s, s ∈ r.model.names ↔ s ∈ sol.names ∧
      Kept meth (fullCtx K meth rnd64 q (applyEvs d evs) sol base rows) sol (finalThr rnd64 j k) s := by
    intro s
    rw [h3 s]
    show _ ∧ Kept meth _ sol (finalThr rnd754 j k) s ↔ _
    rw [finalThr_ieee hj]
    refine and_congr_right fun _ => ?_
    exact C111_kept (c := fullCtx K meth rnd754 q (applyEvs d evs) sol base rows)
      (c' := fullCtx K meth rnd64 q (applyEvs d evs) sol base rows) (states := rows.map (K.chem sol))
      (fun x hx => by obtain ⟨y, hy, rfl⟩ := List.mem_map.1 hx; exact hres y hy)
      (by show rows.map _ = _; rw [List.map_map]; rfl) rfl
      (by show rows.map _ = _; rw [List.map_map]; rfl) rfl rfl rfl (finalThr_normal hj k) s
  have key := fun s => kept_binary64 (meth := meth) (c := fullCtx K meth rnd64 q (applyEvs d evs) sol base rows)
    (states := rows.map (K.chem sol)) (t := finalThr rnd64 j k) (s := s) hsize (by
      show rows.map _ = _; rw [List.map_map]; rfl) rfl
  refine ⟨fun s hs hk => (h3' s).2 ⟨hs, (key s).1 hk⟩, fun s hs => ?_⟩
  obtain ⟨g1, g2⟩ := (h3' s).1 hs
  exact ⟨g1, (key s).2 g2⟩

end

/-! ### a case: rates of progress 900, 50 and 1 times the smallest number -/

def tinyK : Cantera Unit Unit Unit :=
  { e2eK with
    chem := fun m _ =>
      { prod := fun a r => coefficient m.reactions[r].products m.names[a]
        reac := fun a r => coefficient m.reactions[r].reactants m.names[a]
        rop := fun r => ([900, 50, 1] : List ℚ).getD r 0 / 2 ^ 1074 } }

theorem tiny_resolved (meth : Method) (x : Row) : Resolved meth (tinyK.chem e2eSol x) := by
  have hden : ∀ (a : Fin e2eSol.names.length) (r : Fin e2eSol.reactions.length),
      (((tinyK.chem e2eSol []).prod a r - (tinyK.chem e2eSol []).reac a r).num : ℚ) =
        (tinyK.chem e2eSol []).prod a r - (tinyK.chem e2eSol []).reac a r ∧
      ((tinyK.chem e2eSol []).prod a r - (tinyK.chem e2eSol []).reac a r).num.natAbs < 2 ^ 53 := by
    decide +kernel
  have hrop : ∀ r : Fin e2eSol.reactions.length, OnGrid ((tinyK.chem e2eSol []).rop r) := by
    have : ∀ r : Fin e2eSol.reactions.length,
        ((([900, 50, 1] : List ℚ).getD r 0).num : ℚ) = ([900, 50, 1] : List ℚ).getD r 0 := by decide +kernel
    exact fun r => ⟨_, by rw [this r]; rfl⟩
  have hsh : Shares (tinyK.chem e2eSol []) := by
    unfold Shares
    decide +kernel
  exact ⟨fun a r => .inl ⟨_, (hden a r).2, (hden a r).1.symm, hrop r⟩, fun _ => ⟨hsh, by decide⟩⟩

/-- each method removes `C` from this model, although all rates are subnormal -/
example : ∀ meth : Method, ∃ N, ∀ dfuel ≥ N, ∀ fuel w' r evs,
    fullRun tinyK meth rnd754 rnd754 e2eArgs (fun _ => none) dfuel fuel e2eWorld = ((some (.ok r), w'), evs) →
    ∃ base rows j k, Simulated (tinyK.sims rnd754) e2eSol e2eArgs.conds base rows ∧ j ≤ lastStart meth .ieee ∧
      ∀ s ∈ r.model.names, s ∈ e2eSol.names ∧
        KeptPublished meth e2eSol.names e2eArgs.targets e2eArgs.safe (rows.map (tinyK.chem e2eSol))
          (below meth e2eSol.names.length e2eSol.reactions.length (finalThr rnd64 j k)) s := by
  intro meth
  obtain ⟨N, hN⟩ := C111_run (meth := meth) (K := tinyK) (sol := e2eSol) (q := e2eArgs) (d := fun _ => none)
    ⟨e2e_physical.ignStart, e2e_physical.ignTime, e2e_physical.ignWidth, e2e_physical.psr, e2e_physical.flame⟩
    e2e_request (by decide +kernel) rfl ⟨e2e_same.1, e2e_same.2, e2e_same.3⟩
  refine ⟨N, fun dfuel hd fuel w' r evs h => ?_⟩
  obtain ⟨base, rows, j, k, h1, h2, h3⟩ := hN dfuel hd fuel e2eWorld w' r evs rfl h
  exact ⟨base, rows, j, k, h1, h2, (h3 (fun x _ => tiny_resolved meth x)).2⟩

example : ∀ meth : Method,
    runView (fullRun tinyK meth rnd754 rnd754 e2eArgs (fun _ => none) 50 20 e2eWorld).1 =
      some (.ok (["A", "B", "D"], .fin 1)) := by
  intro meth
  cases meth <;> decide +kernel

/-! ### where it fails -/

/-- half of the smallest number or less is rounded to zero -/
theorem rnd754_vanishes {x : ℚ} (h : |x| ≤ 1 / 2 ^ 1075) : rnd754 x = 0 := by
  have top : rnd754 (1 / 2 ^ 1075) = 0 := by decide +kernel
  obtain ⟨h1, h2⟩ := abs_le.1 h
  refine le_antisymm (top ▸ rndOk_rnd754.mono _ _ h2) ?_
  have := rndOk_rnd754.mono _ _ h1
  rwa [rnd754_neg, top, neg_zero] at this

theorem sumOverR_zero {rnd : ℚ → ℚ} (h0 : rnd 0 = 0) (l : List (Fin m)) {f : Fin m → ℚ} (hf : ∀ r, f r = 0) :
    sumOverR rnd l f = 0 := by
  unfold sumOverR
  induction l with
  | nil => rfl
  | cons r l ih => rw [List.foldl_cons, hf, zero_add, h0]; exact ih

/-- **C111** does not hold for other coefficients: when all rates of change of a species are half the
smallest number or less, its coefficients come out as zero, whatever the published ones are. -/
theorem C111_vanish_refuted (c : Chem n m) {a b : Fin n} (hab : a ≠ b)
    (h : ∀ r, |rnd754 (c.prod a r - c.reac a r) * c.rop r| ≤ 1 / 2 ^ 1075) :
    drgMatrixR rnd754 c a b = 0 ∧ drgepMatrixR rnd754 c a b = 0 ∧ pfaMatrixR rnd754 c a b = 0 := by
  have hb : ∀ r, baseR rnd754 c a r = 0 := fun r => rnd754_vanishes (h r)
  have hz := rndOk_rnd754.zero
  have w : ∀ (num : Mat n) (den : Fin n → ℚ), den a = 0 → whereDivR rnd754 num den a b = 0 := by
    intro num den hd
    unfold whereDivR
    rw [hd]; rfl
  refine ⟨?_, ?_, ?_⟩
  · unfold drgMatrixR
    split_ifs
    · simp [fillDiagonal, hab]
    · simp only [fillDiagonal, hab, if_false]
      exact w _ _ (sumOverR_zero hz _ (fun r => by rw [hb]; rfl))
  · unfold drgepMatrixR
    split_ifs
    · simp [fillDiagonal, hab]
    · simp only [fillDiagonal, hab, if_false]
      refine w _ _ ?_
      rw [sumOverR_zero hz _ (fun r => by rw [hb]; rfl), sumOverR_zero hz _ (fun r => by rw [hb]; rfl)]
      rfl
  · unfold pfaMatrixR
    split_ifs
    · simp [fillDiagonal, hab]
    · simp only [fillDiagonal, hab, if_false]
      have w' : ∀ (num : Mat n) (den : Fin n → ℚ), den a = 0 → ∀ b, whereDivR rnd754 num den a b = 0 := by
        intro num den hd b
        unfold whereDivR
        rw [hd]; rfl
      have hden : max (sumOverR rnd754 c.valid (fun r => max (baseR rnd754 c a r) 0))
          (sumOverR rnd754 c.valid (fun r => max (-baseR rnd754 c a r) 0)) = 0 := by
        rw [sumOverR_zero hz _ (fun r => by rw [hb]; rfl), sumOverR_zero hz _ (fun r => by rw [hb]; rfl)]
        rfl
      have p1 := w' (fun a b => rnd754 (0 + sumOverR rnd754 (c.validWith b) (fun r => max (baseR rnd754 c a r) 0)))
        (fun a => max (sumOverR rnd754 c.valid (fun r => max (baseR rnd754 c a r) 0))
          (sumOverR rnd754 c.valid (fun r => max (-baseR rnd754 c a r) 0))) hden
      have p2 := w' (fun a b => rnd754 (0 + sumOverR rnd754 (c.validWith b) (fun r => max (-baseR rnd754 c a r) 0)))
        (fun a => max (sumOverR rnd754 c.valid (fun r => max (baseR rnd754 c a r) 0))
          (sumOverR rnd754 c.valid (fun r => max (-baseR rnd754 c a r) 0))) hden
      generalize whereDivR rnd754 (fun a b => rnd754 (0 + sumOverR rnd754 (c.validWith b)
        (fun r => max (baseR rnd754 c a r) 0))) _ = P at p1 ⊢
      generalize whereDivR rnd754 (fun a b => rnd754 (0 + sumOverR rnd754 (c.validWith b)
        (fun r => max (-baseR rnd754 c a r) 0))) _ = Q at p2 ⊢
      obtain ⟨f1, f2, f3, f4⟩ := pfa_foldR (rnd := rnd754) (List.finRange n) ⟨P, Q, fun _ _ => 0, fun _ _ => 0⟩
      dsimp only at f1 f2 f3 f4 ⊢
      have s0 : ∀ R : Mat n, (∀ b, R a b = 0) → secondR rnd754 R a b (List.finRange n) 0 = 0 := by
        intro R hR
        unfold secondR
        generalize List.finRange n = l
        induction l with
        | nil => rfl
        | cons k l ih =>
          have : (if k = a ∨ k = b then 0 else R a k * R k b) = 0 := by
            split_ifs
            · rfl
            · rw [hR, zero_mul]
          rw [List.foldl_cons, this, hz, add_zero, hz]
          exact ih
      rw [f1 a b hab, f2 a b hab, f3 a b, f4 a b, p1, p2, s0 P p1, s0 Q p2]
      simp [hz]

/-- `A → 1/2 A + 1/2 B` with rate of progress `w` -/
def halfChem (w : ℚ) : Chem 2 1 := ⟨fun s _ => ![1 / 2, 1 / 2] s, fun s _ => ![1, 0] s, fun _ => w⟩

/-- two species and a rate of progress equal to the smallest number: each method's published
coefficient is 1, the computed one is 0 -/
theorem C111_lost_refuted : OnGrid ((halfChem (1 / 2 ^ 1074)).rop 0) ∧
    Spec.drg (halfChem (1 / 2 ^ 1074)) 0 1 = 1 ∧ drgMatrixR rnd754 (halfChem (1 / 2 ^ 1074)) 0 1 = 0 ∧
    Spec.drgep (halfChem (1 / 2 ^ 1074)) 0 1 = 1 ∧ drgepMatrixR rnd754 (halfChem (1 / 2 ^ 1074)) 0 1 = 0 ∧
    Spec.pfa (halfChem (1 / 2 ^ 1074)) 0 1 = 1 ∧ pfaMatrixR rnd754 (halfChem (1 / 2 ^ 1074)) 0 1 = 0 := by
  obtain ⟨h1, h2, h3⟩ := C111_vanish_refuted (halfChem (1 / 2 ^ 1074)) (a := 0) (b := 1) (by decide)
    (by decide +kernel)
  refine ⟨⟨1, by rw [Int.cast_one]; rfl⟩, by decide +kernel, h1, by decide +kernel, h2, by decide +kernel, h3⟩

end Verif
