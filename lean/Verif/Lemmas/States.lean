import Verif.Spec.States
import Verif.Lemmas.Program
import Verif.Lemmas.Accuracy
/-!
# Lemmas for C109
-/
namespace Verif
open Spec

theorem Spec.Means.toNum {v : Val} {q : ℚ} (h : Means v q) : v.toNum = .fin q := by
  cases h <;> rfl

theorem Spec.Means.truthy {v : Val} {q : ℚ} (h : Means v q) : v.truthy = decide (q ≠ 0) := by
  cases h <;> simp [Val.truthy, PyF.eq]

theorem Spec.NotGiven.truthy {v : Val} (h : NotGiven v) : v.truthy = false := by
  cases v <;> simp_all [NotGiven, Val.truthy, PyF.eq]

theorem Spec.Means.notGiven {v : Val} (h : Means v 0) : NotGiven v := by
  generalize hq : (0 : ℚ) = q at h
  cases h with
  | num => subst hq; rfl
  | yes => norm_num at hq
  | no => rfl

theorem namedMethod_ok {s : String} {m : Method} (h : NamedMethod s m) : methodOf s = some m ∧ s ≠ "" := by
  cases h <;> decide

/-- a level, when rounding has relative error `1 / 2 ^ 53` and a small absolute error -/
theorem level_close {rnd : ℚ → ℚ} {η x y d δ : ℚ} (E : ∀ z, |rnd z - z| ≤ 1 / 2 ^ 53 * |z| + η)
    (hη : η ≤ 1 / 2 ^ 60 * (|x| + |y|)) (hk0 : 0 ≤ δ) (hk' : δ ≤ 1)
    (h2 : |d - δ| ≤ 1 / 10 ^ 15) :
    |rnd (x + rnd (d * rnd (y - x))) - (x + δ * (y - x))| ≤ 1 / 10 ^ 14 * (|x| + |y|) := by
  have e1 := E (y - x)
  generalize hz1 : rnd (y - x) = z1 at e1 ⊢
  have e2 := E (d * z1)
  generalize hz2 : rnd (d * z1) = z2 at e2 ⊢
  have e3 := E (x + z2)
  generalize hz3 : rnd (x + z2) = z3 at e3 ⊢
  have hM : |y - x| ≤ |x| + |y| := by
    rw [add_comm]; exact abs_sub y x
  have hx : |x| ≤ |x| + |y| := by linarith [abs_nonneg y]
  have hM0 : 0 ≤ |x| + |y| := by positivity
  generalize |x| + |y| = M at hM hx hM0 hη ⊢
  have e1' : |z1 - (y - x)| ≤ 1 / 2 ^ 53 * M + 1 / 2 ^ 60 * M :=
    e1.trans (add_le_add (mul_le_mul_of_nonneg_left hM (by norm_num)) hη)
  have a1 : |z1| ≤ 2 * M := by
    have : |z1| ≤ |z1 - (y - x)| + |y - x| := by
      have := abs_add_le (z1 - (y - x)) (y - x); simpa using this
    norm_num at e1'
    linarith
  have a2 : |d| ≤ 2 := by
    have := abs_le.1 h2
    rw [abs_le]
    constructor <;> norm_num at this ⊢ <;> linarith [this.1, this.2]
  have a3 : |d * z1| ≤ 4 * M := by
    rw [abs_mul]
    calc |d| * |z1| ≤ 2 * (2 * M) := mul_le_mul a2 a1 (abs_nonneg _) (by norm_num)
      _ = _ := by ring
  have a4 : |z2 - d * z1| ≤ 1 / 2 ^ 53 * (4 * M) + 1 / 2 ^ 60 * M :=
    e2.trans (add_le_add (mul_le_mul_of_nonneg_left a3 (by norm_num)) hη)
  have a5 : |z2| ≤ 5 * M := by
    have : |z2| ≤ |z2 - d * z1| + |d * z1| := by
      have := abs_add_le (z2 - d * z1) (d * z1); simpa using this
    norm_num at a4
    linarith
  have a6 : |x + z2| ≤ 6 * M := (abs_add_le _ _).trans (by linarith)
  have a7 : |z3 - (x + z2)| ≤ 1 / 2 ^ 53 * (6 * M) + 1 / 2 ^ 60 * M :=
    e3.trans (add_le_add (mul_le_mul_of_nonneg_left a6 (by norm_num)) hη)
  have a8 : |d * z1 - δ * (y - x)| ≤ 1 / 10 ^ 15 * (2 * M) + (1 / 2 ^ 53 * M + 1 / 2 ^ 60 * M) := by
    have : d * z1 - δ * (y - x) = (d - δ) * z1 + δ * (z1 - (y - x)) := by ring
    rw [this]
    refine (abs_add_le _ _).trans (add_le_add ?_ ?_)
    · rw [abs_mul]
      exact mul_le_mul h2 a1 (abs_nonneg _) (by norm_num)
    · rw [abs_mul, abs_of_nonneg hk0]
      calc δ * |z1 - (y - x)| ≤ 1 * (1 / 2 ^ 53 * M + 1 / 2 ^ 60 * M) :=
            mul_le_mul hk' e1' (abs_nonneg _) (by norm_num)
        _ = _ := one_mul _
  have a9 : z3 - (x + δ * (y - x)) = (z3 - (x + z2)) + ((z2 - d * z1) + (d * z1 - δ * (y - x))) := by ring
  rw [a9]
  refine (abs_add_le _ _).trans ((add_le_add_right (abs_add_le _ _) _).trans ?_)
  norm_num at a4 a7 a8 ⊢
  linarith

theorem err_rnd754 (z : ℚ) : |rnd754 z - z| ≤ 1 / 2 ^ 53 * |z| + 1 / 2 ^ 1075 := by
  have pos : ∀ z : ℚ, 0 ≤ z → |rnd754 z - z| ≤ 1 / 2 ^ 53 * z + 1 / 2 ^ 1075 := by
    intro z hz
    have := rndGradual_close (e := 1022) hz
    rwa [div_eq_inv_mul, inv_eq_one_div] at this
  rcases le_total 0 z with h | h
  · rw [abs_of_nonneg h]; exact pos z h
  · have := pos (-z) (by linarith)
    rwa [rnd754_neg, neg_sub_neg, abs_sub_comm, ← abs_of_nonpos h] at this

theorem level_near (b : Arith) (x y : ℚ) {k : Nat} (hk : k < 20) (hxy : b = .ieee → 1 ≤ |x| + |y|) :
    ∃ l : ℚ, ((deltas b.rnd 20).map (level b.rnd (.fin x) (.fin y)))[k]? = some (.fin l) ∧
      |l - (x + ((k : ℚ) + 1) / 20 * (y - x))| ≤ levelTol b * (|x| + |y|) := by
  have hk' : ((k : ℚ) + 1) / 20 ≤ 1 := by
    have : ((k + 1 : Nat) : ℚ) ≤ (20 : Nat) := by exact_mod_cast hk
    push_cast at this
    linarith
  have hk0 : 0 ≤ ((k : ℚ) + 1) / 20 := by positivity
  generalize hδ : ((k : ℚ) + 1) / 20 = δ at hk' hk0
  cases b
  · have hd : (deltas id 20)[k]? = some δ := by
      rw [deltas_exact 20 (by omega)]
      simp [hk, ← hδ]
    refine ⟨x + δ * (y - x), ?_, by simp [levelTol]⟩
    rw [List.getElem?_map]
    show Option.map _ (deltas id 20)[k]? = _
    rw [hd]
    simp [level, PyF.add, PyF.mul, PyF.sub, PyF.neg, PyF.rounded, Arith.rnd, sub_eq_add_neg]
  · obtain ⟨d, h1, h2⟩ := C42_binary64.2 k hk
    rw [hδ] at h2
    refine ⟨rnd64 (x + rnd64 (d * rnd64 (y - x))), ?_, ?_⟩
    · rw [List.getElem?_map]
      show Option.map _ (deltas rnd64 20)[k]? = _
      rw [h1]
      simp [level, PyF.add, PyF.mul, PyF.sub, PyF.neg, PyF.rounded, Arith.rnd, sub_eq_add_neg]
    · exact level_close (η := 0) (fun z => by rw [add_zero]; exact rounds_rnd64.err z)
        (by positivity) hk0 hk' h2
  · obtain ⟨d, h1, h2⟩ := C42_binary64.2 k hk
    rw [hδ] at h2
    refine ⟨rnd754 (x + rnd754 (d * rnd754 (y - x))), ?_, ?_⟩
    · rw [List.getElem?_map]
      show Option.map _ (deltas rnd754 20)[k]? = _
      rw [C42_ieee, h1]
      simp [level, PyF.add, PyF.mul, PyF.sub, PyF.neg, PyF.rounded, Arith.rnd, sub_eq_add_neg]
    · refine level_close err_rnd754 ?_ hk0 hk' h2
      have h3 : (1 : ℚ) / 2 ^ 1075 ≤ 1 / 2 ^ 60 :=
        one_div_le_one_div_of_le (by positivity) (pow_le_pow_right₀ (by norm_num) (by norm_num))
      exact h3.trans (le_mul_of_one_le_right (by positivity) (hxy rfl))

theorem sampleProfile_sampled {b : Arith} {pts : List Point} {rows : List Row}
    (h : sampleProfile b.rnd 20 pts = .ok rows) : Sampled (levelTol b) pts rows := by
  cases pts with
  | nil => unfold sampleProfile at h; rw [if_neg (by omega)] at h; cases h
  | cons p0 ps =>
    obtain ⟨is, h1, h2, h3, -⟩ := C42_rows h
    rw [deltas_length] at h2
    refine ⟨p0, (p0 :: ps).getLast (by simp), _, is, rfl, List.getLast?_eq_some_getLast (by simp), ?_, ?_, h1, h2⟩
    · rw [List.length_map, deltas_length]
    · intro x y hx hy hxy k hk
      rw [hx, hy]
      exact level_near b x y hk (fun _ => hxy)

theorem means_of_toNum {v : Val} {q : ℚ} (h : v.toNum = .fin q) : Means v q := by
  rcases v with x | b | _ | _ | _ | _
  · cases h; exact .num q
  · cases b
    · cases h; exact .no
    · cases h; exact .yes
  all_goals cases h

theorem ignites_unique {R : Reactor} {hot : PyF} {k k' : Nat} {p p' : Point}
    (h : Ignites R hot k p) (h' : Ignites R hot k' p') : k = k' := by
  obtain ⟨h1, h2, h3⟩ := h
  obtain ⟨g1, g2, g3⟩ := h'
  rcases Nat.lt_trichotomy k k' with hk | hk | hk
  · obtain ⟨q, e1, e2⟩ := g3 k hk
    rw [h1] at e1; cases e1; rw [h2] at e2; cases e2
  · exact hk
  · obtain ⟨q, e1, e2⟩ := h3 k' hk
    rw [g1] at e1; cases e1; rw [g2] at e2; cases e2

/-- what the sampling worker recorded -/
theorem ignSampleWorker_course {rnd : ℚ → ℚ} {p : IgnProps} {R : Reactor} {fuel : Nat} {ms : List PyF}
    {rows : List Row} {f : Option (List Point)}
    (h : ignSampleWorker rnd p R fuel = some (.ok (ms, rows), f)) :
    ∃ n, sampleProfile rnd 20 (recorded R n) = .ok rows ∧
      (∃ k q, k < n ∧ Ignites R p.hot k q) ∧
      ((p.endTime ≠ .fin 0 ∧ Ended R p.endTime n) ∨
        (p.endTime = .fin 0 ∧ ∃ m : Nat, n = m + 1 ∧ (m : ℤ) + 1 < p.steps ∧ Settles R m ∧
          ∀ j ≤ m, ∃ q, R.step j = some q)) := by
  have fin : ∀ {n q}, ignRunCase p R false fuel = some ⟨.ok q, some (recorded R n)⟩ →
      sampleProfile rnd 20 (recorded R n) = .ok rows := by
    intro n q hr
    unfold ignSampleWorker at h
    rw [hr] at h
    dsimp only at h
    unfold ignProcess recorded at h
    dsimp only at h
    rcases h1 : sampleProfile rnd 20 (R.init :: (List.range n).filterMap R.step) with e | rows' <;>
      rw [h1] at h
    · cases h
    · cases h
      exact h1
  have bad : ∀ {e g}, ignRunCase p R false fuel = some ⟨.error e, g⟩ → False := by
    intro e g hr
    unfold ignSampleWorker at h
    rw [hr] at h
    cases h
  rcases ht : p.timed with _ | _
  · have ht' : p.endTime = .fin 0 := by simpa [IgnProps.timed] using ht
    by_cases hm : 0 < p.steps
    · rcases runCase_steady p R fuel ht hm with ⟨n, -, -, -, hr⟩ | ⟨n, hn, hs, hreach, ⟨hc, hr⟩ | ⟨k, hk, q, hq, hr⟩⟩ | ⟨-, -, hr⟩
      · exact (bad hr).elim
      · exact (bad hr).elim
      · exact ⟨n + 1, fin hr, ⟨k, q, by omega, hq⟩, .inr ⟨ht', n, rfl, by omega, hs, hreach⟩⟩
      · exact (bad hr).elim
    · have hr : ignRunCase p R false fuel = some ⟨.error .unboundLocal, none⟩ := by
        unfold ignRunCase
        rw [if_neg (by simp [ht])]
        unfold steadyPart
        rw [Int.toNat_of_nonpos (by omega)]
        rfl
      exact (bad hr).elim
  · have ht' : p.endTime ≠ .fin 0 := by simpa [IgnProps.timed] using ht
    rcases hrun : ignRunCase p R false fuel with _ | r
    · unfold ignSampleWorker at h
      rw [hrun] at h
      cases h
    · rcases runCase_timed ht hrun with ⟨n, -, -, rfl⟩ | ⟨n, hn, -, ⟨hc, rfl⟩ | ⟨k, hk, q, hq, rfl⟩⟩
      · exact (bad hrun).elim
      · exact (bad hrun).elim
      · exact ⟨n, fin hrun, ⟨k, q, hk, hq⟩, .inl ⟨ht', hn⟩⟩

variable {K : Cantera IgnInput Cond FlameInput} {sol : Mech} {b : Arith} {floor : Option PyF}

theorem ignData {case : Case} {x : IgnInput} {r : List PyF × List Row}
    (P : Physical (K.inputs floor) sol) (hx : IgnitionOk sol.names case x)
    (hr : (∀ v, Holds case "end-time" (.num (.fin 0)) v → NotGiven v ∨ ∃ t, Means v t) ∧
      ∀ v, Holds case "max-steps" (.num (.fin 10000)) v → NotGiven v ∨ ∃ L : ℤ, Means v L)
    (h : ((K.inputs floor).ignSims b.rnd).run sol x = .ok r) : IgnData K sol (levelTol b) case r := by
  obtain ⟨R, d, k, p, h1, h2, -, h3, h4, -⟩ := ignRun_ok P h
  obtain ⟨T, hT, -⟩ := P.ignStart x R h1
  have hT' : x.temperature.toNum = .fin T := hT
  obtain ⟨ms, rows⟩ := r
  have hreac : K.reactor sol x = .ok R := h1
  simp only [Cantera.ignSims, h1] at h
  rcases hw : ignSampleWorker b.rnd ((K.inputs floor).ignProps x) R (K.inputs floor).fuel with _ | ⟨y, f⟩ <;>
    rw [hw] at h
  · cases h
  dsimp only at h
  subst h
  obtain ⟨n, e1, ⟨k', q, e2, e3⟩, e4⟩ := ignSampleWorker_course hw
  have hhot : ((K.inputs floor).ignProps x).temperature.add (.fin 400) = .fin (T + 400) := by
    rw [hT]; rfl
  rw [hhot] at h3
  have e3' : Ignites R (.fin (T + 400)) k' q := by
    rw [← hhot]; exact e3
  have hkk := ignites_unique h3 e3'
  subst hkk
  have hmem : p ∈ recorded R n := by
    refine List.mem_cons_of_mem _ (List.mem_filterMap.2 ⟨k, List.mem_range.2 e2, h3.1⟩)
  refine ⟨x, R, recorded R n, T, k, p, hx, hreac, means_of_toNum hT', h3, by rw [h2, h4], ?_, hmem,
    sampleProfile_sampled e1⟩
  have hend : ((K.inputs floor).ignProps x).endTime =
      if x.endTime.truthy then x.endTime.toNum else .fin 0 := rfl
  have hmax : ((K.inputs floor).ignProps x).maxSteps = if x.maxSteps.truthy then
    (match x.maxSteps.toNum with | .fin q => ⌊q⌋ | _ => 0) else 0 := rfl
  have hng : ((K.inputs floor).ignProps x).endTime = .fin 0 → NotGiven x.endTime := by
    intro h0
    rcases hr.1 _ hx.2.2.2.2.1 with h | ⟨t, ht⟩
    · exact h
    · rw [hend, ht.truthy, ht.toNum] at h0
      by_cases h00 : t = 0
      · subst h00; exact ht.notGiven
      · simp [h00] at h0
  rcases e4 with ⟨g1, g2⟩ | ⟨g1, m, rfl, g2, g3, g4⟩
  · rcases hr.1 _ hx.2.2.2.2.1 with h | ⟨t, ht⟩
    · rw [hend, Spec.NotGiven.truthy h] at g1
      exact absurd rfl g1
    · rw [hend, ht.truthy, ht.toNum] at g1 g2
      by_cases h00 : t = 0
      · simp [h00] at g1
      · rw [if_pos (by simpa using h00)] at g2
        exact .timed ht h00 g2
  · unfold IgnProps.steps at g2
    rcases hr.2 _ hx.2.2.2.2.2 with h | ⟨L, hL⟩
    · rw [hmax, Spec.NotGiven.truthy h] at g2
      exact .steady (hng g1) (.default h) g3 (by simpa using g2) g4
    · rw [hmax, hL.truthy, hL.toNum] at g2
      by_cases h00 : L = 0
      · subst h00
        exact .steady (hng g1) (.default (Spec.Means.notGiven (by simpa using hL))) g3 (by simpa using g2) g4
      · exact .steady (hng g1) (.given hL h00) g3 (by simpa [h00] using g2) g4

theorem psrData {case : Case} {x : Cond} {r : List PyF × List Row}
    (P : Physical (K.inputs floor) sol) (hx : PsrOk sol.names case x)
    (h : (K.inputs floor).psrSims.run sol x = .ok r) : PsrData K sol case r := by
  obtain ⟨c, h1, h2, -⟩ := psrRun_ok P h
  refine ⟨x, c, hx, h1, h2, fun p hp => ?_⟩
  simp only [Cantera.psrSims, h1] at h
  rw [(C47_points _ c).2.2] at h
  cases h
  have : (K.inputs floor).psrPressure x = .fin (p * 101325) := by
    show x.pressure.toNum.mul _ = _
    rw [hp.toNum]; rfl
  rw [this]
  rfl

theorem flameData {case : Case} {x : FlameInput} {r : List PyF × List Row}
    (hx : FlameOk sol.names case x)
    (h : ((K.inputs floor).flameSims b.rnd).run sol x = .ok r) :
    FlameData K sol (levelTol b) floor case r := by
  simp only [Cantera.flameSims] at h
  rcases hR : (K.inputs floor).flame sol x with e | s <;> rw [hR] at h
  · cases h
  dsimp only at h
  unfold flameProcess at h
  rcases C46_floor (K.inputs floor).floor s with ⟨-, h1, -⟩ | ⟨f, rfl, h0, h1, h2⟩
  · rw [h1] at h; cases h
  · rw [h1] at h
    dsimp only at h
    rcases h3 : sampleProfile b.rnd 20 f.points with e | rows' <;> rw [h3] at h <;> cases h
    exact ⟨x, f, hx, hR, rfl, h0, sampleProfile_sampled h3⟩

theorem forall₂_comp {α β γ : Type} {p : α → β → Prop} {q : β → γ → Prop} {l1 : List α} {l2 : List β}
    {l3 : List γ} (h : List.Forall₂ p l1 l2) (h' : List.Forall₂ q l2 l3) :
    List.Forall₂ (fun a c => ∃ b, p a b ∧ q b c) l1 l3 := by
  induction h generalizing l3 with
  | nil => cases h'; exact .nil
  | cons h1 _ ih =>
    cases h' with
    | cons h2 h3 => exact .cons ⟨_, h1, h2⟩ (ih h3)

end Verif
