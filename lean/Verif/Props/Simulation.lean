import Verif.Lemmas.Simulation
import Verif.Props.Sampling
import Verif.Spec.Reduce
/-!
# Properties of the simulations (C42–C47, C72–C74)
-/
namespace Verif
open Spec

/-! ### C42: profile sampling -/

/-- the levels of a profile in exact arithmetic -/
def exactLevels (n : Nat) (a b : ℚ) : List PyF :=
  (List.range n).map (fun k : Nat => .fin (a + ((k : ℚ) + 1) / n * (b - a)))

/-- **C42** (any rounding): the rows are the states of the specified points, then zeros. -/
theorem C42_rows {rnd : ℚ → ℚ} {n : Nat} {p0 : Point} {ps : List Point} {rows : List Row}
    (h : sampleProfile rnd n (p0 :: ps) = .ok rows) :
    ∃ is, Picks ((deltas rnd n).map (level rnd p0.T ((p0 :: ps).getLast (by simp)).T)) (p0 :: ps) is ∧
      rows = rowsAt (p0 :: ps) is ++ List.replicate ((deltas rnd n).length - is.length)
        (List.replicate (2 + p0.Y.length) (.fin 0)) ∧
      rows.length = (deltas rnd n).length ∧ (rowsAt (p0 :: ps) is).length = is.length := by
  unfold sampleProfile at h
  by_cases hn : n = 0
  · rw [if_pos hn] at h; cases h
  rw [if_neg hn] at h
  dsimp only at h
  obtain ⟨is, P, hr⟩ := profileLoop_spec
    ((deltas rnd n).map (level rnd p0.T ((p0 :: ps).getLast (by simp)).T)) (p0 :: ps) 0
  rw [List.drop_zero] at P
  rw [hr] at h
  have hl := P.rows_length
  have he := P.enough
  rw [List.length_map] at he
  have h' := (Except.ok.inj h).symm
  rw [hl, List.length_map] at h'
  refine ⟨is, P, h', ?_, hl⟩
  rw [h', List.length_append, hl, List.length_replicate]
  omega

/-- **C42** (exact arithmetic): `n` rows; row `k` is the state of the first point after that of
row `k - 1` whose temperature is at least `T0 + (k+1)/n (Tend - T0)`; the remaining rows are zero
because no such point is left. -/
theorem C42_exact {n : Nat} {p0 : Point} {ps : List Point} {rows : List Row} {a b : ℚ}
    (ha : p0.T = .fin a) (hb : ((p0 :: ps).getLast (by simp)).T = .fin b)
    (h : sampleProfile id n (p0 :: ps) = .ok rows) :
    ∃ is, Picks (exactLevels n a b) (p0 :: ps) is ∧ rows.length = n ∧
      (∀ (k i : Nat), is[k]? = some i → ∃ p : Point, (p0 :: ps)[i]? = some p ∧
        rows[k]? = some (p.T :: p.P :: p.Y)) ∧
      (∀ k : Nat, is.length ≤ k → k < n → rows[k]? = some (List.replicate (2 + p0.Y.length) (.fin 0))) := by
  have hn : n ≠ 0 := by
    rintro rfl
    unfold sampleProfile at h
    rw [if_pos rfl] at h
    cases h
  obtain ⟨is, P, hr, hl, hl'⟩ := C42_rows h
  have hd : (deltas id n).length = n := by rw [deltas_exact n hn]; simp
  refine ⟨is, ?_, by rw [hl, hd], ?_, ?_⟩
  · rw [deltas_exact n hn, List.map_map, ha, hb] at P
    unfold exactLevels
    convert P using 2
    funext k
    simp only [Function.comp, level_exact]
  · intro k i hk
    obtain ⟨p, h1, h2⟩ := P.row hk
    refine ⟨p, h1, ?_⟩
    rw [hr, List.getElem?_append_left (List.getElem?_eq_some_iff.1 h2).1, h2]
    rfl
  · intro k h1 h2
    rw [hr, List.getElem?_append_right (by omega), hl', List.getElem?_replicate,
      if_pos (by omega)]

/-- **C42**: a filled row and the row before it come from different points, in profile order. -/
theorem C42_order {levels : List PyF} {pts : List Point} {is : List Nat} (P : Picks levels pts is) :
    is.Pairwise (· < ·) := by
  have : ∀ (l : List Nat), (∀ k a b, l[k]? = some a → l[k + 1]? = some b → a < b) →
      l.Pairwise (· < ·) := by
    intro l
    induction l with
    | nil => intro; exact List.Pairwise.nil
    | cons a l ih =>
      intro h
      have hl := ih (fun k x y hx hy => h (k + 1) x y hx hy)
      refine List.Pairwise.cons (fun c hc => ?_) hl
      cases l with
      | nil => simp at hc
      | cons b l =>
        have hab := h 0 a b rfl rfl
        rcases List.mem_cons.1 hc with rfl | hc
        · exact hab
        · exact lt_trans hab ((List.pairwise_cons.1 hl).1 c hc)
  exact this is (fun k a b ha hb => P.increasing ha hb)

/-- the points of the rows are determined -/
theorem C42_determined {levels : List PyF} {pts : List Point} {is js : List Nat}
    (P : Picks levels pts is) (Q : Picks levels pts js) : is = js := by
  have key : ∀ {is js : List Nat}, Picks levels pts is → Picks levels pts js → ∀ m : Nat,
      (∀ k : Nat, k < m → is[k]? = js[k]?) → ∀ i : Nat, is[m]? = some i → js[m]? = some i := by
    intro is js P Q m hm i hi
    obtain ⟨h1, p, l, h2, h3, h4⟩ := P.hit m i hi
    have hs : searchFrom is m = searchFrom js m := by
      cases m with
      | zero => rfl
      | succ m => rw [searchFrom_succ, searchFrom_succ, hm m (by omega)]
    have hml : m < is.length := (List.getElem?_eq_some_iff.1 hi).1
    have hmj : m ≤ js.length := by
      cases m with
      | zero => omega
      | succ m =>
        have := hm m (by omega)
        rw [List.getElem?_eq_getElem (by omega)] at this
        have := (List.getElem?_eq_some_iff.1 this.symm).1
        omega
    rcases hj : js[m]? with _ | j
    · have := Q.first m l h3 hmj i p h2 (by omega) (fun x hx => by rw [hj] at hx; cases hx)
      rw [h4] at this; cases this
    · obtain ⟨g1, q, l', g2, g3, g4⟩ := Q.hit m j hj
      rw [h3] at g3; cases g3
      rcases Nat.lt_trichotomy i j with hij | rfl | hij
      · have := Q.first m l h3 hmj i p h2 (by omega) (fun x hx => by rw [hj] at hx; cases hx; exact hij)
        rw [h4] at this; cases this
      · rfl
      · have := P.first m l h3 hml.le j q g2 (by omega)
          (fun x hx => by rw [hi] at hx; cases hx; exact hij)
        rw [g4] at this; cases this
  apply List.ext_getElem?
  intro m
  induction m using Nat.strong_induction_on with
  | _ m ih =>
    rcases hi : is[m]? with _ | i
    · rcases hj : js[m]? with _ | j
      · rfl
      · have := key Q P m (fun k hk => (ih k hk).symm) j hj
        rw [hi] at this; cases this
    · exact (key P Q m ih i hi).symm

/-- **C42** (binary64, the 20 points in use): 20 levels, each within 1e-15 of its exact place. -/
theorem C42_binary64 : (deltas rnd64 20).length = 20 ∧
    ∀ k : Nat, k < 20 → ∃ d, (deltas rnd64 20)[k]? = some d ∧ |d - ((k : ℚ) + 1) / 20| ≤ 1 / 10 ^ 15 := by
  have h1 : (deltas rnd64 20).length = 20 := by decide +kernel
  refine ⟨h1, fun k hk => ⟨_, List.getElem?_eq_getElem (by rw [h1]; exact hk), ?_⟩⟩
  have h2 : ∀ k : Nat, k < 20 → |((deltas rnd64 20)[k]?).getD 0 - ((k : ℚ) + 1) / 20| ≤ 1 / 10 ^ 15 := by
    decide +kernel
  have := h2 k hk
  rw [List.getElem?_eq_getElem (by rw [h1]; exact hk)] at this
  exact this

/-- **C42**: the levels do not underflow. -/
theorem C42_ieee : deltas rnd754 20 = deltas rnd64 20 := by decide +kernel

/-- **C42 is false for other numbers of points** in binary64: with `num_sample_points = 49` every
profile gives 50 rows. -/
theorem C42_count_refuted {p0 : Point} {ps : List Point} {rows : List Row}
    (h : sampleProfile rnd64 49 (p0 :: ps) = .ok rows) : rows.length = 50 := by
  obtain ⟨_, _, _, h1, _⟩ := C42_rows h
  rw [h1]
  decide +kernel

/-- a short non-monotone profile -/
def exProfile : List Point :=
  [⟨.fin 0, .fin 1000, .fin 1, [.fin 1, .fin 0]⟩, ⟨.fin 1, .fin 1500, .fin 2, [.fin 1, .fin 0]⟩,
   ⟨.fin 2, .fin 900, .fin 3, [.fin 1, .fin 0]⟩, ⟨.fin 3, .fin 2000, .fin 4, [.fin 0, .fin 1]⟩]

example : sampleProfile id 3 exProfile = .ok
    [[.fin 1500, .fin 2, .fin 1, .fin 0], [.fin 2000, .fin 4, .fin 0, .fin 1],
     [.fin 0, .fin 0, .fin 0, .fin 0]] := by decide +kernel

/-! ### C72: the final state is sampled -/

/-- **C72** (exact arithmetic): on a profile that does not cool overall, rows stay zero only when
the final point itself was sampled. -/
theorem C72_exact {n : Nat} {p0 : Point} {ps : List Point} {a b : ℚ} {is : List Nat}
    (hb : ((p0 :: ps).getLast (by simp)).T = .fin b) (hab : a ≤ b)
    (P : Picks (exactLevels n a b) (p0 :: ps) is) (hlt : is.length < n) :
    is.getLast? = some ps.length := by
  have hlev : ∃ l : ℚ, (exactLevels n a b)[is.length]? = some (.fin l) ∧ l ≤ b := by
    refine ⟨a + ((is.length : ℚ) + 1) / n * (b - a), ?_, ?_⟩
    · unfold exactLevels
      rw [List.getElem?_map, List.getElem?_range hlt]
      rfl
    · have hn : (0 : ℚ) < n := by exact_mod_cast (by omega : 0 < n)
      have : ((is.length : ℚ) + 1) / n ≤ 1 := by
        rw [div_le_one hn]
        exact_mod_cast hlt
      nlinarith
  obtain ⟨l, hl, hle⟩ := hlev
  have hlast : (p0 :: ps)[ps.length]? = some ((p0 :: ps).getLast (by simp)) := by
    rw [← List.getLast?_eq_some_getLast, List.getLast?_eq_getElem?]
    rfl
  by_contra hne
  have hfrom : searchFrom is is.length ≤ ps.length := by
    cases hm : is.length with
    | zero => simp [searchFrom]
    | succ m =>
      have hmi : is[m]? = some (is[m]) := List.getElem?_eq_getElem (by omega)
      rw [searchFrom_succ, hmi, Option.getD_some]
      obtain ⟨-, p, _, h1, -⟩ := P.hit m _ hmi
      have h2 := (List.getElem?_eq_some_iff.1 h1).1
      rw [List.length_cons] at h2
      rcases Nat.lt_or_ge is[m] ps.length with h | h
      · exact h
      · exfalso
        apply hne
        rw [List.getLast?_eq_getElem?, hm, Nat.add_sub_cancel, hmi]
        congr 1
        omega
  have := P.first is.length _ hl (le_refl _) ps.length _ hlast hfrom (fun i hi => by
    rw [List.getElem?_eq_none (le_refl _)] at hi; cases hi)
  rw [hb] at this
  simp [PyF.le, hle] at this

/-- **C72 is false in binary64**: every profile from 298.15 K to its maximum 1400.0000000000002 K,
however fine, loses its last row: the rounded level is above the final temperature and the row of
the final state stays zero, temperature, pressure and composition. -/
theorem C72_last_row_refuted {p0 : Point} {ps : List Point} {rows : List Row}
    (ha : p0.T = .fin (2622555134571315 / 2 ^ 43))
    (hb : ((p0 :: ps).getLast (by simp)).T = .fin (6157265115545601 / 2 ^ 42))
    (hmax : ∀ p ∈ p0 :: ps, p.T.le (.fin (6157265115545601 / 2 ^ 42)) = true)
    (h : sampleProfile rnd64 20 (p0 :: ps) = .ok rows) :
    rows.length = 20 ∧ rows.getLast? = some (List.replicate (2 + p0.Y.length) (.fin 0)) := by
  obtain ⟨is, P, hr, hl, hl'⟩ := C42_rows h
  have h20 : (deltas rnd64 20).length = 20 := by decide +kernel
  refine ⟨by rw [hl, h20], ?_⟩
  have hlt : is.length < 20 := by
    by_contra hge
    have : is.length ≤ 20 := by have := P.enough; rw [List.length_map, h20] at this; exact this
    have hi : is[19]? = some (is[19]) := List.getElem?_eq_getElem (by omega)
    obtain ⟨-, p, l, h1, h2, h3⟩ := P.hit 19 _ hi
    have hm := hmax p (List.mem_of_getElem? h1)
    rw [ha, hb, List.getElem?_map] at h2
    have hd : (deltas rnd64 20)[19]? = some 1 := by decide +kernel
    rw [hd] at h2
    have hlev : level rnd64 (.fin (2622555134571315 / 2 ^ 43)) (.fin (6157265115545601 / 2 ^ 42)) 1 =
        .fin (3078632557772801 / 2 ^ 41) := by decide +kernel
    rw [Option.map_some, hlev] at h2
    cases h2
    rcases hT : p.T with q | _ | _ | _ <;> rw [hT] at hm h3 <;> simp [PyF.le] at hm h3
    norm_num at hm h3
    linarith
  rw [hr, h20, List.getLast?_append]
  obtain ⟨m, hm⟩ : ∃ m, 20 - is.length = m + 1 := ⟨19 - is.length, by omega⟩
  rw [hm, List.replicate_succ', List.getLast?_append]
  rfl

/-- the hypotheses are met by a profile with enough points to fill the nineteen other rows -/
def exFlame : List Point :=
  ((List.range 21).map (fun k => ⟨.fin k, .fin (2622555134571315 / 2 ^ 43 + k * 55), .fin 1, [.fin 1]⟩)) ++
    [⟨.fin 21, .fin (6157265115545601 / 2 ^ 42), .fin 1, [.fin 1]⟩]

example : (∀ p ∈ exFlame, p.T.le (.fin (6157265115545601 / 2 ^ 42)) = true) ∧
    ((sampleProfile rnd64 20 exFlame).toOption.map (fun rows => rows.countP (fun r => r.head? = some (.fin 0)))) = some 1 ∧
    ((sampleProfile id 20 exFlame).toOption.map (fun rows => rows.countP (fun r => r.head? = some (.fin 0)))) = some 0 := by
  decide +kernel

/-! ### C43, C44: ignition -/

/-- **C43**: when the sampling path returns a delay, it is the time of the first step 400 K above
the initial temperature, and the metric-only path returns the same. -/
theorem C43_agree {rnd : ℚ → ℚ} {p : IgnProps} {R : Reactor} {fuel : Nat} {T : ℚ}
    (hT : p.temperature = .fin T) (h0 : R.init.T = .fin T) {d : PyF} {rows : List Row}
    {f : Option (List Point)} (h : ignSampleWorker rnd p R fuel = some (.ok ([d], rows), f)) :
    (∃ k q, Ignites R (.fin (T + 400)) k q ∧ d = q.time) ∧
    ignWorker p R fuel = some (.ok [d]) := by
  have hot : p.hot = .fin (T + 400) := by simp [IgnProps.hot, hT, PyF.add]
  have h0' : p.hot.le R.init.T = false := by
    rw [hot, h0]
    simp only [PyF.le, decide_eq_false_iff_not, not_le]
    linarith
  have hproc : ∀ {n k q}, Ignites R p.hot k q → k < n → (∀ j < n, ∃ q, R.step j = some q) →
      ∀ {d' rows'}, ignProcess rnd (some (recorded R n)) = .ok (d', rows') → d' = q.time := by
    intro n k q hq hk hreach d' rows' hp
    have hd := delayOf_recorded hreach hk hq h0'
    unfold recorded ignProcess at hp
    dsimp only at hp
    rcases h1 : sampleProfile rnd 20 (R.init :: (List.range n).filterMap R.step) with e | rows0 <;>
      rw [h1] at hp
    · cases hp
    · cases hp
      rw [h0]
      rw [hot] at hd
      exact hd
  unfold ignSampleWorker at h
  unfold ignWorker
  rcases ht : p.timed with _ | _
  · by_cases hm : 0 < p.steps
    · rcases runCase_steady p R fuel ht hm with ⟨n, -, -, -, hr⟩ | ⟨n, hn, hs, hreach, hcase⟩ | ⟨-, -, hr⟩
      · rw [hr] at h; cases h
      · rcases hcase with ⟨-, hr⟩ | ⟨k, hk, q, hq, hr⟩
        · rw [hr] at h; cases h
        · rw [hr] at h
          dsimp only at h
          rcases hp : ignProcess rnd (some (recorded R (n + 1))) with e | ⟨d', rows'⟩ <;> rw [hp] at h <;>
            cases h
          have hd := hproc hq (by omega) (fun j hj => hreach j (by omega)) hp
          subst hd
          refine ⟨⟨k, q, hot ▸ hq, rfl⟩, ?_⟩
          rcases calculate_steps p R fuel ht hm with ⟨k', q', -, hq', hc⟩ | ⟨hno, -⟩
          · obtain ⟨-, rfl⟩ := hq.unique hq'
            rw [hc]; rfl
          · exact absurd ⟨k, q, by omega, hq⟩ hno
      · rw [hr] at h; cases h
    · exfalso
      have hr : ignRunCase p R false fuel = some ⟨.error .unboundLocal, none⟩ := by
        unfold ignRunCase
        rw [if_neg (by simp [ht])]
        unfold steadyPart
        rw [Int.toNat_of_nonpos (by omega)]
        rfl
      rw [hr] at h
      cases h
  · rcases hrun : ignRunCase p R false fuel with _ | r <;> rw [hrun] at h
    · cases h
    rcases runCase_timed ht hrun with ⟨n, -, -, rfl⟩ | ⟨n, hn, hreach, hcase⟩
    · cases h
    rcases hcase with ⟨-, rfl⟩ | ⟨k, hk, q, hq, rfl⟩
    · cases h
    dsimp only at h
    rcases hp : ignProcess rnd (some (recorded R n)) with e | ⟨d', rows'⟩ <;> rw [hp] at h <;> cases h
    have hd := hproc hq hk hreach hp
    subst hd
    refine ⟨⟨k, q, hot ▸ hq, rfl⟩, ?_⟩
    have hsome : (calcTimed R p.hot p.endTime fuel 0 R.init).isSome := by
      apply calcTimed_of_timedLoop (r := ⟨none, [R.init]⟩)
      unfold ignRunCase at hrun
      rw [if_pos ht] at hrun
      rcases h0 : timedLoop R p.hot p.endTime false fuel 0 R.init ⟨none, [R.init]⟩ with _ | x
      · rw [h0] at hrun; cases hrun
      · rfl
    obtain ⟨x, hx⟩ := Option.isSome_iff_exists.1 hsome
    unfold ignCalculate
    rw [if_pos ht, hx]
    rcases calcTimed_spec fuel 0 rfl (fun j hj => absurd hj (by omega))
      (fun j hj => absurd hj (by omega)) hx with ⟨k', q', hq', -, rfl⟩ | ⟨-, m, hcold, hend⟩
    · obtain ⟨-, rfl⟩ := hq.unique hq'
      rfl
    · exfalso
      have hm : m ≤ k := by
        by_contra hlt
        have := hcold k (by omega) q hq.1
        rw [hq.2.1] at this
        cases this
      rcases hend with ⟨-, hs⟩ | ⟨-, t, h1, h2⟩
      · obtain ⟨y, hy⟩ := hreach m (by omega)
        rw [hs] at hy; cases hy
      · obtain ⟨t', h3, h4⟩ := hn.1 m (by omega)
        rw [h1] at h3; cases h3
        rw [h2] at h4; cases h4

/-- **C44**: the metric-only path never raises (step limit not negative).  Without an end time it
returns the time of the first ignition within the step limit, and zero when there is none: because
nothing ignites or because an earlier step fails. -/
theorem C44_calculate_steps (p : IgnProps) (R : Reactor) (fuel : Nat) (ht : p.endTime = .fin 0)
    (hm : 0 ≤ p.maxSteps) :
    ∃ v, ignCalculate p R fuel = some (.ok v) ∧
      ∀ L : Int, (L = if p.maxSteps = 0 then 10000 else p.maxSteps) →
        (∃ (k : Nat) (q : Point), (k : Int) < L ∧ Ignites R (p.temperature.add (.fin 400)) k q ∧ v = q.time) ∨
        ((¬ ∃ (k : Nat) (q : Point), (k : Int) < L ∧ Ignites R (p.temperature.add (.fin 400)) k q) ∧ v = .fin 0) := by
  have ht' : p.timed = false := by simp [IgnProps.timed, ht]
  have hs : 0 < p.steps := by unfold IgnProps.steps; split_ifs <;> omega
  rcases calculate_steps p R fuel ht' hs with ⟨k, q, h1, h2, h3⟩ | ⟨h1, h2⟩
  · exact ⟨_, h3, fun L hL => Or.inl ⟨k, q, by rw [hL]; exact h1, h2, rfl⟩⟩
  · exact ⟨_, h2, fun L hL => Or.inr ⟨by rw [hL]; exact h1, rfl⟩⟩

/-- **C44**: with an end time the metric-only path returns the time of the first ignition among
the steps begun before it, and zero when a step fails or the end is reached before. -/
theorem C44_calculate_timed {p : IgnProps} {R : Reactor} {fuel : Nat} (ht : p.endTime ≠ .fin 0)
    {x : Except Err PyF} (h : ignCalculate p R fuel = some x) :
    (∃ k q, Ignites R (p.temperature.add (.fin 400)) k q ∧ Begun R p.endTime k ∧ x = .ok q.time) ∨
    (∃ n, Cold R (p.temperature.add (.fin 400)) n ∧
      ((Begun R p.endTime n ∧ R.step n = none) ∨ Ended R p.endTime n) ∧ x = .ok (.fin 0)) := by
  have ht' : p.timed = true := by simp [IgnProps.timed, ht]
  unfold ignCalculate at h
  rw [if_pos ht'] at h
  rcases h0 : calcTimed R p.hot p.endTime fuel 0 R.init with _ | v <;> rw [h0] at h <;> cases h
  rcases calcTimed_spec fuel 0 rfl (fun j hj => absurd hj (by omega))
    (fun j hj => absurd hj (by omega)) h0 with ⟨k', q', hq', hb, rfl⟩ | ⟨rfl, m, hcold, hend⟩
  · exact Or.inl ⟨k', q', hq', hb, rfl⟩
  · exact Or.inr ⟨m, hcold, hend, rfl⟩

/-- **C44**: the sampling path with an end time: a failing step or the absence of ignition raises
`RuntimeError`, otherwise the delay is returned. -/
theorem C44_run_timed {p : IgnProps} {R : Reactor} {fuel : Nat} {r : IgnRun} (ht : p.endTime ≠ .fin 0)
    (h : ignRunCase p R false fuel = some r) :
    (∃ n, Begun R p.endTime n ∧ R.step n = none ∧ r.result = .error .runtimeError) ∨
    (∃ n, Ended R p.endTime n ∧ Cold R (p.temperature.add (.fin 400)) n ∧
      r.result = .error .runtimeError) ∨
    (∃ n, Ended R p.endTime n ∧ ∃ k < n, ∃ q, Ignites R (p.temperature.add (.fin 400)) k q ∧
      r.result = .ok q.time) := by
  have ht' : p.timed = true := by simp [IgnProps.timed, ht]
  rcases runCase_timed ht' h with ⟨n, h1, h2, rfl⟩ | ⟨n, h1, -, ⟨h2, rfl⟩ | ⟨k, hk, q, hq, rfl⟩⟩
  · exact Or.inl ⟨n, h1, h2, rfl⟩
  · exact Or.inr (Or.inl ⟨n, h1, h2, rfl⟩)
  · exact Or.inr (Or.inr ⟨n, h1, k, hk, q, hq, rfl⟩)

/-- **C44**: the sampling path to steady state raises `RuntimeError` when a step fails, when the
step limit is reached, and when the reactor settles without ignition. -/
theorem C44_run_steady (p : IgnProps) (R : Reactor) (fuel : Nat) (ht : p.endTime = .fin 0)
    (hm : 0 < p.steps) :
    ((∃ n : Nat, n < p.steps ∧ R.step n = none ∧ ∀ j < n, R.settled j = false) →
      ∃ f, ignRunCase p R false fuel = some ⟨.error .runtimeError, f⟩) ∧
    ((∀ j : Nat, j < p.steps → R.settled j = false) →
      ∃ f, ignRunCase p R false fuel = some ⟨.error .runtimeError, f⟩) ∧
    (∀ n, Settles R n → Cold R (p.temperature.add (.fin 400)) (n + 1) →
      ∃ f, ignRunCase p R false fuel = some ⟨.error .runtimeError, f⟩) := by
  have ht' : p.timed = false := by simp [IgnProps.timed, ht]
  have h := runCase_steady p R fuel ht' hm
  have bad : ∀ {n k q}, Ignites R p.hot k q → k ≤ n → Cold R p.hot (n + 1) → False := by
    intro n k q hq hk hc
    have := hc k (by omega) q hq.1
    rw [hq.2.1] at this
    cases this
  refine ⟨?_, ?_, ?_⟩
  · rintro ⟨n, h1, h2, h3⟩
    rcases h with ⟨_, -, -, -, h⟩ | ⟨m, h4, h5, h6, ⟨-, h7⟩ | ⟨k, hk, q, hq, h7⟩⟩ | ⟨-, -, h⟩
    · exact ⟨_, h⟩
    · exact ⟨_, h7⟩
    · exfalso
      rcases Nat.lt_or_ge m n with hmn | hmn
      · have := h3 m hmn
        rw [h5.1] at this
        cases this
      · obtain ⟨y, hy⟩ := h6 n hmn
        rw [h2] at hy; cases hy
    · exact ⟨_, h⟩
  · intro h1
    rcases h with ⟨_, -, -, -, h⟩ | ⟨m, h4, h5, h6, h7⟩ | ⟨-, -, h⟩
    · exact ⟨_, h⟩
    · exfalso
      have := h1 m (by omega)
      rw [h5.1] at this
      cases this
    · exact ⟨_, h⟩
  · intro n h1 h2
    rcases h with ⟨_, -, -, -, h⟩ | ⟨m, h4, h5, h6, ⟨-, h7⟩ | ⟨k, hk, q, hq, h7⟩⟩ | ⟨-, -, h⟩
    · exact ⟨_, h⟩
    · exact ⟨_, h7⟩
    · exfalso
      have : m = n := by
        rcases Nat.lt_trichotomy m n with hmn | hmn | hmn
        · have := h1.2 m hmn
          rw [h5.1] at this
          cases this
        · exact hmn
        · have := h5.2 n hmn
          rw [h1.1] at this
          cases this
      subst this
      exact bad hq hk h2
    · exact ⟨_, h⟩

/-- a negative step limit makes both paths raise `UnboundLocalError`, on every trajectory -/
theorem C44_negative_steps (p : IgnProps) (R : Reactor) (fuel : Nat) (ht : p.endTime = .fin 0)
    (hm : p.maxSteps < 0) :
    ignCalculate p R fuel = some (.error .unboundLocal) ∧
    ignRunCase p R false fuel = some ⟨.error .unboundLocal, none⟩ := by
  have ht' : p.timed = false := by simp [IgnProps.timed, ht]
  have hs : p.steps ≤ 0 := by unfold IgnProps.steps; split_ifs <;> omega
  constructor
  · unfold ignCalculate
    rw [if_neg (by simp [ht']), if_pos hs]
  · unfold ignRunCase
    rw [if_neg (by simp [ht'])]
    unfold steadyPart
    rw [Int.toNat_of_nonpos hs]
    rfl

/-- both paths end when the integrator fails or the end time is reached at some step -/
theorem C44_terminates (p : IgnProps) (R : Reactor) {n fuel : Nat} (hf : n < fuel)
    (h : R.step n = none ∨ ∃ t, timeBefore R n = some t ∧ t.lt p.endTime = false) :
    (ignRunCase p R false fuel).isSome ∧ (ignCalculate p R fuel).isSome := by
  constructor
  · unfold ignRunCase
    by_cases ht : p.timed = true
    · rw [if_pos ht]
      obtain ⟨x, hx⟩ := Option.isSome_iff_exists.1 (timedLoop_isSome (hot := p.hot) h fuel 0
        (cur := R.init) (r := ⟨none, [R.init]⟩) rfl (by omega) (by omega))
      rw [hx]
      rcases x with e | r
      · rfl
      · dsimp only; rcases r.delay with _ | d <;> rfl
    · rw [if_neg ht]
      rcases steadyPart R p.hot false p.steps with e | r
      · rfl
      · dsimp only; rcases r.delay with _ | d <;> rfl
  · unfold ignCalculate
    by_cases ht : p.timed = true
    · rw [if_pos ht, Option.isSome_map]
      exact calcTimed_isSome h fuel 0 rfl (by omega) (by omega)
    · rw [if_neg ht]
      split_ifs <;> rfl

/-- a reactor heating 100 K per step, settled from step 9 on -/
def exReactor : Reactor where
  init := ⟨.fin 0, .fin 1000, .fin 1, [.fin 1]⟩
  step k := if k < 50 then some ⟨.fin (k + 1), .fin (1000 + 100 * (k + 1)), .fin 1, [.fin 1]⟩ else none
  settled k := decide (9 ≤ k)

example : ignWorker ⟨.fin 1000, .fin 0, 0⟩ exReactor 0 = some (.ok [.fin 4]) ∧
    ignWorker ⟨.fin 1000, .fin 30, 0⟩ exReactor 40 = some (.ok [.fin 4]) ∧
    ignWorker ⟨.fin 1000, .fin 3, 0⟩ exReactor 40 = some (.ok [.fin 0]) := by decide +kernel

example : ((ignSampleWorker id ⟨.fin 1000, .fin 0, 0⟩ exReactor 0).map
      (fun x => x.1.toOption.map (·.1))) = some (some [.fin 4]) ∧
    ((ignSampleWorker id ⟨.fin 1000, .fin 30, 0⟩ exReactor 40).map
      (fun x => x.1.toOption.map (·.1))) = some (some [.fin 4]) := by decide +kernel

/-! ### C45: the step limit -/

/-- **C45 is false on the last permitted step**: a reactor that ignites and settles exactly on
step `maxSteps` (no step failing) makes the sampling path raise `RuntimeError`. -/
theorem C45_last_step_refuted (p : IgnProps) (R : Reactor) (fuel : Nat) (ht : p.endTime = .fin 0)
    {n : Nat} (hn : (n : Int) = p.steps - 1) (hs : Settles R n) :
    ∃ f, ignRunCase p R false fuel = some ⟨.error .runtimeError, f⟩ := by
  have ht' : p.timed = false := by simp [IgnProps.timed, ht]
  rcases runCase_steady p R fuel ht' (by omega) with ⟨_, -, -, -, h⟩ | ⟨m, h4, h5, h6, h7⟩ | ⟨-, -, h⟩
  · exact ⟨_, h⟩
  · exfalso
    have := hs.2 m (by omega)
    rw [h5.1] at this
    cases this
  · exact ⟨_, h⟩

/-- **C45** for the steps before the last permitted one. -/
theorem C45_converged_partial (p : IgnProps) (R : Reactor) (fuel : Nat) (ht : p.endTime = .fin 0)
    {n : Nat} (hn : (n : Int) < p.steps - 1) (hs : Settles R n)
    (hreach : ∀ j ≤ n, ∃ q, R.step j = some q) {k : Nat} {q : Point} (hk : k ≤ n)
    (hq : Ignites R (p.temperature.add (.fin 400)) k q) :
    ignRunCase p R false fuel = some ⟨.ok q.time, some (recorded R (n + 1))⟩ := by
  have ht' : p.timed = false := by simp [IgnProps.timed, ht]
  have huniq : ∀ m, Settles R m → m = n := by
    intro m hm
    rcases Nat.lt_trichotomy m n with hmn | hmn | hmn
    · have := hs.2 m hmn
      rw [hm.1] at this
      cases this
    · exact hmn
    · have := hm.2 n hmn
      rw [hs.1] at this
      cases this
  rcases runCase_steady p R fuel ht' (by omega) with
    ⟨m, h1, h2, h3, h⟩ | ⟨m, h4, h5, h6, ⟨h7, -⟩ | ⟨k', hk', q', hq', h7⟩⟩ | ⟨-, h1, h⟩
  · exfalso
    rcases Nat.lt_or_ge n m with hmn | hmn
    · have := h3 n hmn
      rw [hs.1] at this
      cases this
    · obtain ⟨y, hy⟩ := hreach m hmn
      rw [h2] at hy; cases hy
  · exfalso
    have := huniq m h5
    subst this
    have := h7 k (by omega) q hq.1
    rw [show p.hot = p.temperature.add (.fin 400) from rfl, hq.2.1] at this
    cases this
  · have := huniq m h5
    subst this
    obtain ⟨-, rfl⟩ := hq.unique hq'
    exact h7
  · exfalso
    have := h1 n hn
    rw [hs.1] at this
    cases this

example : Settles exReactor 9 ∧ Ignites exReactor (.fin 1400) 3 ⟨.fin 4, .fin 1400, .fin 1, [.fin 1]⟩ ∧
    (ignRunCase ⟨.fin 1000, .fin 0, 10⟩ exReactor false 0).map (·.result.toOption) = some none ∧
    (ignRunCase ⟨.fin 1000, .fin 0, 11⟩ exReactor false 0).map (·.result.toOption) = some (some (.fin 4)) := by
  refine ⟨⟨by decide, by decide⟩, ⟨by decide +kernel, by decide +kernel, ?_⟩, by decide +kernel, by decide +kernel⟩
  intro j hj
  have : ∀ j < 3, ((exReactor.step j).map (fun q => (PyF.fin 1400).le q.T)) = some false := by decide +kernel
  obtain ⟨q, h1, h2⟩ := Option.map_eq_some_iff.1 (this j hj)
  exact ⟨q, h1, h2⟩

/-! ### C46: flames -/

/-- **C46**: baseline and candidate apply the same strict floor: a failing solver or a speed at or
below it raises in one and gives zero in the other; any other speed (a NaN too) is returned by
both. -/
theorem C46_floor (given : Option PyF) (s : Option FlameSol) :
    ((s = none ∨ ∃ f, s = some f ∧ f.speed.le (given.getD (.fin float005)) = true) ∧
      flameRunCase given s = .error .runtimeError ∧ flameCalculate given s = .fin 0) ∨
    (∃ f, s = some f ∧ f.speed.le (given.getD (.fin float005)) = false ∧
      flameRunCase given s = .ok f.speed ∧ flameCalculate given s = f.speed) := by
  rcases s with _ | f
  · exact Or.inl ⟨Or.inl rfl, rfl, rfl⟩
  · rcases h : f.speed.le (given.getD (.fin float005)) with _ | _
    · right
      refine ⟨f, rfl, h, ?_, ?_⟩ <;>
        simp only [flameRunCase, flameCalculate, flameDetected, flameFloor, h] <;> rfl
    · left
      refine ⟨Or.inr ⟨f, rfl, h⟩, ?_, ?_⟩ <;>
        simp only [flameRunCase, flameCalculate, flameDetected, flameFloor, h] <;> rfl

/-- **C46**: a NaN speed counts as a flame whatever the floor -/
theorem C46_nan (given : Option PyF) (pts : List Point) :
    flameRunCase given (some ⟨.nan, pts⟩) = .ok .nan ∧ flameCalculate given (some ⟨.nan, pts⟩) = .nan := by
  rcases C46_floor given (some ⟨.nan, pts⟩) with ⟨h | ⟨f, h, h1⟩, -⟩ | ⟨f, h, -, h1, h2⟩
  · cases h
  · cases h
    simp [PyF.le] at h1
  · cases h
    exact ⟨h1, h2⟩

example : flameRunCase none (some ⟨.fin float005, []⟩) = .error .runtimeError ∧
    flameCalculate none (some ⟨.fin float005, []⟩) = .fin 0 ∧
    flameRunCase (some (.fin (1 / 100))) (some ⟨.fin float005, []⟩) = .ok (.fin float005) := by
  decide +kernel

/-! ### C47: stirred reactors -/

/-- **C47**: metrics and rows of a traced curve. -/
theorem C47_points (pr : PyF) (r : PsrPoints) :
    psrRunCase (.ok r) = .ok [r.extinction.tau, r.logMid.T, r.near.T] ∧
    psrCalculate (.ok r) = .ok [r.extinction.tau, r.logMid.T, r.near.T] ∧
    psrProcess pr (.ok r) = .ok ([r.extinction.tau, r.logMid.T, r.near.T],
      [r.extinction.T :: pr :: r.extinction.Y, r.logMid.T :: pr :: r.logMid.Y,
        r.near.T :: pr :: r.near.Y]) :=
  ⟨rfl, rfl, rfl⟩

/-- **C47**: when the curve cannot be traced, the baseline raises `RuntimeError` exactly when the
candidate gets three zeros; other exceptions pass through both. -/
theorem C47_failure (pr : PyF) (e : Err) :
    (psrRunCase (.error e) = .error e ∧ psrProcess pr (.error e) = .error e) ∧
    (e = .runtimeError → psrCalculate (.error e) = .ok [.fin 0, .fin 0, .fin 0]) ∧
    (e ≠ .runtimeError → psrCalculate (.error e) = .error e) := by
  cases e <;> refine ⟨⟨rfl, rfl⟩, ?_, ?_⟩ <;> intro h <;> first | rfl | cases h | exact absurd rfl h

example : psrProcess (.fin 7) (.ok ⟨⟨.fin 1, .fin 2, [.fin 3]⟩, ⟨.fin 4, .fin 5, [.fin 6]⟩, ⟨.fin 7, .fin 8, [.fin 9]⟩⟩) =
    .ok ([.fin 1, .fin 8, .fin 5], [[.fin 2, .fin 7, .fin 3], [.fin 8, .fin 7, .fin 9], [.fin 5, .fin 7, .fin 6]]) := by
  decide +kernel

/-! ### C73: the starting model reproduces its own metrics -/

/-- `sampling.py:127-144`: `flame_sample_worker` -/
def flameSampleWorker (rnd : ℚ → ℚ) (given : Option PyF) (s : Option FlameSol) :
    Except Err (List PyF × List Row) :=
  (flameProcess rnd given s).map (fun x => ([x.1], x.2))

/-- **C73**: whatever case kind, when sampling succeeds the metric-only simulation of the same
model gives the same metrics. -/
theorem C73_same_metrics :
    (∀ {rnd : ℚ → ℚ} {p : IgnProps} {R : Reactor} {fuel : Nat} {T : ℚ} {ms : List PyF}
      {rows : List Row} {f : Option (List Point)}, p.temperature = .fin T → R.init.T = .fin T →
      ignSampleWorker rnd p R fuel = some (.ok (ms, rows), f) → ignWorker p R fuel = some (.ok ms)) ∧
    (∀ {rnd : ℚ → ℚ} {given : Option PyF} {s : Option FlameSol} {ms : List PyF} {rows : List Row},
      flameSampleWorker rnd given s = .ok (ms, rows) → [flameCalculate given s] = ms) ∧
    (∀ {pr : PyF} {t : Except Err PsrPoints} {ms : List PyF} {rows : List Row},
      psrProcess pr t = .ok (ms, rows) → psrCalculate t = .ok ms) := by
  refine ⟨?_, ?_, ?_⟩
  · intro rnd p R fuel T ms rows f hT h0 h
    have : ∃ d, ms = [d] := by
      unfold ignSampleWorker at h
      rcases h1 : ignRunCase p R false fuel with _ | ⟨e | d, f'⟩ <;> rw [h1] at h
      · cases h
      · cases h
      · dsimp only at h
        rcases h2 : ignProcess rnd f' with e | ⟨d', rows'⟩ <;> rw [h2] at h
        · cases h
        · cases h; exact ⟨d', rfl⟩
    obtain ⟨d, rfl⟩ := this
    exact (C43_agree hT h0 h).2
  · intro rnd given s ms rows h
    unfold flameSampleWorker flameProcess at h
    rcases C46_floor given s with ⟨-, h1, -⟩ | ⟨f, rfl, -, h1, h2⟩
    · rw [h1] at h; cases h
    · rw [h1] at h
      rw [h2]
      dsimp only at h
      rcases h3 : sampleProfile rnd 20 f.points with e | rows' <;> rw [h3] at h <;> cases h
      rfl
  · intro pr t ms rows h
    rcases t with e | r
    · rw [(C47_failure pr e).1.2] at h; cases h
    · rw [(C47_points pr r).2.2] at h
      cases h
      exact (C47_points pr r).2.1

/-- **C73**: so its error is exactly zero when the metrics are positive. -/
theorem C73_zero_error {ms : List ℚ} (hne : ms ≠ []) (hpos : ∀ m ∈ ms, 0 < m) :
    calculateError (ms.map .fin) (ms.map .fin) = .ok (.fin 0) := by
  obtain ⟨e, h1, -⟩ := C40_worst rfl hne hpos (fun t ht => (hpos t ht).ne')
  have := (C40_limit rfl hne hpos (fun t ht => (hpos t ht).ne') h1).2.1.2 rfl
  rw [h1, this]

example : calculateError ([4, 2].map .fin) ([4, 2].map .fin) = .ok (.fin 0) := by decide +kernel

/-! ### C74: intermediate files -/

/-- **C74**: the worker leaves no data file when it succeeds, nor when a step fails. -/
theorem C74_clean_partial {rnd : ℚ → ℚ} {p : IgnProps} {R : Reactor} {fuel : Nat}
    {x : Except Err (List PyF × List Row)} {f : Option (List Point)}
    (h : ignSampleWorker rnd p R fuel = some (x, f)) :
    f = none ∨ ∃ n, f = some (recorded R n) ∧ Cold R (p.temperature.add (.fin 400)) n ∧
      x = .error .runtimeError := by
  have hp : ∀ n, ∃ y, ignProcess rnd (some (recorded R n)) = .ok y := by
    intro n
    unfold ignProcess recorded
    dsimp only
    rcases h1 : sampleProfile rnd 20 (R.init :: (List.range n).filterMap R.step) with e | rows
    · unfold sampleProfile at h1
      rw [if_neg (by omega)] at h1
      cases h1
    · exact ⟨_, rfl⟩
  have fin : ∀ {n q}, ignRunCase p R false fuel = some ⟨.ok q, some (recorded R n)⟩ → f = none := by
    intro n q hr
    unfold ignSampleWorker at h
    rw [hr] at h
    dsimp only at h
    obtain ⟨y, hy⟩ := hp n
    rw [hy] at h
    cases h
    rfl
  have bad : ∀ {e g}, ignRunCase p R false fuel = some ⟨.error e, g⟩ → x = .error e ∧ f = g := by
    intro e g hr
    unfold ignSampleWorker at h
    rw [hr] at h
    cases h
    exact ⟨rfl, rfl⟩
  rcases ht : p.timed with _ | _
  · by_cases hm : 0 < p.steps
    · rcases runCase_steady p R fuel ht hm with ⟨n, -, -, -, hr⟩ | ⟨n, hn, hs, hreach, ⟨hc, hr⟩ | ⟨k, hk, q, hq, hr⟩⟩ | ⟨-, -, hr⟩
      · exact Or.inl (bad hr).2
      · exact Or.inr ⟨n + 1, (bad hr).2, hc, (bad hr).1⟩
      · exact Or.inl (fin hr)
      · exact Or.inl (bad hr).2
    · have hr : ignRunCase p R false fuel = some ⟨.error .unboundLocal, none⟩ := by
        unfold ignRunCase
        rw [if_neg (by simp [ht])]
        unfold steadyPart
        rw [Int.toNat_of_nonpos (by omega)]
        rfl
      exact Or.inl (bad hr).2
  · rcases hrun : ignRunCase p R false fuel with _ | r
    · unfold ignSampleWorker at h
      rw [hrun] at h
      cases h
    · rcases runCase_timed ht hrun with ⟨n, -, -, rfl⟩ | ⟨n, -, -, ⟨hc, rfl⟩ | ⟨k, hk, q, hq, rfl⟩⟩
      · exact Or.inl (bad hrun).2
      · exact Or.inr ⟨n, (bad hrun).2, hc, (bad hrun).1⟩
      · exact Or.inl (fin hrun)

/-- **C74 is false without ignition**: every baseline that settles (before the step limit) without
igniting leaves its data file behind. -/
theorem C74_left_file_refuted (rnd : ℚ → ℚ) (p : IgnProps) (R : Reactor) (fuel : Nat)
    (ht : p.endTime = .fin 0) {n : Nat} (hn : (n : Int) < p.steps - 1) (hs : Settles R n)
    (hreach : ∀ j ≤ n, ∃ q, R.step j = some q)
    (hc : Cold R (p.temperature.add (.fin 400)) (n + 1)) :
    ignSampleWorker rnd p R fuel = some (.error .runtimeError, some (recorded R (n + 1))) := by
  have ht' : p.timed = false := by simp [IgnProps.timed, ht]
  have huniq : ∀ m, Settles R m → m = n := by
    intro m hm
    rcases Nat.lt_trichotomy m n with hmn | hmn | hmn
    · have := hs.2 m hmn
      rw [hm.1] at this
      cases this
    · exact hmn
    · have := hm.2 n hmn
      rw [hs.1] at this
      cases this
  rcases runCase_steady p R fuel ht' (by omega) with
    ⟨m, h1, h2, h3, h⟩ | ⟨m, h4, h5, h6, ⟨h7, h8⟩ | ⟨k', hk', q', hq', h7⟩⟩ | ⟨-, h1, h⟩
  · exfalso
    rcases Nat.lt_or_ge n m with hmn | hmn
    · have := h3 n hmn
      rw [hs.1] at this
      cases this
    · obtain ⟨y, hy⟩ := hreach m hmn
      rw [h2] at hy; cases hy
  · have := huniq m h5
    subst this
    unfold ignSampleWorker
    rw [h8]
  · exfalso
    have := huniq m h5
    subst this
    have h9 := hc k' (by omega) q' hq'.1
    have h10 := hq'.2.1
    rw [show p.hot = p.temperature.add (.fin 400) from rfl, h9] at h10
    cases h10
  · exfalso
    have := h1 n hn
    rw [hs.1] at this
    cases this

example : ((ignSampleWorker id ⟨.fin 2000, .fin 0, 0⟩
    { exReactor with settled := fun k => decide (2 ≤ k) } 0).map (fun x => x.2.map List.length)) = some (some 4) := by
  decide +kernel

end Verif
