import Verif.Lemmas.Sampling
import Mathlib.Tactic.Ring
/-!
# Lemmas on saved samples, reuse and crashes
-/
namespace Verif
open Spec

/-- two directories hold the same files of a phenomenon -/
def Agree (K : Kind) (d d' : Disk) : Prop := ∀ o, d ⟨K, o⟩ = d' ⟨K, o⟩

theorem Agree.symm {K : Kind} {d d' : Disk} (h : Agree K d d') : Agree K d' d :=
  fun o => (h o).symm

theorem readCache_congr {κ} (S : Sims κ) (m : Mech) (n : Nat) {d d' : Disk}
    (h : Agree S.kind d d') : readCache S m n d = readCache S m n d' := by
  unfold readCache
  rw [h false, h true]

theorem samplePart_congr {κ} (S : Sims κ) (m : Mech) (cases : List κ) (p : Par) {d d' : Disk}
    (h : Agree S.kind d d') : samplePart S m cases p d = samplePart S m cases p d' := by
  unfold samplePart
  rw [readCache_congr S m _ h]

def Ev.file : Ev → SaveFile
  | .truncate f => f
  | .row f _ => f

theorem applyEvs_untouched (evs : List Ev) (d : Disk) (g : SaveFile)
    (h : ∀ e ∈ evs, e.file ≠ g) : applyEvs d evs g = d g := by
  unfold applyEvs
  induction evs generalizing d with
  | nil => rfl
  | cons e evs ih =>
    rw [List.foldl_cons, ih _ (fun e' he' => h e' (by simp [he']))]
    have := h e (by simp)
    cases e <;> simp only [applyEv, Ev.file] at this ⊢ <;> rw [if_neg (Ne.symm this)]

theorem applyEvs_append (a b : List Ev) (d : Disk) :
    applyEvs d (a ++ b) = applyEvs (applyEvs d a) b := List.foldl_append ..

theorem applyEvs_congr (evs : List Ev) {d d' : Disk} {g : SaveFile} (h : d g = d' g) :
    applyEvs d evs g = applyEvs d' evs g := by
  unfold applyEvs
  induction evs generalizing d d' with
  | nil => exact h
  | cons e evs ih =>
    rw [List.foldl_cons, List.foldl_cons]
    apply ih
    cases e with
    | truncate f => simp only [applyEv]; split_ifs <;> simp [h]
    | row f r =>
      simp only [applyEv]
      split_ifs with hf
      · subst hf; rw [h]
      · exact h

theorem applyEvs_rows (f : SaveFile) (rows : List Row) (d : Disk) (acc : List Row)
    (h : d f = some acc) : applyEvs d (rows.map (.row f)) f = some (acc ++ rows) := by
  unfold applyEvs
  induction rows generalizing d acc with
  | nil => simpa using h
  | cons r rows ih =>
    rw [List.map_cons, List.foldl_cons, ih _ (acc ++ [r])]
    · simp
    · simp [applyEv, h]

theorem savetxt_take (f : SaveFile) (rows : List Row) (d : Disk) (k : Nat) :
    applyEvs d ((savetxt f rows).take (k + 1)) f = some (rows.take k) := by
  unfold savetxt
  rw [List.take_succ_cons, ← List.map_take]
  change applyEvs (applyEv d (.truncate f)) _ f = _
  rw [applyEvs_rows f (rows.take k) _ []]
  · rfl
  · simp [applyEv]

theorem savetxt_file (f : SaveFile) (rows : List Row) : ∀ e ∈ savetxt f rows, e.file = f := by
  intro e he
  unfold savetxt at he
  rcases List.mem_cons.1 he with rfl | he
  · rfl
  · obtain ⟨r, -, rfl⟩ := List.mem_map.1 he; rfl

theorem savetxt_length (f : SaveFile) (rows : List Row) :
    (savetxt f rows).length = rows.length + 1 := by simp [savetxt]

/-- the writes of one phenomenon, cut after `k` elementary steps -/
theorem save_both (K : Kind) (rows outs : List Row) (d : Disk) (k : Nat) :
    let D := applyEvs d ((savetxt ⟨K, false⟩ rows ++ savetxt ⟨K, true⟩ outs).take k)
    (D ⟨K, true⟩ = d ⟨K, true⟩ ∧ k ≤ rows.length + 1) ∨
    (rows.length + 1 < k ∧ D ⟨K, false⟩ = some rows ∧
      D ⟨K, true⟩ = some (outs.take (k - rows.length - 2))) := by
  dsimp only
  rw [List.take_append, applyEvs_append, savetxt_length]
  by_cases hk : k ≤ rows.length + 1
  · refine Or.inl ⟨?_, hk⟩
    rw [show k - (rows.length + 1) = 0 by omega, List.take_zero]
    change applyEvs d _ _ = _
    apply applyEvs_untouched
    intro e he
    rw [savetxt_file _ _ e (List.mem_of_mem_take he)]
    simp
  · refine Or.inr ⟨by omega, ?_, ?_⟩
    · rw [applyEvs_untouched]
      · rw [List.take_of_length_le (by rw [savetxt_length]; omega)]
        have := savetxt_take ⟨K, false⟩ rows d rows.length
        rwa [List.take_of_length_le (by rw [savetxt_length]), List.take_length] at this
      · intro e he
        rw [savetxt_file _ _ e (List.mem_of_mem_take he)]
        simp
    · rw [show k - (rows.length + 1) = (k - rows.length - 2) + 1 by omega, savetxt_take]

/-- all writes of one phenomenon concern its own files -/
theorem samplePart_files {κ} (S : Sims κ) (m : Mech) (cases : List κ) (p : Par) (d : Disk) :
    ∀ e ∈ (samplePart S m cases p d).evs, e.file.kind = S.kind := by
  intro e he
  unfold samplePart at he
  by_cases hc : cases = []
  · rw [if_pos hc] at he; simp at he
  rw [if_neg hc] at he
  rcases hr : readCache S m cases.length d with _ | _ | _ <;> rw [hr] at he
  · simp at he
  · dsimp only at he
    rcases hj : runSamplingJobs (S.run m) cases p.eff (p.order S.kind cases.length) with
      _ | ⟨ms, rows⟩ <;> rw [hj] at he
    · simp at he
    · dsimp only at he
      rcases List.mem_append.1 he with he | he <;> rw [savetxt_file _ _ e he]
  · simp at he

theorem samplePart_other {κ} (S : Sims κ) (m : Mech) (cases : List κ) (p : Par) (d d0 : Disk)
    {K : Kind} (hK : K ≠ S.kind) (k : Nat) :
    Agree K (applyEvs d0 ((samplePart S m cases p d).evs.take k)) d0 := by
  intro o
  apply applyEvs_untouched
  intro e he h
  have := samplePart_files S m cases p d e (List.mem_of_mem_take he)
  rw [h] at this
  exact hK this

theorem rectangular_of {rows : List Row} {w : Nat} (h : ∀ r ∈ rows, r.length = w) :
    rectangular rows = true := by
  cases rows with
  | nil => rfl
  | cons r rs =>
    simp only [rectangular, List.all_eq_true, beq_iff_eq]
    intro x hx
    rw [h x (by simp [hx]), h r (by simp)]

theorem flatten_singletons (ms : List PyF) : (ms.map ([·])).flatten = ms := by
  induction ms with
  | nil => rfl
  | cons x ms ih => simp [ih]

theorem genfromtxt_column (ms : List PyF) :
    ∃ a, genfromtxt (ms.map ([·])) = .ok a ∧ a.flat = ms := by
  match ms with
  | [] => exact ⟨_, rfl, rfl⟩
  | [x] => exact ⟨.d0 x, rfl, rfl⟩
  | x :: y :: ms =>
    have hr : rectangular ((x :: y :: ms).map ([·])) = true :=
      rectangular_of (w := 1) (by
        intro r hr; obtain ⟨z, -, rfl⟩ := List.mem_map.1 hr; rfl)
    refine ⟨.d1 (((x :: y :: ms).map ([·])).flatten), ?_, flatten_singletons _⟩
    unfold genfromtxt
    simp only [List.map_cons] at hr ⊢
    rw [if_pos hr]

theorem genfromtxt_table {rows : List Row} {w : Nat} (h : ∀ r ∈ rows, r.length = w)
    (hw : 2 ≤ w) (hn : 2 ≤ rows.length) : genfromtxt rows = .ok (.d2 rows) := by
  have hr := rectangular_of h
  match rows, hn with
  | r :: r' :: rs, _ =>
    have := h r (by simp)
    match r, this with
    | [], h0 => simp at h0; omega
    | [_], h1 => simp at h1; omega
    | _ :: _ :: _, _ =>
      unfold genfromtxt
      dsimp only
      rw [if_pos hr]

/-- what a pair of saved files is taken for -/
theorem readCache_saved {κ} {S : Sims κ} {m : Mech} {n : Nat} {d : Disk} {ms : List PyF}
    {rows : List Row} (hd : d ⟨S.kind, false⟩ = some rows)
    (ho : d ⟨S.kind, true⟩ = some (ms.map ([·])))
    (hw : ∀ r ∈ rows, r.length = 2 + m.nSpecies) (hn : 2 ≤ rows.length) :
    readCache S m n d = if ms.length = S.mets * n ∧ rows.length = S.rows * n then .hit ms rows
      else .miss := by
  obtain ⟨a, h1, h2⟩ := genfromtxt_column ms
  unfold readCache
  rw [hd, ho]
  dsimp only
  rw [h1, genfromtxt_table hw (by omega) hn]
  dsimp only
  match rows, hn with
  | r :: rs, _ =>
    have hl := hw r (by simp)
    rw [h2]
    by_cases hm : ms.length = S.mets * n
    · by_cases hr : (r :: rs).length = S.rows * n
      · simp only [hm, hr, Arr.shape0, Arr.shape1, Except.map, hl, if_true, decide_true,
          Bool.and_self, and_self]
      · rw [if_pos hm, if_neg (fun h => hr h.2)]
        simp only [Arr.shape0, Arr.shape1, Except.map, hr, decide_false, Bool.false_and,
          Bool.false_eq_true, if_false]
    · rw [if_neg hm, if_neg (fun h => hm h.1)]
      simp [Arr.shape1]

theorem readCache_unusable {κ} {S : Sims κ} {m : Mech} {n : Nat} {d : Disk}
    (h : Unusable S.kind S.rows S.mets m n d) : readCache S m n d = .miss := by
  rcases h with h | h | ⟨table, ms, w, hd, ho, hn, hw, ht, h⟩
  · unfold readCache; rw [h]
  · unfold readCache; rw [h]; cases d ⟨S.kind, false⟩ <;> rfl
  · by_cases hs : w = 2 + m.nSpecies
    · subst hs
      rw [readCache_saved hd ho ht hn, if_neg]
      rintro ⟨h1, h2⟩
      rcases h with h | h | h
      · exact h h1
      · exact h h2
      · exact h rfl
    · obtain ⟨a, h1, h2⟩ := genfromtxt_column ms
      unfold readCache
      rw [hd, ho]
      dsimp only
      rw [h1, genfromtxt_table ht hw hn]
      dsimp only
      match table, hn with
      | r :: rs, _ =>
        have hl := ht r (by simp)
        rw [h2]
        by_cases hm : ms.length = S.mets * n
        · simp [hm, Arr.shape0, Arr.shape1, Except.map, hl, hs]
        · rw [if_neg hm]
          simp [Arr.shape1]

theorem sum_lengths {κ α β} {f : κ → Except Err α} {cases : List κ} {rs : List α}
    (h : AllOk f cases rs) (g : α → List β) (n : Nat)
    (hg : ∀ c r, f c = .ok r → (g r).length = n) :
    (rs.map g).flatten.length = n * cases.length := by
  unfold AllOk at h
  induction h with
  | nil => simp
  | cons h1 _ ih =>
    simp only [List.map_cons, List.flatten_cons, List.length_append, List.length_cons]
    rw [ih, hg _ _ h1]
    ring

/-- a run of the sampling jobs returns data of the right shape -/
theorem runSamplingJobs_shape {κ} {S : Sims κ} {m : Mech} (hS : Shaped S m) {p : Par}
    (hp : ParOk p) {cases : List κ} {ms : List PyF} {rows : List Row}
    (h : runSamplingJobs (S.run m) cases p.eff (p.order S.kind cases.length) = .ok (ms, rows)) :
    ms.length = S.mets * cases.length ∧ rows.length = S.rows * cases.length ∧
      (∀ r ∈ rows, r.length = 2 + m.nSpecies) ∧
      ∃ rs, AllOk (S.run m) cases rs ∧ ms = (rs.map (·.1)).flatten ∧ rows = (rs.map (·.2)).flatten := by
  rcases allOk_or_fail (S.run m) cases with ⟨rs, hrs⟩ | hf
  · rw [runSamplingJobs_ok hp.threads (hp.order S.kind cases.length) hrs] at h
    split_ifs at h with hr
    simp only [Except.ok.injEq, Prod.mk.injEq] at h
    obtain ⟨rfl, rfl⟩ := h
    refine ⟨sum_lengths hrs _ _ fun c r h => (hS.run c r.1 r.2 h).1,
      sum_lengths hrs _ _ fun c r h => (hS.run c r.1 r.2 h).2.1, ?_, rs, hrs, rfl, rfl⟩
    intro r hr
    obtain ⟨l, hl, hr⟩ := List.mem_flatten.1 hr
    obtain ⟨q, hq, rfl⟩ := List.mem_map.1 hl
    obtain ⟨i, hi, rfl⟩ := List.getElem_of_mem hq
    obtain ⟨r', e1, e2⟩ := hrs.get i (by rw [← hrs.length]; exact hi)
    rw [List.getElem?_eq_getElem hi] at e1
    cases e1
    exact (hS.run _ _ _ e2).2.2 r hr
  · obtain ⟨c, hc, e, -, h2⟩ := runWorkers_error hp.threads (hp.order S.kind cases.length) hf
    unfold runSamplingJobs at h
    rw [h2] at h
    cases h

theorem rows_two {κ} {S : Sims κ} {m : Mech} (hS : Shaped S m) {cases : List κ}
    (hc : cases ≠ []) {rows : List Row} (h : rows.length = S.rows * cases.length) :
    2 ≤ rows.length := by
  have h1 := hS.two
  have h2 : 1 ≤ cases.length := List.length_pos_iff.2 hc
  rw [h]
  nlinarith

theorem samplePart_evs {κ} (S : Sims κ) (m : Mech) {cases : List κ} (hc : cases ≠ []) (p : Par)
    (d : Disk) : (samplePart S m cases p d).evs = (match readCache S m cases.length d with
      | .miss => (match runSamplingJobs (S.run m) cases p.eff (p.order S.kind cases.length) with
        | .ok (ms, rows) => savetxt ⟨S.kind, false⟩ rows ++ savetxt ⟨S.kind, true⟩ (ms.map ([·]))
        | .error _ => [])
      | _ => []) := by
  unfold samplePart
  rw [if_neg hc]
  rcases readCache S m cases.length d with _ | _ | _
  · rfl
  · dsimp only
    rcases runSamplingJobs (S.run m) cases p.eff (p.order S.kind cases.length) with
      _ | ⟨_, _⟩ <;> rfl
  · rfl

theorem readCache_species {κ} (S : Sims κ) {m m' : Mech} (h : m'.nSpecies = m.nSpecies) (n : Nat)
    (d : Disk) : readCache S m' n d = readCache S m n d := by
  unfold readCache
  rw [h]

/-- after a successful run the directory holds readable samples with these values -/
theorem samplePart_saved {κ} {S : Sims κ} {m : Mech} (hS : Shaped S m) {p : Par} (hp : ParOk p)
    {cases : List κ} (hc : cases ≠ []) {d : Disk} {ms : List PyF} {rows : List Row}
    (h : (samplePart S m cases p d).result = .ok (ms, rows)) :
    readCache S m cases.length (applyEvs d (samplePart S m cases p d).evs) = .hit ms rows := by
  rw [samplePart_evs S m hc]
  unfold samplePart at h
  rw [if_neg hc] at h
  rcases hrc : readCache S m cases.length d with ⟨ms', rows'⟩ | _ | _ <;> rw [hrc] at h
  · dsimp only at h ⊢
    cases h
    exact hrc
  · dsimp only at h ⊢
    rcases hj : runSamplingJobs (S.run m) cases p.eff (p.order S.kind cases.length) with
      _ | ⟨ms', rows'⟩ <;> rw [hj] at h
    · cases h
    · dsimp only at h ⊢
      cases h
      obtain ⟨e1, e2, e3, -⟩ := runSamplingJobs_shape hS hp hj
      have hb := save_both S.kind rows (ms.map ([·])) d (rows.length + 2 + ms.length)
      dsimp only at hb
      rw [List.take_of_length_le (by simp [savetxt_length]; omega)] at hb
      rcases hb with ⟨-, hb⟩ | ⟨-, hb1, hb2⟩
      · omega
      · rw [List.take_of_length_le (by simp; omega)] at hb2
        rw [readCache_saved hb1 hb2 e3 (rows_two hS hc e2), if_pos ⟨e1, e2⟩]
  · dsimp only at h; cases h

/-- a hit means that the metrics file is present and holds these metrics -/
theorem readCache_hit {κ} {S : Sims κ} {m : Mech} {n : Nat} {d : Disk} {ms : List PyF}
    {rows : List Row} (h : readCache S m n d = .hit ms rows) :
    ∃ out a, d ⟨S.kind, true⟩ = some out ∧ genfromtxt out = .ok a ∧ a.flat = ms ∧
      ms.length = S.mets * n := by
  unfold readCache at h
  rcases hd : d ⟨S.kind, false⟩ with _ | dat <;> rw [hd] at h
  · cases h
  rcases ho : d ⟨S.kind, true⟩ with _ | out <;> rw [ho] at h
  · cases h
  dsimp only at h
  rcases hg : genfromtxt out with _ | o <;> rw [hg] at h
  · cases h
  dsimp only at h
  rcases hg' : genfromtxt dat with _ | a <;> rw [hg'] at h
  · cases h
  dsimp only at h
  refine ⟨out, o, rfl, hg, ?_⟩
  by_cases hl : o.flat.length = S.mets * n
  · rw [if_pos hl] at h
    cases a with
    | d0 x => simp [Arr.shape0, Except.map] at h
    | d1 xs => simp [Arr.shape0, Arr.shape1, Except.map] at h
    | d2 rs =>
      cases rs with
      | nil => simp [Arr.shape0, Arr.shape1, Except.map] at h
      | cons r rs =>
        simp only [Arr.shape0, Arr.shape1, Except.map] at h
        split_ifs at h with hh
        cases h
        exact ⟨rfl, hl⟩
  · rw [if_neg hl] at h
    dsimp only at h
    cases a with
    | d0 x => simp [Arr.shape1] at h
    | d1 xs => simp [Arr.shape1] at h
    | d2 rs =>
      cases rs with
      | nil => simp [Arr.shape1] at h
      | cons r rs => simp [Arr.shape1] at h

/-- **reuse**: after a successful run the saved samples are reused, also for another model with
as many species and other cases in the same number -/
theorem samplePart_reuse {κ} {S : Sims κ} {m : Mech} (hS : Shaped S m) {p : Par} (hp : ParOk p)
    {cases : List κ} {d : Disk} {r : List PyF × List Row}
    (h : (samplePart S m cases p d).result = .ok r) {d' : Disk}
    (hd : Agree S.kind d' (applyEvs d (samplePart S m cases p d).evs)) {m' : Mech}
    (hm : m'.nSpecies = m.nSpecies) {cases' : List κ} (hl : cases'.length = cases.length)
    (p' : Par) : samplePart S m' cases' p' d' = ⟨.ok r, [], false⟩ := by
  by_cases hc : cases = []
  · subst hc
    obtain rfl : cases' = [] := List.length_eq_zero_iff.1 hl
    simp only [samplePart, if_true] at h ⊢; rw [h]
  have hc' : cases' ≠ [] := by rintro rfl; exact hc (List.length_eq_zero_iff.1 hl.symm)
  have := samplePart_saved hS hp hc (ms := r.1) (rows := r.2) h
  unfold samplePart
  rw [if_neg hc', readCache_congr S m' _ hd, readCache_species S hm, hl, this]

/-- **crash**: if the metrics file was absent (or nothing was going to be written), a run after
a crash gives the same result -/
theorem samplePart_crash {κ} {S : Sims κ} {m : Mech} (hS : Shaped S m) {p : Par} (hp : ParOk p)
    {cases : List κ} {d : Disk}
    (hd : d ⟨S.kind, true⟩ = none ∨ readCache S m cases.length d ≠ .miss) (k : Nat) :
    (samplePart S m cases p (applyEvs d ((samplePart S m cases p d).evs.take k))).result =
      (samplePart S m cases p d).result := by
  by_cases hc : cases = []
  · subst hc; simp only [samplePart, if_true]
  by_cases hmiss : readCache S m cases.length d = .miss
  · have ho : d ⟨S.kind, true⟩ = none := hd.resolve_right (fun h => h hmiss)
    have e0 : samplePart S m cases p d =
        (match runSamplingJobs (S.run m) cases p.eff (p.order S.kind cases.length) with
        | .error e => ⟨.error e, [], true⟩
        | .ok (ms, rows) => ⟨.ok (ms, rows),
            savetxt ⟨S.kind, false⟩ rows ++ savetxt ⟨S.kind, true⟩ (ms.map ([·])), true⟩) := by
      unfold samplePart
      rw [if_neg hc, hmiss]
      rcases runSamplingJobs (S.run m) cases p.eff (p.order S.kind cases.length) with
        _ | ⟨_, _⟩ <;> rfl
    rcases hj : runSamplingJobs (S.run m) cases p.eff (p.order S.kind cases.length) with
      _ | ⟨ms, rows⟩ <;> rw [hj] at e0 <;> dsimp only at e0
    · rw [e0]; simp only [List.take_nil]; change (samplePart S m cases p d).result = _; rw [e0]
    · obtain ⟨e1, e2, e3, -⟩ := runSamplingJobs_shape hS hp hj
      rw [e0]
      dsimp only
      have hb := save_both S.kind rows (ms.map ([·])) d k
      dsimp only at hb
      generalize applyEvs d ((savetxt ⟨S.kind, false⟩ rows ++
        savetxt ⟨S.kind, true⟩ (ms.map ([·]))).take k) = D at hb
      have hcase : readCache S m cases.length D = .miss ∨
          readCache S m cases.length D = .hit ms rows := by
        rcases hb with ⟨hb, -⟩ | ⟨-, hb1, hb2⟩
        · left; unfold readCache; rw [hb, ho]; cases D ⟨S.kind, false⟩ <;> rfl
        · rw [← List.map_take] at hb2
          rw [readCache_saved hb1 hb2 e3 (rows_two hS hc e2)]
          split_ifs with hh
          · right
            have : ms.take (k - rows.length - 2) = ms := by
              apply List.take_of_length_le
              have := hh.1
              rw [List.length_take] at this
              omega
            rw [this]
          · left; rfl
      unfold samplePart
      rw [if_neg hc]
      rcases hcase with h | h <;> rw [h]
      · dsimp only; rw [hj]
  · have : (samplePart S m cases p d).evs = [] := by
      unfold samplePart
      rw [if_neg hc]
      rcases hrc : readCache S m cases.length d with _ | _ | _
      · rfl
      · exact absurd hrc hmiss
      · rfl
    rw [this, List.take_nil]
    rfl

/-! ### the three phenomena together -/

section
variable {ι π φ : Type} {S : AllSims ι π φ} {m : Mech} {c : Conds ι π φ} {p : Par}

/-- `sample` evaluates its three parts on the initial directory -/
theorem sample_eq (hK : Kinds S) (d : Disk) :
    sample S m c p d =
      (match (samplePart S.ign m c.ign p d).result with
      | .error e => ⟨.error e, (samplePart S.ign m c.ign p d).evs,
          (samplePart S.ign m c.ign p d).simulated⟩
      | .ok (ms1, r1) =>
      match (samplePart S.psr m c.psr p d).result with
      | .error e => ⟨.error e, (samplePart S.ign m c.ign p d).evs ++
          (samplePart S.psr m c.psr p d).evs,
          (samplePart S.ign m c.ign p d).simulated || (samplePart S.psr m c.psr p d).simulated⟩
      | .ok (ms2, r2) =>
      match (samplePart S.flame m c.flame p d).result with
      | .error e => ⟨.error e, (samplePart S.ign m c.ign p d).evs ++
          (samplePart S.psr m c.psr p d).evs ++ (samplePart S.flame m c.flame p d).evs,
          (samplePart S.ign m c.ign p d).simulated || (samplePart S.psr m c.psr p d).simulated ||
            (samplePart S.flame m c.flame p d).simulated⟩
      | .ok (ms3, r3) =>
          ⟨(vstack [r1, r2, r3]).map (fun rows => (ms1 ++ ms2 ++ ms3, rows)),
          (samplePart S.ign m c.ign p d).evs ++
          (samplePart S.psr m c.psr p d).evs ++ (samplePart S.flame m c.flame p d).evs,
          (samplePart S.ign m c.ign p d).simulated || (samplePart S.psr m c.psr p d).simulated ||
            (samplePart S.flame m c.flame p d).simulated⟩) := by
  have a1 : Agree S.psr.kind (applyEvs d (samplePart S.ign m c.ign p d).evs) d := by
    have := samplePart_other S.ign m c.ign p d d (K := S.psr.kind) (by rw [hK.psr, hK.ign]; simp)
      (samplePart S.ign m c.ign p d).evs.length
    rwa [List.take_length] at this
  have e1 := samplePart_congr S.psr m c.psr p a1
  have a2 : Agree S.flame.kind (applyEvs (applyEvs d (samplePart S.ign m c.ign p d).evs)
      (samplePart S.psr m c.psr p d).evs) d := by
    intro o
    have h1 := samplePart_other S.psr m c.psr p d (applyEvs d (samplePart S.ign m c.ign p d).evs)
      (K := S.flame.kind) (by rw [hK.psr, hK.flame]; simp)
      (samplePart S.psr m c.psr p d).evs.length
    have h2 := samplePart_other S.ign m c.ign p d d (K := S.flame.kind)
      (by rw [hK.flame, hK.ign]; simp) (samplePart S.ign m c.ign p d).evs.length
    rw [List.take_length] at h1 h2
    exact (h1 o).trans (h2 o)
  have e2 := samplePart_congr S.flame m c.flame p a2
  unfold sample
  dsimp only
  rw [e1, e2]
  rcases (samplePart S.ign m c.ign p d).result with _ | ⟨_, _⟩
  · rfl
  · dsimp only
    rcases (samplePart S.psr m c.psr p d).result with _ | ⟨_, _⟩
    · rfl
    · dsimp only
      rcases (samplePart S.flame m c.flame p d).result with _ | ⟨_, _⟩ <;> rfl

/-- the result of `sample` is determined by those of its parts -/
theorem sample_result_congr (hK : Kinds S) {p' : Par} {d d' : Disk}
    (h1 : (samplePart S.ign m c.ign p d).result = (samplePart S.ign m c.ign p' d').result)
    (h2 : (samplePart S.psr m c.psr p d).result = (samplePart S.psr m c.psr p' d').result)
    (h3 : (samplePart S.flame m c.flame p d).result = (samplePart S.flame m c.flame p' d').result) :
    (sample S m c p d).result = (sample S m c p' d').result := by
  rw [sample_eq hK, sample_eq hK, ← h1, ← h2, ← h3]
  rcases (samplePart S.ign m c.ign p d).result with _ | ⟨_, _⟩
  · rfl
  · dsimp only
    rcases (samplePart S.psr m c.psr p d).result with _ | ⟨_, _⟩
    · rfl
    · dsimp only
      rcases (samplePart S.flame m c.flame p d).result with _ | ⟨_, _⟩ <;> rfl

/-- prefix of three groups of writes, seen from one group's files -/
theorem prefix_view {K : Kind} (a b : List Ev) (d : Disk) (k : Nat)
    (hb : ∀ e ∈ b, e.file.kind ≠ K) :
    Agree K (applyEvs d ((a ++ b).take k)) (applyEvs d (a.take k)) := by
  intro o
  rw [List.take_append, applyEvs_append]
  apply applyEvs_untouched
  intro e he h
  apply hb e (List.mem_of_mem_take he)
  rw [h]

theorem prefix_view' {K : Kind} (a b : List Ev) (d : Disk) (k : Nat)
    (ha : ∀ e ∈ a, e.file.kind ≠ K) :
    ∃ j, Agree K (applyEvs d ((a ++ b).take k)) (applyEvs d (b.take j)) := by
  refine ⟨k - a.length, fun o => ?_⟩
  rw [List.take_append, applyEvs_append]
  apply applyEvs_congr
  apply applyEvs_untouched
  intro e he h
  apply ha e (List.mem_of_mem_take he)
  rw [h]

/-- a crash of `sample`, seen from each phenomenon -/
theorem sample_prefix (hK : Kinds S) (d : Disk) (k : Nat) :
    ∃ i j l, Agree S.ign.kind (applyEvs d ((sample S m c p d).evs.take k))
        (applyEvs d ((samplePart S.ign m c.ign p d).evs.take i)) ∧
      Agree S.psr.kind (applyEvs d ((sample S m c p d).evs.take k))
        (applyEvs d ((samplePart S.psr m c.psr p d).evs.take j)) ∧
      Agree S.flame.kind (applyEvs d ((sample S m c p d).evs.take k))
        (applyEvs d ((samplePart S.flame m c.flame p d).evs.take l)) := by
  have f1 := samplePart_files S.ign m c.ign p d
  have f2 := samplePart_files S.psr m c.psr p d
  have f3 := samplePart_files S.flame m c.flame p d
  have two : ∀ (a b : List Ev), (∀ e ∈ a, e.file.kind = .ign) → (∀ e ∈ b, e.file.kind = .psr) →
      ∃ j, Agree .ign (applyEvs d ((a ++ b).take k)) (applyEvs d (a.take k)) ∧
      Agree .psr (applyEvs d ((a ++ b).take k)) (applyEvs d (b.take j)) ∧
      Agree .flame (applyEvs d ((a ++ b).take k)) d := by
    intro a b ha hb
    obtain ⟨j, hj⟩ := prefix_view' (K := .psr) a b d k (fun e he => by rw [ha e he]; simp)
    refine ⟨j, prefix_view a b d k (fun e he => by rw [hb e he]; simp), hj, fun o => ?_⟩
    apply applyEvs_untouched
    intro e he h
    have := List.mem_of_mem_take he
    rcases List.mem_append.1 this with h' | h'
    · have := ha e h'; rw [h] at this; cases this
    · have := hb e h'; rw [h] at this; cases this
  have three : ∀ (a b f : List Ev), (∀ e ∈ a, e.file.kind = .ign) →
      (∀ e ∈ b, e.file.kind = .psr) → (∀ e ∈ f, e.file.kind = .flame) →
      ∃ j l, Agree .ign (applyEvs d ((a ++ b ++ f).take k)) (applyEvs d (a.take k)) ∧
      Agree .psr (applyEvs d ((a ++ b ++ f).take k)) (applyEvs d (b.take j)) ∧
      Agree .flame (applyEvs d ((a ++ b ++ f).take k)) (applyEvs d (f.take l)) := by
    intro a b f ha hb hf
    obtain ⟨l, hl⟩ := prefix_view' (K := .flame) (a ++ b) f d k (fun e he => by
      rcases List.mem_append.1 he with h | h
      · rw [ha e h]; simp
      · rw [hb e h]; simp)
    obtain ⟨j, h1, h2, -⟩ := two a b ha hb
    have g1 := prefix_view (K := .ign) (a ++ b) f d k (fun e he => by rw [hf e he]; simp)
    have g2 := prefix_view (K := .psr) (a ++ b) f d k (fun e he => by rw [hf e he]; simp)
    exact ⟨j, l, fun o => (g1 o).trans (h1 o), fun o => (g2 o).trans (h2 o), hl⟩
  rw [sample_eq hK]
  rw [hK.ign] at f1 ⊢
  rw [hK.psr] at f2 ⊢
  rw [hK.flame] at f3 ⊢
  generalize samplePart S.ign m c.ign p d = A at f1
  generalize samplePart S.psr m c.psr p d = B at f2
  generalize samplePart S.flame m c.flame p d = F at f3
  rcases A.result with _ | ⟨_, _⟩
  · obtain ⟨j, h1, h2, h3⟩ := two A.evs [] f1 (by simp)
    rw [List.append_nil] at h1 h2 h3
    refine ⟨k, 0, 0, h1, ?_, ?_⟩
    · simpa using h2
    · exact h3
  · dsimp only
    rcases B.result with _ | ⟨_, _⟩
    · obtain ⟨j, h1, h2, h3⟩ := two A.evs B.evs f1 f2
      exact ⟨k, j, 0, h1, h2, h3⟩
    · dsimp only
      obtain ⟨j, l, h1, h2, h3⟩ := three A.evs B.evs F.evs f1 f2 f3
      rcases F.result with _ | ⟨_, _⟩ <;> exact ⟨k, j, l, h1, h2, h3⟩

end

end Verif
