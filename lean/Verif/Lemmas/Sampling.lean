import Verif.Spec.Sampling
import Mathlib.Tactic.NormNum
import Mathlib.Tactic.Linarith
import Mathlib.Tactic.SplitIfs
import Mathlib.Tactic.Push
import Mathlib.Data.List.Forall2
import Mathlib.Data.List.Induction
/-!
# Lemmas on jobs and saved samples
-/
namespace Verif
open Spec

theorem Spec.AllOk.length {κ α} {f : κ → Except Err α} {cases : List κ} {rs : List α}
    (h : AllOk f cases rs) : rs.length = cases.length := (List.Forall₂.length_eq h).symm

theorem serialMap_ok_iff {κ α} {f : κ → Except Err α} {cases : List κ} {rs : List α} :
    serialMap f cases = .ok rs ↔ AllOk f cases rs := by
  unfold AllOk
  induction cases generalizing rs with
  | nil =>
    unfold serialMap
    constructor
    · intro h; cases h; exact .nil
    · intro h; cases h; rfl
  | cons x xs ih =>
    unfold serialMap
    rcases hx : f x with e | r
    · constructor
      · intro h; cases h
      · intro h; cases h with | cons h1 _ => rw [hx] at h1; cases h1
    · dsimp only
      rcases hs : serialMap f xs with e | q
      · constructor
        · intro h; cases h
        · intro h
          cases h with
          | cons h1 h2 => rw [ih.2 h2] at hs; cases hs
      · constructor
        · intro h; cases h; exact .cons hx (ih.1 hs)
        · intro h
          cases h with
          | cons h1 h2 =>
            rw [hx] at h1; cases h1
            rw [ih.2 h2] at hs; cases hs; rfl

theorem serialMap_error {κ α} {f : κ → Except Err α} {cases : List κ} {e : Err}
    (h : serialMap f cases = .error e) : ∃ c ∈ cases, f c = .error e := by
  induction cases with
  | nil => simp [serialMap] at h
  | cons x xs ih =>
    unfold serialMap at h
    rcases hx : f x with e' | r <;> rw [hx] at h
    · cases h; exact ⟨x, by simp, hx⟩
    · dsimp only at h
      rcases hs : serialMap f xs with e' | q <;> rw [hs] at h
      · cases h
        obtain ⟨c, hc, h1⟩ := ih hs
        exact ⟨c, by simp [hc], h1⟩
      · cases h

/-- either every case succeeds or one fails -/
theorem allOk_or_fail {κ α} (f : κ → Except Err α) (cases : List κ) :
    (∃ rs, AllOk f cases rs) ∨ ∃ c ∈ cases, ∃ e, f c = .error e := by
  rcases h : serialMap f cases with e | rs
  · obtain ⟨c, hc, h1⟩ := serialMap_error h
    exact Or.inr ⟨c, hc, e, h1⟩
  · exact Or.inl ⟨rs, serialMap_ok_iff.1 h⟩

theorem Spec.AllOk.not_fail {κ α} {f : κ → Except Err α} {cases : List κ} {rs : List α}
    (h : AllOk f cases rs) {c : κ} (hc : c ∈ cases) : ∃ r ∈ rs, f c = .ok r := by
  induction h with
  | nil => simp at hc
  | cons h1 _ ih =>
    rcases List.mem_cons.1 hc with rfl | hc
    · exact ⟨_, by simp, h1⟩
    · obtain ⟨r, hr, h2⟩ := ih hc; exact ⟨r, by simp [hr], h2⟩

theorem Spec.AllOk.unique {κ α} {f : κ → Except Err α} {cases : List κ} {rs rs' : List α}
    (h : AllOk f cases rs) (h' : AllOk f cases rs') : rs = rs' := by
  have := serialMap_ok_iff.2 h
  rw [serialMap_ok_iff.2 h'] at this
  cases this; rfl

theorem Spec.AllOk.get {κ α} {f : κ → Except Err α} {cases : List κ} {rs : List α}
    (h : AllOk f cases rs) (i : Nat) (hi : i < cases.length) :
    ∃ r, rs[i]? = some r ∧ f cases[i] = .ok r := by
  induction h generalizing i with
  | nil => simp at hi
  | cons h1 _ ih =>
    cases i with
    | zero => exact ⟨_, rfl, h1⟩
    | succ i => simpa using ih i (by simpa using hi)

/-- invariant of the pool -/
theorem pool_inv {κ α} (f : κ → Except Err α) (jobs : List κ) (l : List Nat) :
    let st := l.foldl (poolStep f jobs) ⟨fun _ => none, none⟩
    (∀ k, st.slots k = if k ∈ l then (jobs[k]?).bind (fun j => (f j).toOption) else none) ∧
    (st.failed = none ↔ ∀ i ∈ l, ∀ j e, jobs[i]? = some j → f j ≠ .error e) ∧
    (∀ e, st.failed = some e → ∃ i ∈ l, ∃ j, jobs[i]? = some j ∧ f j = .error e) := by
  induction l using List.reverseRecOn with
  | nil => simp
  | append_singleton l i ih =>
    obtain ⟨h1, h2, h3⟩ := ih
    simp only [List.foldl_append, List.foldl_cons, List.foldl_nil]
    generalize l.foldl (poolStep f jobs) ⟨fun _ => none, none⟩ = st at h1 h2 h3
    unfold poolStep
    rcases hj : jobs[i]? with _ | j
    · dsimp only
      refine ⟨fun k => ?_, ?_, ?_⟩
      · rw [h1]
        by_cases hk : k ∈ l
        · simp [hk]
        · by_cases hki : k = i
          · subst hki; simp [hk, hj]
          · simp [hk, hki]
      · rw [h2]
        constructor
        · intro h a ha b e hb
          rcases List.mem_append.1 ha with ha | ha
          · exact h a ha b e hb
          · rw [List.mem_singleton] at ha; subst ha; rw [hj] at hb; cases hb
        · intro h a ha; exact h a (by simp [ha])
      · intro e he
        obtain ⟨a, ha, b⟩ := h3 e he
        exact ⟨a, by simp [ha], b⟩
    · dsimp only
      rcases hf : f j with e | r
      · dsimp only
        refine ⟨fun k => ?_, ?_, ?_⟩
        · rw [h1]
          by_cases hk : k ∈ l
          · simp [hk]
          · by_cases hki : k = i
            · subst hki; simp [hk, hj, hf, Except.toOption]
            · simp [hk, hki]
        · constructor
          · intro h
            rcases hs : st.failed with _ | e' <;> rw [hs] at h <;> simp at h
          · intro h; exact absurd hf (h i (by simp) j e hj)
        · intro e' he
          rcases hs : st.failed with _ | e'' <;> rw [hs] at he
          · simp at he; subst he; exact ⟨i, by simp, j, hj, hf⟩
          · simp at he; subst he
            obtain ⟨a, ha, b⟩ := h3 e'' hs
            exact ⟨a, by simp [ha], b⟩
      · dsimp only
        refine ⟨fun k => ?_, ?_, ?_⟩
        · by_cases hki : k = i
          · subst hki; simp [hj, hf, Except.toOption]
          · rw [if_neg hki, h1]; simp [hki]
        · rw [h2]
          constructor
          · intro h a ha b e hb
            rcases List.mem_append.1 ha with ha | ha
            · exact h a ha b e hb
            · rw [List.mem_singleton] at ha; subst ha; rw [hj] at hb; cases hb; rw [hf]; simp
          · intro h a ha; exact h a (by simp [ha])
        · intro e he
          obtain ⟨a, ha, b⟩ := h3 e he
          exact ⟨a, by simp [ha], b⟩

theorem filterMap_getElem? {α} (q : List α) :
    (List.range q.length).filterMap (fun k => q[k]?) = q := by
  induction q with
  | nil => rfl
  | cons b q ih =>
    rw [List.length_cons, List.range_succ_eq_map, List.filterMap_cons]
    simp only [List.getElem?_cons_zero, List.filterMap_map]
    congr 1

theorem poolMap_ok {κ α} {f : κ → Except Err α} {jobs : List κ} {rs : List α} {order : List Nat}
    (h : AllOk f jobs rs) (ho : order.Perm (List.range jobs.length)) :
    poolMap f jobs order = .ok rs := by
  obtain ⟨h1, h2, -⟩ := pool_inv f jobs order
  unfold poolMap
  dsimp only at h1 h2 ⊢
  generalize order.foldl (poolStep f jobs) ⟨fun _ => none, none⟩ = st at h1 h2
  have hf : st.failed = none := h2.2 (by
    intro i _ j e hj hh
    obtain ⟨r, -, h4⟩ := h.not_fail (List.mem_of_getElem? hj)
    rw [hh] at h4; cases h4)
  rw [hf]
  dsimp only
  congr 1
  have : ∀ k ∈ List.range jobs.length, st.slots k = rs[k]? := by
    intro k hk
    rw [h1, if_pos (ho.mem_iff.2 hk)]
    have hk' := List.mem_range.1 hk
    obtain ⟨r, e1, e2⟩ := h.get k hk'
    rw [e1, List.getElem?_eq_getElem hk']
    simp [e2, Except.toOption]
  rw [List.filterMap_congr this, ← h.length]
  exact filterMap_getElem? rs

theorem poolMap_error {κ α} {f : κ → Except Err α} {jobs : List κ} {order : List Nat}
    (h : ∃ c ∈ jobs, ∃ e, f c = .error e) (ho : order.Perm (List.range jobs.length)) :
    ∃ c ∈ jobs, ∃ e, f c = .error e ∧ poolMap f jobs order = .error e := by
  obtain ⟨-, h2, h3⟩ := pool_inv f jobs order
  unfold poolMap
  dsimp only at h2 h3 ⊢
  generalize order.foldl (poolStep f jobs) ⟨fun _ => none, none⟩ = st at h2 h3
  rcases hf : st.failed with _ | e
  · exfalso
    obtain ⟨c, hc, e, he⟩ := h
    obtain ⟨i, hi, hic⟩ := List.getElem_of_mem hc
    exact h2.1 hf i (ho.mem_iff.2 (List.mem_range.2 hi)) c e
      (by rw [List.getElem?_eq_getElem hi, hic]) he
  · obtain ⟨i, -, j, hj, he⟩ := h3 e hf
    exact ⟨j, List.mem_of_getElem? hj, e, he, rfl⟩

theorem allOk_jobs {κ α} {worker : κ → Except Err α} {cases : List κ} {rs : List α}
    (h : AllOk worker cases rs) (n : Nat) :
    AllOk (runJob worker) (cases.zipIdx n) ((rs.zipIdx n).map Prod.swap) := by
  unfold AllOk at *
  induction h generalizing n with
  | nil => exact .nil
  | cons h1 _ ih =>
    simp only [List.zipIdx_cons, List.map_cons]
    refine .cons ?_ (ih (n + 1))
    unfold runJob
    rw [h1]
    rfl

theorem fail_jobs {κ α} {worker : κ → Except Err α} {cases : List κ} {n : Nat} {j : κ × Nat}
    {e : Err} (hj : j ∈ cases.zipIdx n) (h : runJob worker j = .error e) :
    ∃ c ∈ cases, worker c = .error e := by
  have : j.1 ∈ cases := List.fst_mem_of_mem_zipIdx hj
  refine ⟨j.1, this, ?_⟩
  unfold runJob at h
  rcases hw : worker j.1 with e' | r <;> rw [hw] at h
  · cases h; rfl
  · cases h

theorem mergeResults_aux {α} (rs : List α) (n : Nat) (d : List (Nat × α))
    (hd : ∀ p ∈ d, p.1 < n) :
    ((rs.zipIdx n).map Prod.swap).foldl (fun d p => dictSet d p.1 p.2) d =
      d ++ (rs.zipIdx n).map Prod.swap := by
  induction rs generalizing n d with
  | nil => simp
  | cons r rs ih =>
    simp only [List.zipIdx_cons, List.map_cons, List.foldl_cons, Prod.swap]
    have : dictSet d n r = d ++ [(n, r)] := by
      unfold dictSet
      rw [if_neg]
      simp only [List.any_eq_true, not_exists, not_and, Bool.not_eq_true, beq_eq_false_iff_ne]
      intro p hp
      exact (hd p hp).ne
    rw [this, ih (n + 1) (d ++ [(n, r)])]
    · simp
    · intro p hp
      rcases List.mem_append.1 hp with hp | hp
      · have := hd p hp; omega
      · rw [List.mem_singleton] at hp; subst hp; simp

theorem mergeResults_zip {α} (rs : List α) :
    mergeResults (rs.zipIdx.map Prod.swap) = rs.zipIdx.map Prod.swap := by
  unfold mergeResults
  rw [mergeResults_aux rs 0 [] (by simp)]
  rfl

theorem dictGet_zip {α} (rs : List α) (n i : Nat) (hi : i < rs.length) :
    dictGet ((rs.zipIdx n).map Prod.swap) (n + i) = .ok rs[i] := by
  induction rs generalizing n i with
  | nil => simp at hi
  | cons r rs ih =>
    unfold dictGet
    simp only [List.zipIdx_cons, List.map_cons, Prod.swap]
    cases i with
    | zero => simp
    | succ i =>
      rw [List.find?_cons_of_neg (by simp)]
      have := ih (n + 1) i (by simpa using hi)
      unfold dictGet at this
      rw [show n + (i + 1) = n + 1 + i by omega]
      simpa using this

theorem orderedResults_zip {α} (rs : List α) :
    orderedResults (rs.zipIdx.map Prod.swap) = .ok rs := by
  unfold orderedResults
  rw [serialMap_ok_iff]
  unfold AllOk
  rw [List.length_map, List.length_zipIdx, List.forall₂_iff_get]
  refine ⟨by simp, fun i h1 h2 => ?_⟩
  have := dictGet_zip rs 0 i h2
  simpa using this

theorem runWorkers_ok {κ α} {worker : κ → Except Err α} {cases : List κ} {rs : List α}
    {threads : Int} {order : List Nat} (ht : 1 ≤ threads)
    (ho : order.Perm (List.range cases.length)) (h : AllOk worker cases rs) :
    runWorkers worker cases threads order = .ok (rs.zipIdx.map Prod.swap) := by
  have hj := allOk_jobs h 0
  have ho' : order.Perm (List.range cases.zipIdx.length) := by simpa using ho
  unfold runWorkers
  dsimp only
  by_cases h1 : threads = 1
  · rw [if_pos h1, serialMap_ok_iff.2 hj]
    dsimp only
    rw [mergeResults_zip]
  · rw [if_neg h1, if_neg (by omega), poolMap_ok hj ho']
    dsimp only
    rw [mergeResults_zip]

theorem runWorkers_error {κ α} {worker : κ → Except Err α} {cases : List κ}
    {threads : Int} {order : List Nat} (ht : 1 ≤ threads)
    (ho : order.Perm (List.range cases.length)) (h : ∃ c ∈ cases, ∃ e, worker c = .error e) :
    ∃ c ∈ cases, ∃ e, worker c = .error e ∧
      runWorkers worker cases threads order = .error e := by
  have ho' : order.Perm (List.range cases.zipIdx.length) := by simpa using ho
  have hj : ∃ j ∈ cases.zipIdx, ∃ e, runJob worker j = .error e := by
    obtain ⟨c, hc, e, he⟩ := h
    obtain ⟨i, hi, rfl⟩ := List.getElem_of_mem hc
    refine ⟨(cases[i], i), ?_, e, ?_⟩
    · rw [List.mem_zipIdx_iff_getElem?]; simp [hi]
    · unfold runJob; rw [he]
  unfold runWorkers
  dsimp only
  by_cases h1 : threads = 1
  · rw [if_pos h1]
    rcases hs : serialMap (runJob worker) cases.zipIdx with e | rs
    · obtain ⟨j, hj1, hj2⟩ := serialMap_error hs
      obtain ⟨c, hc, he⟩ := fail_jobs hj1 hj2
      exact ⟨c, hc, e, he, rfl⟩
    · exfalso
      obtain ⟨j, hj1, e, hj2⟩ := hj
      obtain ⟨r, -, h4⟩ := (serialMap_ok_iff.1 hs).not_fail hj1
      rw [hj2] at h4; cases h4
  · rw [if_neg h1, if_neg (by omega)]
    obtain ⟨j, hj1, e, hj2, hp⟩ := poolMap_error hj ho'
    obtain ⟨c, hc, he⟩ := fail_jobs hj1 hj2
    rw [hp]
    exact ⟨c, hc, e, he, rfl⟩

theorem runMetricJobs_ok {κ} {worker : κ → Except Err (List PyF)} {cases : List κ}
    {rs : List (List PyF)} {threads : Int} {order : List Nat} (ht : 1 ≤ threads)
    (ho : order.Perm (List.range cases.length)) (h : AllOk worker cases rs) :
    runMetricJobs worker cases threads order = .ok rs.flatten := by
  unfold runMetricJobs
  rw [runWorkers_ok ht ho h]
  dsimp only
  rw [orderedResults_zip]
  rfl

theorem runSamplingJobs_ok {κ} {worker : κ → Except Err (List PyF × List Row)} {cases : List κ}
    {rs : List (List PyF × List Row)} {threads : Int} {order : List Nat} (ht : 1 ≤ threads)
    (ho : order.Perm (List.range cases.length)) (h : AllOk worker cases rs) :
    runSamplingJobs worker cases threads order =
      if rectangular (rs.map (·.2)).flatten then
        .ok ((rs.map (·.1)).flatten, (rs.map (·.2)).flatten) else .error .valueError := by
  unfold runSamplingJobs
  rw [runWorkers_ok ht ho h]
  dsimp only
  rw [orderedResults_zip]

end Verif
