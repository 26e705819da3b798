import Verif.Lemmas.SaveDisk
import Verif.Props.Sampling
/-!
# C122, C123: the text of saved samples
-/
namespace Verif
open Spec

/-! ### C122 -/

/-- **C122**: a float that is saved reads as the same float, infinities and NaN included. -/
theorem C122_number {x : PyF} (hx : IsPyFloat x) : pyFloat (fieldText x) = some x := pyFloat_fieldText hx

/-- **C122**: a saved table of floats with any number of rows reads as the same table. -/
theorem C122_table {rows : List Row} (h : ∀ r ∈ rows, r ≠ [] ∧ ∀ x ∈ r, IsPyFloat x) :
    textRows (fileText rows) = rows := by
  have := textRows_fileText h []
  rwa [List.append_nil, textRows_nil, List.append_nil] at this

section
variable {ι π φ : Type} {S : AllSims ι π φ} {m : Mech} {c : Conds ι π φ} {p : Par} {d : TextDisk}

/-- **C122**: in the directory that `sample` leaves, read from its text, a second call writes nothing
and returns the same numbers bit for bit, and so do `read_metrics` and `sample_metrics`. -/
theorem C122_reuse (hS : SimsOk S m) (hF : FloatAll S m) (hp : ParOk p) {r : List PyF × List Row}
    (h : (sampleText S m c p d).1 = .ok r) :
    let left := applyTextEvs d (sampleText S m c p d).2
    (∀ p', sampleText S m c p' left = (.ok r, [])) ∧ readMetricsText c left = .ok r.1 ∧
      ∀ m' p', sampleMetricsText S m' c p' true left = .ok r.1 := by
  have hv : (applyTextEvs d (sampleText S m c p d).2).view = applyEvs d.view (sample S m c p d.view).evs :=
    view_saves (sample_saves hS hF hp d.view) d
  dsimp only
  refine ⟨fun p' => ?_, ?_⟩
  · obtain ⟨h1, h2, -⟩ := C35_reuse hS hp h p'
    unfold sampleText
    unfold sampleText at hv
    rw [hv, h1, h2]
    rfl
  · have := C69_metrics_after_sample hS hp h
    unfold readMetricsText sampleMetricsText
    rw [hv]
    exact this

/-! ### C123 -/

/-- a cut write among the writes of three phenomena -/
theorem groups_torn {A B C : List Ev} (hA : ∀ e ∈ A, e.file.kind = .ign) (hB : ∀ e ∈ B, e.file.kind = .psr)
    (hC : ∀ e ∈ C, e.file.kind = .flame) (d : Disk) {j : Nat} {e e' : Ev}
    (he : (A ++ B ++ C)[j]? = some e) (hf : e'.file = e.file) :
    (∃ i, A[i]? = some e ∧
      Agree .ign (applyEvs d ((A ++ B ++ C).take j ++ [e'])) (applyEvs d (A.take i ++ [e'])) ∧
      Agree .psr (applyEvs d ((A ++ B ++ C).take j ++ [e'])) d ∧
      Agree .flame (applyEvs d ((A ++ B ++ C).take j ++ [e'])) d) ∨
    (∃ i, B[i]? = some e ∧
      Agree .ign (applyEvs d ((A ++ B ++ C).take j ++ [e'])) (applyEvs d A) ∧
      Agree .psr (applyEvs d ((A ++ B ++ C).take j ++ [e'])) (applyEvs d (B.take i ++ [e'])) ∧
      Agree .flame (applyEvs d ((A ++ B ++ C).take j ++ [e'])) d) ∨
    (∃ i, C[i]? = some e ∧
      Agree .ign (applyEvs d ((A ++ B ++ C).take j ++ [e'])) (applyEvs d A) ∧
      Agree .psr (applyEvs d ((A ++ B ++ C).take j ++ [e'])) (applyEvs d B) ∧
      Agree .flame (applyEvs d ((A ++ B ++ C).take j ++ [e'])) (applyEvs d (C.take i ++ [e']))) := by
  have un : ∀ {K : Kind} (l : List Ev) (D : Disk), (∀ e ∈ l, e.file.kind ≠ K) → Agree K (applyEvs D l) D := by
    intro K l D h o
    apply applyEvs_untouched
    intro e he h'
    exact h e he (by rw [h'])
  have con : ∀ {K : Kind} (l : List Ev) {D D' : Disk}, Agree K D D' → Agree K (applyEvs D l) (applyEvs D' l) :=
    fun l D D' h o => applyEvs_congr l (h o)
  have tr : ∀ {K : Kind} {D D' D'' : Disk}, Agree K D D' → Agree K D' D'' → Agree K D D'' :=
    fun h h' o => (h o).trans (h' o)
  by_cases h1 : j < A.length
  · left
    rw [List.append_assoc, List.getElem?_append_left h1] at he
    have hk : e'.file.kind = .ign := by rw [hf]; exact hA e (List.mem_of_getElem? he)
    rw [List.append_assoc, List.take_append_of_le_length h1.le]
    have other : ∀ K, K ≠ .ign → Agree K (applyEvs d (A.take j ++ [e'])) d := by
      intro K hK
      apply un
      intro x hx
      rcases List.mem_append.1 hx with hx | hx
      · rw [hA x (List.mem_of_mem_take hx)]; exact fun h => hK h.symm
      · obtain rfl := List.mem_singleton.1 hx
        rw [hk]; exact fun h => hK h.symm
    exact ⟨j, he, fun _ => rfl, other _ (by simp), other _ (by simp)⟩
  · obtain ⟨t, rfl⟩ : ∃ t, j = A.length + t := ⟨j - A.length, by omega⟩
    rw [List.append_assoc, List.getElem?_append_right (by omega), Nat.add_sub_cancel_left] at he
    rw [List.append_assoc A B C, List.take_length_add_append, List.append_assoc, applyEvs_append]
    have uA : ∀ K, K ≠ .ign → Agree K (applyEvs d A) d := fun K hK => un A d fun x hx => by
      rw [hA x hx]; exact fun h => hK h.symm
    right
    by_cases h2 : t < B.length
    · left
      rw [List.getElem?_append_left h2] at he
      have hk : e'.file.kind = .psr := by rw [hf]; exact hB e (List.mem_of_getElem? he)
      rw [List.take_append_of_le_length h2.le]
      have other : ∀ K, K ≠ .psr → Agree K (applyEvs (applyEvs d A) (B.take t ++ [e'])) (applyEvs d A) := by
        intro K hK
        apply un
        intro x hx
        rcases List.mem_append.1 hx with hx | hx
        · rw [hB x (List.mem_of_mem_take hx)]; exact fun h => hK h.symm
        · obtain rfl := List.mem_singleton.1 hx
          rw [hk]; exact fun h => hK h.symm
      exact ⟨t, he, other _ (by simp), con _ (uA _ (by simp)), tr (other _ (by simp)) (uA _ (by simp))⟩
    · right
      obtain ⟨u, rfl⟩ : ∃ u, t = B.length + u := ⟨t - B.length, by omega⟩
      rw [List.getElem?_append_right (by omega), Nat.add_sub_cancel_left] at he
      have hk : e'.file.kind = .flame := by rw [hf]; exact hC e (List.mem_of_getElem? he)
      rw [List.take_length_add_append, List.append_assoc, applyEvs_append]
      have uB : ∀ K, K ≠ .psr → ∀ D, Agree K (applyEvs D B) D := fun K hK D => un B D fun x hx => by
        rw [hB x hx]; exact fun h => hK h.symm
      have other : ∀ K, K ≠ .flame → ∀ D, Agree K (applyEvs D (C.take u ++ [e'])) D := by
        intro K hK D
        apply un
        intro x hx
        rcases List.mem_append.1 hx with hx | hx
        · rw [hC x (List.mem_of_mem_take hx)]; exact fun h => hK h.symm
        · obtain rfl := List.mem_singleton.1 hx
          rw [hk]; exact fun h => hK h.symm
      exact ⟨u, he, tr (other _ (by simp) _) (uB _ (by simp) _),
        tr (other _ (by simp) _) (con _ (uA _ (by simp))), con _ (tr (uB _ (by simp) _) (uA _ (by simp)))⟩

/-- two results: the same, or one metric of the second is what is left of the first `i` characters of
the first's -/
def CutMetric (i : Nat) (r r' : Except Err (List PyF × List Row)) : Prop :=
  r' = r ∨ ∃ a x b rows, i < (fieldText x).length ∧ r = .ok (a ++ x :: b, rows) ∧
    r' = .ok (a ++ cutShort i x :: b, rows)

theorem sample_cut (hK : Kinds S) {d D : Disk} {i : Nat}
    (h : (CutMetric i (samplePart S.ign m c.ign p d).result (samplePart S.ign m c.ign p D).result ∧
        (samplePart S.psr m c.psr p D).result = (samplePart S.psr m c.psr p d).result ∧
        (samplePart S.flame m c.flame p D).result = (samplePart S.flame m c.flame p d).result) ∨
      ((samplePart S.ign m c.ign p D).result = (samplePart S.ign m c.ign p d).result ∧
        CutMetric i (samplePart S.psr m c.psr p d).result (samplePart S.psr m c.psr p D).result ∧
        (samplePart S.flame m c.flame p D).result = (samplePart S.flame m c.flame p d).result) ∨
      ((samplePart S.ign m c.ign p D).result = (samplePart S.ign m c.ign p d).result ∧
        (samplePart S.psr m c.psr p D).result = (samplePart S.psr m c.psr p d).result ∧
        CutMetric i (samplePart S.flame m c.flame p d).result (samplePart S.flame m c.flame p D).result)) :
    CutMetric i (sample S m c p d).result (sample S m c p D).result := by
  rcases h with ⟨h1 | ⟨a, x, b, rows, hi, e1, e2⟩, h2, h3⟩ | ⟨h1, h2 | ⟨a, x, b, rows, hi, e1, e2⟩, h3⟩ |
    ⟨h1, h2, h3 | ⟨a, x, b, rows, hi, e1, e2⟩⟩
  · exact .inl (sample_result_congr hK h1 h2 h3)
  · rw [sample_eq hK d, sample_eq hK D, e1, e2, h2, h3]
    dsimp only
    rcases (samplePart S.psr m c.psr p d).result with _ | ⟨ms2, r2⟩
    · exact .inl rfl
    dsimp only
    rcases (samplePart S.flame m c.flame p d).result with _ | ⟨ms3, r3⟩
    · exact .inl rfl
    dsimp only
    rcases vstack [rows, r2, r3] with _ | all
    · exact .inl rfl
    · exact .inr ⟨a, x, b ++ ms2 ++ ms3, all, hi, by simp [Except.map], by simp [Except.map]⟩
  · exact .inl (sample_result_congr hK h1 h2 h3)
  · rw [sample_eq hK d, sample_eq hK D, e1, e2, h1, h3]
    rcases (samplePart S.ign m c.ign p d).result with _ | ⟨ms1, r1⟩
    · exact .inl rfl
    dsimp only
    rcases (samplePart S.flame m c.flame p d).result with _ | ⟨ms3, r3⟩
    · exact .inl rfl
    dsimp only
    rcases vstack [r1, rows, r3] with _ | all
    · exact .inl rfl
    · exact .inr ⟨ms1 ++ a, x, b ++ ms3, all, hi, by simp [Except.map], by simp [Except.map]⟩
  · exact .inl (sample_result_congr hK h1 h2 h3)
  · rw [sample_eq hK d, sample_eq hK D, e1, e2, h1, h2]
    rcases (samplePart S.ign m c.ign p d).result with _ | ⟨ms1, r1⟩
    · exact .inl rfl
    dsimp only
    rcases (samplePart S.psr m c.psr p d).result with _ | ⟨ms2, r2⟩
    · exact .inl rfl
    dsimp only
    rcases vstack [r1, r2, rows] with _ | all
    · exact .inl rfl
    · exact .inr ⟨ms1 ++ ms2 ++ a, x, b, all, hi, by simp [Except.map], by simp [Except.map]⟩

/-- **C123**: if no metrics file is present for the phenomena that have to be simulated, then after
the process died at any character of its writing, a later call returns what an undisturbed call
returns, or the same with one metric replaced by what is left of its text. -/
theorem C123_died_partial (hS : SimsOk S m) (hF : FloatAll S m) (hp : ParOk p)
    (h1 : d ⟨.ign, true⟩ = none ∨ readCache S.ign m c.ign.length d.view ≠ .miss)
    (h2 : d ⟨.psr, true⟩ = none ∨ readCache S.psr m c.psr.length d.view ≠ .miss)
    (h3 : d ⟨.flame, true⟩ = none ∨ readCache S.flame m c.flame.length d.view ≠ .miss) (k : Nat) :
    let r := sampleText S m c p d
    let again := (sampleText S m c p (diedAfter k d r)).1
    again = r.1 ∨ ∃ a x b rows i, 0 < i ∧ i < (fieldText x).length ∧ r.1 = .ok (a ++ x :: b, rows) ∧
      again = .ok (a ++ cutShort i x :: b, rows) := by
  have n1 : d.view ⟨.ign, true⟩ = none ∨ readCache S.ign m c.ign.length d.view ≠ .miss :=
    h1.imp (fun h => by simp [TextDisk.view, h]) id
  have n2 : d.view ⟨.psr, true⟩ = none ∨ readCache S.psr m c.psr.length d.view ≠ .miss :=
    h2.imp (fun h => by simp [TextDisk.view, h]) id
  have n3 : d.view ⟨.flame, true⟩ = none ∨ readCache S.flame m c.flame.length d.view ≠ .miss :=
    h3.imp (fun h => by simp [TextDisk.view, h]) id
  dsimp only
  unfold sampleText diedAfter
  dsimp only
  obtain ⟨j, hj, hv | ⟨f, r, i, he, hi, hi', hv⟩⟩ := view_take (sample_saves (c := c) hS hF hp d.view) d k
  · left
    rw [hv]
    exact C37_crash_partial hS hp n1 n2 n3 j
  · rw [hv]
    obtain ⟨B, C, hevs, hB, hC⟩ := sample_evs (m := m) (c := c) (p := p) hS.toKinds d.view
    rw [hevs] at he ⊢
    have f1 := samplePart_files S.ign m c.ign p d.view
    have f2 := samplePart_files S.psr m c.psr p d.view
    have f3 := samplePart_files S.flame m c.flame p d.view
    rw [hS.ign] at f1
    rw [hS.psr] at f2
    rw [hS.flame] at f3
    have g2 : ∀ e ∈ B, e.file.kind = .psr := by
      rcases hB with rfl | rfl
      · simp
      · exact f2
    have g3 : ∀ e ∈ C, e.file.kind = .flame := by
      rcases hC with rfl | rfl
      · simp
      · exact f3
    -- phenomena whose writing was not cut
    have all1 := samplePart_crash hS.ignShape hp (by rw [hS.ign]; exact n1) (samplePart S.ign m c.ign p d.view).evs.length
    rw [List.take_length] at all1
    have all2 : (samplePart S.psr m c.psr p (applyEvs d.view B)).result = (samplePart S.psr m c.psr p d.view).result := by
      rcases hB with rfl | rfl
      · rfl
      · have := samplePart_crash hS.psrShape hp (by rw [hS.psr]; exact n2) (samplePart S.psr m c.psr p d.view).evs.length
        rwa [List.take_length] at this
    have key := groups_torn f1 g2 g3 d.view he (e' := .row f (lineFields ((lineText r).take i))) rfl
    generalize applyEvs d.view (((samplePart S.ign m c.ign p d.view).evs ++ B ++ C).take j ++
      [Ev.row f (lineFields ((lineText r).take i))]) = D at key ⊢
    rw [← hS.ign, ← hS.psr, ← hS.flame] at key
    have torn : ∀ {κ} {T : Sims κ} {cases : List κ} {X : List Ev} {t : Nat}, Shaped T m →
        (d.view ⟨T.kind, true⟩ = none ∨ readCache T m cases.length d.view ≠ .miss) →
        (X = [] ∨ X = (samplePart T m cases p d.view).evs) → X[t]? = some (.row f r) →
        Agree T.kind D (applyEvs d.view (X.take t ++ [.row f (lineFields ((lineText r).take i))])) →
        CutMetric i (samplePart T m cases p d.view).result (samplePart T m cases p D).result := by
      intro κ T cases X t hT hn hX ht hag
      rcases hX with rfl | rfl
      · simp at ht
      · rw [samplePart_congr _ _ _ _ hag]
        exact (samplePart_torn hT hp hn ht hi hi').imp id fun ⟨a, x, rows, q1, q2, q3⟩ =>
          ⟨a, x, [], rows, q1, q2, q3⟩
    have fin : CutMetric i (sample S m c p d.view).result (sample S m c p D).result := by
      rcases key with ⟨t, ht, a1, a2, a3⟩ | ⟨t, ht, a1, a2, a3⟩ | ⟨t, ht, a1, a2, a3⟩
      · have q1 := torn hS.ignShape (by rw [hS.ign]; exact n1) (.inr rfl) ht a1
        exact sample_cut hS.toKinds (.inl ⟨q1, by rw [samplePart_congr _ _ _ _ a2], by rw [samplePart_congr _ _ _ _ a3]⟩)
      · have q2 := torn hS.psrShape (by rw [hS.psr]; exact n2) hB ht a2
        exact sample_cut hS.toKinds (.inr (.inl ⟨by rw [samplePart_congr _ _ _ _ a1, all1], q2,
          by rw [samplePart_congr _ _ _ _ a3]⟩))
      · have q3 := torn hS.flameShape (by rw [hS.flame]; exact n3) hC ht a3
        exact sample_cut hS.toKinds (.inr (.inr ⟨by rw [samplePart_congr _ _ _ _ a1, all1],
          by rw [samplePart_congr _ _ _ _ a2, all2], q3⟩))
    exact fin.imp id fun ⟨a, x, b, rows, q1, q2, q3⟩ => ⟨a, x, b, rows, i, hi, q1, q2, q3⟩

/-- Writing the last metric of an ignition-only request can break off after any character of it. -/
theorem died_in_last (hS : SimsOk S m) (hF : FloatAll S m) (hp : ParOk p) (hi : c.ign ≠ [])
    (hc : c.psr = []) (hf : c.flame = []) (hmiss : readCache S.ign m c.ign.length d.view = .miss)
    {rs : List (List PyF × List Row)} (hrs : AllOk (S.ign.run m) c.ign rs) (hmets : 0 < S.ign.mets) (p' : Par) :
    ∃ a x rows, IsPyFloat x ∧ (sampleText S m c p d).1 = .ok (a ++ [x], rows) ∧
      ∀ i, 0 < i → i ≤ (fieldText x).length → ∃ k,
        (sampleText S m c p' (diedAfter k d (sampleText S m c p d))).1 = .ok (a ++ [cutShort i x], rows) := by
  obtain ⟨ms, rows, w1, w2, e1, e2, e5, e3, e4⟩ := sample_ign_writes hS hp hi hc hf hmiss hrs
  have hpos : ms ≠ [] := by
    rw [← List.length_pos_iff, e5]
    exact Nat.mul_pos hmets (List.length_pos_iff.2 hi)
  obtain ⟨a, x, rfl⟩ : ∃ a x, ms = a ++ [x] := ⟨_, _, (List.dropLast_append_getLast hpos).symm⟩
  have hcol : SavableRows rows ∧ SavableRows ((a ++ [x]).map ([·])) := by
    have h1 := hF.ign
    have hall : ∀ r ∈ (rs.map (·.2)).flatten, ∀ y ∈ r, IsPyFloat y := by
      intro r hr y hy
      obtain ⟨l, hl, hr⟩ := List.mem_flatten.1 hr
      obtain ⟨q, hq, rfl⟩ := List.mem_map.1 hl
      obtain ⟨i, hi, rfl⟩ := List.getElem_of_mem hq
      obtain ⟨r', g1, g2⟩ := hrs.get i (by rw [← hrs.length]; exact hi)
      rw [List.getElem?_eq_getElem hi] at g1
      cases g1
      exact h1.data _ _ _ g2 r hr y hy
    have hall' : ∀ y ∈ (rs.map (·.1)).flatten, IsPyFloat y := by
      intro y hy
      obtain ⟨l, hl, hy⟩ := List.mem_flatten.1 hy
      obtain ⟨q, hq, rfl⟩ := List.mem_map.1 hl
      obtain ⟨i, hi, rfl⟩ := List.getElem_of_mem hq
      obtain ⟨r', g1, g2⟩ := hrs.get i (by rw [← hrs.length]; exact hi)
      rw [List.getElem?_eq_getElem hi] at g1
      cases g1
      exact h1.metrics _ _ _ g2 y hy
    rw [← w1] at hall'
    rw [← w2] at hall
    refine ⟨fun r hr => ⟨?_, hall r hr⟩, column_savable hall'⟩
    have := e4 r hr
    rintro rfl
    simp at this
    omega
  refine ⟨a, x, rows, ?_, e2, ?_⟩
  · exact (hcol.2 [x] (by simp)).2 x (by simp)
  intro i h0 h1
  have hch : evChars (sample S m c p d.view).evs = evChars (savetxt ⟨.ign, false⟩ rows) ++
      .truncate ⟨.ign, true⟩ :: ((fileText (a.map ([·])) ++ fieldText x) ++ ['\n']).map (.put ⟨.ign, true⟩) := by
    rw [e1, evChars_append, evChars_savetxt ⟨.ign, true⟩]
    simp [fileText, rowText, lineText_single]
  have hv : (diedAfter ((evChars (savetxt ⟨.ign, false⟩ rows)).length + ((fileText (a.map ([·]))).length + i + 1)) d
      (sampleText S m c p d)).view = applyEvs d.view ((sample S m c p d.view).evs.dropLast ++
        [.row ⟨.ign, true⟩ [cutShort i x]]) := by
    have hsa : SavableRows (a.map ([·])) := fun r hr => hcol.2 r (by simp at hr ⊢; exact Or.inl hr)
    unfold diedAfter sampleText
    dsimp only
    rw [hch, List.take_length_add_append, List.take_succ_cons, ← List.map_take, List.append_assoc,
      List.take_length_add_append, List.take_append_of_le_length h1, applyTextEvs_append, view_save,
      view_save_rows hcol.1, textRows_fileText hsa, ← lineText_single, (textRows_part (by
        have := List.length_pos_iff.2 (fieldText_ne x)
        rw [lineText_single, ← List.length_pos_iff, List.length_take]
        omega)).1, lineFields_cut h0]
    rw [e1, List.map_append, List.map_singleton, savetxt_snoc, ← List.append_assoc, List.dropLast_concat,
      List.append_assoc, ← savetxt_snoc, applyEvs_append, applyEvs_save ⟨.ign, true⟩]
  refine ⟨(evChars (savetxt ⟨.ign, false⟩ rows)).length + ((fileText (a.map ([·]))).length + i + 1), ?_⟩
  unfold sampleText at hv ⊢
  dsimp only at hv ⊢
  rw [hv]
  obtain ⟨ms', rows', g1, g2⟩ := C37_torn_refuted hS hp hi hc hf hmiss hrs hmets (cutShort i x) p'
  rw [e2] at g1
  simp only [Except.ok.injEq, Prod.mk.injEq] at g1
  obtain ⟨rfl, rfl⟩ := g1
  rw [g2, List.dropLast_concat]

/-- a number that breaks off behind the letter `e` -/
theorem cut_exponent (q : ℚ) : ∃ i, 0 < i ∧ i ≤ (fieldText (.fin q)).length ∧ cutShort i (.fin q) = .nan := by
  obtain ⟨c, fp, e, hc, hf, hl, heq, -⟩ := fmtExp_parts 18 q
  have hx : ∀ x, (['e'] : Text).head? = some x → ¬ IsDig x := by
    intro x hx
    simp only [List.head?_cons, Option.some.injEq] at hx
    subst hx
    unfold IsDig
    decide
  have hsp : fmtExp 18 q = (signText q ++ (c :: '.' :: (fp ++ ['e']))) ++ expText e := by
    rw [heq]; simp
  refine ⟨(signText q ++ (c :: '.' :: (fp ++ ['e']))).length, by simp, ?_, ?_⟩
  · rw [fieldText, hsp, List.length_append (bs := expText e)]
    omega
  · unfold cutShort
    rw [fieldText, hsp, List.take_left', signText_bool, pyFloat_digit _ hc]
    · rw [show c :: '.' :: (fp ++ ['e']) = [c] ++ '.' :: (fp ++ ['e']) from rfl,
        decimalVal_point (by simp) (by simpa using hc) hf hx]
      rfl
    · intro x hx'
      refine (fmtExp_chars 18 q x ?_).plain
      rw [hsp]
      simp only [List.mem_append, List.mem_cons] at hx' ⊢
      tauto
    · rfl

/-- a number that breaks off before the letter `e` -/
theorem cut_mantissa {q : ℚ} (hq : q ≠ 0) : ∃ i v, 0 < i ∧ i ≤ (fieldText (.fin q)).length ∧
    cutShort i (.fin q) = .fin v ∧ 1 ≤ |v| ∧ |v| ≤ 10 := by
  obtain ⟨c, fp, e, hc, hf, hl, heq, -, hm, -⟩ := fmtExp_parts 18 q
  obtain ⟨m1, m2, -⟩ := sciParts_spec 18 hq
  rw [← hm] at m1 m2
  have hsp : fmtExp 18 q = (signText q ++ (c :: '.' :: fp)) ++ 'e' :: expText e := by
    rw [heq]; simp
  have hval : (1 : ℚ) ≤ (digitsVal (c :: fp) : ℚ) / 10 ^ 18 ∧ (digitsVal (c :: fp) : ℚ) / 10 ^ 18 ≤ 10 := by
    rw [le_div_iff₀ (by positivity), div_le_iff₀ (by positivity)]
    constructor
    · rw [one_mul]
      exact_mod_cast m1
    · have : (digitsVal (c :: fp) : ℚ) < 10 ^ 19 := by exact_mod_cast m2
      linarith
  have ten : rnd754 10 = 10 := by decide +kernel
  have hr : 1 ≤ rnd754 ((digitsVal (c :: fp) : ℚ) / 10 ^ 18) ∧ rnd754 ((digitsVal (c :: fp) : ℚ) / 10 ^ 18) ≤ 10 := by
    constructor
    · have := rndOk_rnd754.mono _ _ hval.1
      rwa [rndOk_rnd754.one] at this
    · have := rndOk_rnd754.mono _ _ hval.2
      rwa [ten] at this
  have habs : |rnd754 (if q < 0 then -((digitsVal (c :: fp) : ℚ) / 10 ^ 18) else (digitsVal (c :: fp) : ℚ) / 10 ^ 18)| =
      rnd754 ((digitsVal (c :: fp) : ℚ) / 10 ^ 18) := by
    split
    · rw [rnd754_neg, abs_neg, abs_of_nonneg (by linarith [hr.1])]
    · rw [abs_of_nonneg (by linarith [hr.1])]
  refine ⟨(signText q ++ (c :: '.' :: fp)).length,
    rnd754 (if q < 0 then -((digitsVal (c :: fp) : ℚ) / 10 ^ 18) else (digitsVal (c :: fp) : ℚ) / 10 ^ 18),
    by simp, ?_, ?_, by rw [habs]; exact hr.1, by rw [habs]; exact hr.2⟩
  · rw [fieldText, hsp, List.length_append (bs := 'e' :: expText e)]
    omega
  · unfold cutShort
    have hdec := decimalVal_point (ip := [c]) (fp := fp) (x := []) (by simp) (by simpa using hc) hf (by simp)
    rw [List.append_nil] at hdec
    rw [fieldText, hsp, List.take_left', signText_bool, pyFloat_digit _ hc]
    · rw [show c :: '.' :: fp = [c] ++ '.' :: fp from rfl, hdec, hl]
      simp only [expPart, Option.map_some, Option.getD_some, decide_eq_true_eq, List.singleton_append]
      rw [show (digitsVal (c :: fp) : ℚ) * 10 ^ ((0 : Int) - ((18 : Nat) : Int)) = (digitsVal (c :: fp) : ℚ) / 10 ^ 18 by
        rw [zero_sub, zpow_neg, zpow_natCast, div_eq_mul_inv]]
      unfold rndInf
      rw [if_pos]
      rw [habs]
      refine lt_of_le_of_lt hr.2 ?_
      decide +kernel
    · intro x hx'
      refine (fmtExp_chars 18 q x ?_).plain
      rw [hsp]
      simp only [List.mem_append, List.mem_cons] at hx' ⊢
      tauto
    · rfl

/-- **C123** is false: whatever finite number the last metric is, the process can die at a character
after which every later call returns NaN in its place. -/
theorem C123_undefined_refuted (hS : SimsOk S m) (hF : FloatAll S m) (hp : ParOk p) (hi : c.ign ≠ [])
    (hc : c.psr = []) (hf : c.flame = []) (hmiss : readCache S.ign m c.ign.length d.view = .miss)
    {rs : List (List PyF × List Row)} (hrs : AllOk (S.ign.run m) c.ign rs) (hmets : 0 < S.ign.mets) (p' : Par) :
    ∃ a x rows, (sampleText S m c p d).1 = .ok (a ++ [x], rows) ∧ ∀ q : ℚ, x = .fin q → ∃ k,
      (sampleText S m c p' (diedAfter k d (sampleText S m c p d))).1 = .ok (a ++ [.nan], rows) := by
  obtain ⟨a, x, rows, -, h1, h2⟩ := died_in_last hS hF hp hi hc hf hmiss hrs hmets p'
  refine ⟨a, x, rows, h1, ?_⟩
  rintro q rfl
  obtain ⟨i, i1, i2, i3⟩ := cut_exponent q
  obtain ⟨k, hk⟩ := h2 i i1 i2
  exact ⟨k, by rw [hk, i3]⟩

/-- **C123** is false: or it can die at a character after which every later call returns a number
between one and ten in its place (or between minus ten and minus one), however small or large the
metric is. -/
theorem C123_magnitude_refuted (hS : SimsOk S m) (hF : FloatAll S m) (hp : ParOk p) (hi : c.ign ≠ [])
    (hc : c.psr = []) (hf : c.flame = []) (hmiss : readCache S.ign m c.ign.length d.view = .miss)
    {rs : List (List PyF × List Row)} (hrs : AllOk (S.ign.run m) c.ign rs) (hmets : 0 < S.ign.mets) (p' : Par) :
    ∃ a x rows, (sampleText S m c p d).1 = .ok (a ++ [x], rows) ∧ ∀ q : ℚ, x = .fin q → q ≠ 0 → ∃ k v,
      (sampleText S m c p' (diedAfter k d (sampleText S m c p d))).1 = .ok (a ++ [.fin v], rows) ∧
        1 ≤ |v| ∧ |v| ≤ 10 := by
  obtain ⟨a, x, rows, -, h1, h2⟩ := died_in_last hS hF hp hi hc hf hmiss hrs hmets p'
  refine ⟨a, x, rows, h1, ?_⟩
  rintro q rfl hq
  obtain ⟨i, v, i1, i2, i3, i4⟩ := cut_mantissa hq
  obtain ⟨k, hk⟩ := h2 i i1 i2
  exact ⟨k, v, by rw [hk, i3], i4⟩

end

/-! ### a concrete case -/

/-- simulations of a case `n` that give a float of about `n / 10000` everywhere -/
def tinySims (k : Kind) (rows mets : Nat) : Sims Nat where
  kind := k
  rows := rows
  mets := mets
  run m n := .ok (List.replicate mets (.fin (rnd754 ((n % 8 : Nat) / 10000))),
    List.replicate rows (List.replicate (2 + m.nSpecies) (.fin (rnd754 ((n % 8 : Nat) / 10000)))))
  metric _ n := .ok (List.replicate mets (.fin (rnd754 ((n % 8 : Nat) / 10000))))

def tinyAll : AllSims Nat Nat Nat := ⟨tinySims .ign 20 1, tinySims .psr 3 3, tinySims .flame 20 1⟩

theorem tiny_float (n : Nat) : IsPyFloat (.fin (rnd754 ((n % 8 : Nat) / 10000))) := by
  refine ⟨isFloat_round _, ?_⟩
  have h : ((n % 8 : Nat) : ℚ) / 10000 ≤ 1 := by
    have : n % 8 < 8 := Nat.mod_lt _ (by norm_num)
    have : ((n % 8 : Nat) : ℚ) < 8 := by exact_mod_cast this
    linarith
  have h0 : (0 : ℚ) ≤ ((n % 8 : Nat) : ℚ) / 10000 := by positivity
  have h1 := rndOk_rnd754.mono _ _ h
  have h2 := rndOk_rnd754.mono _ _ h0
  rw [rndOk_rnd754.one] at h1
  rw [rndOk_rnd754.zero] at h2
  rw [abs_of_nonneg h2]
  refine lt_of_le_of_lt h1 ?_
  decide +kernel

theorem tinySims_shaped (k : Kind) {rows : Nat} (h : 1 < rows) (mets : Nat) (m : Mech) :
    Shaped (tinySims k rows mets) m where
  rows_pos := by show 0 < rows; omega
  two := h
  run c ms rs h := by
    simp only [tinySims, Except.ok.injEq, Prod.mk.injEq] at h
    obtain ⟨rfl, rfl⟩ := h
    refine ⟨by simp [tinySims], by simp [tinySims], fun r hr => ?_⟩
    rw [List.eq_of_mem_replicate hr]
    simp

theorem tinySims_float (k : Kind) (rows mets : Nat) (m : Mech) : FloatSims (tinySims k rows mets) m where
  metrics c ms rs h x hx := by
    simp only [tinySims, Except.ok.injEq, Prod.mk.injEq] at h
    obtain ⟨rfl, rfl⟩ := h
    rw [List.eq_of_mem_replicate hx]
    exact tiny_float c
  data c ms rs h r hr x hx := by
    simp only [tinySims, Except.ok.injEq, Prod.mk.injEq] at h
    obtain ⟨rfl, rfl⟩ := h
    rw [List.eq_of_mem_replicate hr] at hx
    rw [List.eq_of_mem_replicate hx]
    exact tiny_float c

theorem tinyAll_ok (m : Mech) : SimsOk tinyAll m where
  ign := rfl
  psr := rfl
  flame := rfl
  ignShape := tinySims_shaped _ (by norm_num) _ m
  psrShape := tinySims_shaped _ (by norm_num) _ m
  flameShape := tinySims_shaped _ (by norm_num) _ m

theorem tinyAll_float (m : Mech) : FloatAll tinyAll m :=
  ⟨tinySims_float _ _ _ m, tinySims_float _ _ _ m, tinySims_float _ _ _ m⟩

/-- two ignition conditions in an empty directory -/
def tinyConds : Conds Nat Nat Nat := ⟨[5, 7], [], []⟩

def noFiles : TextDisk := fun _ => none

/-- numbers survive: 7/10000 as a float, both infinities and NaN -/
example : pyFloat (fieldText (.fin (rnd754 (7 / 10000)))) = some (.fin (rnd754 (7 / 10000))) ∧
    pyFloat (fieldText .inf) = some .inf ∧ pyFloat (fieldText .ninf) = some .ninf ∧
    pyFloat (fieldText .nan) = some .nan :=
  ⟨C122_number (tiny_float 7), C122_number trivial, C122_number trivial, C122_number trivial⟩

example : fieldText (.fin (rnd754 (7 / 10000))) =
    ['6', '.', '9', '9', '9', '9', '9', '9', '9', '9', '9', '9', '9', '9',
      '9', '9', '9', '9', '2', '9', 'e', '-', '0', '4'] := by decide +kernel

/-- the hypotheses of C122 and C123 hold in the concrete case -/
theorem tiny_allOk : ∃ rs, AllOk (tinyAll.ign.run exSampleMech) tinyConds.ign rs :=
  ⟨_, .cons rfl (.cons rfl .nil)⟩

theorem tiny_miss : readCache tinyAll.ign exSampleMech tinyConds.ign.length noFiles.view = .miss := rfl

example : ∃ r, (sampleText tinyAll exSampleMech tinyConds (exPar 3) noFiles).1 = .ok r := by
  obtain ⟨rs, h⟩ := tiny_allOk
  obtain ⟨a, x, rows, -, h, -⟩ := died_in_last (tinyAll_ok exSampleMech) (tinyAll_float _) (exPar_ok (t := 3) (by norm_num))
    (by decide) rfl rfl tiny_miss h (by decide) (exPar 3)
  exact ⟨_, h⟩

example (k : Nat) := C123_died_partial (c := tinyConds) (d := noFiles) (tinyAll_ok exSampleMech) (tinyAll_float _)
  (exPar_ok (t := 3) (by norm_num)) (.inl rfl) (.inl rfl) (.inl rfl) k

/-- what is left of 7/10000 s behind 22 and behind 20 characters, of 24 -/
example : cutShort 22 (.fin (rnd754 (7 / 10000))) = .nan ∧
    cutShort 20 (.fin (rnd754 (7 / 10000))) = .fin 7 := by decide +kernel

end Verif
