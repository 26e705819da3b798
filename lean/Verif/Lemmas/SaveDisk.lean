import Verif.Lemmas.SaveText
/-!
# Saved files as text and as tables
-/
namespace Verif
open Spec

theorem applyTextEvs_append (a b : List TextEv) (d : TextDisk) :
    applyTextEvs d (a ++ b) = applyTextEvs (applyTextEvs d a) b := List.foldl_append ..

theorem evChars_append (a b : List Ev) : evChars (a ++ b) = evChars a ++ evChars b := by
  simp [evChars]

theorem evChars_savetxt (f : SaveFile) (rows : List Row) :
    evChars (savetxt f rows) = .truncate f :: (fileText rows).map (.put f) := by
  unfold evChars savetxt fileText
  simp only [List.map_cons, List.map_map, List.flatten_cons, Ev.chars, List.singleton_append, List.map_flatten]
  rfl

theorem applyTextEvs_put (f : SaveFile) : ∀ (t : Text) (d : TextDisk) {u : Text}, d f = some u →
    applyTextEvs d (t.map (.put f)) = fun g => if g = f then some (u ++ t) else d g
  | [], d, u, h => by
      funext g
      by_cases hg : g = f
      · simp [applyTextEvs, hg, h]
      · simp [applyTextEvs, hg]
  | c :: t, d, u, h => by
      have e : applyTextEv d (.put f c) f = some (u ++ [c]) := by simp [applyTextEv, h]
      rw [List.map_cons, show applyTextEvs d (TextEv.put f c :: t.map (.put f)) =
        applyTextEvs (applyTextEv d (.put f c)) (t.map (.put f)) from rfl, applyTextEvs_put f t _ e]
      funext g
      by_cases hg : g = f
      · simp [hg]
      · simp [hg, applyTextEv]

/-- the file after part of its text was written -/
theorem applyTextEvs_save (f : SaveFile) (t : Text) (d : TextDisk) :
    applyTextEvs d (.truncate f :: t.map (.put f)) = fun g => if g = f then some t else d g := by
  rw [show applyTextEvs d (TextEv.truncate f :: t.map (.put f)) =
    applyTextEvs (applyTextEv d (.truncate f)) (t.map (.put f)) from rfl,
    applyTextEvs_put f t _ (u := []) (by simp [applyTextEv])]
  funext g
  by_cases hg : g = f
  · simp [hg]
  · simp [hg, applyTextEv]

theorem view_save (f : SaveFile) (t : Text) (d : TextDisk) :
    (applyTextEvs d (.truncate f :: t.map (.put f))).view = fun g => if g = f then some (textRows t) else d.view g := by
  funext g
  unfold TextDisk.view
  rw [applyTextEvs_save]
  by_cases hg : g = f <;> simp [hg]

theorem applyEvs_save (f : SaveFile) (rows : List Row) (d : Disk) :
    applyEvs d (savetxt f rows) = fun g => if g = f then some rows else d g := by
  funext g
  by_cases hg : g = f
  · subst hg
    have := savetxt_take g rows d rows.length
    rw [List.take_of_length_le (by rw [savetxt_length]), List.take_length] at this
    rw [this, if_pos rfl]
  · rw [if_neg hg]
    apply applyEvs_untouched
    intro e he
    rw [savetxt_file f rows e he]
    exact fun h => hg h.symm

theorem savetxt_snoc (f : SaveFile) (rows : List Row) (r : Row) :
    savetxt f (rows ++ [r]) = savetxt f rows ++ [.row f r] := by simp [savetxt]

theorem savetxt_take_eq (f : SaveFile) (rows : List Row) (j : Nat) :
    (savetxt f rows).take (j + 1) = savetxt f (rows.take j) := by
  simp [savetxt, List.map_take]

/-- several files written one after the other -/
def Spec.Saves (evs : List Ev) : Prop := ∃ l : List (SaveFile × List Row),
  (∀ p ∈ l, SavableRows p.2) ∧ evs = (l.map fun p => savetxt p.1 p.2).flatten

theorem Spec.Saves.append {a b : List Ev} (ha : Saves a) (hb : Saves b) : Saves (a ++ b) := by
  obtain ⟨l, h1, rfl⟩ := ha
  obtain ⟨l', h1', rfl⟩ := hb
  refine ⟨l ++ l', ?_, by simp⟩
  intro p hp
  rcases List.mem_append.1 hp with h | h
  · exact h1 p h
  · exact h1' p h

theorem Spec.Saves.nil : Saves [] := ⟨[], by simp, rfl⟩

theorem Spec.Saves.one {f : SaveFile} {rows : List Row} (h : SavableRows rows) : Saves (savetxt f rows) :=
  ⟨[(f, rows)], by simpa using h, by simp⟩

theorem view_save_rows {f : SaveFile} {rows : List Row} (h : SavableRows rows) (d : TextDisk) :
    (applyTextEvs d (evChars (savetxt f rows))).view = applyEvs d.view (savetxt f rows) := by
  rw [evChars_savetxt, view_save, applyEvs_save]
  have := textRows_fileText h []
  rw [List.append_nil, textRows_nil, List.append_nil] at this
  rw [this]

/-- Written files hold what was written. -/
theorem view_saves {evs : List Ev} (h : Saves evs) (d : TextDisk) :
    (applyTextEvs d (evChars evs)).view = applyEvs d.view evs := by
  obtain ⟨l, hl, rfl⟩ := h
  induction l generalizing d with
  | nil => rfl
  | cons p l ih =>
    simp only [List.map_cons, List.flatten_cons]
    rw [evChars_append, applyTextEvs_append, applyEvs_append, ih _ (fun q hq => hl q (by simp [hq])),
      view_save_rows (hl p (by simp))]

/-- The directory after writing broke off is that after some of the rows, and perhaps one line cut. -/
theorem view_take {evs : List Ev} (h : Saves evs) (d : TextDisk) (k : Nat) :
    ∃ j ≤ evs.length, (applyTextEvs d ((evChars evs).take k)).view = applyEvs d.view (evs.take j) ∨
      ∃ f r i, evs[j]? = some (.row f r) ∧ 0 < i ∧ i < (lineText r).length ∧
        (applyTextEvs d ((evChars evs).take k)).view =
          applyEvs d.view (evs.take j ++ [.row f (lineFields ((lineText r).take i))]) := by
  obtain ⟨l, hl, rfl⟩ := h
  induction l generalizing d k with
  | nil => exact ⟨0, le_rfl, Or.inl (by simp [evChars, applyTextEvs, applyEvs])⟩
  | cons p l ih =>
    obtain ⟨f, rows⟩ := p
    have hr : SavableRows rows := hl (f, rows) (by simp)
    simp only [List.map_cons, List.flatten_cons]
    rw [evChars_append]
    by_cases hk : k ≤ (evChars (savetxt f rows)).length
    · rw [List.take_append_of_le_length hk]
      cases k with
      | zero => exact ⟨0, by simp, Or.inl (by simp [applyTextEvs, applyEvs])⟩
      | succ k =>
        rw [evChars_savetxt, List.take_succ_cons, ← List.map_take, view_save]
        obtain ⟨j, hj, h' | ⟨hj', i, h1, h2, h3⟩⟩ := textRows_take hr k
        · refine ⟨j + 1, by simp [savetxt_length]; omega, Or.inl ?_⟩
          rw [List.take_append_of_le_length (by rw [savetxt_length]; omega), savetxt_take_eq, applyEvs_save, h']
        · refine ⟨j + 1, by simp [savetxt_length]; omega, Or.inr ⟨f, rows[j], i, ?_, h1, h2, ?_⟩⟩
          · rw [List.getElem?_append_left (by rw [savetxt_length]; omega)]
            simp [savetxt, hj']
          · rw [List.take_append_of_le_length (by rw [savetxt_length]; omega), savetxt_take_eq, ← savetxt_snoc,
              applyEvs_save, h3]
    · rw [List.take_append, List.take_of_length_le (by omega), applyTextEvs_append]
      obtain ⟨j, hj, h'⟩ := ih (applyTextEvs d (evChars (savetxt f rows)))
        (k - (evChars (savetxt f rows)).length) (fun q hq => hl q (by simp [hq]))
      rw [view_save_rows hr] at h'
      refine ⟨(savetxt f rows).length + j, by simp; simpa using hj, ?_⟩
      rw [List.take_length_add_append]
      rcases h' with h' | ⟨f', r, i, h0, h1, h2, h3⟩
      · left
        rw [h', applyEvs_append]
      · right
        refine ⟨f', r, i, ?_, h1, h2, ?_⟩
        · rw [List.getElem?_append_right (by omega)]
          simpa using h0
        · rw [h3, List.append_assoc, applyEvs_append (savetxt f rows)]

/-! ### the writes of `sample` -/

theorem column_savable {ms : List PyF} (h : ∀ x ∈ ms, IsPyFloat x) : SavableRows (ms.map ([·])) := by
  intro r hr
  obtain ⟨x, hx, rfl⟩ := List.mem_map.1 hr
  refine ⟨by simp, ?_⟩
  intro y hy
  obtain rfl := List.mem_singleton.1 hy
  exact h y hx

theorem samplePart_saves {κ} {S : Sims κ} {m : Mech} (hS : Shaped S m) (hF : FloatSims S m) {p : Par} (hp : ParOk p)
    (cases : List κ) (d : Disk) : Saves (samplePart S m cases p d).evs := by
  by_cases hc : cases = []
  · subst hc
    simp only [samplePart, if_true]
    exact .nil
  rw [samplePart_evs S m hc p d]
  rcases readCache S m cases.length d with _ | _ | _
  · exact .nil
  · dsimp only
    rcases hj : runSamplingJobs (S.run m) cases p.eff (p.order S.kind cases.length) with _ | ⟨ms, rows⟩
    · exact .nil
    · dsimp only
      obtain ⟨-, -, hw, rs, hrs, rfl, rfl⟩ := runSamplingJobs_shape hS hp hj
      have each : ∀ q ∈ rs, ∃ c, S.run m c = .ok q := by
        intro q hq
        obtain ⟨i, hi, rfl⟩ := List.getElem_of_mem hq
        obtain ⟨r', e1, e2⟩ := hrs.get i (by rw [← hrs.length]; exact hi)
        rw [List.getElem?_eq_getElem hi] at e1
        cases e1
        exact ⟨_, e2⟩
      refine .append (.one ?_) (.one (column_savable ?_))
      · intro r hr
        refine ⟨?_, ?_⟩
        · have := hw r hr
          rintro rfl
          simp at this
          omega
        · obtain ⟨l, hl, hr⟩ := List.mem_flatten.1 hr
          obtain ⟨q, hq, rfl⟩ := List.mem_map.1 hl
          obtain ⟨c, hcq⟩ := each q hq
          exact hF.data c q.1 q.2 hcq r hr
      · intro x hx
        obtain ⟨l, hl, hx⟩ := List.mem_flatten.1 hx
        obtain ⟨q, hq, rfl⟩ := List.mem_map.1 hl
        obtain ⟨c, hcq⟩ := each q hq
        exact hF.metrics c q.1 q.2 hcq x hx
  · exact .nil

section
variable {ι π φ : Type} {S : AllSims ι π φ} {m : Mech} {c : Conds ι π φ} {p : Par}

/-- the writes of `sample` are those of its parts, up to the one that fails -/
theorem sample_evs (hK : Kinds S) (d : Disk) : ∃ B C,
    (sample S m c p d).evs = (samplePart S.ign m c.ign p d).evs ++ B ++ C ∧
    (B = [] ∨ B = (samplePart S.psr m c.psr p d).evs) ∧ (C = [] ∨ C = (samplePart S.flame m c.flame p d).evs) := by
  rw [sample_eq hK]
  rcases (samplePart S.ign m c.ign p d).result with _ | ⟨_, _⟩
  · exact ⟨[], [], by simp, .inl rfl, .inl rfl⟩
  · dsimp only
    rcases (samplePart S.psr m c.psr p d).result with _ | ⟨_, _⟩
    · exact ⟨_, [], by simp, .inr rfl, .inl rfl⟩
    · dsimp only
      rcases (samplePart S.flame m c.flame p d).result with _ | ⟨_, _⟩ <;>
        exact ⟨_, _, by simp, .inr rfl, .inr rfl⟩

theorem sample_saves (hS : SimsOk S m) (hF : FloatAll S m) (hp : ParOk p) (d : Disk) :
    Saves (sample S m c p d).evs := by
  obtain ⟨B, C, h, hB, hC⟩ := sample_evs (m := m) (c := c) (p := p) hS.toKinds d
  rw [h]
  refine .append (.append (samplePart_saves hS.ignShape hF.ign hp _ _) ?_) ?_
  · rcases hB with rfl | rfl
    · exact .nil
    · exact samplePart_saves hS.psrShape hF.psr hp _ _
  · rcases hC with rfl | rfl
    · exact .nil
    · exact samplePart_saves hS.flameShape hF.flame hp _ _

end

/-! ### a phenomenon whose writing broke off -/

theorem lineText_single (x : PyF) : lineText [x] = fieldText x := rfl

theorem lineFields_cut {x : PyF} {i : Nat} (h : 0 < i) :
    lineFields ((lineText [x]).take i) = [cutShort i x] := by
  have h0 : (lineText [x]).take i ≠ [] := by
    have := List.length_pos_iff.2 (fieldText_ne x)
    rw [lineText_single, ← List.length_pos_iff, List.length_take]
    omega
  rw [(textRows_part h0).2, lineText_single, splitCh_none]
  · rfl
  · exact fun hc => (fieldText_plain x _ (List.mem_of_mem_take hc)).2.1 rfl

/-- one phenomenon, when its last write was cut: the result is as before, or the last metric is what
is left of it -/
theorem samplePart_torn {κ} {S : Sims κ} {m : Mech} (hS : Shaped S m) {p : Par} (hp : ParOk p)
    {cases : List κ} {d : Disk} (hd : d ⟨S.kind, true⟩ = none ∨ readCache S m cases.length d ≠ .miss)
    {j i : Nat} {f : SaveFile} {r : Row} (he : (samplePart S m cases p d).evs[j]? = some (.row f r))
    (hi : 0 < i) (hi' : i < (lineText r).length) :
    (samplePart S m cases p (applyEvs d ((samplePart S m cases p d).evs.take j ++
        [.row f (lineFields ((lineText r).take i))]))).result = (samplePart S m cases p d).result ∨
    ∃ a x rows, i < (fieldText x).length ∧ (samplePart S m cases p d).result = .ok (a ++ [x], rows) ∧
      (samplePart S m cases p (applyEvs d ((samplePart S m cases p d).evs.take j ++
        [.row f (lineFields ((lineText r).take i))]))).result = .ok (a ++ [cutShort i x], rows) := by
  have hc : cases ≠ [] := by
    rintro rfl
    simp [samplePart] at he
  have hmiss : readCache S m cases.length d = .miss := by
    by_contra hne
    rw [samplePart_evs S m hc p d] at he
    rcases hr : readCache S m cases.length d with _ | _ | _
    · rw [hr] at he; simp at he
    · exact hne hr
    · rw [hr] at he; simp at he
  have ho : d ⟨S.kind, true⟩ = none := hd.resolve_right (fun h => h hmiss)
  have e0 : ∀ D : Disk, readCache S m cases.length D = .miss → samplePart S m cases p D =
      (match runSamplingJobs (S.run m) cases p.eff (p.order S.kind cases.length) with
      | .error e => ⟨.error e, [], true⟩
      | .ok (ms, rows) => ⟨.ok (ms, rows),
          savetxt ⟨S.kind, false⟩ rows ++ savetxt ⟨S.kind, true⟩ (ms.map ([·])), true⟩) := by
    intro D hD
    unfold samplePart
    rw [if_neg hc, hD]
    rcases runSamplingJobs (S.run m) cases p.eff (p.order S.kind cases.length) with
      _ | ⟨_, _⟩ <;> rfl
  have same : ∀ D : Disk, readCache S m cases.length D = .miss →
      (samplePart S m cases p D).result = (samplePart S m cases p d).result := by
    intro D hD
    rw [e0 D hD, e0 d hmiss]
  have e1 := e0 d hmiss
  rcases hj : runSamplingJobs (S.run m) cases p.eff (p.order S.kind cases.length) with
    _ | ⟨ms, rows⟩ <;> rw [hj] at e1 <;> dsimp only at e1
  · rw [e1] at he
    simp at he
  obtain ⟨s1, s2, s3, -⟩ := runSamplingJobs_shape hS hp hj
  have hevs : (samplePart S m cases p d).evs =
      savetxt ⟨S.kind, false⟩ rows ++ savetxt ⟨S.kind, true⟩ (ms.map ([·])) := by rw [e1]
  have hres : (samplePart S m cases p d).result = .ok (ms, rows) := by rw [e1]
  rw [hevs] at he ⊢
  by_cases hjr : j < rows.length + 1
  · -- the data file is being written
    left
    apply same
    rw [List.getElem?_append_left (by rw [savetxt_length]; exact hjr)] at he
    have hf : f = ⟨S.kind, false⟩ := by
      have := savetxt_file ⟨S.kind, false⟩ rows (.row f r) (List.mem_of_getElem? he)
      exact this
    unfold readCache
    rw [applyEvs_untouched (g := ⟨S.kind, true⟩), ho]
    · cases applyEvs d _ ⟨S.kind, false⟩ <;> rfl
    · intro e hme
      rw [List.take_append_of_le_length (by rw [savetxt_length]; omega)] at hme
      rcases List.mem_append.1 hme with h | h
      · rw [savetxt_file _ _ e (List.mem_of_mem_take h)]; simp
      · obtain rfl := List.mem_singleton.1 h
        simp [Ev.file, hf]
  · -- the metrics file
    obtain ⟨t, rfl⟩ : ∃ t, j = rows.length + 1 + t := ⟨j - (rows.length + 1), by omega⟩
    rw [List.getElem?_append_right (by rw [savetxt_length]; omega), savetxt_length,
      show rows.length + 1 + t - (rows.length + 1) = t by omega] at he
    obtain ⟨t, rfl⟩ : ∃ t', t = t' + 1 := by
      cases t with
      | zero => simp [savetxt] at he
      | succ t => exact ⟨t, rfl⟩
    have ht : t < ms.length := by
      have := (List.getElem?_eq_some_iff.1 he).1
      rw [savetxt_length, List.length_map] at this
      omega
    have hfr : f = ⟨S.kind, true⟩ ∧ r = [ms[t]] := by
      simp [savetxt, ht] at he
      exact ⟨he.1.symm, he.2.symm⟩
    obtain ⟨rfl, rfl⟩ := hfr
    have hD : applyEvs d ((savetxt ⟨S.kind, false⟩ rows ++ savetxt ⟨S.kind, true⟩ (ms.map ([·]))).take
          (rows.length + 1 + (t + 1)) ++ [.row ⟨S.kind, true⟩ (lineFields ((lineText [ms[t]]).take i))]) =
        applyEvs (applyEvs d (savetxt ⟨S.kind, false⟩ rows))
          (savetxt ⟨S.kind, true⟩ ((ms.take t ++ [cutShort i ms[t]]).map ([·]))) := by
      rw [lineFields_cut hi, ← savetxt_length ⟨S.kind, false⟩ rows, List.take_length_add_append, savetxt_take_eq,
        List.append_assoc, ← savetxt_snoc, applyEvs_append, ← List.map_take, List.map_append]
      rfl
    rw [hD]
    have d1 : applyEvs (applyEvs d (savetxt ⟨S.kind, false⟩ rows))
        (savetxt ⟨S.kind, true⟩ ((ms.take t ++ [cutShort i ms[t]]).map ([·]))) ⟨S.kind, false⟩ = some rows := by
      rw [applyEvs_save, applyEvs_save]
      simp
    have d2 : applyEvs (applyEvs d (savetxt ⟨S.kind, false⟩ rows))
        (savetxt ⟨S.kind, true⟩ ((ms.take t ++ [cutShort i ms[t]]).map ([·]))) ⟨S.kind, true⟩ =
          some ((ms.take t ++ [cutShort i ms[t]]).map ([·])) := by
      rw [applyEvs_save]
      simp
    have hrc := readCache_saved (n := cases.length) d1 d2 s3 (rows_two hS hc s2)
    by_cases hh : (ms.take t ++ [cutShort i ms[t]]).length = S.mets * cases.length ∧
        rows.length = S.rows * cases.length
    · rw [if_pos hh] at hrc
      right
      refine ⟨ms.take t, ms[t], rows, by simpa [lineText_single] using hi', ?_, ?_⟩
      · rw [hres]
        have hl : t + 1 = ms.length := by
          have := hh.1
          rw [List.length_append, List.length_take, List.length_singleton] at this
          omega
        have : ms.take t ++ [ms[t]] = ms := by
          rw [List.take_append_getElem, hl, List.take_length]
        rw [this]
      · unfold samplePart
        rw [if_neg hc, hrc]
    · rw [if_neg hh] at hrc
      left
      exact same _ hrc

end Verif
