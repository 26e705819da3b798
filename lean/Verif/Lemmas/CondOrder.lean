import Verif.Lemmas.OrderStep
import Verif.Props.EndToEnd
/-!
The error of a candidate depends on which conditions are requested, not on their order or
repetition.
-/
namespace Verif
open Spec

/-! ### the maximum of a list depends on its members only -/

theorem nmax_comm (a b : PyF) : PyF.nmax a b = PyF.nmax b a := by
  cases a <;> cases b <;> simp [PyF.nmax, PyF.lt]
  rename_i a b
  rcases lt_trichotomy a b with h | h | h
  · simp [h, h.le, not_lt.2 h.le]
  · simp [h]
  · simp [h, h.le, not_lt.2 h.le]

theorem nmax_assoc (a b d : PyF) : PyF.nmax (PyF.nmax a b) d = PyF.nmax a (PyF.nmax b d) := by
  by_cases ha : a = .nan
  · subst ha; simp [nmax_nan_left]
  by_cases hb : b = .nan
  · subst hb; simp [nmax_nan_left, nmax_nan_right]
  by_cases hd : d = .nan
  · subst hd; simp [nmax_nan_right]
  by_cases ha' : a = .inf
  · subst ha'
    rw [nmax_inf_left hb, nmax_inf_left hd, nmax_inf_left (nmax_ne_nan hb hd)]
  by_cases hb' : b = .inf
  · subst hb'
    rw [nmax_inf_right ha, nmax_inf_left hd, nmax_inf_right ha]
  by_cases hd' : d = .inf
  · subst hd'
    rw [nmax_inf_right (nmax_ne_nan ha hb), nmax_inf_right hb, nmax_inf_right ha]
  have hl : ∀ {x : PyF}, x ≠ .nan → PyF.nmax .ninf x = x := by
    intro x hx; cases x <;> simp_all [PyF.nmax, PyF.lt]
  have hr : ∀ {x : PyF}, x ≠ .nan → PyF.nmax x .ninf = x := by
    intro x hx; rw [nmax_comm]; exact hl hx
  by_cases ha2 : a = .ninf
  · subst ha2; rw [hl hb, hl (nmax_ne_nan hb hd)]
  by_cases hb2 : b = .ninf
  · subst hb2; rw [hr ha, hl hd]
  by_cases hd2 : d = .ninf
  · subst hd2; rw [hr (nmax_ne_nan ha hb), hr hb]
  rcases a with a | _ | _ | _ <;> rcases b with b | _ | _ | _ <;> rcases d with d | _ | _ | _ <;>
    first | contradiction | skip
  rw [nmax_fin, nmax_fin, nmax_fin, nmax_fin, max_assoc]

theorem nmax_self (a : PyF) : PyF.nmax a a = a := by
  cases a <;> simp [PyF.nmax, PyF.lt]

theorem foldl_nmax_pull (l : List PyF) (a b : PyF) :
    l.foldl PyF.nmax (PyF.nmax a b) = PyF.nmax a (l.foldl PyF.nmax b) := by
  induction l generalizing b with
  | nil => rfl
  | cons x l ih => rw [List.foldl_cons, List.foldl_cons, nmax_assoc, ih]

theorem foldl_nmax_absorb {l : List PyF} {a x : PyF} (h : x ∈ a :: l) :
    PyF.nmax x (l.foldl PyF.nmax a) = l.foldl PyF.nmax a := by
  rw [← foldl_nmax_pull]
  induction l generalizing a with
  | nil => rw [List.mem_singleton.1 h]; exact nmax_self a
  | cons y l ih =>
    rw [List.foldl_cons, List.foldl_cons]
    rcases List.mem_cons.1 h with rfl | h
    · rw [nmax_self]
    rcases List.mem_cons.1 h with rfl | h
    · rw [nmax_assoc, nmax_comm x, nmax_assoc, nmax_self]
    · have := ih (a := PyF.nmax a y) (List.mem_cons_of_mem _ h)
      rw [← nmax_assoc] at this
      exact this

theorem foldl_nmax_le {l : List PyF} {a M : PyF} (h : ∀ x ∈ a :: l, PyF.nmax x M = M) :
    PyF.nmax (l.foldl PyF.nmax a) M = M := by
  induction l generalizing a with
  | nil => exact h a (by simp)
  | cons y l ih =>
    rw [List.foldl_cons]
    apply ih
    intro x hx
    rcases List.mem_cons.1 hx with rfl | hx
    · rw [nmax_assoc, h y (by simp), h a (by simp)]
    · exact h x (by simp [hx])

theorem npMax_members {l l' : List PyF} (h : ∀ x, x ∈ l ↔ x ∈ l') : npMax l = npMax l' := by
  rcases l with _ | ⟨a, l⟩ <;> rcases l' with _ | ⟨a', l'⟩
  · rfl
  · have := (h a').2 (by simp); simp at this
  · have := (h a).1 (by simp); simp at this
  · show Except.ok _ = Except.ok _
    congr 1
    have h1 : PyF.nmax (l.foldl PyF.nmax a) (l'.foldl PyF.nmax a') = l'.foldl PyF.nmax a' :=
      foldl_nmax_le (fun x hx => foldl_nmax_absorb ((h x).1 hx))
    have h2 : PyF.nmax (l'.foldl PyF.nmax a') (l.foldl PyF.nmax a) = l.foldl PyF.nmax a :=
      foldl_nmax_le (fun x hx => foldl_nmax_absorb ((h x).2 hx))
    rw [← h1, nmax_comm, h2]

/-- the error depends on which pairs of metrics are compared only -/
theorem calculateError_pairs {o t o' t' : List PyF} (hl : o.length = t.length) (hl' : o'.length = t'.length)
    (h : ∀ p, p ∈ o.zip t ↔ p ∈ o'.zip t') : calculateError o t = calculateError o' t' := by
  have hz : ∀ {a b : List PyF}, a.length = b.length → ∀ y, y ∈ b ↔ ∃ x, (x, y) ∈ a.zip b := by
    intro a b hab y
    constructor
    · intro hy
      obtain ⟨i, hi, rfl⟩ := List.getElem_of_mem hy
      exact ⟨a[i], List.mem_iff_getElem.2 ⟨i, by simp; omega, by simp⟩⟩
    · rintro ⟨x, hx⟩; exact (List.of_mem_zip hx).2
  have ht : ∀ y, y ∈ t ↔ y ∈ t' := by
    intro y; rw [hz hl, hz hl']; simp only [h]
  have hany : t.any (fun t => t.eq (.fin 0)) = t'.any (fun t => t.eq (.fin 0)) := by
    rw [Bool.eq_iff_iff, List.any_eq_true, List.any_eq_true]
    simp only [ht]
  have hb : broadcast o t = .ok (o.zip t) := by unfold broadcast; rw [if_pos hl]
  have hb' : broadcast o' t' = .ok (o'.zip t') := by unfold broadcast; rw [if_pos hl']
  have hm : npMax ((o.zip t).map relDev) = npMax ((o'.zip t').map relDev) := by
    apply npMax_members
    intro x
    simp only [List.mem_map, h]
  unfold calculateError
  rw [hb, hb']
  dsimp only
  rw [hm, hany]

/-! ### lists of results of the same cases -/

section
variable {κ α β : Type}

/-- the same cases, in another order or repeated -/
def SameCases (a b : List κ) : Prop := ∀ x, x ∈ a ↔ x ∈ b

theorem AllOk.same {f : κ → Except Err α} {a b : List κ} (h : SameCases a b) {l : List α}
    (ha : AllOk f a l) : ∃ l', AllOk f b l' := by
  rcases allOk_or_fail f b with hb | ⟨x, hx, e, he⟩
  · exact hb
  · obtain ⟨r, -, hr⟩ := ha.not_fail ((h x).2 hx)
    rw [he] at hr; cases hr

theorem AllOk.mem_iff {f : κ → Except Err α} {a : List κ} {l : List α} (ha : AllOk f a l) (r : α) :
    r ∈ l ↔ ∃ x ∈ a, f x = .ok r := by
  constructor
  · intro hr
    obtain ⟨i, hi, rfl⟩ := List.getElem_of_mem hr
    have hlen := ha.length
    obtain ⟨r, h1, h2⟩ := ha.get i (by omega)
    rw [List.getElem?_eq_getElem hi] at h1
    cases h1
    exact ⟨_, List.getElem_mem _, h2⟩
  · rintro ⟨x, hx, h⟩
    obtain ⟨r', h1, h2⟩ := ha.not_fail hx
    rw [h] at h2; cases h2; exact h1

/-- the pairs of entries of the results of two functions -/
theorem AllOk.zip_mem {f : κ → Except Err (List α)} {g : κ → Except Err (List β)} {a : List κ}
    {l : List (List α)} {k : List (List β)} (hf : AllOk f a l) (hg : AllOk g a k)
    (hlen : ∀ x r s, f x = .ok r → g x = .ok s → r.length = s.length) :
    l.flatten.length = k.flatten.length ∧
      ∀ p, p ∈ l.flatten.zip k.flatten ↔ ∃ x ∈ a, ∃ r s, f x = .ok r ∧ g x = .ok s ∧ p ∈ r.zip s := by
  induction a generalizing l k with
  | nil => cases hf; cases hg; simp
  | cons y a ih =>
    cases hf with
    | @cons _ r _ l h1 h2 =>
      cases hg with
      | @cons _ s _ k h3 h4 =>
        obtain ⟨i1, i2⟩ := ih h2 h4
        have hrs := hlen _ _ _ h1 h3
        refine ⟨by simp only [List.flatten_cons, List.length_append]; omega, fun p => ?_⟩
        rw [List.flatten_cons, List.flatten_cons, List.zip_append hrs, List.mem_append, i2]
        constructor
        · rintro (hp | ⟨x, hx, r', s', e1, e2, hp⟩)
          · exact ⟨y, by simp, r, s, h1, h3, hp⟩
          · exact ⟨x, by simp [hx], r', s', e1, e2, hp⟩
        · rintro ⟨x, hx, r', s', e1, e2, hp⟩
          rcases List.mem_cons.1 hx with rfl | hx
          · rw [h1] at e1; rw [h3] at e2; cases e1; cases e2; exact .inl hp
          · exact .inr ⟨x, hx, r', s', e1, e2, hp⟩

end

/-- the same conditions, in another order or repeated -/
structure SameConds {ι π φ : Type} (c c' : Conds ι π φ) : Prop where
  ign : SameCases c.ign c'.ign
  psr : SameCases c.psr c'.psr
  flame : SameCases c.flame c'.flame

section
variable {ι π φ : Type} {K : Cantera ι π φ} {sol : Mech} {b : Arith} {c c' : Conds ι π φ}

theorem SameConds.symm (h : SameConds c c') : SameConds c' c :=
  ⟨fun x => (h.ign x).symm, fun x => (h.psr x).symm, fun x => (h.flame x).symm⟩

/-- the pairs of metrics compared when a candidate `t` is simulated -/
def MetricPairs (S : AllSims ι π φ) (c : Conds ι π φ) (sol t : Mech) (p : PyF × PyF) : Prop :=
  (∃ x ∈ c.ign, ∃ r s, (S.ign.run sol x).map (·.1) = .ok r ∧ S.ign.metric t x = .ok s ∧ p ∈ r.zip s) ∨
  (∃ x ∈ c.psr, ∃ r s, (S.psr.run sol x).map (·.1) = .ok r ∧ S.psr.metric t x = .ok s ∧ p ∈ r.zip s) ∨
  ∃ x ∈ c.flame, ∃ r s, (S.flame.run sol x).map (·.1) = .ok r ∧ S.flame.metric t x = .ok s ∧ p ∈ r.zip s

theorem MetricPairs.same {S : AllSims ι π φ} (h : SameConds c c') {sol t : Mech} (p : PyF × PyF) :
    MetricPairs S c sol t p ↔ MetricPairs S c' sol t p := by
  unfold MetricPairs
  simp only [h.ign _, h.psr _, h.flame _]

theorem AllOk.map_fst {κ α β} {f : κ → Except Err (α × β)} {a : List κ} {l : List (α × β)} (h : AllOk f a l) :
    AllOk (fun x => (f x).map (·.1)) a (l.map (·.1)) := by
  unfold AllOk
  rw [List.forall₂_map_right_iff]
  exact h.imp (fun x r hr => by show (f x).map _ = _; rw [hr]; rfl)

theorem metricPairs_of (P : Physical K sol) {base : List PyF} {rows : List Row}
    (hs : Simulated (K.sims b.rnd) sol c base rows) {t : Mech} {x : List (List PyF)} {y : List (List PyF)}
    {z : List (List PyF)} (h1 : AllOk ((K.sims b.rnd).ign.metric t) c.ign x)
    (h2 : AllOk ((K.sims b.rnd).psr.metric t) c.psr y) (h3 : AllOk ((K.sims b.rnd).flame.metric t) c.flame z) :
    base.length = (x.flatten ++ y.flatten ++ z.flatten).length ∧
      ∀ p, p ∈ base.zip (x.flatten ++ y.flatten ++ z.flatten) ↔ MetricPairs (K.sims b.rnd) c sol t p := by
  obtain ⟨a, pp, f, ha, hp, hf, rfl, -⟩ := hs.ex
  have S := simsOk (b := b) P
  have inv : ∀ {κ} {T : Sims κ} (u : κ) (r : List PyF), (T.run sol u).map (·.1) = .ok r →
      ∃ rows, T.run sol u = .ok (r, rows) := by
    intro κ T u r h
    rcases hr : T.run sol u with e | ⟨ms, rows⟩ <;> rw [hr] at h
    · cases h
    · cases h; exact ⟨rows, rfl⟩
  obtain ⟨l1, z1⟩ := AllOk.zip_mem (AllOk.map_fst ha) h1 (fun u r s e1 e2 => by
    obtain ⟨rows, e1⟩ := inv u r e1
    rw [(S.ignShape.run _ _ _ e1).1, ignMetric_length e2]; rfl)
  obtain ⟨l2, z2⟩ := AllOk.zip_mem (AllOk.map_fst hp) h2 (fun u r s e1 e2 => by
    obtain ⟨rows, e1⟩ := inv u r e1
    rw [(S.psrShape.run _ _ _ e1).1, psrMetric_length e2]; rfl)
  obtain ⟨l3, z3⟩ := AllOk.zip_mem (AllOk.map_fst hf) h3 (fun u r s e1 e2 => by
    obtain ⟨rows, e1⟩ := inv u r e1
    rw [(S.flameShape.run _ _ _ e1).1, flameMetric_length e2]; rfl)
  refine ⟨by simp only [List.length_append]; omega, fun p => ?_⟩
  rw [List.zip_append (by simp only [List.length_append]; omega), List.zip_append l1, List.mem_append,
    List.mem_append, z1, z2, z3, or_assoc]
  rfl

/-- simulating a candidate: the same error, or an exception both times -/
theorem evalSim_conds (P : Physical K sol) {q q' : ReduceArgs ι π φ} (hp : ParOk q.par) (hp' : ParOk q'.par)
    (h : SameConds q.conds q'.conds) {base base' : List PyF} {rows rows' : List Row}
    (hs : Simulated (K.sims b.rnd) sol q.conds base rows)
    (hs' : Simulated (K.sims b.rnd) sol q'.conds base' rows') (d d' : Disk) (t : Mech) :
    (evalSim (K.sims b.rnd) q d base t).toOption = (evalSim (K.sims b.rnd) q' d' base' t).toOption := by
  have one : ∀ {q q' : ReduceArgs ι π φ}, ParOk q.par → ParOk q'.par → SameConds q.conds q'.conds →
      ∀ {d : Disk} (d' : Disk) {ms}, sampleMetrics (K.sims b.rnd) t q.conds q.par false d = .ok ms →
      ∃ x y z x' y' z', AllOk ((K.sims b.rnd).ign.metric t) q.conds.ign x ∧
        AllOk ((K.sims b.rnd).psr.metric t) q.conds.psr y ∧
        AllOk ((K.sims b.rnd).flame.metric t) q.conds.flame z ∧
        AllOk ((K.sims b.rnd).ign.metric t) q'.conds.ign x' ∧
        AllOk ((K.sims b.rnd).psr.metric t) q'.conds.psr y' ∧
        AllOk ((K.sims b.rnd).flame.metric t) q'.conds.flame z' ∧
        ms = x.flatten ++ y.flatten ++ z.flatten ∧
        sampleMetrics (K.sims b.rnd) t q'.conds q'.par false d' =
          .ok (x'.flatten ++ y'.flatten ++ z'.flatten) := by
    intro q q' hp hp' h d d' ms hm
    obtain ⟨x, y, z, h1, h2, h3, h4⟩ := sampleMetrics_inv hp hm
    obtain ⟨x', h1'⟩ := AllOk.same h.ign h1
    obtain ⟨y', h2'⟩ := AllOk.same h.psr h2
    obtain ⟨z', h3'⟩ := AllOk.same h.flame h3
    exact ⟨x, y, z, x', y', z', h1, h2, h3, h1', h2', h3', h4, C39_layout hp' h1' h2' h3'⟩
  unfold evalSim
  rcases hm : sampleMetrics (K.sims b.rnd) t q.conds q.par false d with e | ms
  · rcases hm' : sampleMetrics (K.sims b.rnd) t q'.conds q'.par false d' with e' | ms'
    · rfl
    · obtain ⟨_, _, _, _, _, _, -, -, -, -, -, -, -, h2⟩ := one hp' hp h.symm d hm'
      rw [hm] at h2; cases h2
  · obtain ⟨x, y, z, x', y', z', h1, h2, h3, h1', h2', h3', rfl, h4⟩ := one hp hp' h d' hm
    rw [h4]
    dsimp only
    obtain ⟨a1, a2⟩ := metricPairs_of P hs h1 h2 h3
    obtain ⟨b1, b2⟩ := metricPairs_of P hs' h1' h2' h3'
    rw [calculateError_pairs a1 b1 (fun p => by rw [a2, b2]; exact MetricPairs.same h p)]

end
end Verif
