import Verif.Props.Sampling
/-!
# Metrics that are not finite (C40)
-/
namespace Verif

/-- **C40**: a metric of the starting model that is infinite or undefined makes the error undefined, whatever the candidate
(unless a candidate metric is zero). -/
theorem C40_undefined {orig test : List PyF} (hl : orig.length = test.length)
    (h : ∃ o ∈ orig, ∀ q : ℚ, o ≠ .fin q) (ht : ∀ t ∈ test, t ≠ .fin 0) :
    calculateError orig test = .ok .nan := by
  have hm : PyF.nan ∈ (orig.zip test).map relDev := by
    rw [List.mem_map]
    obtain ⟨o, h, hq⟩ := h
    obtain ⟨i, hi, e⟩ := List.getElem_of_mem h
    refine ⟨(orig[i], test[i]'(by omega)), List.mem_iff_getElem.2 ⟨i, by simp; omega, by simp⟩, ?_⟩
    rw [e]
    cases o with
    | fin q => exact absurd rfl (hq q)
    | _ => rcases test[i]'(by omega) with _ | _ | _ | _ <;> rfl
  have hany : test.any (fun t => t.eq (.fin 0)) = false := by
    rw [List.any_eq_false]
    intro x hx
    have := ht x hx
    clear ht hx hm
    cases x <;> simp_all [PyF.eq]
  unfold calculateError
  rw [broadcast_eq hl]
  dsimp only
  rw [hany]
  rcases hq : (orig.zip test).map relDev with _ | ⟨a, l⟩ <;> rw [hq] at hm
  · simp at hm
  · unfold npMax
    dsimp only
    rw [foldl_nmax_has_nan hm]
    rfl

/-- **C40**: an infinite metric of the candidate makes the error infinite, so the candidate exceeds every finite limit. -/
theorem C40_infinite {os : List ℚ} {test : List PyF} (hl : os.length = test.length) (ho : ∀ o ∈ os, 0 < o)
    (h : ∃ t ∈ test, t.abs = .inf) (ht : ∀ t ∈ test, t ≠ .fin 0 ∧ t ≠ .nan) :
    ∃ e, calculateError (os.map .fin) test = .ok e ∧ e = .inf ∧ ∀ L : ℚ, (PyF.fin L).lt e = true := by
  have hl' : (os.map PyF.fin).length = test.length := by simpa using hl
  have hm : PyF.inf ∈ ((os.map PyF.fin).zip test).map relDev := by
    rw [List.mem_map]
    obtain ⟨t, h, hq⟩ := h
    obtain ⟨i, hi, e⟩ := List.getElem_of_mem h
    refine ⟨(.fin (os[i]'(by omega)), test[i]), List.mem_iff_getElem.2 ⟨i, by simp; omega, by simp⟩, ?_⟩
    have h0 : ¬ os[i]'(by omega) < 0 := not_lt.2 (ho _ (List.getElem_mem _)).le
    rw [e]
    cases t with
    | fin q => cases hq
    | nan => cases hq
    | _ => simp [relDev, PyF.sub, PyF.neg, PyF.add, PyF.abs, PyF.div, PyF.ofSign, PyF.sgn, h0]
  have hn : ∀ x ∈ ((os.map PyF.fin).zip test).map relDev, x ≠ .nan := by
    intro x hx
    obtain ⟨⟨a, t⟩, hp, rfl⟩ := List.mem_map.1 hx
    have h1 := List.of_mem_zip hp
    obtain ⟨o, ho', rfl⟩ := List.mem_map.1 h1.1
    have h0 : ¬ o < 0 := not_lt.2 (ho _ ho').le
    have h2 := (ht t h1.2).2
    have h3 := (ho o ho').ne'
    clear hm hp hx ht ho h
    cases t <;> simp [relDev, PyF.sub, PyF.neg, PyF.add, PyF.abs, PyF.div, PyF.ofSign, PyF.sgn, h0, h3] at h2 ⊢
  have hany : test.any (fun t => t.eq (.fin 0)) = false := by
    rw [List.any_eq_false]
    intro x hx
    have := (ht x hx).1
    clear ht hx hm hn
    cases x <;> simp_all [PyF.eq]
  refine ⟨.inf, ?_, rfl, fun L => rfl⟩
  unfold calculateError
  rw [broadcast_eq hl']
  dsimp only
  rw [hany]
  rcases hq : ((os.map PyF.fin).zip test).map relDev with _ | ⟨a, l⟩ <;> rw [hq] at hm hn
  · simp at hm
  · unfold npMax
    dsimp only
    rw [foldl_nmax_inf hn hm]
    have : ¬ (100 : ℚ) < 0 := by norm_num
    simp [PyF.mul, PyF.sgn, PyF.ofSign, this]

example : calculateError [.fin 1, .inf] [.fin 1, .inf] = .ok .nan ∧
    calculateError [.fin 1, .fin 2] [.fin 1, .ninf] = .ok .inf :=
  ⟨C40_undefined rfl ⟨.inf, by simp, by simp⟩ (by simp),
    by obtain ⟨e, h, rfl, _⟩ := C40_infinite (os := [1, 2]) (test := [.fin 1, .ninf]) rfl (by simp) ⟨.ninf, by simp, rfl⟩ (by simp)
       exact h⟩

end Verif
