import Verif.Spec.Sampling
import Mathlib.Tactic.NormNum
import Mathlib.Tactic.Linarith
import Mathlib.Tactic.FieldSimp
import Mathlib.Tactic.SplitIfs
import Mathlib.Tactic.Push
import Mathlib.Data.Set.Basic
import Mathlib.Order.Bounds.Basic
import Mathlib.Algebra.Order.Field.Basic
import Mathlib.Algebra.Order.Group.Unbundled.Abs
/-!
# Lemmas on `calculate_error`
-/
namespace Verif

theorem nmax_fin (a b : ℚ) : PyF.nmax (.fin a) (.fin b) = .fin (max a b) := by
  unfold PyF.nmax PyF.lt
  by_cases h : a < b
  · simp [h, max_eq_right h.le]
  · simp [h, max_eq_left (not_lt.1 h)]

theorem foldl_nmax_fin (l : List ℚ) (a : ℚ) :
    (l.map PyF.fin).foldl PyF.nmax (.fin a) = .fin (l.foldl max a) := by
  induction l generalizing a with
  | nil => rfl
  | cons b l ih => rw [List.map_cons, List.foldl_cons, nmax_fin, ih, List.foldl_cons]

theorem foldl_max_isGreatest (l : List ℚ) (a : ℚ) :
    IsGreatest {x | x ∈ a :: l} (l.foldl max a) := by
  induction l generalizing a with
  | nil => exact ⟨by simp, by
      intro x hx
      simp only [Set.mem_ofPred_eq, List.mem_singleton] at hx
      simp [hx]⟩
  | cons b l ih =>
    rw [List.foldl_cons]
    obtain ⟨h1, h2⟩ := ih (max a b)
    refine ⟨?_, ?_⟩
    · simp only [Set.mem_ofPred_eq, List.mem_cons] at h1 ⊢
      rcases h1 with h1 | h1
      · rcases max_choice a b with h | h <;> rw [h] at h1 <;> simp [h, h1]
      · exact Or.inr (Or.inr h1)
    · intro x hx
      simp only [Set.mem_ofPred_eq, List.mem_cons] at hx
      rcases hx with rfl | rfl | hx
      · exact (le_max_left x b).trans (h2 (show _ ∈ max x b :: l by simp))
      · exact (le_max_right a x).trans (h2 (show _ ∈ max a x :: l by simp))
      · exact h2 (by simp [hx])

theorem nmax_nan_left (b : PyF) : PyF.nmax .nan b = .nan := by simp [PyF.nmax]
theorem nmax_nan_right (a : PyF) : PyF.nmax a .nan = .nan := by simp [PyF.nmax]

theorem foldl_nmax_nan (l : List PyF) : l.foldl PyF.nmax .nan = .nan := by
  induction l with
  | nil => rfl
  | cons b l ih => rw [List.foldl_cons, nmax_nan_left, ih]

theorem foldl_nmax_has_nan {l : List PyF} {a : PyF} (h : PyF.nan ∈ a :: l) :
    l.foldl PyF.nmax a = .nan := by
  induction l generalizing a with
  | nil => simp at h; simp [h]
  | cons b l ih =>
    rw [List.foldl_cons]
    rcases List.mem_cons.1 h with h | h
    · rw [← h, nmax_nan_left, foldl_nmax_nan]
    · rcases List.mem_cons.1 h with h | h
      · rw [← h, nmax_nan_right, foldl_nmax_nan]
      · exact ih (by simp [h])

theorem nmax_inf_left {b : PyF} (h : b ≠ .nan) : PyF.nmax .inf b = .inf := by
  cases b <;> simp_all [PyF.nmax, PyF.lt]
theorem nmax_inf_right {a : PyF} (h : a ≠ .nan) : PyF.nmax a .inf = .inf := by
  cases a <;> simp_all [PyF.nmax, PyF.lt]

theorem nmax_ne_nan {a b : PyF} (ha : a ≠ .nan) (hb : b ≠ .nan) : PyF.nmax a b ≠ .nan := by
  unfold PyF.nmax
  rw [if_neg ha, if_neg hb]
  split_ifs <;> assumption

theorem foldl_nmax_inf {l : List PyF} {a : PyF} (hn : ∀ x ∈ a :: l, x ≠ .nan)
    (h : PyF.inf ∈ a :: l) : l.foldl PyF.nmax a = .inf := by
  induction l generalizing a with
  | nil => simpa using (List.mem_singleton.1 h).symm
  | cons b l ih =>
    rw [List.foldl_cons]
    apply ih
    · intro x hx
      rcases List.mem_cons.1 hx with rfl | hx
      · exact nmax_ne_nan (hn a (by simp)) (hn b (by simp))
      · exact hn x (by simp [hx])
    · rcases List.mem_cons.1 h with h | h
      · rw [← h, nmax_inf_left (hn b (by simp))]; simp
      · rcases List.mem_cons.1 h with h | h
        · rw [← h, nmax_inf_right (hn a (by simp))]; simp
        · simp [h]

theorem broadcast_eq {a b : List PyF} (h : a.length = b.length) : broadcast a b = .ok (a.zip b) := by
  unfold broadcast; rw [if_pos h]

/-- relative deviation of two finite metrics -/
theorem relDev_fin {o t : ℚ} (ho : o ≠ 0) : relDev (.fin o, .fin t) = .fin (|o - t| / o) := by
  simp [relDev, PyF.sub, PyF.neg, PyF.add, PyF.abs, PyF.div, ho, sub_eq_add_neg]

theorem zip_map_fin (os ts : List ℚ) :
    (os.map PyF.fin).zip (ts.map PyF.fin) = (os.zip ts).map (fun p => (.fin p.1, .fin p.2)) := by
  rw [List.zip_map]
  rfl

/-- `calculate_error` on finite metrics, without rounding -/
theorem calculateError_fin {os ts : List ℚ} (hl : os.length = ts.length) (hne : os ≠ [])
    (ho : ∀ o ∈ os, o ≠ 0) (ht : ∀ t ∈ ts, t ≠ 0) :
    ∃ e, calculateError (os.map .fin) (ts.map .fin) = .ok (.fin e) ∧
      IsGreatest {x | ∃ p ∈ os.zip ts, x = 100 * (|p.1 - p.2| / p.1)} e := by
  have hz : (List.map relDev ((os.map PyF.fin).zip (ts.map PyF.fin))) =
      ((os.zip ts).map (fun p => |p.1 - p.2| / p.1)).map PyF.fin := by
    rw [zip_map_fin, List.map_map, List.map_map]
    apply List.map_congr_left
    rintro ⟨o, t⟩ hp
    exact relDev_fin (ho o (List.of_mem_zip hp).1)
  have hany : (ts.map PyF.fin).any (fun t => t.eq (.fin 0)) = false := by
    rw [List.any_eq_false]
    intro x hx
    obtain ⟨t, h1, rfl⟩ := List.mem_map.1 hx
    simp [PyF.eq, ht t h1]
  unfold calculateError
  rw [broadcast_eq (by simpa using hl)]
  dsimp only
  rw [hz, hany]
  rcases hq : (os.zip ts).map (fun p => |p.1 - p.2| / p.1) with _ | ⟨a, l⟩
  · exfalso
    have := congrArg List.length hq
    simp only [List.length_map, List.length_zip, List.length_nil] at this
    have h1 := List.length_pos_iff.2 hne
    omega
  · rw [hq, List.map_cons]
    unfold npMax
    dsimp only
    rw [foldl_nmax_fin]
    refine ⟨100 * l.foldl max a, rfl, ?_⟩
    obtain ⟨h1, h2⟩ := foldl_max_isGreatest l a
    rw [← hq] at h1 h2
    constructor
    · obtain ⟨p, hp, h⟩ := List.mem_map.1 h1
      exact ⟨p, hp, by rw [← h]⟩
    · rintro x ⟨p, hp, rfl⟩
      have := h2 (show _ ∈ {x | x ∈ _} from List.mem_map.2 ⟨p, hp, rfl⟩)
      linarith

end Verif
