import Verif.Lemmas.SAMinimal
import Verif.Props.SAOrder
/-!
# C128: nothing is left that sensitivity analysis could remove
-/
namespace Verif
open Spec

variable {c : SACtx} {w : World} {sol : Mech} {limbo : List String} {fuel : Nat} {r : SAResult}

/-- **C128** (greedy): in a returned model whose error `x` is within the limit `L`, removing any one of
the candidates that are left gives an error above the limit (or undefined), or below `2 x - L`. -/
theorem C128_ends_partial (T : TmpOk c) (hw : w.fs c.modelFile = some sol) (hg : c.greedy = true)
    (hd : c.dist = fun e cur => (e.sub cur).abs) {L : ℚ} (hL : c.limit = .fin L)
    (h : runSA c limbo fuel w = some r) {rm : RModel} (hr : r.result = .ok rm) {x : ℚ}
    (hx : rm.error = .fin x) (hxL : x ≤ L) {sp : String} (hs : sp ∈ saLimbo c.safe sol limbo)
    (hm : sp ∈ rm.model.names) :
    ∃ initial y, c.initial sol = .ok initial ∧ saErr c initial (without c rm.model sp) = .ok y ∧
      (PyF.lt (.fin L) y = true ∨ y = .nan ∨ y.lt (.fin (2 * x - L)) = true) := by
  obtain ⟨initial, acc, hi, q, -⟩ := runSA_course T hw h hr
  have ha : sp ∉ acc := by
    rw [q.removed, List.mem_filter] at hm
    simpa using hm.2
  obtain ⟨y, h1, h2⟩ := q.ends hg rfl hd hL hx hxL hs ha
  exact ⟨initial, y, hi, h1, h2⟩

/-- **C128** (greedy): a returned model with an error of at most half the limit is minimal: no
candidate that is left can be removed with an error within the limit. -/
theorem C128_half_partial (T : TmpOk c) (hw : w.fs c.modelFile = some sol) (hg : c.greedy = true)
    (hd : c.dist = fun e cur => (e.sub cur).abs) (he : c.errOf = calculateError) {L : ℚ}
    (hL : c.limit = .fin L) {os : List ℚ} (hi : c.initial sol = .ok (os.map .fin)) (ho : ∀ o ∈ os, 0 < o)
    (h : runSA c limbo fuel w = some r) {rm : RModel} (hr : r.result = .ok rm) {x : ℚ}
    (hx : rm.error = .fin x) (h0 : 0 ≤ x) (hxL : 2 * x ≤ L) {sp : String}
    (hs : sp ∈ saLimbo c.safe sol limbo) (hm : sp ∈ rm.model.names) :
    ∃ y, saErr c (os.map .fin) (without c rm.model sp) = .ok y ∧ y.le (.fin L) = false := by
  obtain ⟨initial, y, h1, h2, h3⟩ := C128_ends_partial T hw hg hd hL h hr hx (by linarith) hs hm
  rw [hi] at h1
  cases h1
  refine ⟨y, h2, ?_⟩
  have hnn : y.lt (.fin 0) = false := by
    unfold saErr at h2
    generalize c.metrics (without c rm.model sp) = A at h2
    cases A with
    | error e => cases h2
    | ok t =>
      dsimp only at h2
      rw [he] at h2
      exact calculateError_nonneg ho h2
  rcases h3 with h3 | h3 | h3
  · cases y <;> simp [PyF.lt, PyF.le] at h3 ⊢
    exact h3
  · subst h3; rfl
  · exfalso
    cases y <;> simp [PyF.lt] at h3 hnn
    linarith

/-- **C128** is false for both algorithms: if the candidate whose removal has the error nearest to that
of the starting model exceeds the limit, the starting model is returned, whatever other candidate
could be removed within the limit. -/
theorem C128_nearest_refuted (T : TmpOk c) (hw : w.fs c.modelFile = some sol) {initial : List PyF}
    (hi : c.initial sol = .ok initial) {a b : String} {ea eb : PyF}
    (ha : ClearlyNearest c initial sol c.startErr (saLimbo c.safe sol limbo) a)
    (hea : saErr c initial (without c sol a) = .ok ea) (hla : c.limit.lt ea = true)
    (heb : saErr c initial (without c sol b) = .ok eb) (hlb : eb.le c.limit = true)
    (hf : (saLimbo c.safe sol limbo).length < fuel) :
    ∃ r rm, runSA c limbo fuel w = some r ∧ r.result = .ok rm ∧ rm.model = sol ∧
      saErr c initial (without c rm.model b) = .ok eb ∧ eb.le c.limit = true := by
  obtain ⟨errs, i, h1, h2, h3⟩ := ha.choose
  obtain ⟨r, rm, g1, g2, g3, -⟩ := C32_followed T hw hi (Course.reject h1 h2 h3 hea hla) ⟨errs, h1⟩ hf
  exact ⟨r, rm, g1, g2, g3, by rw [g3]; exact heb, hlb⟩

/-- **C128** is false for the `initial` algorithm however small the errors: after the removal of `a`
it tries the candidate `b` whose removal from the *starting* model had the error nearest to the current
one; if that exceeds the limit now, it ends, whatever other candidate could be removed. -/
theorem C128_initial_refuted (T : TmpOk c) (hw : w.fs c.modelFile = some sol) (hg : c.greedy = false)
    {initial : List PyF} (hi : c.initial sol = .ok initial) {a b d : String} {ea eb ed : PyF}
    (ha : ClearlyNearest c initial sol c.startErr (saLimbo c.safe sol limbo) a)
    (hea : saErr c initial (without c sol a) = .ok ea) (hla : c.limit.lt ea = false)
    (hb : ∀ rest, (a :: rest).Perm (saLimbo c.safe sol limbo) → ClearlyNearest c initial sol ea rest b)
    (heb : saErr c initial (without c (without c sol a) b) = .ok eb) (hlb : c.limit.lt eb = true)
    (hed : saErr c initial (without c (without c sol a) d) = .ok ed) (hld : ed.le c.limit = true)
    (hf : (saLimbo c.safe sol limbo).length < fuel) :
    ∃ r rm, runSA c limbo fuel w = some r ∧ r.result = .ok rm ∧ rm.model = without c sol a ∧
      saErr c initial (without c rm.model d) = .ok ed ∧ ed.le c.limit = true := by
  obtain ⟨errs, i, h1, h2, h3⟩ := ha.choose
  have hlt := (List.getElem?_eq_some_iff.1 h3).1
  have hp : (a :: (saLimbo c.safe sol limbo).eraseIdx i).Perm (saLimbo c.safe sol limbo) := by
    have := (List.getElem?_eq_some_iff.1 h3).2
    rw [← this]
    exact List.getElem_cons_eraseIdx_perm hlt
  obtain ⟨errs', j, k1, k2, k3⟩ := (hb _ hp).choose
  have hc : Course c initial sol sol c.startErr (saLimbo c.safe sol limbo) [a] (without c sol a) ea
      (((saLimbo c.safe sol limbo).eraseIdx i).eraseIdx j) := by
    refine Course.accept h1 h2 h3 hea hla (fun h => by simp [hg] at h) ?_
    rw [hg]
    exact Course.reject k1 k2 k3 heb hlb
  obtain ⟨r, rm, g1, g2, g3, -⟩ := C32_followed T hw hi hc ⟨errs, h1⟩ hf
  exact ⟨r, rm, g1, g2, g3, by rw [g3]; exact hed, hld⟩

/-! ### examples -/

/-- four species; `C` cannot be missing once `B` is gone -/
def smSol : Mech := ⟨[⟨"A", 0⟩, ⟨"B", 0⟩, ⟨"C", 0⟩, ⟨"D", 0⟩], [], 0, 0, [], idealGas⟩

def smMetric (m : Mech) : Except Err (List PyF) :=
  .ok [.fin (if m.names = ["A", "B", "C", "D"] then 1 else if m.names = ["A", "C", "D"] then 101/100
    else if m.names = ["A", "B", "D"] then 102/100 else if m.names = ["A", "B", "C"] then 109/100
    else if m.names = ["A", "C"] then 104/100 else 150/100)]

def smSA (start limit : ℚ) (greedy : Bool) : SACtx :=
  { exSA (.fin limit) greedy [] with startErr := .fin start, initial := smMetric, metrics := smMetric }

def smWorld : World := ⟨fun f => if f = "m.yaml".toList then some smSol else none, []⟩

theorem smSA_tmp (start limit : ℚ) (greedy : Bool) : TmpOk (smSA start limit greedy) := by
  obtain ⟨a, b, c, d, e, f, g⟩ := exSA_tmp (.fin limit) greedy []
  exact ⟨a, b, c, d, e, f, g⟩

/-- `C128_ends_partial`, `C128_half_partial`: `B`, then `D` are removed; `C` is left and removing it
exceeds the limit -/
example : (match saView (runSA (smSA 0 10 true) [] 4 smWorld) with
    | some (.ok (ns, e, _), l) => decide (ns = ["A", "C"] ∧ e = .fin 4 ∧ l = ["C"])
    | _ => false) = true := by decide +kernel

example : (smSA 0 10 true).initial smSol = .ok ([(1 : ℚ)].map .fin) ∧ smWorld.fs (smSA 0 10 true).modelFile = some smSol ∧
    (smSA 0 10 true).greedy = true ∧ (smSA 0 10 true).errOf = calculateError ∧ (smSA 0 10 true).limit = .fin 10 ∧
    "C" ∈ saLimbo (smSA 0 10 true).safe smSol [] :=
  ⟨by decide +kernel, by decide +kernel, rfl, rfl, rfl, by decide +kernel⟩

/-- `C128_initial_refuted`: the hypotheses are met, `initial` stops after `B` though `D` could go -/
example : (smSA 0 10 false).initial smSol = .ok [.fin 1] ∧
    ClearlyNearest (smSA 0 10 false) [.fin 1] smSol (smSA 0 10 false).startErr (saLimbo (smSA 0 10 false).safe smSol []) "B" ∧
    saErr (smSA 0 10 false) [.fin 1] (without (smSA 0 10 false) smSol "B") = .ok (.fin 1) ∧
    (∀ rest, ("B" :: rest).Perm (saLimbo (smSA 0 10 false).safe smSol []) →
      ClearlyNearest (smSA 0 10 false) [.fin 1] smSol (.fin 1) rest "C") ∧
    saErr (smSA 0 10 false) [.fin 1] (without (smSA 0 10 false) (without (smSA 0 10 false) smSol "B") "C") = .ok (.fin 50) ∧
    saErr (smSA 0 10 false) [.fin 1] (without (smSA 0 10 false) (without (smSA 0 10 false) smSol "B") "D") = .ok (.fin 4) := by
  have hl : saLimbo (smSA 0 10 false).safe smSol [] = ["B", "C", "D"] := by decide +kernel
  rw [hl]
  refine ⟨by decide +kernel, ⟨by simp, .fin 1, by decide +kernel, by simp, by decide +kernel, ?_⟩,
    by decide +kernel, ?_, by decide +kernel, by decide +kernel⟩
  · intro s hs hne
    simp only [List.mem_cons, List.not_mem_nil, or_false] at hs
    rcases hs with rfl | rfl | rfl
    · exact absurd rfl hne
    · exact ⟨.fin 2, by decide +kernel, by simp, by decide +kernel⟩
    · exact ⟨.fin 9, by decide +kernel, by simp, by decide +kernel⟩
  · intro rest hp
    have hp' : rest.Perm ["C", "D"] := List.Perm.cons_inv hp
    refine ⟨hp'.mem_iff.2 (by simp), .fin 2, by decide +kernel, by simp, by decide +kernel, ?_⟩
    intro s hs hne
    have := hp'.mem_iff.1 hs
    simp only [List.mem_cons, List.not_mem_nil, or_false] at this
    rcases this with rfl | rfl
    · exact absurd rfl hne
    · exact ⟨.fin 9, by decide +kernel, by simp, by decide +kernel⟩

example : (match saView (runSA (smSA 0 10 false) [] 4 smWorld) with
    | some (.ok (ns, e, _), _) => decide (ns = ["A", "C", "D"] ∧ e = .fin 1)
    | _ => false) = true := by decide +kernel

/-- `C128_nearest_refuted`: from an error of 6 percent with a limit of 8, `D` (9 percent) is nearest
and exceeds it; `B` (1 percent) and `C` (2 percent) stay -/
example : ClearlyNearest (smSA 6 8 true) [.fin 1] smSol (smSA 6 8 true).startErr (saLimbo (smSA 6 8 true).safe smSol []) "D" ∧
    saErr (smSA 6 8 true) [.fin 1] (without (smSA 6 8 true) smSol "D") = .ok (.fin 9) ∧
    saErr (smSA 6 8 true) [.fin 1] (without (smSA 6 8 true) smSol "B") = .ok (.fin 1) := by
  have hl : saLimbo (smSA 6 8 true).safe smSol [] = ["B", "C", "D"] := by decide +kernel
  rw [hl]
  refine ⟨⟨by simp, .fin 9, by decide +kernel, by simp, by decide +kernel, ?_⟩, by decide +kernel, by decide +kernel⟩
  intro s hs hne
  simp only [List.mem_cons, List.not_mem_nil, or_false] at hs
  rcases hs with rfl | rfl | rfl
  · exact ⟨.fin 1, by decide +kernel, by simp, by decide +kernel⟩
  · exact ⟨.fin 2, by decide +kernel, by simp, by decide +kernel⟩
  · exact absurd rfl hne

example : (match saView (runSA (smSA 6 8 true) [] 4 smWorld) with
    | some (.ok (ns, e, _), _) => decide (ns = ["A", "B", "C", "D"] ∧ e = .fin 6)
    | _ => false) = true := by decide +kernel

end Verif
