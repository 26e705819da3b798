import Verif.Lemmas.Order
import Verif.Lemmas.Trim
import Verif.Lemmas.Matrix
import Mathlib.Algebra.BigOperators.Group.Finset.Basic
/-!
The same model with species and reactions in another order.
-/
namespace Verif
open Spec

/-- the same model with species and reactions listed in another order -/
structure Spec.Reordered (m m' : Mech) : Prop where
  species : m.species.Perm m'.species
  reactions : m.reactions.Perm m'.reactions
  transport : m'.transport = m.transport
  tp : m'.tp = m.tp
  thermo : m'.thermo = m.thermo
  name : m'.name = m.name

/-- two runs return the same model up to the order of its species and reactions, with the same
file name and error, or raise the same exception, or are both still running -/
def Spec.SameOutcome (x y : RunResult) : Prop :=
  (x.1 = none ∧ y.1 = none) ∨ (∃ e, x.1 = some (.error e) ∧ y.1 = some (.error e)) ∨
    ∃ r r', x.1 = some (.ok r) ∧ y.1 = some (.ok r') ∧ Reordered r.model r'.model ∧
      r'.filename = r.filename ∧ r'.error = r.error

/-- entries of the two matrices that belong to the same species are equal -/
def Spec.SameByName (names names' : List String) (M M' : NMat) : Prop :=
  ∀ (i j i' j' : Nat) (a b : String), names[i]? = some a → names'[i']? = some a →
    names[j]? = some b → names'[j']? = some b → M i j = M' i' j'

theorem Reordered.names {m m' : Mech} (h : Reordered m m') : m.names.Perm m'.names :=
  h.species.map _

theorem trim_reordered {m m' : Mech} (h : Reordered m m') {e e' : List String}
    (he : ∀ s, s ∈ e ↔ s ∈ e') (f p : Text) :
    Reordered (trim m e f p) (trim m' e' f p) := by
  have hs : (finalSpecies m e).Perm (finalSpecies m' e') := by
    unfold finalSpecies
    have h1 : m.species.filter (fun sp => !(e.contains sp.name)) =
        m.species.filter (fun sp => !(e'.contains sp.name)) := by
      apply List.filter_congr
      intro sp _
      congr 1
      rw [Bool.eq_iff_iff]
      simpa using he sp.name
    rw [h1]
    exact h.species.filter _
  have hn : ∀ s, s ∈ (finalSpecies m e).map (·.name) ↔ s ∈ (finalSpecies m' e').map (·.name) :=
    fun s => (hs.map _).mem_iff
  refine ⟨hs, ?_, h.transport, h.tp, rfl, rfl⟩
  simp only [trim, reactionLoop_eq, List.nil_append]
  have h1 : m.reactions.filterMap (trimStep e ((finalSpecies m e).map (·.name))) =
      m.reactions.filterMap (trimStep e' ((finalSpecies m' e').map (·.name))) := by
    apply List.filterMap_congr
    intro r _
    have hc : ∀ s, ((finalSpecies m e).map (·.name)).contains s =
        ((finalSpecies m' e').map (·.name)).contains s := by
      intro s; rw [Bool.eq_iff_iff]; simpa using hn s
    have h2 : skipExplicitThirdBody e r = skipExplicitThirdBody e' r := by
      have hx : ∀ s, e.contains s = e'.contains s := by
        intro s; rw [Bool.eq_iff_iff]; simpa using he s
      unfold skipExplicitThirdBody
      simp only [hx]
    have h3 : allSpeciesKept ((finalSpecies m e).map (·.name)) r =
        allSpeciesKept ((finalSpecies m' e').map (·.name)) r := by
      unfold allSpeciesKept
      simp only [hc]
    have h4 : filterThirdBody ((finalSpecies m e).map (·.name)) r =
        filterThirdBody ((finalSpecies m' e').map (·.name)) r := by
      unfold filterThirdBody
      rcases r.thirdBody with _ | tb
      · rfl
      · simp only [hc]
    unfold trimStep
    rw [h2, h3, h4]
  rw [h1]
  exact h.reactions.filterMap _

section
variable {m : Method} {c c' : Ctx} {sol sol' : Mech}

/-- two settings, also with different starting models, whose candidates have the same errors at
every threshold -/
theorem run_same_errors (U : Usable m c sol) (U' : Usable m c' sol')
    (h : ∀ t, c'.errOf (candidate c' sol' (Kept m c' sol') t) =
      c.errOf (candidate c sol (Kept m c sol) t))
    {limit : PyF} (hl : LimitOk c sol limit) (hl' : LimitOk c' sol' limit) (a : Arith) :
    ∃ N, ∀ dfuel ≥ N, ∀ fuel w w', w.fs c.modelFile = some sol → w'.fs c'.modelFile = some sol' →
      ((runMethod m c a.rnd limit dfuel fuel w).1 = none ∧
        (runMethod m c' a.rnd limit dfuel fuel w').1 = none) ∨
      (∃ e, (runMethod m c a.rnd limit dfuel fuel w).1 = some (.error e) ∧
        (runMethod m c' a.rnd limit dfuel fuel w').1 = some (.error e)) ∨
      ∃ t lb lb', (runMethod m c a.rnd limit dfuel fuel w).1 =
          some (.ok (freshResult c sol (Kept m c sol) lb t)) ∧
        (runMethod m c' a.rnd limit dfuel fuel w').1 =
          some (.ok (freshResult c' sol' (Kept m c' sol') lb' t)) := by
  obtain ⟨N, hN⟩ := method_isRun U
  obtain ⟨N', hN'⟩ := method_isRun U'
  refine ⟨max N N', fun dfuel hd fuel w w' hw hw' => ?_⟩
  simp only [ge_iff_le, max_le_iff] at hd
  obtain ⟨reduce, finish, short, limbo, R⟩ := hN dfuel hd.1
  obtain ⟨reduce', finish', short', limbo', R'⟩ := hN' dfuel hd.2
  rw [R.eq a.rnd limit fuel w hw, R'.eq a.rnd limit fuel w' hw']
  have hex : ∀ t, Exceeds c' sol' (Kept m c' sol') limit t ↔ Exceeds c sol (Kept m c sol) limit t := by
    intro t; unfold Exceeds; rw [h]
  have hme : ∀ t, Meets c' sol' (Kept m c' sol') limit t ↔ Meets c sol (Kept m c sol) limit t := by
    intro t; unfold Meets; rw [h]
  by_cases hall : ∀ i ≤ lastStart m a, Exceeds c sol (Kept m c sol) limit (startThr a.rnd i)
  · obtain ⟨g1, g2⟩ := run_exits (finish := finish a.rnd limit) (ex := exitThr m a.rnd) R.behaves hl
      hw hall (exit_facts m a).1 (exit_facts m a).2
    obtain ⟨g1', g2'⟩ := run_exits (finish := finish' a.rnd limit) (ex := exitThr m a.rnd) R'.behaves
      hl' hw' (fun i hi => (hex _).2 (hall i hi)) (exit_facts m a).1 (exit_facts m a).2
    rcases Nat.lt_or_ge (lastStart m a) fuel with hf | hf
    · exact .inr (.inl ⟨_, g2 fuel hf, g2' fuel hf⟩)
    · exact .inl ⟨g1 fuel hf, g1' fuel hf⟩
  · push Not at hall
    have hfirst : ∃ j ≤ lastStart m a, ¬ Exceeds c sol (Kept m c sol) limit (startThr a.rnd j) ∧
        ∀ i < j, Exceeds c sol (Kept m c sol) limit (startThr a.rnd i) := by
      classical
      obtain ⟨j, hj, hne⟩ := hall
      have hex : ∃ j, ¬ Exceeds c sol (Kept m c sol) limit (startThr a.rnd j) := ⟨j, hne⟩
      exact ⟨Nat.find hex, (Nat.find_min' hex hne).trans hj, Nat.find_spec hex,
        fun i hi => not_not.1 (Nat.find_min hex hi)⟩
    obtain ⟨j, hj, hne, hlt⟩ := hfirst
    have hex2 : ∀ i ≤ j, i ≠ 0 → ¬ startThr a.rnd i ≤ exitThr m a.rnd :=
      fun i hi => (exit_facts m a).1 i (hi.trans hj)
    by_cases hmeet : ∀ k, Meets c sol (Kept m c sol) limit (gridThr a.rnd j k)
    · exact .inl ⟨run_never_stops R.behaves hl a.ok hw hlt hex2 hmeet fuel,
        run_never_stops R'.behaves hl' a.ok hw' (fun i hi => (hex _).2 (hlt i hi)) hex2
          (fun k => (hme _).2 (hmeet k)) fuel⟩
    · push Not at hmeet
      have hk : ∃ k, ¬ Meets c sol (Kept m c sol) limit (gridThr a.rnd j k) ∧
          ∀ i < k, Meets c sol (Kept m c sol) limit (gridThr a.rnd j i) := by
        classical
        exact ⟨Nat.find hmeet, Nat.find_spec hmeet, fun i hi => not_not.1 (Nat.find_min hmeet hi)⟩
      obtain ⟨k, hk1, hk2⟩ := hk
      obtain ⟨s1, s2, s3⟩ := run_stops (ex := exitThr m a.rnd) R.behaves hl a.ok
        (R.finishOk a.rnd limit) hw hlt hex2 hne hk2 hk1
      obtain ⟨s1', s2', s3'⟩ := run_stops (ex := exitThr m a.rnd) R'.behaves hl' a.ok
        (R'.finishOk a.rnd limit) hw' (fun i hi => (hex _).2 (hlt i hi)) hex2
        (fun g => hne ((hex _).1 g)) (fun i hi => (hme _).2 (hk2 i hi))
        (fun g => hk1 ((hme _).1 g))
      rcases Nat.lt_or_ge fuel (j + 1 + k + 1) with hf | hf
      · exact .inl ⟨s1 fuel hf, s1' fuel hf⟩
      · by_cases hE : Exceeds c sol (Kept m c sol) limit (gridThr a.rnd j k)
        · obtain ⟨k', rfl⟩ : ∃ k', k = k' + 1 := by
            rcases k with _ | k'
            · exact absurd hE hne
            · exact ⟨k', rfl⟩
          exact .inr (.inr ⟨_, _, _, s3 k' rfl hE fuel hf, s3' k' rfl ((hex _).2 hE) fuel hf⟩)
        · exact .inr (.inl ⟨_, s2 hE fuel hf, s2' (fun g => hE ((hex _).1 g)) fuel hf⟩)

/-! ### which species are kept -/

theorem mem_getElem?_of_perm {l l' : List String} (h : l.Perm l') {i : Nat} {a : String}
    (hi : l[i]? = some a) : ∃ i' : Nat, l'[i']? = some a := by
  have := h.mem_iff.1 (List.mem_of_getElem? hi)
  exact List.getElem?_of_mem this

theorem strongEdge_reorder {names names' : List String} (hp : names.Perm names') {M M' : NMat}
    (h : SameByName names names' M M') {t : ℚ} {a b : String} (he : StrongEdge M names t a b) :
    StrongEdge M' names' t a b := by
  obtain ⟨i, j, hi, hj, h1, h2⟩ := he
  obtain ⟨i', hi'⟩ := mem_getElem?_of_perm hp hi
  obtain ⟨j', hj'⟩ := mem_getElem?_of_perm hp hj
  refine ⟨i', j', hi', hj', ?_⟩
  rw [← h i j i' j' a b hi hi' hj hj']
  exact ⟨h1, h2⟩

theorem linked_reorder {names names' : List String} (hp : names.Perm names') {M M' : NMat}
    (h : SameByName names names' M M') {t : ℚ} {a b : String}
    (he : Relation.ReflTransGen (StrongEdge M names t) a b) :
    Relation.ReflTransGen (StrongEdge M' names' t) a b := by
  induction he with
  | refl => exact .refl
  | tail _ h2 ih => exact ih.tail (strongEdge_reorder hp h h2)

theorem pathProduct_reorder {names names' : List String} (hp : names.Perm names') {M M' : NMat}
    (h : SameByName names names' M M') {rnd : ℚ → ℚ} {a b : String} {x : ℚ}
    (hx : PathProduct rnd M names a x b) : PathProduct rnd M' names' a x b := by
  induction hx with
  | nil ha => exact .nil (hp.mem_iff.1 ha)
  | step _ hi hj hne ih =>
    obtain ⟨i', hi'⟩ := mem_getElem?_of_perm hp hi
    obtain ⟨j', hj'⟩ := mem_getElem?_of_perm hp hj
    rw [h _ _ i' j' _ _ hi hi' hj hj'] at hne ⊢
    exact .step ih hi' hj' hne

theorem sameByName_symm {names names' : List String} {M M' : NMat}
    (h : SameByName names names' M M') : SameByName names' names M' M :=
  fun i j i' j' a b h1 h2 h3 h4 => (h i' j' i j a b h2 h1 h4 h3).symm

/-- one request for two orders of the same model: the other order has the matching matrices, and
errors do not depend on the order -/
structure Spec.ReorderedRequest (c c' : Ctx) (sol sol' : Mech) : Prop where
  model : Reordered sol sol'
  file : c'.modelFile = c.modelFile
  phase : c'.phase = c.phase
  path : c'.path = c.path
  targets : c'.targets = c.targets
  safe : c'.safe = c.safe
  upper : c'.upper = c.upper
  rndMul : c'.rndMul = c.rndMul
  matrices : List.Forall₂ (SameByName sol.names sol'.names) c.matrices c'.matrices
  errors : ∀ m m', Reordered m m' → c'.errOf m' = c.errOf m

theorem forall₂_left {α β} {R : α → β → Prop} {l : List α} {l' : List β} (h : List.Forall₂ R l l')
    {x : α} (hx : x ∈ l) : ∃ y ∈ l', R x y := by
  induction h with
  | nil => simp at hx
  | cons h1 _ ih =>
    rcases List.mem_cons.1 hx with rfl | hx
    · exact ⟨_, List.mem_cons_self, h1⟩
    · obtain ⟨y, h2, h3⟩ := ih hx
      exact ⟨y, List.mem_cons_of_mem _ h2, h3⟩

theorem keptDrg_reorder {sol sol' : Mech} (hm : sol.names.Perm sol'.names)
    (ht : c'.targets = c.targets) (hs : c'.safe = c.safe)
    (hM : ∀ M ∈ c.matrices, ∃ M' ∈ c'.matrices, SameByName sol.names sol'.names M M')
    (t : ℚ) (s : String) (h : KeptDrg c sol t s) : KeptDrg c' sol' t s := by
  rcases h with ⟨M, h1, a, ha, hr⟩ | h
  · obtain ⟨M', h1', h2⟩ := hM M h1
    exact .inl ⟨M', h1', a, by rw [ht]; exact ha, linked_reorder hm h2 hr⟩
  · exact .inr (by rw [hs]; exact h)

theorem keptPath_reorder {sol sol' : Mech} (hm : sol.names.Perm sol'.names)
    (ht : c'.targets = c.targets) (hs : c'.safe = c.safe) (hr : c'.rndMul = c.rndMul)
    (hM : ∀ M ∈ c.matrices, ∃ M' ∈ c'.matrices, SameByName sol.names sol'.names M M')
    (t : ℚ) (s : String) (h : KeptPath c sol t s) : KeptPath c' sol' t s := by
  rcases h with ⟨y, rfl | ⟨M, h1, a, ha, hp⟩, hy⟩ | h
  · exact .inl ⟨0, .inl rfl, hy⟩
  · obtain ⟨M', h1', h2⟩ := hM M h1
    refine .inl ⟨y, .inr ⟨M', h1', a, by rw [ht]; exact ha, ?_⟩, hy⟩
    rw [hr]
    exact pathProduct_reorder hm h2 hp
  · exact .inr (by rw [hs]; exact h)

theorem kept_reorder (R : ReorderedRequest c c' sol sol') (t : ℚ) (s : String) :
    Kept m c' sol' t s ↔ Kept m c sol t s := by
  have hM : ∀ M ∈ c.matrices, ∃ M' ∈ c'.matrices, SameByName sol.names sol'.names M M' :=
    fun M h => forall₂_left R.matrices h
  have hM' : ∀ M' ∈ c'.matrices, ∃ M ∈ c.matrices, SameByName sol'.names sol.names M' M := by
    intro M' h
    obtain ⟨M, h1, h2⟩ := forall₂_left (List.Forall₂.flip R.matrices) h
    exact ⟨M, h1, sameByName_symm h2⟩
  have hp := Reordered.names R.model
  cases m with
  | drg => exact ⟨keptDrg_reorder hp.symm R.targets.symm R.safe.symm hM' t s,
      keptDrg_reorder hp R.targets R.safe hM t s⟩
  | pfa => exact ⟨keptDrg_reorder hp.symm R.targets.symm R.safe.symm hM' t s,
      keptDrg_reorder hp R.targets R.safe hM t s⟩
  | drgep => exact ⟨keptPath_reorder hp.symm R.targets.symm R.safe.symm R.rndMul.symm hM' t s,
      keptPath_reorder hp R.targets R.safe R.rndMul hM t s⟩

end
end Verif
