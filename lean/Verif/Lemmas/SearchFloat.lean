import Verif.Lemmas.MatrixFloat
import Mathlib.Data.List.Perm.Basic
/-!
Graph searches on matrices with undefined entries.
-/
namespace Verif
open Spec

/-! ### DRG and PFA -/

theorem idxOf?_lt {names : List String} {s : String} {i : Nat} (h : names.idxOf? s = some i) :
    i < names.length := by
  rw [List.idxOf?, List.findIdx?_eq_some_iff_getElem] at h
  exact h.1

/-- undefined entries are dropped by the comparison with the threshold -/
theorem thresholdGraphF_plain {M : NMatF} {names : List String}
    (h : FiniteMatrix M names.length ∨ BlankMatrix M names.length) (thr : ℚ) :
    thresholdGraphF M names thr = thresholdGraph (plain M) names thr := by
  unfold thresholdGraphF thresholdGraph
  congr 1
  funext s
  rcases hi : names.idxOf? s with _ | i
  · rfl
  · have hi := idxOf?_lt hi
    simp only
    congr 1
    apply List.filter_congr
    intro j hj
    have hj := List.mem_range.1 hj
    have hc : Finite (M i j) ∨ Blank (M i j) := h.imp (fun h => h i hi j hj) (fun h => h i hi j hj)
    unfold plain
    rcases hc with ⟨q, e⟩ | e | e <;> rw [e]
    · by_cases hq : thr ≤ q
      · by_cases h0 : q = 0 <;> simp [PyF.le, PyF.eq, hq, h0]
      · simp [PyF.le, PyF.eq, hq]
    · simp [PyF.eq]
    · simp [PyF.le, PyF.eq]

theorem trimDrgF_plain {M : NMatF} {names : List String}
    (h : FiniteMatrix M names.length ∨ BlankMatrix M names.length) (targets : List String) (thr : ℚ) :
    trimDrgF M names targets thr = trimDrg (plain M) names targets thr := by
  unfold trimDrgF trimDrg
  rw [thresholdGraphF_plain h]

/-! ### DRGEP, undefined entries -/

section
variable {pop : Pop String} {R : ℚ → PyF} {src : String}

/-- what holds during a search in a graph with undefined weights only -/
structure BlankInv (src : String) (s : DijState String PyF) : Prop where
  fringe : ∀ e ∈ s.fringe, e.2.2 ≠ src → e.1 = .nan
  seen : ∀ u, u ≠ src → s.seen u = none ∨ s.seen u = some .nan
  source : s.seen src ≠ none
  notless : ∀ y, s.seen src = some y → y.lt .nan = false
  dist : ∀ u, u ≠ src → s.dist u = none ∨ s.dist u = some .nan

/-- nodes that were not seen yet and entries of the heap -/
def blankMeasure (names : List String) (s : DijState String PyF) : Nat :=
  (names.filter (fun u => (s.seen u).isNone)).length + s.fringe.length

theorem lt_nan (x : PyF) : x.lt .nan = false := by cases x <;> rfl

theorem blank_relax {names : List String} {dv : PyF} {s : DijState String PyF} (I : BlankInv src s)
    {u : String} (hu : u ∈ names) :
    BlankInv src (relaxEdgeF R dv s (u, some .nan)) ∧
      blankMeasure names (relaxEdgeF R dv s (u, some .nan)) ≤ blankMeasure names s := by
  have hv : ((dv.mul .nan).rd R) = .nan := by cases dv <;> rfl
  unfold relaxEdgeF
  simp only [hv]
  rcases hs : s.seen u with _ | y
  · have hne : u ≠ src := fun e => I.source (e ▸ hs)
    refine ⟨⟨?_, ?_, ?_, ?_, I.dist⟩, ?_⟩
    · intro e he hes
      rcases List.mem_cons.1 he with rfl | he
      · rfl
      · exact I.fringe e he hes
    · intro x hx
      show (if x = u then _ else _) = none ∨ _
      by_cases hxu : x = u
      · simp [setKeyF, hxu]
      · simpa [setKeyF, hxu] using I.seen x hx
    · simp only [setKeyF, hne.symm, if_false]; exact I.source
    · simp only [setKeyF, hne.symm, if_false]; exact I.notless
    · unfold blankMeasure
      simp only [List.length_cons]
      have : (names.filter (fun x => (setKeyF s.seen u .nan x).isNone)).length <
          (names.filter (fun x => (s.seen x).isNone)).length := by
        have hsub : (names.filter (fun x => (setKeyF s.seen u .nan x).isNone)) =
            (names.filter (fun x => (s.seen x).isNone)).filter (fun x => decide (x ≠ u)) := by
          rw [List.filter_filter]
          apply List.filter_congr
          intro x _
          by_cases hx : x = u <;> simp [setKeyF, hx]
        rw [hsub]
        apply List.length_filter_lt_length_iff_exists.2
        exact ⟨u, List.mem_filter.2 ⟨hu, by simp [hs]⟩, by simp⟩
      omega
  · simp only [lt_nan, Bool.false_eq_true, if_false]
    exact ⟨I, le_refl _⟩

theorem blank_relaxAll {names : List String} {dv : PyF} :
    ∀ (es : List (String × Option PyF)), (∀ e ∈ es, e.1 ∈ names ∧ e.2 = some .nan) →
    ∀ s : DijState String PyF, BlankInv src s →
      BlankInv src (es.foldl (relaxEdgeF R dv) s) ∧
        blankMeasure names (es.foldl (relaxEdgeF R dv) s) ≤ blankMeasure names s := by
  intro es
  induction es with
  | nil => exact fun _ s I => ⟨I, le_refl _⟩
  | cons e es ih =>
      intro he s I
      obtain ⟨u, w⟩ := e
      obtain ⟨hu, hw⟩ := he (u, w) List.mem_cons_self
      simp only at hw hu
      subst hw
      obtain ⟨I1, h1⟩ := blank_relax (R := R) (dv := dv) I hu
      obtain ⟨I2, h2⟩ := ih (fun e he' => he e (List.mem_cons_of_mem _ he')) _ I1
      exact ⟨I2, h2.trans h1⟩

theorem blank_adj {M : NMatF} {names : List String} (h : BlankMatrix M names.length) (v : String) :
    ∀ e ∈ (matrixGraphF M names).adj v, e.1 ∈ names ∧ e.2 = some .nan := by
  intro e he
  simp only [matrixGraphF] at he
  split at he
  · simp at he
  · rename_i i hi
    have hi := idxOf?_lt hi
    obtain ⟨j, hj, he⟩ := List.mem_filterMap.1 he
    obtain ⟨hj, hne⟩ := List.mem_filter.1 hj
    have hj := List.mem_range.1 hj
    rw [List.getElem?_eq_getElem hj] at he
    simp only [Option.map_some, Option.some.injEq] at he
    subst he
    refine ⟨List.getElem_mem _, ?_⟩
    rcases h i hi j hj with e | e
    · simp [e, PyF.eq] at hne
    · simp [e]

theorem blank_step (hp : TakesOne pop) {M : NMatF} {names : List String}
    (h : BlankMatrix M names.length) {s : DijState String PyF} (I : BlankInv src s) :
    (s.fringe = [] ∧ dijStepF pop (matrixGraphF M names) R src s = none) ∨
    ∃ t, dijStepF pop (matrixGraphF M names) R src s = some t ∧ BlankInv src t ∧
      blankMeasure names t < blankMeasure names s := by
  by_cases hf : s.fringe = []
  · refine .inl ⟨hf, ?_⟩
    unfold dijStepF
    rw [hf, hp.1]
  · right
    obtain ⟨⟨d, k, v⟩, rest, e, hperm⟩ := hp.2 _ hf
    have hmem : ∀ x ∈ rest, x ∈ s.fringe := fun x hx => hperm.mem_iff.2 (List.mem_cons_of_mem _ hx)
    have hlen : s.fringe.length = rest.length + 1 := by simpa using hperm.length_eq
    have I1 : BlankInv src { s with fringe := rest } :=
      ⟨fun x hx => I.fringe x (hmem x hx), I.seen, I.source, I.notless, I.dist⟩
    have hm1 : blankMeasure names { s with fringe := rest } < blankMeasure names s := by
      unfold blankMeasure
      simp only
      omega
    unfold dijStepF
    rw [e]
    simp only
    split_ifs with ha hv
    · exact ⟨_, rfl, I1, hm1⟩
    · refine ⟨_, rfl, ?_⟩
      have I2 : BlankInv src { s with fringe := rest, dist := setKeyF s.dist v (.fin 1) } := by
        refine ⟨I1.fringe, I1.seen, I1.source, I1.notless, fun u hu => ?_⟩
        have : u ≠ v := fun e => hu (e.trans hv)
        simpa [setKeyF, this] using I.dist u hu
      obtain ⟨I3, h3⟩ := blank_relaxAll (R := R) (dv := .fin 1) _ (blank_adj h v) _ I2
      exact ⟨I3, lt_of_le_of_lt h3 hm1⟩
    · refine ⟨_, rfl, ?_⟩
      have hd : d = .nan := I.fringe (d, k, v) (hperm.mem_iff.2 List.mem_cons_self) hv
      have I2 : BlankInv src { s with fringe := rest, dist := setKeyF s.dist v d } := by
        refine ⟨I1.fringe, I1.seen, I1.source, I1.notless, fun u hu => ?_⟩
        by_cases huv : u = v
        · simp [setKeyF, huv, hd]
        · simpa [setKeyF, huv] using I.dist u hu
      obtain ⟨I3, h3⟩ := blank_relaxAll (R := R) (dv := d) _ (blank_adj h v) _ I2
      exact ⟨I3, lt_of_le_of_lt h3 hm1⟩

theorem blank_loop (hp : TakesOne pop) {M : NMatF} {names : List String}
    (h : BlankMatrix M names.length) : ∀ (k : Nat) (s : DijState String PyF), BlankInv src s →
    blankMeasure names s < k → ∃ d, dijLoopF pop (matrixGraphF M names) R src k s = some d ∧
      ∀ u, u ≠ src → d u = none ∨ d u = some .nan := by
  intro k
  induction k with
  | zero => intro s _ hk; omega
  | succ k ih =>
      intro s I hk
      unfold dijLoopF
      rcases blank_step (R := R) hp h I with ⟨_, e⟩ | ⟨t, e, I', hlt⟩
      · rw [e]; exact ⟨_, rfl, I.dist⟩
      · rw [e]; exact ih t I' (by omega)

/-- a search along undefined coefficients ends, and finds undefined values only -/
theorem blank_search (hp : TakesOne pop) {M : NMatF} {names : List String}
    (h : BlankMatrix M names.length) (hs : src ∈ names) {fuel : Nat} (hf : names.length < fuel) :
    ∃ d, ssDijkstraF pop R (matrixGraphF M names) src fuel = .ok d ∧
      ∀ u, u ≠ src → d u = none ∨ d u = some .nan := by
  have I : BlankInv src (dijInitF src) := by
    refine ⟨?_, ?_, ?_, ?_, fun u _ => .inl rfl⟩
    · intro e he hne
      simp only [dijInitF, List.mem_singleton] at he
      subst he; exact absurd rfl hne
    · intro u hu; left; simp [dijInitF, hu]
    · simp [dijInitF]
    · intro y _; exact lt_nan y
  have hm : blankMeasure names (dijInitF src) < fuel := by
    refine lt_of_le_of_lt ?_ hf
    unfold blankMeasure
    have : (names.filter (fun u => ((dijInitF src).seen u).isNone)).length < names.length :=
      List.length_filter_lt_length_iff_exists.2 ⟨src, hs, by simp [dijInitF]⟩
    have h2 : (dijInitF src).fringe.length = 1 := rfl
    omega
  obtain ⟨d, e, hd⟩ := blank_loop (R := R) hp h fuel _ I hm
  refine ⟨d, ?_, hd⟩
  unfold ssDijkstraF
  rw [if_pos (show src ∈ (matrixGraphF M names).nodes from hs), e]

end

/-! ### DRGEP, zero coefficients -/

theorem zero_adj {M : NMat} {names : List String} (h : ∀ i < names.length, ∀ j < names.length, M i j = 0)
    (v : String) : (matrixGraph M names).adj v = [] := by
  simp only [matrixGraph]
  split
  · rfl
  · rename_i i hi
    have hi := idxOf?_lt hi
    have : (List.range names.length).filter (fun j => M i j != 0) = [] := by
      rw [List.filter_eq_nil_iff]
      intro j hj
      simp [h i hi j (List.mem_range.1 hj)]
    rw [this]; rfl

theorem zero_search {rnd : ℚ → ℚ} {M : NMat} {names : List String}
    (h : ∀ i < names.length, ∀ j < names.length, M i j = 0) {src : String} (hs : src ∈ names)
    {fuel : Nat} (hf : names.length < fuel) :
    ssDijkstra rnd (matrixGraph M names) src fuel = .ok (setKey (fun _ => none) src 1) := by
  have hpos : 0 < names.length := List.length_pos_of_mem hs
  obtain ⟨k, rfl⟩ : ∃ k, fuel = k + 2 := ⟨fuel - 2, by omega⟩
  unfold ssDijkstra
  rw [if_pos (show src ∈ (matrixGraph M names).nodes from hs)]
  have : modDijkstra (matrixGraph M names) 0 1 (fun a b => rnd (a * b)) src none none (k + 2) =
      some (setKey (fun _ => none) src 1) := by
    simp [modDijkstra, dijLoop, dijStep, dijInit, popMin, alreadySearched, zero_adj h]
  rw [this]

/-! ### DRGEP, finite coefficients -/

section
variable {rnd : ℚ → ℚ}

/-- the same state with floating-point numbers -/
structure LiftState (s : DijState String ℚ) (t : DijState String PyF) : Prop where
  dist : ∀ u, t.dist u = (s.dist u).map .fin
  seen : ∀ u, t.seen u = (s.seen u).map .fin
  fringe : t.fringe = s.fringe.map liftEntry
  cnt : t.cnt = s.cnt

theorem lift_relax {s : DijState String ℚ} {t : DijState String PyF} (L : LiftState s t) (dv : ℚ)
    (u : String) (w : Option ℚ) :
    LiftState (relaxEdge (fun a b => rnd (a * b)) none dv s (u, w))
      (relaxEdgeF (fun q => .fin (rnd q)) (.fin dv) t (u, w.map .fin)) := by
  rcases w with _ | w
  · exact L
  · have hv : (((PyF.fin dv).mul (.fin w)).rd (fun q => .fin (rnd q))) = .fin (rnd (dv * w)) := rfl
    have push : LiftState
        { s with seen := setKey s.seen u (rnd (dv * w))
                 fringe := (rnd (dv * w), s.cnt, u) :: s.fringe
                 cnt := s.cnt + 1 }
        { t with seen := setKeyF t.seen u (.fin (rnd (dv * w)))
                 fringe := (.fin (rnd (dv * w)), t.cnt, u) :: t.fringe
                 cnt := t.cnt + 1 } := by
      refine ⟨L.dist, fun x => ?_, ?_, by simp [L.cnt]⟩
      · by_cases hx : x = u <;> simp [setKey, setKeyF, hx, L.seen]
      · simp [L.fringe, L.cnt, liftEntry]
    unfold relaxEdge relaxEdgeF
    simp only [Option.map_some, hv]
    rw [L.seen u]
    rcases hs : s.seen u with _ | y
    · simpa using push
    · simp only [Option.map_some, PyF.lt, decide_eq_true_eq, gt_iff_lt]
      split_ifs
      · exact push
      · exact L

theorem lift_relaxAll (dv : ℚ) : ∀ (es : List (String × Option ℚ)) {s : DijState String ℚ}
    {t : DijState String PyF}, LiftState s t →
    LiftState (es.foldl (relaxEdge (fun a b => rnd (a * b)) none dv) s)
      ((es.map (fun e => (e.1, e.2.map PyF.fin))).foldl (relaxEdgeF (fun q => .fin (rnd q)) (.fin dv)) t) := by
  intro es
  induction es with
  | nil => exact fun L => L
  | cons e es ih => exact fun L => ih (lift_relax L dv e.1 e.2)

theorem lift_adj {M : NMatF} {names : List String} (h : FiniteMatrix M names.length) (v : String) :
    (matrixGraphF M names).adj v =
      ((matrixGraph (plain M) names).adj v).map (fun e => (e.1, e.2.map PyF.fin)) := by
  simp only [matrixGraphF, matrixGraph]
  rcases hi : names.idxOf? v with _ | i
  · rfl
  · have hi := idxOf?_lt hi
    simp only
    rw [List.map_filterMap]
    have e1 : (List.range names.length).filter (fun j => !((M i j).eq (.fin 0))) =
        (List.range names.length).filter (fun j => plain M i j != 0) := by
      apply List.filter_congr
      intro j hj
      obtain ⟨q, e⟩ := h i hi j (List.mem_range.1 hj)
      unfold plain; rw [e]; by_cases h0 : q = 0 <;> simp [PyF.eq, h0]
    rw [e1]
    apply List.filterMap_congr
    intro j hj
    obtain ⟨q, e⟩ := h i hi j (List.mem_range.1 (List.mem_filter.1 hj).1)
    have : plain M i j = q := by unfold plain; rw [e]
    rw [this, e]
    cases names[j]? <;> rfl

theorem lift_loop {pop : Pop String} (hp : TakesLeast pop) {M : NMatF} {names : List String}
    (h : FiniteMatrix M names.length) (src : String) : ∀ (k : Nat) {s : DijState String ℚ}
    {t : DijState String PyF}, LiftState s t →
    (dijLoopF pop (matrixGraphF M names) (fun q => .fin (rnd q)) src k t) =
      (dijLoop (matrixGraph (plain M) names) 1 (fun a b => rnd (a * b)) src none none k s).map
        (fun d u => (d u).map PyF.fin) := by
  intro k
  induction k with
  | zero => intros; rfl
  | succ k ih =>
      intro s t L
      unfold dijLoopF dijLoop dijStepF dijStep
      rw [L.fringe, hp]
      rcases hpop : popMin s.fringe with _ | ⟨⟨d, c, v⟩, rest⟩
      · simp only [Option.map_none, Option.map_some]
        congr 1; funext u; exact L.dist u
      · simp only [Option.map_some, liftEntry]
        have ha : alreadySearchedF t.dist v (.fin d) = alreadySearched s.dist v d := by
          unfold alreadySearchedF alreadySearched
          rw [L.dist]
          cases s.dist v <;> rfl
        rw [ha]
        by_cases hb : alreadySearched s.dist v d = true
        · rw [if_pos hb, if_pos hb]
          exact ih ⟨L.dist, L.seen, rfl, L.cnt⟩
        · rw [if_neg hb, if_neg hb]
          have hd : (if v = src then PyF.fin 1 else .fin d) = .fin (if v = src then 1 else d) := by
            split_ifs <;> rfl
          simp only [reduceCtorEq, if_false, hd, lift_adj h]
          apply ih
          apply lift_relaxAll
          refine ⟨fun u => ?_, L.seen, rfl, L.cnt⟩
          by_cases hu : u = v <;> simp [setKey, setKeyF, hu, L.dist]

theorem lift_search {pop : Pop String} (hp : TakesLeast pop) {M : NMatF} {names : List String}
    (h : FiniteMatrix M names.length) (src : String) (fuel : Nat) :
    ssDijkstraF pop (fun q => .fin (rnd q)) (matrixGraphF M names) src fuel =
      (ssDijkstra rnd (matrixGraph (plain M) names) src fuel).map (fun d u => (d u).map PyF.fin) := by
  unfold ssDijkstraF ssDijkstra
  have e : (src ∈ (matrixGraphF M names).nodes) = (src ∈ (matrixGraph (plain M) names).nodes) := rfl
  by_cases hs : src ∈ (matrixGraph (plain M) names).nodes
  · rw [if_pos (e ▸ hs), if_pos hs]
    have L : LiftState (dijInit 0 src) (dijInitF src) := by
      refine ⟨fun u => rfl, fun u => ?_, rfl, rfl⟩
      by_cases hu : u = src <;> simp [dijInit, dijInitF, hu]
    rw [lift_loop (rnd := rnd) hp h src fuel L]
    unfold modDijkstra
    rcases dijLoop (matrixGraph (plain M) names) 1 (fun a b => rnd (a * b)) src none none fuel
      (dijInit 0 src) with _ | d <;> rfl
  · rw [if_neg hs, if_neg (e ▸ hs)]; rfl

/-! ### maxima over targets and states -/

theorem pyMax2_fin (a b : ℚ) : pyMax2 (.fin a) (.fin b) = .fin (max a b) := by
  simp only [pyMax2, PyF.lt, decide_eq_true_eq]
  split_ifs with h
  · rw [max_eq_right h.le]
  · rw [max_eq_left (not_lt.1 h)]

/-- the same values, a missing one counting as zero -/
def SameValues (f : String → Option PyF) (g : String → Option ℚ) : Prop :=
  ∀ u, (f u).getD (.fin 0) = .fin ((g u).getD 0)

theorem merge_same {f : String → Option PyF} {g : String → Option ℚ} (h : SameValues f g)
    {cF : String → Option PyF} {c : String → Option ℚ} (hc : ∀ u, cF u = (c u).map .fin) :
    SameValues (mergeMaxF f cF) (mergeMax g c) := by
  intro u
  unfold mergeMaxF mergeMax
  rw [hc u]
  rcases c u with _ | x
  · exact h u
  · simp only [Option.map_some, Option.getD_some, h u, pyMax2_fin]

theorem search_finite {pop : Pop String} (hp : TakesLeast pop) {M : NMatF} {names : List String}
    (h : FiniteMatrix M names.length) (fuel : Nat) : ∀ (ts : List String)
    {f : String → Option PyF} {g : String → Option ℚ}, SameValues f g →
    (∃ e, searchLoopF pop (fun q => .fin (rnd q)) (matrixGraphF M names) fuel ts f = .error e ∧
      searchLoop rnd (matrixGraph (plain M) names) fuel ts g = .error e) ∨
    ∃ f' g', searchLoopF pop (fun q => .fin (rnd q)) (matrixGraphF M names) fuel ts f = .ok f' ∧
      searchLoop rnd (matrixGraph (plain M) names) fuel ts g = .ok g' ∧ SameValues f' g' := by
  intro ts
  induction ts with
  | nil => exact fun h => .inr ⟨_, _, rfl, rfl, h⟩
  | cons t ts ih =>
      intro f g hfg
      unfold searchLoopF searchLoop
      rw [lift_search (rnd := rnd) hp h]
      rcases ssDijkstra rnd (matrixGraph (plain M) names) t fuel with e | d
      · exact .inl ⟨e, rfl, rfl⟩
      · apply ih
        apply merge_same hfg
        intro u
        by_cases hu : u = t <;> simp [setKey, setKeyF, hu]

theorem search_blank {pop : Pop String} (hp : TakesOne pop) {R : ℚ → PyF} {M : NMatF}
    {names : List String} (h : BlankMatrix M names.length) {fuel : Nat} (hf : names.length < fuel) :
    ∀ (ts : List String) {f : String → Option PyF} {g : String → Option ℚ}, SameValues f g →
    (∃ e, searchLoopF pop R (matrixGraphF M names) fuel ts f = .error e ∧
      searchLoop rnd (matrixGraph (plain M) names) fuel ts g = .error e) ∨
    ∃ f' g', searchLoopF pop R (matrixGraphF M names) fuel ts f = .ok f' ∧
      searchLoop rnd (matrixGraph (plain M) names) fuel ts g = .ok g' ∧ SameValues f' g' := by
  have hz : ∀ i < names.length, ∀ j < names.length, plain M i j = 0 := by
    intro i hi j hj
    unfold plain
    rcases h i hi j hj with e | e <;> rw [e]
  intro ts
  induction ts with
  | nil => exact fun h => .inr ⟨_, _, rfl, rfl, h⟩
  | cons t ts ih =>
      intro f g hfg
      unfold searchLoopF searchLoop
      by_cases ht : t ∈ names
      · obtain ⟨d, e, hd⟩ := blank_search (R := R) hp h ht hf
        rw [e, zero_search hz ht hf]
        apply ih
        intro u
        unfold mergeMaxF mergeMax
        by_cases hu : u = t
        · have := hfg u
          simp only [hu] at this
          simp [setKeyF, setKey, hu, this, pyMax2_fin]
        · rcases hd u hu with e | e
          · simpa [setKeyF, setKey, hu, e] using hfg u
          · have := hfg u
            simp [setKeyF, setKey, hu, e, pyMax2, lt_nan, this]
      · have e1 : ssDijkstraF pop R (matrixGraphF M names) t fuel = .error .keyError := by
          unfold ssDijkstraF; rw [if_neg (show t ∉ (matrixGraphF M names).nodes from ht)]
        have e2 : ssDijkstra rnd (matrixGraph (plain M) names) t fuel = .error .keyError := by
          unfold ssDijkstra; rw [if_neg (show t ∉ (matrixGraph (plain M) names).nodes from ht)]
        rw [e1, e2]
        exact .inl ⟨_, rfl, rfl⟩

/-- importance coefficients: a matrix of undefined entries counts as a matrix of zeros -/
theorem importanceF_plain {pop : Pop String} (hp1 : TakesOne pop) (hp2 : TakesLeast pop)
    (names targets : List String) (Ms : List NMatF)
    (h : ∀ M ∈ Ms, FiniteMatrix M names.length ∨ BlankMatrix M names.length) {fuel : Nat}
    (hf : names.length < fuel) :
    importanceF pop (fun q => .fin (rnd q)) names targets Ms fuel =
      (getImportanceCoeffs rnd names targets (Ms.map plain) fuel).map
        (fun imp sp => (imp sp).map PyF.fin) := by
  unfold importanceF getImportanceCoeffs
  have start : (fun sp => if sp ∈ names then some (PyF.fin 0) else none) =
      (fun sp => ((fun sp => if sp ∈ names then some (0 : ℚ) else none) sp).map PyF.fin) := by
    funext sp; by_cases hs : sp ∈ names <;> simp [hs]
  rw [start]
  generalize (fun sp => if sp ∈ names then some (0 : ℚ) else none) = imp
  induction Ms generalizing imp with
  | nil => rfl
  | cons M Ms ih =>
      unfold importanceLoopF
      simp only [List.map_cons]
      unfold importanceLoop graphSearchDrgep
      have h0 : SameValues (fun _ => none) (fun _ => none) := fun u => rfl
      have key : (∃ e, searchLoopF pop (fun q => .fin (rnd q)) (matrixGraphF M names) fuel targets
            (fun _ => none) = .error e ∧
          searchLoop rnd (matrixGraph (plain M) names) fuel targets (fun _ => none) = .error e) ∨
        ∃ f' g', searchLoopF pop (fun q => .fin (rnd q)) (matrixGraphF M names) fuel targets
            (fun _ => none) = .ok f' ∧
          searchLoop rnd (matrixGraph (plain M) names) fuel targets (fun _ => none) = .ok g' ∧
          SameValues f' g' := by
        rcases h M List.mem_cons_self with hM | hM
        · exact search_finite hp2 hM fuel targets h0
        · exact search_blank hp1 hM hf targets h0
      rcases key with ⟨e, e1, e2⟩ | ⟨f', g', e1, e2, hs⟩
      · rw [e1, e2]; rfl
      · rw [e1, e2]
        simp only
        have : maxIntoF f' (fun sp => (imp sp).map PyF.fin) =
            (fun sp => ((maxInto g' imp) sp).map PyF.fin) := by
          funext sp
          unfold maxIntoF maxInto
          dsimp only
          rcases imp sp with _ | x
          · rfl
          · simp only [Option.map_some, hs sp, pyMax2_fin]
        rw [this]
        exact ih (fun M' hM' => h M' (List.mem_cons_of_mem _ hM')) _

end
end Verif
