import Verif.Spec.Rename
import Mathlib.Logic.Equiv.Basic
/-!
# Every step of a reduction commutes with a renaming of the species
-/
namespace Verif
open Spec

variable {σ : String ≃ String}

theorem contains_map_equiv {α β} [DecidableEq α] [DecidableEq β] (f : α ≃ β) (l : List α) (a : α) :
    (l.map f).contains (f a) = l.contains a := by
  rw [Bool.eq_iff_iff]
  simp

theorem filter_map_equiv {α β} (f : α → β) (p : β → Bool) (q : α → Bool) (h : ∀ a, p (f a) = q a) (l : List α) :
    (l.map f).filter p = (l.filter q).map f := by
  rw [List.filter_map]
  congr 1
  exact List.filter_congr (fun a _ => h a)

theorem renMech_names (m : Mech) : (renMech σ m).names = m.names.map σ := by
  simp [renMech, Mech.names, Function.comp_def]

theorem renMech_nSpecies (m : Mech) : (renMech σ m).nSpecies = m.nSpecies := by
  simp [renMech, Mech.nSpecies]

theorem renKeys_symm (l : List (String × ℚ)) : renKeys σ.symm (renKeys σ l) = l := by
  simp [renKeys, Function.comp_def]

theorem renReaction_symm (r : Reaction) : renReaction σ.symm (renReaction σ r) = r := by
  obtain ⟨a, b, t, k⟩ := r
  cases t <;> simp [renReaction, renKeys_symm]

theorem renMech_symm (m : Mech) : renMech σ.symm (renMech σ m) = m := by
  obtain ⟨s, r, t, p, n⟩ := m
  simp [renMech, Function.comp_def, renReaction_symm]

/-! ### `trim` -/

theorem skip_ren (excl : List String) (r : Reaction) :
    skipExplicitThirdBody (excl.map σ) (renReaction σ r) = skipExplicitThirdBody excl r := by
  obtain ⟨a, b, t, k⟩ := r
  cases t with
  | none => rfl
  | some t =>
    obtain ⟨d, l⟩ := t
    unfold skipExplicitThirdBody renReaction
    dsimp only [Option.map_some]
    split_ifs
    · match l with
      | [] => rfl
      | [e] => exact contains_map_equiv σ excl e.1
      | _ :: _ :: _ => rfl
    · rfl

theorem kept_ren (names : List String) (r : Reaction) :
    allSpeciesKept (names.map σ) (renReaction σ r) = allSpeciesKept names r := by
  unfold allSpeciesKept renReaction renKeys
  dsimp only
  rw [List.map_map, List.map_map]
  have : ∀ l : List (String × ℚ), l.map (Prod.fst ∘ fun p => (σ p.1, p.2)) = (l.map Prod.fst).map σ := by
    intro l; rw [List.map_map]; rfl
  rw [this, this, ← List.map_append, List.all_map]
  congr 1
  funext s
  exact contains_map_equiv σ names s

theorem filterThirdBody_ren (names : List String) (r : Reaction) :
    filterThirdBody (names.map σ) (renReaction σ r) = renReaction σ (filterThirdBody names r) := by
  obtain ⟨a, b, t, k⟩ := r
  cases t with
  | none => rfl
  | some t =>
    obtain ⟨d, l⟩ := t
    unfold filterThirdBody renReaction renKeys
    dsimp only [Option.map_some]
    rw [filter_map_equiv _ _ (fun e => names.contains e.1) (fun e => contains_map_equiv σ names e.1)]

theorem reactionLoop_ren (excl names : List String) : ∀ (acc rs : List Reaction),
    reactionLoop (excl.map σ) (names.map σ) (acc.map (renReaction σ)) (rs.map (renReaction σ)) =
      (reactionLoop excl names acc rs).map (renReaction σ)
  | acc, [] => rfl
  | acc, r :: rs => by
    rw [List.map_cons, reactionLoop, reactionLoop, skip_ren, kept_ren, filterThirdBody_ren]
    split_ifs
    · exact reactionLoop_ren excl names acc rs
    · rw [← reactionLoop_ren excl names _ rs, List.map_append]; rfl
    · exact reactionLoop_ren excl names acc rs

theorem trim_ren (m : Mech) (excl : List String) (f p : Text) :
    trim (renMech σ m) (excl.map σ) f p = renMech σ (trim m excl f p) := by
  unfold trim
  have h1 : finalSpecies (renMech σ m) (excl.map σ) =
      (finalSpecies m excl).map (fun s => { s with name := σ s.name }) := by
    unfold finalSpecies renMech
    exact filter_map_equiv _ _ _ (fun s => by dsimp only; rw [contains_map_equiv σ excl s.name]) _
  have h2 : ∀ l : List Species, (l.map (fun s => { s with name := σ s.name })).map (·.name) = (l.map (·.name)).map σ := by
    intro l; rw [List.map_map, List.map_map]; rfl
  have h3 := reactionLoop_ren (σ := σ) excl ((finalSpecies m excl).map (·.name)) [] m.reactions
  simp only [h1, h2]
  rw [show (renMech σ m).reactions = m.reactions.map (renReaction σ) from rfl]
  rw [List.map_nil] at h3
  rw [h3]
  rfl

/-! ### graph search -/

section dfs
variable {α β : Type} [DecidableEq α] [DecidableEq β] (f : α ≃ β)

theorem dfsStep_equiv {succ : α → List α} {succ' : β → List β} (hs : ∀ a, succ' (f a) = (succ a).map f) (s : DfsState α) :
    dfsStep succ' ⟨s.visited.map f, s.stack.map (List.map f)⟩ =
      ⟨(dfsStep succ s).visited.map f, (dfsStep succ s).stack.map (List.map f)⟩ := by
  obtain ⟨v, st⟩ := s
  match st with
  | [] => rfl
  | [] :: rest => rfl
  | (c :: cs) :: rest =>
    simp only [List.map_cons, dfsStep]
    have : f c ∈ v.map f ↔ c ∈ v := by simp
    by_cases h : c ∈ v
    · rw [if_pos (this.2 h), if_pos h]; rfl
    · rw [if_neg (fun h' => h (this.1 h')), if_neg h]
      simp [hs]

theorem dfsLoop_equiv {succ : α → List α} {succ' : β → List β} (hs : ∀ a, succ' (f a) = (succ a).map f) :
    ∀ (k : Nat) (s : DfsState α), dfsLoop succ' k ⟨s.visited.map f, s.stack.map (List.map f)⟩ =
      (dfsLoop succ k s).map (List.map f)
  | 0, s => by
    unfold dfsLoop
    dsimp only
    by_cases h : s.stack = []
    · rw [if_pos h, if_pos (by rw [h]; rfl)]; rfl
    · rw [if_neg h, if_neg (by simpa using h)]; rfl
  | k + 1, s => by
    unfold dfsLoop
    dsimp only
    by_cases h : s.stack = []
    · rw [if_pos h, if_pos (by rw [h]; rfl)]; rfl
    · rw [if_neg h, if_neg (by simpa using h), dfsStep_equiv f hs, dfsLoop_equiv hs k]

variable {g : Digraph α} {g' : Digraph β}

theorem dfsPreorder_equiv (hn : g'.nodes = g.nodes.map f) (hs : ∀ a, g'.succ (f a) = (g.succ a).map f) (a : α) :
    dfsPreorder g' (f a) = (dfsPreorder g a).map (List.map f) := by
  unfold dfsPreorder
  have hf : dfsFuel g' = dfsFuel g := by
    unfold dfsFuel
    rw [hn, List.map_map]
    congr 1
    apply List.map_congr_left
    intro v _
    simp [hs]
  have h := dfsLoop_equiv f hs (dfsFuel g) ⟨[a], [g.succ a]⟩
  simp only [List.map_cons, List.map_nil] at h
  rw [hf, hn, hs, h]
  have : f a ∈ g.nodes.map f ↔ a ∈ g.nodes := by simp
  by_cases hm : a ∈ g.nodes
  · rw [if_pos (this.2 hm), if_pos hm]
    cases dfsLoop g.succ (dfsFuel g) ⟨[a], [g.succ a]⟩ <;> rfl
  · rw [if_neg (fun h' => hm (this.1 h')), if_neg hm]; rfl

theorem graphSearchLoop_equiv (hn : g'.nodes = g.nodes.map f) (hs : ∀ a, g'.succ (f a) = (g.succ a).map f) :
    ∀ (acc ts : List α), graphSearchLoop g' (acc.map f) (ts.map f) = (graphSearchLoop g acc ts).map (List.map f)
  | acc, [] => rfl
  | acc, t :: ts => by
    rw [List.map_cons, graphSearchLoop, graphSearchLoop, dfsPreorder_equiv f hn hs]
    cases dfsPreorder g t with
    | error e => rfl
    | ok l =>
      have := graphSearchLoop_equiv hn hs (acc ++ l) ts
      rw [List.map_append] at this
      exact this

theorem graphSearch_equiv (hn : g'.nodes = g.nodes.map f) (hs : ∀ a, g'.succ (f a) = (g.succ a).map f) (ts : List α) :
    graphSearch g' (ts.map f) = (graphSearch g ts).map (List.map f) := by
  unfold graphSearch
  have := graphSearchLoop_equiv f hn hs [] ts
  rw [List.map_nil] at this
  rw [this]
  cases graphSearchLoop g [] ts with
  | error e => rfl
  | ok l =>
    show Except.ok _ = Except.ok _
    rw [List.dedup_map_of_injective f.injective]

end dfs

theorem idxOf?_map_equiv (l : List String) (s : String) : (l.map σ).idxOf? (σ s) = l.idxOf? s := by
  induction l with
  | nil => rfl
  | cons a l ih =>
    rw [List.map_cons, List.idxOf?_cons, List.idxOf?_cons, ih]
    have : (σ a == σ s) = (a == s) := by rw [Bool.eq_iff_iff]; simp
    rw [this]

theorem thresholdGraph_ren (M : NMat) (names : List String) (thr : ℚ) (s : String) :
    (thresholdGraph M (names.map σ) thr).succ (σ s) = ((thresholdGraph M names thr).succ s).map σ := by
  unfold thresholdGraph
  dsimp only
  rw [idxOf?_map_equiv]
  cases names.idxOf? s with
  | none => rfl
  | some i =>
    dsimp only
    rw [List.map_filterMap, List.length_map]
    apply List.filterMap_congr
    intro j _
    rw [List.getElem?_map]

theorem trimDrg_ren (M : NMat) (names targets : List String) (thr : ℚ) :
    trimDrg M (names.map σ) (targets.map σ) thr = (trimDrg M names targets thr).map (List.map σ) :=
  graphSearch_equiv σ rfl (thresholdGraph_ren M names thr) targets

theorem retainedLoop_ren (names targets : List String) (thr : ℚ) : ∀ (Ms : List NMat) (acc : List String),
    retainedLoop (names.map σ) (targets.map σ) thr Ms (acc.map σ) = (retainedLoop names targets thr Ms acc).map (List.map σ)
  | [], acc => rfl
  | M :: Ms, acc => by
    rw [retainedLoop, retainedLoop, trimDrg_ren]
    cases trimDrg M names targets thr with
    | error e => rfl
    | ok l =>
      have := retainedLoop_ren names targets thr Ms (acc ++ l)
      rw [List.map_append] at this
      exact this

theorem retained_ren (Ms : List NMat) (names targets : List String) (thr : ℚ) :
    retained Ms (names.map σ) (targets.map σ) thr = (retained Ms names targets thr).map (List.map σ) := by
  unfold retained
  have := retainedLoop_ren (σ := σ) names targets thr Ms []
  rw [List.map_nil] at this
  rw [this]
  cases retainedLoop names targets thr Ms [] with
  | error e => rfl
  | ok l =>
    show Except.ok _ = Except.ok _
    rw [List.dedup_map_of_injective σ.injective]

/-! ### path search -/

section dijkstra
variable {α β K : Type} [DecidableEq α] [DecidableEq β] [LinearOrder K] (f : α ≃ β)

/-- rename the nodes of heap entries -/
def renEntry (e : Entry α K) : Entry β K := (e.1, e.2.1, f e.2.2)

/-- rename the nodes of a state of the search -/
def renDij (s : DijState α K) : DijState β K :=
  ⟨fun b => s.dist (f.symm b), fun b => s.seen (f.symm b), s.fringe.map (renEntry f), s.cnt⟩

theorem popMin_equiv : ∀ l : List (Entry α K), popMin (l.map (renEntry f)) =
    (popMin l).map (fun r => (renEntry f r.1, r.2.map (renEntry f)))
  | [] => rfl
  | e :: es => by
    rw [List.map_cons, popMin, popMin, popMin_equiv es]
    cases popMin es with
    | none => rfl
    | some r =>
      obtain ⟨x, rest⟩ := r
      dsimp only [Option.map_some]
      have : entryLt (renEntry f x) (renEntry f e) = entryLt x e := rfl
      rw [this]
      split_ifs <;> rfl

theorem setKey_equiv (d : α → Option K) (k : α) (v : K) :
    setKey (fun b => d (f.symm b)) (f k) v = fun b => setKey d k v (f.symm b) := by
  funext b
  unfold setKey
  have : b = f k ↔ f.symm b = k := (Equiv.symm_apply_eq f).symm
  by_cases h : f.symm b = k
  · rw [if_pos h, if_pos (this.2 h)]
  · rw [if_neg h, if_neg (fun h' => h (this.1 h'))]

theorem relaxEdge_equiv (mul : K → K → K) (cutoff : Option K) (dv : K) (s : DijState α K) (e : α × Option K) :
    relaxEdge mul cutoff dv (renDij f s) (f e.1, e.2) = renDij f (relaxEdge mul cutoff dv s e) := by
  obtain ⟨u, w⟩ := e
  unfold relaxEdge
  cases w with
  | none => rfl
  | some w =>
    dsimp only
    cases cutoff with
    | some c => dsimp only; split_ifs <;> rfl
    | none =>
      dsimp only
      have hs : (renDij f s).seen (f u) = s.seen u := by simp [renDij]
      have hp : ({ renDij f s with seen := setKey (renDij f s).seen (f u) (mul dv w)
                                   fringe := (mul dv w, (renDij f s).cnt, f u) :: (renDij f s).fringe
                                   cnt := (renDij f s).cnt + 1 } : DijState β K) =
          renDij f { s with seen := setKey s.seen u (mul dv w)
                            fringe := (mul dv w, s.cnt, u) :: s.fringe
                            cnt := s.cnt + 1 } := by
        unfold renDij
        dsimp only
        rw [setKey_equiv]
        rfl
      rw [hs, hp]
      cases s.seen u with
      | none => rfl
      | some y => dsimp only; split_ifs <;> rfl

theorem foldl_relax_equiv (mul : K → K → K) (cutoff : Option K) (dv : K) : ∀ (l : List (α × Option K)) (s : DijState α K),
    (l.map (fun e => (f e.1, e.2))).foldl (relaxEdge mul cutoff dv) (renDij f s) =
      renDij f (l.foldl (relaxEdge mul cutoff dv) s)
  | [], s => rfl
  | e :: l, s => by
    rw [List.map_cons, List.foldl_cons, List.foldl_cons, relaxEdge_equiv, foldl_relax_equiv mul cutoff dv l]

variable {g : WGraph α K} {g' : WGraph β K}

theorem dijLoop_equiv (hadj : ∀ a, g'.adj (f a) = (g.adj a).map (fun e => (f e.1, e.2))) (one : K) (mul : K → K → K)
    (src : α) (cutoff : Option K) (target : Option α) : ∀ (k : Nat) (s : DijState α K),
    dijLoop g' one mul (f src) cutoff (target.map f) k (renDij f s) =
      (dijLoop g one mul src cutoff target k s).map (fun d b => d (f.symm b))
  | 0, s => rfl
  | k + 1, s => by
    rw [dijLoop, dijLoop, dijStep, dijStep]
    rw [show (renDij f s).fringe = s.fringe.map (renEntry f) from rfl, popMin_equiv]
    cases popMin s.fringe with
    | none => rfl
    | some r =>
      obtain ⟨⟨d, n, v⟩, rest⟩ := r
      dsimp only [Option.map_some, renEntry]
      have h1 : alreadySearched (renDij f s).dist (f v) d = alreadySearched s.dist v d := by
        simp [alreadySearched, renDij]
      have h2 : (f v = f src) = (v = src) := by simp
      have h3 : (target.map f = some (f v)) = (target = some v) := by
        cases target <;> simp
      have h4 : ({ ({ renDij f s with fringe := rest.map (renEntry f) } : DijState β K) with
            dist := setKey (renDij f s).dist (f v) (if v = src then one else d) } : DijState β K) =
          renDij f { ({ s with fringe := rest } : DijState α K) with dist := setKey s.dist v (if v = src then one else d) } := by
        unfold renDij
        dsimp only
        rw [setKey_equiv]
      rw [h1]
      by_cases hA : alreadySearched s.dist v d = true
      · rw [if_pos hA, if_pos hA]
        exact dijLoop_equiv hadj one mul src cutoff target k { s with fringe := rest }
      · rw [if_neg hA, if_neg hA]
        simp only [h2, h3, h4, hadj]
        by_cases hT : target = some v
        · simp only [if_pos hT]
          rfl
        · simp only [if_neg hT]
          rw [foldl_relax_equiv]
          exact dijLoop_equiv hadj one mul src cutoff target k _

theorem modDijkstra_equiv (hadj : ∀ a, g'.adj (f a) = (g.adj a).map (fun e => (f e.1, e.2))) (zero one : K) (mul : K → K → K)
    (src : α) (cutoff : Option K) (target : Option α) (k : Nat) :
    modDijkstra g' zero one mul (f src) cutoff (target.map f) k =
      (modDijkstra g zero one mul src cutoff target k).map (fun d b => d (f.symm b)) := by
  unfold modDijkstra
  rw [← dijLoop_equiv f hadj]
  congr 1
  unfold dijInit renDij
  congr 1
  funext b
  dsimp only
  have : b = f src ↔ f.symm b = src := (Equiv.symm_apply_eq f).symm
  by_cases h : f.symm b = src
  · rw [if_pos h, if_pos (this.2 h)]
  · rw [if_neg h, if_neg (fun h' => h (this.1 h'))]

end dijkstra

theorem matrixGraph_ren (M : NMat) (names : List String) (s : String) :
    (matrixGraph M (names.map σ)).adj (σ s) = ((matrixGraph M names).adj s).map (fun e => (σ e.1, e.2)) := by
  unfold matrixGraph
  dsimp only
  rw [idxOf?_map_equiv]
  cases names.idxOf? s with
  | none => rfl
  | some i =>
    dsimp only
    rw [List.map_filterMap, List.length_map]
    apply List.filterMap_congr
    intro j _
    rw [List.getElem?_map, Option.map_map, Option.map_map]
    rfl

theorem ssDijkstra_ren (rnd : ℚ → ℚ) (M : NMat) (names : List String) (s : String) (k : Nat) :
    ssDijkstra rnd (matrixGraph M (names.map σ)) (σ s) k =
      (ssDijkstra rnd (matrixGraph M names) s k).map (fun d b => d (σ.symm b)) := by
  unfold ssDijkstra
  have h := modDijkstra_equiv σ (matrixGraph_ren M names) (0 : ℚ) 1 (fun a b => rnd (a * b)) s none none k
  rw [Option.map_none] at h
  rw [h]
  have hm : σ s ∈ (matrixGraph M (names.map σ)).nodes ↔ s ∈ (matrixGraph M names).nodes := by simp [matrixGraph]
  by_cases hs : s ∈ (matrixGraph M names).nodes
  · rw [if_pos hs, if_pos (hm.2 hs)]
    cases modDijkstra (matrixGraph M names) 0 1 (fun a b => rnd (a * b)) s none none k <;> rfl
  · rw [if_neg hs, if_neg (fun h' => hs (hm.1 h'))]; rfl

theorem searchLoop_ren (rnd : ℚ → ℚ) (M : NMat) (names : List String) (k : Nat) :
    ∀ (ts : List String) (o : String → Option ℚ),
      searchLoop rnd (matrixGraph M (names.map σ)) k (ts.map σ) (fun b => o (σ.symm b)) =
        (searchLoop rnd (matrixGraph M names) k ts o).map (fun d b => d (σ.symm b))
  | [], o => rfl
  | t :: ts, o => by
    rw [List.map_cons, searchLoop, searchLoop, ssDijkstra_ren]
    cases ssDijkstra rnd (matrixGraph M names) t k with
    | error e => rfl
    | ok d =>
      dsimp only [Except.map]
      rw [setKey_equiv σ d t 1]
      exact searchLoop_ren rnd M names k ts (mergeMax o (setKey d t 1))

theorem importanceLoop_ren (rnd : ℚ → ℚ) (names targets : List String) (k : Nat) :
    ∀ (Ms : List NMat) (o : String → Option ℚ),
      importanceLoop rnd (names.map σ) (targets.map σ) k Ms (fun b => o (σ.symm b)) =
        (importanceLoop rnd names targets k Ms o).map (fun d b => d (σ.symm b))
  | [], o => rfl
  | M :: Ms, o => by
    rw [importanceLoop, importanceLoop, graphSearchDrgep, graphSearchDrgep]
    have := searchLoop_ren (σ := σ) rnd M names k targets (fun _ => none)
    rw [this]
    cases searchLoop rnd (matrixGraph M names) k targets (fun _ => none) with
    | error e => rfl
    | ok d =>
      dsimp only [Except.map]
      exact importanceLoop_ren rnd names targets k Ms (maxInto d o)

theorem importance_ren (rnd : ℚ → ℚ) (names targets : List String) (Ms : List NMat) (k : Nat) :
    getImportanceCoeffs rnd (names.map σ) (targets.map σ) Ms k =
      (getImportanceCoeffs rnd names targets Ms k).map (fun d b => d (σ.symm b)) := by
  unfold getImportanceCoeffs
  rw [← importanceLoop_ren]
  congr 1
  funext b
  have : b ∈ names.map σ ↔ σ.symm b ∈ names := by
    rw [List.mem_map]
    constructor
    · rintro ⟨a, ha, rfl⟩; simpa using ha
    · intro h; exact ⟨_, h, by simp⟩
  by_cases h : σ.symm b ∈ names
  · rw [if_pos h, if_pos (this.2 h)]
  · rw [if_neg h, if_neg (fun h' => h (this.1 h'))]

end Verif
