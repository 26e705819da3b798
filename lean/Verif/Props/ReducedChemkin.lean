import Verif.Spec.ReducedChemkin
import Verif.Model.TrimSoln
import Verif.Lemmas.Ck
import Verif.Lemmas.Convert
/-!
# C146: a reduced model, converted to Chemkin
-/
namespace Verif
open Spec

theorem ofList_mem {l : List Text} {t : Text} :
    (l.map String.ofList).contains (String.ofList t) = l.contains t := by
  rw [Bool.eq_iff_iff]
  simp only [List.contains_iff_mem, List.mem_map]
  constructor
  · rintro ⟨a, ha, e⟩
    rwa [← String.ofList_inj.1 e]
  · exact fun h => ⟨t, h, rfl⟩

theorem toDict_filter (names : List Text) (l : List (Text × ℚ)) :
    toDict (l.filter (fun e => names.contains e.1)) =
      (toDict l).filter (fun e => (names.map String.ofList).contains e.1) := by
  unfold toDict
  rw [List.filter_map]
  congr 1
  refine List.filter_congr fun e _ => ?_
  rw [Function.comp, ofList_mem]

theorem toDict_keys (l : List (Text × ℚ)) :
    (toDict l).map Prod.fst = (l.map Prod.fst).map String.ofList := by
  simp [toDict, Function.comp_def]

theorem toReaction_skip (K : Codes) (excl : List Text) (r : Rxn ℚ) :
    skipExplicitThirdBody (excl.map String.ofList) (r.toReaction K) = skipCollider excl r := by
  unfold skipExplicitThirdBody skipCollider Rxn.toReaction
  rcases h : r.third with _ | ⟨d, effs⟩
  · simp
  · simp only [Option.map_some]
    split_ifs
    · rcases effs with _ | ⟨e, _ | ⟨e', l⟩⟩
      · simp [toDict]
      · simp only [toDict, List.map_cons, List.map_nil]; exact ofList_mem
      · simp [toDict]
    · rfl

theorem toReaction_filter (K : Codes) (names : List Text) (r : Rxn ℚ) :
    filterThirdBody (names.map String.ofList) (r.toReaction K) = (filterCollider names r).toReaction K := by
  unfold filterThirdBody filterCollider Rxn.toReaction
  rcases h : r.third with _ | ⟨d, effs⟩
  · simp
  · simp only [Option.map_some, toDict_filter]

theorem toReaction_kept (K : Codes) (names : List Text) (r : Rxn ℚ) :
    allSpeciesKept (names.map String.ofList) (r.toReaction K) =
      (r.products.map Prod.fst ++ r.reactants.map Prod.fst).all (fun s => names.contains s) := by
  unfold allSpeciesKept Rxn.toReaction
  simp only [toDict_keys, ← List.map_append, List.all_map]
  congr 1
  funext t
  exact ofList_mem

theorem toReaction_loop (K : Codes) (excl names : List Text) (acc : List Reaction) (l : List (Rxn ℚ)) :
    reactionLoop (excl.map String.ofList) (names.map String.ofList) acc (l.map (Rxn.toReaction K)) =
      acc ++ (rxnLoop excl names l).map (Rxn.toReaction K) := by
  induction l generalizing acc with
  | nil => simp [reactionLoop, rxnLoop]
  | cons r l ih =>
    rw [List.map_cons, reactionLoop, rxnLoop, toReaction_skip, toReaction_kept]
    split_ifs
    · exact ih acc
    · rw [ih, toReaction_filter, List.map_cons, List.append_assoc]; rfl
    · exact ih acc

/-- **C146**: a model with all its data is reduced as the model whose data are codes: whatever the
codes stand for, reducing and encoding commute. -/
theorem C146_data (K : Codes) (elems : List (Spec1 ℚ) → List Text) (s : Soln ℚ) (excl : List Text)
    (newFile phase : Text) (tr tp th : Nat) :
    trim (s.toMech K tr tp th) (excl.map String.ofList) newFile phase =
      (trimSoln elems s excl newFile phase).toMech K tr tp idealGas := by
  have hs : finalSpecies (s.toMech K tr tp th) (excl.map String.ofList) =
      (s.species.filter (fun sp => !(excl.contains sp.name))).map (Spec1.toSpecies K) := by
    unfold finalSpecies Soln.toMech
    rw [List.filter_map]
    congr 1
    refine List.filter_congr fun x _ => ?_
    show (!(excl.map String.ofList).contains (String.ofList x.name)) = _
    rw [ofList_mem]
  unfold trim
  simp only [hs]
  have hn : ((s.species.filter (fun sp => !(excl.contains sp.name))).map (Spec1.toSpecies K)).map (·.name) =
      ((s.species.filter (fun sp => !(excl.contains sp.name))).map Spec1.name).map String.ofList := by
    simp [Spec1.toSpecies]
  rw [hn]
  have : (s.toMech K tr tp th).reactions = s.reactions.map (Rxn.toReaction K) := rfl
  rw [this, toReaction_loop]
  rfl

/-- the reactions that are left -/
theorem rxnLoop_eq (excl names : List Text) (l : List (Rxn ℚ)) [DecidablePred (Remains names excl)] :
    rxnLoop excl names l = (l.filter fun r => Remains names excl r).map (filterCollider names) := by
  have hk : ∀ r : Rxn ℚ, Remains names excl r ↔ skipCollider excl r = false ∧
      (r.products.map Prod.fst ++ r.reactants.map Prod.fst).all (fun s => names.contains s) = true := by
    intro r
    unfold Remains skipCollider
    have h1 : (∀ kv ∈ r.reactants ++ r.products, kv.1 ∈ names) ↔
        (r.products.map Prod.fst ++ r.reactants.map Prod.fst).all (fun s => names.contains s) = true := by
      simp only [List.all_eq_true, List.mem_append, List.mem_map, List.contains_iff_mem]
      constructor
      · rintro h t (⟨kv, hkv, rfl⟩ | ⟨kv, hkv, rfl⟩)
        · exact h kv (.inr hkv)
        · exact h kv (.inl hkv)
      · rintro h kv (hkv | hkv)
        · exact h _ (.inr ⟨kv, hkv, rfl⟩)
        · exact h _ (.inl ⟨kv, hkv, rfl⟩)
    rw [h1, and_comm]
    refine and_congr ?_ Iff.rfl
    rcases h : r.third with _ | ⟨d, effs⟩
    · simp
    · have e1 : (∀ (tb : Collider ℚ) e, some ⟨d, effs⟩ = some tb → tb.dflt = 0 → tb.effs = [e] → e.1 ∉ excl) ↔
          ∀ e, d = 0 → effs = [e] → e.1 ∉ excl :=
        ⟨fun h e => h _ e rfl, fun h tb e ht => by cases ht; exact h e⟩
      rw [e1]
      by_cases hd : d = 0
      · rcases effs with _ | ⟨e, _ | ⟨e', l⟩⟩ <;> simp [hd]
      · simp [hd]
  induction l with
  | nil => rfl
  | cons r l ih =>
    rw [rxnLoop]
    by_cases h1 : skipCollider excl r = true
    · have : ¬ Remains names excl r := fun h => by simp [((hk r).1 h).1] at h1
      rw [if_pos h1, ih, List.filter_cons_of_neg (by simpa using this)]
    · rw [if_neg h1]
      by_cases h2 : (r.products.map Prod.fst ++ r.reactants.map Prod.fst).all (fun s => names.contains s) = true
      · have : Remains names excl r := (hk r).2 ⟨by simpa using h1, h2⟩
        rw [if_pos h2, ih, List.filter_cons_of_pos (by simpa using this), List.map_cons]
      · have : ¬ Remains names excl r := fun h => h2 ((hk r).1 h).2
        rw [if_neg h2, ih, List.filter_cons_of_neg (by simpa using this)]

/-! ### texts -/

theorem joinText_intercalate (sep : Text) : ∀ l : List Text, joinText sep l = List.intercalate sep l
  | [] => rfl
  | [x] => by simp [joinText, List.intercalate]
  | x :: y :: l => by
      rw [joinText, joinText_intercalate sep (y :: l)]
      · simp [List.intercalate, List.intersperse]
      · simp

theorem efficiencyText_eq (rp : ℚ → Text) (l : List (Text × ℚ)) :
    (let t := joinText sep2 (l.map fun kv => kv.1 ++ "/".toList ++ rp kv.2 ++ "/".toList)
      if t = [] then [] else t ++ "\n".toList) = efficiencyText rp l := by
  unfold efficiencyText
  simp only [joinText_intercalate]
  rcases l with _ | ⟨e, l⟩
  · simp [List.intercalate]
  · have hne : List.intercalate sep2 ((e :: l).map fun kv => kv.1 ++ "/".toList ++ rp kv.2 ++ "/".toList) ≠ [] := by
      rcases l with _ | ⟨e', l⟩ <;> simp [List.intercalate, List.intersperse]
    rw [if_neg hne, if_neg (by simp)]
    rfl

theorem efficiencyLine_eq (rp : ℚ → Text) (names : List Text) (r : Rxn ℚ) :
    efficiencyLine rp names r = efficiencyText rp (efficiencies names r) := by
  unfold efficiencyLine efficiencies
  rcases h : r.third with _ | tb
  · simp [efficiencyText]
  · exact efficiencyText_eq rp _

theorem filterCollider_rtype (names : List Text) (r : Rxn ℚ) :
    (filterCollider names r).rtype = r.rtype := by
  obtain ⟨eqn, re, pr, rev, ord, dup, rate, third⟩ := r
  cases third <;> rfl

theorem filterCollider_efficiencies (names : List Text) (r : Rxn ℚ) :
    efficiencies names (filterCollider names r) = efficiencies names r := by
  unfold efficiencies filterCollider
  rcases h : r.third with _ | tb
  · simp
  · simp only [Option.map_some, Option.elim_some, List.filter_filter]
    refine List.filter_congr fun e _ => ?_
    simp

/-- the text of a reaction, apart from the efficiencies, does not depend on the other species -/
theorem rxnText_parts (rp : ℚ → Text) : ∃ pre post : Rxn ℚ → Text, ∀ (names : List Text) (r : Rxn ℚ) t,
    rxnText rp names r = .ok t → t = pre r ++ efficiencyText rp (efficiencies names r) ++ post r ∧
      ∀ kept, rxnText rp kept (filterCollider kept r) =
        .ok (pre r ++ efficiencyText rp (efficiencies kept r) ++ post r) := by
  have hm : ∀ kept r, mainRate (filterCollider kept r) = mainRate r := by
    intro kept r
    unfold mainRate
    simp only [filterCollider_rtype]
    rfl
  have ha : ∀ kept r, auxLines rp (filterCollider kept r) = auxLines rp r := by
    intro kept r
    unfold auxLines
    simp only [filterCollider_rtype]
    rfl
  refine ⟨fun r => padRight 51 r.eqn ++ (match mainRate r with | .ok a => a | .error _ => []) ++ "\n".toList,
    fun r => (match auxLines rp r with | .ok a => a | .error _ => []) ++
      (if r.dup then "DUPLICATE\n".toList else []), fun names r t h => ?_⟩
  unfold rxnText at h
  rcases h1 : mainRate r with e | a
  · rw [h1] at h; cases h
  rcases h2 : auxLines rp r with e | x
  · rw [h1, h2] at h; cases h
  rw [h1, h2] at h
  refine ⟨?_, fun kept => ?_⟩
  · rw [← Except.ok.inj h, efficiencyLine_eq]
    simp only [h1, h2, List.append_assoc]
  · unfold rxnText
    rw [hm, ha, h1, h2]
    simp only [efficiencyLine_eq, filterCollider_efficiencies, List.append_assoc, h1, h2]
    rfl

/-- if everything can be written, the text is that of the entries one after the other -/
theorem writeAll_entries {α : Type} {f : α → Except Err Text} {xs : List α} (h : (writeAll f xs).2 = none) :
    ∀ x ∈ xs, ∃ t, f x = .ok t := by
  intro x hx
  rcases hf : f x with e | t
  · obtain ⟨e', he⟩ := writeAll_fails hx ⟨e, hf⟩
    rw [h] at he
    cases he
  · exact ⟨t, rfl⟩

theorem writeAll_map {α : Type} {f : α → Except Err Text} {g : α → Text} {xs : List α}
    (h : ∀ x ∈ xs, f x = .ok (g x)) : writeAll f xs = ((xs.map g).flatten, none) := by
  refine writeAll_of ?_
  induction xs with
  | nil => exact .nil
  | cons x xs ih =>
    exact .cons (h x List.mem_cons_self) (ih fun y hy => h y (List.mem_cons_of_mem _ hy))

theorem trimSoln_names (elems : List (Spec1 ℚ) → List Text) (s : Soln ℚ) (excl : List Text)
    (newFile phase : Text) :
    (trimSoln elems s excl newFile phase).species.map Spec1.name =
      (s.species.map Spec1.name).filter (· ∉ excl) := by
  unfold trimSoln
  rw [List.filter_map]
  congr 1
  refine List.filter_congr fun x _ => ?_
  simp

/-- the model file of a solution whose reactions can be written -/
theorem modelText_map (rp : ℚ → Text) (s : Soln ℚ) {g : Rxn ℚ → Text}
    (h : ∀ r ∈ s.reactions, rxnText rp (s.species.map Spec1.name) r = .ok (g r)) :
    ∃ h1, modelText rp s = (h1 ++ "REACTIONS\n".toList ++ (s.reactions.map g).flatten ++ "END".toList, none) := by
  refine ⟨"!Chemkin file converted from solution object: ".toList ++ s.name ++
    "\n\nELEMENTS\n".toList ++ joinText sep2 s.elements ++ "\nEND\n\nSPECIES\n".toList ++
    speciesBlock (s.species.map Spec1.name) ++ "\nEND\n\n".toList, ?_⟩
  unfold modelText
  simp only [writeAll_map h]
  rw [show "\nEND\n\nREACTIONS\n".toList = "\nEND\n\n".toList ++ "REACTIONS\n".toList from rfl]
  simp only [List.append_assoc]

theorem modelText_fine {rp : ℚ → Text} {s : Soln ℚ} (h : (modelText rp s).2 = none) :
    (writeAll (rxnText rp (s.species.map Spec1.name)) s.reactions).2 = none := by
  unfold modelText at h
  dsimp only at h
  rcases hw : writeAll (rxnText rp (s.species.map Spec1.name)) s.reactions with ⟨t, _ | e⟩
  · rfl
  · rw [hw] at h; cases h

section
variable {rp : ℚ → Text} (elems : List (Spec1 ℚ) → List Text) {s : Soln ℚ} (excl : List Text)
  (newFile phase : Text)

open Classical in
/-- **C146** (model file): if the starting model can be written, so can every reduced model, and its
file says about the reactions that remain what the file of the starting model says, except that
the efficiencies of removed species are left out. -/
theorem C146_reactions (h : (modelText rp s).2 = none) :
    ∃ (pre post : Rxn ℚ → Text) (h1 h2 : Text),
      (modelText rp s).1 = h1 ++ "REACTIONS\n".toList ++ (s.reactions.map fun r =>
        pre r ++ efficiencyText rp (efficiencies (s.species.map Spec1.name) r) ++ post r).flatten ++ "END".toList ∧
      modelText rp (trimSoln elems s excl newFile phase) = (h2 ++ "REACTIONS\n".toList ++
        ((s.reactions.filter fun r => Remains ((s.species.map Spec1.name).filter (· ∉ excl)) excl r).map fun r =>
          pre r ++ efficiencyText rp (efficiencies ((s.species.map Spec1.name).filter (· ∉ excl)) r) ++
            post r).flatten ++ "END".toList, none) := by
  obtain ⟨pre, post, hp⟩ := rxnText_parts rp
  have hok := writeAll_entries (modelText_fine h)
  obtain ⟨h1, e1⟩ := modelText_map rp s (g := fun r =>
    pre r ++ efficiencyText rp (efficiencies (s.species.map Spec1.name) r) ++ post r) (fun r hr => by
      obtain ⟨t, ht⟩ := hok r hr
      rw [ht, (hp _ _ _ ht).1])
  set kept := (s.species.map Spec1.name).filter (· ∉ excl) with hkept
  have hn := trimSoln_names elems s excl newFile phase
  have hr : (trimSoln elems s excl newFile phase).reactions =
      (s.reactions.filter fun r => Remains kept excl r).map (filterCollider kept) := by
    rw [hkept, ← hn]
    exact rxnLoop_eq excl _ s.reactions
  obtain ⟨h2, e2⟩ := modelText_map rp (trimSoln elems s excl newFile phase) (g := fun r =>
    match rxnText rp kept r with | .ok t => t | .error _ => []) (fun r hr' => by
      rw [hn]
      rw [hr] at hr'
      obtain ⟨r0, hr0, rfl⟩ := List.mem_map.1 hr'
      obtain ⟨t, ht⟩ := hok r0 (List.mem_filter.1 hr0).1
      rw [(hp _ _ _ ht).2])
  refine ⟨pre, post, h1, h2, by rw [e1], ?_⟩
  rw [e2, hr, List.map_map]
  congr 4
  refine List.map_congr_left fun r hr0 => ?_
  obtain ⟨t, ht⟩ := hok r (List.mem_filter.1 hr0).1
  simp only [Function.comp, (hp _ _ _ ht).2]

/-- **C146** (thermodynamic and transport files): the entries of the species that remain are those of
the starting model, in the same order, and nothing else. -/
theorem C146_species : 
    ((thermoText s.species).2 = none → ∃ (entry : Spec1 ℚ → Text) (h1 h2 : Text),
      (thermoText s.species).1 = h1 ++ (s.species.map entry).flatten ++ h2 ∧
      thermoText (trimSoln elems s excl newFile phase).species =
        (h1 ++ ((s.species.filter (·.name ∉ excl)).map entry).flatten ++ h2, none)) ∧
    ((transportText s.species).2 = none → ∃ line : Spec1 ℚ → Text,
      (transportText s.species).1 = (s.species.map line).flatten ∧
      transportText (trimSoln elems s excl newFile phase).species =
        (((s.species.filter (·.name ∉ excl)).map line).flatten, none)) := by
  have hs : (trimSoln elems s excl newFile phase).species = s.species.filter (·.name ∉ excl) := by
    refine List.filter_congr fun x _ => ?_
    simp
  have key : ∀ f : Spec1 ℚ → Except Err Text, (writeAll f s.species).2 = none → ∃ g : Spec1 ℚ → Text,
      writeAll f s.species = ((s.species.map g).flatten, none) ∧
      writeAll f (s.species.filter (·.name ∉ excl)) =
        (((s.species.filter (·.name ∉ excl)).map g).flatten, none) := by
    intro f hf
    have hok := writeAll_entries hf
    have hg : ∀ x ∈ s.species, f x = .ok (match f x with | .ok t => t | .error _ => []) := by
      intro x hx
      obtain ⟨t, ht⟩ := hok x hx
      rw [ht]
    exact ⟨_, writeAll_map hg, writeAll_map fun x hx => hg x (List.mem_filter.1 hx).1⟩
  rw [hs]
  constructor
  · intro h
    obtain ⟨g, g1, g2⟩ := key thermoEntry (by
      unfold thermoText at h
      rcases hw : writeAll thermoEntry s.species with ⟨t, _ | e⟩
      · rfl
      · rw [hw] at h; cases h)
    refine ⟨g, "THERMO\n   300.000  1000.000  5000.000\n".toList, "END\n".toList, ?_, ?_⟩
    · unfold thermoText; rw [g1]
    · unfold thermoText; rw [g2]
  · intro h
    obtain ⟨g, g1, g2⟩ := key transportLine h
    exact ⟨g, by rw [transportText, g1], g2⟩

/-- **C146**: if the starting model can be converted, every reduced model can, and it has a transport
file if the starting model has one.  (A reduced model can have one although the starting model has
none, because the species without transport data have been removed.) -/
theorem C146_converts {fs fs' : Files} {name path name' path' : Text} {outs : List Text}
    (hg : ∀ x ∈ s.species, ∀ t, x.transport = some t →
      t.geometry ∈ ["atom".toList, "linear".toList, "nonlinear".toList])
    (h : (writeCk rp s fs name path false false).1 = .ok outs) :
    ∃ outs', (writeCk rp (trimSoln elems s excl newFile phase) fs' name' path' false false).1 = .ok outs' ∧
      outs.length ≤ outs'.length := by
  have hs : (trimSoln elems s excl newFile phase).species = s.species.filter (·.name ∉ excl) := by
    refine List.filter_congr fun x _ => ?_
    simp
  unfold writeCk at h
  dsimp only at h
  have hm : (modelText rp s).2 = none := by
    cases hm : (modelText rp s).2 with
    | none => rfl
    | some e => rw [hm] at h; cases h
  have ht : (thermoText s.species).2 = none := by
    cases ht : (thermoText s.species).2 with
    | none => rfl
    | some e => rw [hm] at h; simp [ht] at h
  obtain ⟨_, _, _, _, -, hm'⟩ := C146_reactions elems excl newFile phase hm
  obtain ⟨_, _, _, -, ht'⟩ := (C146_species (s := s) elems excl newFile phase).1 ht
  have hlen : outs.length ≤ 2 + (if s.species.all fun x => x.transport.isSome then 1 else 0) := by
    rw [hm] at h
    simp only [ht, Bool.false_eq_true, if_false, Bool.not_false, Bool.true_and] at h
    by_cases hall : (s.species.all fun x => x.transport.isSome) = true
    · rw [if_pos hall] at h ⊢
      cases hx : (transportText s.species).2 with
      | some e => rw [hx] at h; cases h
      | none => rw [hx] at h; rw [← Except.ok.inj h]; simp
    · rw [if_neg hall] at h ⊢
      rw [← Except.ok.inj h]; simp
  have htr : ∀ l : List (Spec1 ℚ), (∀ x ∈ l, x ∈ s.species) → (l.all fun x => x.transport.isSome) = true →
      (transportText l).2 = none := by
    intro l hl ha
    have : ∀ x ∈ l, transportLine x = .ok (match transportLine x with | .ok t => t | .error _ => []) := by
      intro x hx
      obtain ⟨t, ht⟩ := Option.isSome_iff_exists.1 (List.all_eq_true.1 ha x hx)
      have hgeo := hg x (hl x hx) t ht
      unfold transportLine
      rw [ht]
      dsimp only
      simp only [List.mem_cons, List.not_mem_nil, or_false] at hgeo
      rcases hgeo with hgeo | hgeo | hgeo <;> rw [hgeo] <;> rfl
    unfold transportText
    rw [writeAll_map this]
  unfold writeCk
  dsimp only
  rw [hm', ht']
  simp only [Bool.false_eq_true, if_false, Bool.not_false, Bool.true_and]
  by_cases ha : ((trimSoln elems s excl newFile phase).species.all fun x => x.transport.isSome) = true
  · have := htr _ (fun x hx => by rw [hs] at hx; exact (List.mem_filter.1 hx).1) ha
    rw [if_pos ha, this]
    refine ⟨_, rfl, ?_⟩
    simp only [List.length_append, List.length_cons, List.length_nil]
    split_ifs at hlen <;> omega
  · rw [if_neg ha]
    refine ⟨_, rfl, ?_⟩
    rw [if_neg] at hlen
    · exact hlen
    · intro hall
      refine ha (List.all_eq_true.2 fun x hx => ?_)
      rw [hs] at hx
      exact List.all_eq_true.1 hall x (List.mem_filter.1 hx).1

end

/-! ### a case -/

/-- a species with fifteen coefficients; only argon has no transport data -/
def rcSpecies (name : String) : Spec1 ℚ where
  name := name.toList
  comp := [("O".toList, 1)]
  tmin := 200
  tmax := 3500
  coeffs := 1000 :: List.replicate 14 1
  eval _ := (0, 0, 0)
  transport := if name = "AR" then none else some ⟨"linear".toList, 0, 0, 0, 0, 0, []⟩

/-- a reaction of `A` and `B` with a collision partner -/
def rcRxn (dflt : ℚ) (effs : List (Text × ℚ)) : Rxn ℚ where
  eqn := "A + M <=> B + M".toList
  reactants := [("A".toList, 1)]
  products := [("B".toList, 1)]
  reversible := true
  orders := []
  dup := false
  rate := .simple "Arrhenius".toList ⟨1, 0, 0⟩
  third := some ⟨dflt, effs⟩

def rcSoln : Soln ℚ where
  name := "gas".toList
  elements := ["O".toList]
  species := ["A", "B", "AR"].map rcSpecies
  reactions := [rcRxn 1 [("A".toList, 2), ("AR".toList, 1 / 2)], rcRxn 0 [("AR".toList, 1)]]

/-- argon is removed: of two reactions one remains, with one efficiency, and there is a transport
file although the starting model has none -/
example :
    let rp : ℚ → Text := fun q => if q = 2 then "2.0".toList else "0.5".toList
    let s' := trimSoln (fun _ => ["O".toList]) rcSoln ["AR".toList] "r.yaml".toList []
    (modelText rp rcSoln).2 = none ∧ s'.reactions = [rcRxn 1 [("A".toList, 2)]] ∧
    efficiencyText rp (efficiencies ["A".toList, "B".toList] (rcRxn 1 [("A".toList, 2), ("AR".toList, 1 / 2)])) =
      "A/2.0/\n".toList ∧
    (writeCk rp rcSoln (fun _ => none) "m.inp".toList [] false false).1 =
      .ok ["m.inp".toList, "m_thermo.dat".toList] ∧
    (writeCk rp s' (fun _ => none) "r.inp".toList [] false false).1 =
      .ok ["r.inp".toList, "r_thermo.dat".toList, "r_transport.dat".toList] := by
  decide +kernel

/-- the premises of C146 hold for it -/
example : ∃ outs', (writeCk (fun _ => "1".toList) (trimSoln (fun _ => ["O".toList]) rcSoln ["AR".toList]
    "r.yaml".toList []) (fun _ => none) "r.inp".toList [] false false).1 = .ok outs' ∧ 2 ≤ outs'.length :=
  C146_converts (outs := ["m.inp".toList, "m_thermo.dat".toList]) (fs := fun _ => none) (name := "m.inp".toList)
    (path := []) _ _ _ _ (by
      intro x hx t ht
      simp only [rcSoln, List.map_cons, List.map_nil, List.mem_cons, List.not_mem_nil, or_false] at hx
      rcases hx with rfl | rfl | rfl
      · cases ht; decide
      · cases ht; decide
      · cases ht) (by decide +kernel)

end Verif
