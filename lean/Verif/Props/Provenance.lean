import Mathlib.Analysis.Calculus.MeanValue
import Mathlib.Analysis.Calculus.Deriv.Add
import Verif.Lemmas.Provenance
import Verif.Lemmas.Program
import Verif.Model.MainRound
import Verif.Props.Program
import Verif.Props.Trim
/-!
# C139: every model a run writes is part of the one it started from
-/
namespace Verif
open Spec

/-- what is carried from model to model: being a part, and closed -/
theorem part_closed {sol : Mech} : ∀ m excl f p, PartOf sol m ∧ Closed m →
    PartOf sol (trim m excl f p) ∧ Closed (trim m excl f p) :=
  fun m excl f p h => ⟨partOf_trim h.1 excl f p, (C03_closed m excl f p).1⟩

/-- **C139.** Whatever the arguments of `main`, whatever the simulations return and however
the run ends, each file afterwards is as before or holds a part of the model that was
reduced, and so does the result: species and reactions are never invented or changed. -/
theorem C139_main (p : MainIn) (w : World) (sol : Mech) (hw : w.fs p.modelFile = some sol) (hc : Closed sol) :
    OnlyWrites (fun m => PartOf sol m ∧ Closed m) w (runMain p w).2 ∧
      ∀ r, (runMain p w).1 = some (.ok r) → PartOf sol r.model ∧ Closed r.model :=
  good_main part_closed p w fun m hm => by
    rw [hw] at hm; cases hm
    exact ⟨.refl sol, hc⟩

/-- **C139** with sampling, in exact arithmetic. -/
theorem C139_sampled (K : Cantera ι π φ) (rnd : ℚ → ℚ) (q : MainArgs ι π φ) (d : Disk) (dfuel fuel saFuel : Nat)
    (w : World) (sol : Mech) (hw : w.fs q.modelFile = some sol) (hc : Closed sol) :
    OnlyWrites (fun m => PartOf sol m ∧ Closed m) w (fullMain K rnd q d dfuel fuel saFuel w).1.2 ∧
      ∀ r, (fullMain K rnd q d dfuel fuel saFuel w).1.1 = some (.ok r) → PartOf sol r.model ∧ Closed r.model := by
  unfold fullMain
  split
  · exact ⟨.refl w, fun r hr => by cases hr⟩
  split
  · exact ⟨.refl w, fun r hr => by cases hr⟩
  split
  · exact C139_main _ w sol hw hc
  split
  · exact ⟨.refl w, fun r hr => by cases hr⟩
  dsimp only
  split
  · exact ⟨.refl w, fun r hr => by cases hr⟩
  · exact C139_main _ w sol hw hc

/-- **C139** with sampling, in floating-point arithmetic. -/
theorem C139_rounded (R : ℚ → PyF) (K : Cantera ι π φ) (rnd rndThr : ℚ → ℚ) (q : MainArgs ι π φ) (d : Disk)
    (dfuel fuel saFuel : Nat) (w : World) (sol : Mech) (hw : w.fs q.modelFile = some sol) (hc : Closed sol) :
    OnlyWrites (fun m => PartOf sol m ∧ Closed m) w (fullMainR R K rnd rndThr q d dfuel fuel saFuel w).1.2 ∧
      ∀ r, (fullMainR R K rnd rndThr q d dfuel fuel saFuel w).1.1 = some (.ok r) →
        PartOf sol r.model ∧ Closed r.model := by
  unfold fullMainR
  split
  · exact ⟨.refl w, fun r hr => by cases hr⟩
  split
  · exact ⟨.refl w, fun r hr => by cases hr⟩
  split
  · exact C139_main _ w sol hw hc
  split
  · exact ⟨.refl w, fun r hr => by cases hr⟩
  dsimp only
  split
  · exact ⟨.refl w, fun r hr => by cases hr⟩
  · exact C139_main _ w sol hw hc

/-- **C139** for the command. -/
theorem C139_command (K : Cantera IgnInput Cond FlameInput) (rnd : ℚ → ℚ) (sh : Shell) (args : List String) (d : Disk)
    (dfuel fuel saFuel : Nat) (w w' : World) (i path : String) (threads : Int) (dct : InputDict)
    (o : Option (Except Err Unit)) (evs : List Ev) (sol : Mech)
    (A : Asks args i path threads) (hy : sh.yaml i = .ok dct)
    (hw : w.fs dct.model.toList = some sol) (hc : Closed sol)
    (h : program K rnd sh args d dfuel fuel saFuel w = .reduced o w' evs) :
    OnlyWrites (fun m => PartOf sol m ∧ Closed m) w w' := by
  obtain ⟨inp, dct', r, hp, hf, -⟩ := program_reduced A hy h
  have hm := (parseInputs_fields hp).1
  have := (C139_sampled (K.inputs inp.minFlameSpeed) rnd (mainArgs sh inp path threads) d dfuel fuel saFuel w sol
    (by show w.fs inp.model.toList = some sol; rw [hm]; exact hw) hc).1
  rw [hf] at this
  exact this

/-! ### conservation -/

theorem sum_map_sub' (l : List String) (f g : String → ℚ) :
    (l.map fun s => f s - g s).sum = (l.map f).sum - (l.map g).sum := by
  induction l with
  | nil => simp
  | cons a l ih => simp only [List.map_cons, List.sum_cons, ih]; ring

theorem amount_perSpecies (q : String → ℚ) (names : List String) (hn : names.Nodup) (l : List (String × ℚ))
    (hl : ∀ e ∈ l, e.1 ∈ names) :
    (names.map fun s => q s * ((l.filter (fun e => e.1 == s)).map (·.2)).sum).sum = amount q l := by
  induction l with
  | nil => simp [amount]
  | cons e l ih =>
    have h1 := ih fun e' he => hl e' (List.mem_cons_of_mem _ he)
    have h2 : (names.map fun s => q s * (((e :: l).filter (fun e => e.1 == s)).map (·.2)).sum) =
        names.map fun s => (if s = e.1 then q s * e.2 else 0) +
          q s * ((l.filter (fun e => e.1 == s)).map (·.2)).sum := by
      apply List.map_congr_left
      intro s _
      by_cases h : e.1 = s
      · rw [List.filter_cons_of_pos (by simpa using h), if_pos h.symm]
        simp; ring
      · rw [List.filter_cons_of_neg (by simpa using h), if_neg (fun h' => h h'.symm), zero_add]
    rw [h2, List.sum_map_add, h1]
    have h3 : (names.map fun s => if s = e.1 then q s * e.2 else 0).sum = q e.1 * e.2 := by
      have he := hl e List.mem_cons_self
      clear h1 h2 ih hl
      induction names with
      | nil => cases he
      | cons a names ih =>
        rw [List.map_cons, List.sum_cons]
        obtain ⟨ha, hn'⟩ := List.nodup_cons.1 hn
        by_cases h : a = e.1
        · subst h
          rw [if_pos rfl]
          have : (names.map fun s => if s = e.1 then q s * e.2 else 0).sum = 0 := by
            apply List.sum_eq_zero
            intro x hx
            obtain ⟨s, hs, rfl⟩ := List.mem_map.1 hx
            rw [if_neg]
            rintro rfl
            exact ha hs
          rw [this, add_zero]
        · rw [if_neg h, zero_add]
          exact ih hn' ((List.mem_cons.1 he).resolve_left fun h' => h h'.symm)
    rw [h3]
    unfold amount
    rw [List.map_cons, List.sum_cons]
    ring

/-- the rates of production of a quantity that every reaction conserves add up to nothing -/
theorem total_production (K : Law) (m : Mech) (hn : m.names.Nodup) (hc : Closed m) (q : String → ℚ)
    (h : Conserves q m) (c : String → ℝ) : total q m (production K m c) = 0 := by
  have key : ∀ rs : List Reaction, (∀ r ∈ rs, r ∈ m.reactions) →
      (m.names.map fun s => (q s : ℝ) * productionBy K m c rs s).sum = 0 := by
    intro rs
    induction rs with
    | nil => intro _; simp [productionBy]
    | cons r rs ih =>
      intro hrs
      have h1 := ih fun r' hr => hrs r' (List.mem_cons_of_mem _ hr)
      have hr := hrs r List.mem_cons_self
      have h2 : (m.names.map fun s => (q s : ℝ) * productionBy K m c (r :: rs) s) =
          m.names.map fun s => ((q s * gain r s : ℚ) : ℝ) * progress K m c r +
            (q s : ℝ) * productionBy K m c rs s := by
        apply List.map_congr_left
        intro s _
        unfold productionBy
        rw [List.map_cons, List.sum_cons]
        push_cast
        ring
      rw [h2, List.sum_map_add, h1, add_zero, List.sum_map_mul_right]
      have h3 : (m.names.map fun s => ((q s * gain r s : ℚ) : ℝ)).sum = 0 := by
        have h4 : (m.names.map fun s => q s * gain r s).sum = 0 := by
          have h5 : (m.names.map fun s => q s * gain r s) = m.names.map fun s =>
              q s * ((r.products.filter (fun e => e.1 == s)).map (·.2)).sum -
                q s * ((r.reactants.filter (fun e => e.1 == s)).map (·.2)).sum := by
            apply List.map_congr_left
            intro s _
            unfold gain; ring
          have hmem : ∀ s, Mentions r s → s ∈ m.names := fun s hs => by
            obtain ⟨sp, hsp, rfl⟩ := hc r hr s (.inl hs)
            exact List.mem_map.2 ⟨sp, hsp, rfl⟩
          rw [h5, sum_map_sub',
            amount_perSpecies q m.names hn r.products fun e he => hmem _ (.inr ⟨e.2, he⟩),
            amount_perSpecies q m.names hn r.reactants fun e he => hmem _ (.inl ⟨e.2, he⟩), h r hr, sub_self]
        have h6 := congrArg (fun x : ℚ => (x : ℝ)) h4
        simp only [Rat.cast_zero] at h6
        rw [← h6, Rat.cast_list_sum, List.map_map]
        rfl
      rw [h3, zero_mul]
  have := key m.reactions fun _ h => h
  unfold total production
  rw [← this]
  unfold Mech.names
  rw [List.map_map]
  rfl

/-- **C139.** What the reactions of the model that was reduced conserve (the atoms of an
element, charge, mass), those of a part conserve, and the amount of it in a mixture that
follows the rate equations of the part, under any law of rates, does not change. -/
theorem C139_conserved {sol m : Mech} (h : PartOf sol m) (hm : Closed m) (hn : sol.names.Nodup) (q : String → ℚ)
    (hq : Conserves q sol) :
    Conserves q m ∧ ∀ (K : ℝ → Law) (c : ℝ → String → ℝ), Follows K m c → ∀ t t', total q m (c t) = total q m (c t') := by
  have hcons : Conserves q m := by
    obtain ⟨l, hl, h2⟩ := h.reactions
    intro r hr
    obtain ⟨i, hi, rfl⟩ := List.getElem_of_mem hr
    have hlen := h2.length_eq
    have := (List.forall₂_iff_get.1 h2).2 i (by omega) hi
    simp only [List.get_eq_getElem] at this
    rw [this.reactants, this.products]
    exact hq _ (hl.subset (List.getElem_mem _))
  refine ⟨hcons, fun K c hf => ?_⟩
  have hnd : m.names.Nodup := hn.sublist (h.species.map _)
  have hd : ∀ t, HasDerivAt (fun t => total q m (c t)) 0 t := by
    intro t
    rw [← total_production (K t) m hnd hm q hcons (c t)]
    unfold total
    have : ∀ l : List Species, HasDerivAt (fun t => (l.map fun sp => (q sp.name : ℝ) * c t sp.name).sum)
        (l.map fun sp => (q sp.name : ℝ) * production (K t) m (c t) sp.name).sum t := by
      intro l
      induction l with
      | nil => simpa using hasDerivAt_const t (0 : ℝ)
      | cons sp l ih =>
        simp only [List.map_cons, List.sum_cons]
        exact ((hf t sp.name).const_mul _).add ih
    exact this m.species
  intro t t'
  exact is_const_of_deriv_eq_zero (fun t => (hd t).differentiableAt) (fun t => (hd t).deriv) t t'

/-! ### cases -/

/-- H2 + O = OH + H, H + O2 = OH + O, 2 OH = H2O + O, and the recombination of H -/
def exAtoms : Mech :=
  { species := [⟨"H2", 1⟩, ⟨"O", 2⟩, ⟨"OH", 3⟩, ⟨"H", 4⟩, ⟨"O2", 5⟩, ⟨"H2O", 6⟩]
    reactions := [⟨[("H2", 1), ("O", 1)], [("OH", 1), ("H", 1)], none, 0⟩,
      ⟨[("H", 1), ("O2", 1)], [("OH", 1), ("O", 1)], none, 1⟩,
      ⟨[("OH", 2)], [("H2O", 1), ("O", 1)], none, 2⟩,
      ⟨[("H", 2)], [("H2", 1)], some ⟨1, [("H2O", 6)]⟩, 3⟩]
    transport := 0, tp := 0, name := [] }

/-- hydrogen atoms -/
def exH : String → ℚ
  | "H2" => 2 | "H2O" => 2 | "OH" => 1 | "H" => 1 | _ => 0

theorem closed_of_names {m : Mech} (h : ∀ r ∈ m.reactions, (∀ e ∈ r.reactants ++ r.products, e.1 ∈ m.names) ∧
    ∀ tb ∈ r.thirdBody.toList, ∀ e ∈ tb.effs, e.1 ∈ m.names) : Closed m := by
  intro r hr s hs
  have key : s ∈ m.names := by
    rcases hs with (⟨q, hq⟩ | ⟨q, hq⟩) | ⟨tb, htb, q, hq⟩
    · exact (h r hr).1 _ (List.mem_append_left _ hq)
    · exact (h r hr).1 _ (List.mem_append_right _ hq)
    · exact (h r hr).2 tb (by simp [htb]) _ hq
  obtain ⟨sp, hsp, rfl⟩ := List.mem_map.1 key
  exact ⟨sp, hsp, rfl⟩

/-- The hypotheses of `C139_conserved` are met by this model without H2O: the third reaction
is gone, and so is the efficiency of H2O in the last one. -/
example : PartOf exAtoms (trim exAtoms ["H2O"] []) ∧ Closed (trim exAtoms ["H2O"] []) ∧ exAtoms.names.Nodup ∧
    Conserves exH exAtoms ∧ (trim exAtoms ["H2O"] []).reactions =
      [⟨[("H2", 1), ("O", 1)], [("OH", 1), ("H", 1)], none, 0⟩,
        ⟨[("H", 1), ("O2", 1)], [("OH", 1), ("O", 1)], none, 1⟩,
        ⟨[("H", 2)], [("H2", 1)], some ⟨1, []⟩, 3⟩] := by
  refine ⟨partOf_trim (.refl _) _ _ _, (C03_closed _ _ _ _).1, by decide +kernel, ?_, by decide +kernel⟩
  have : ∀ r ∈ exAtoms.reactions, amount exH r.reactants = amount exH r.products := by decide +kernel
  exact this

/-- A model with another reaction, or with another coefficient in one, is not a part. -/
example : ¬ PartOf exAtoms { exAtoms with reactions := [⟨[("H", 2)], [("H2", 1)], some ⟨1, []⟩, 3⟩] } ∧
    ¬ PartOf exAtoms { exAtoms with reactions := exAtoms.reactions.map fun r => { r with rate := r.rate + 1 } } := by
  refine ⟨fun h => ?_, fun h => ?_⟩
  · have := h.whole ⟨[("H2", 1), ("O", 1)], [("OH", 1), ("H", 1)], none, 0⟩ (by decide +kernel) rfl (by
      intro s hs
      rcases hs with ⟨q, hq⟩ | ⟨q, hq⟩ <;> revert hq <;> simp [exAtoms, Mech.names] <;> aesop)
    revert this; decide +kernel
  · obtain ⟨l, hl, h2⟩ := h.reactions
    have hlen := h2.length_eq
    have hl' : l = exAtoms.reactions := hl.eq_of_length (by rw [hlen]; rfl)
    subst hl'
    have := (List.forall₂_iff_get.1 h2).2 0 (by decide) (by decide)
    have := this.rate
    revert this; decide +kernel

/-- The command of `Props/Program` leaves, besides its model, only parts of it. -/
example (o : Option (Except Err Unit)) (w' : World) (evs : List Ev)
    (h : program progK rnd64 (progShell "PFA" true) ["-i", "in.yaml"] (fun _ => none) 50 20 20 e2eWorld =
      .reduced o w' evs) :
    OnlyWrites (fun m => PartOf e2eSol m ∧ Closed m) e2eWorld w' :=
  C139_command progK rnd64 (progShell "PFA" true) ["-i", "in.yaml"] _ 50 20 20 e2eWorld w' "in.yaml" "" 1
    (progInput "PFA" true) o evs e2eSol prog_asks rfl (by decide +kernel)
    (closed_of_names (by decide +kernel)) h

end Verif
