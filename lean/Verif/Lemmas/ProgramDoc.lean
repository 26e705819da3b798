import Verif.Model.ProgramDoc
import Verif.Props.ParseAgree
import Verif.Props.Program
import Verif.Spec.ProgramDoc
/-!
# Values of the documented types, and the command on a document
-/
namespace Verif
open Spec

theorem toStr_iff {v : PyV} {s : String} : toStr v = some s ↔ v = pyStr s := by
  cases v with
  | sc k => cases k <;> simp [toStr, PyS.str?, pyStr]
  | list l => simp [toStr, pyStr]
  | dict l => simp [toStr, pyStr]

theorem toNumber_iff {v : PyV} {x : PyF} : toNumber v = some x ↔ v = .sc (.num x) := by
  cases v with
  | sc k => cases k <;> simp [toNumber]
  | list l => simp [toNumber]
  | dict l => simp [toNumber]

theorem toBool_iff {v : PyV} {b : Bool} : toBool v = some b ↔ v = .sc (.bool b) := by
  cases v with
  | sc k => cases k <;> simp [toBool]
  | list l => simp [toBool]
  | dict l => simp [toBool]

theorem toOption_iff {v : PyV} {x : Option PyF} : toOption v = some x ↔ IsOption v x := by
  cases v with
  | sc k => cases k <;> cases x <;> simp [toOption, IsOption]
  | list l => cases x <;> simp [toOption, IsOption]
  | dict l => cases x <;> simp [toOption, IsOption]

theorem toTexts_iff {l : List PyV} {ss : List String} : toTexts l = some ss ↔ l = ss.map pyStr := by
  induction l generalizing ss with
  | nil => cases ss <;> simp [toTexts]
  | cons v l ih =>
    unfold toTexts
    cases ss with
    | nil => simp [Option.bind_eq_some_iff]
    | cons s ss =>
      simp only [Option.bind_eq_some_iff, Option.map_eq_some_iff, List.cons.injEq, List.map_cons, toStr_iff]
      constructor
      · rintro ⟨a, h1, b, h2, rfl, rfl⟩
        exact ⟨h1, ih.1 h2⟩
      · rintro ⟨h1, h2⟩
        exact ⟨s, h1, ss, ih.2 h2, rfl, rfl⟩

theorem toNames_iff {v : PyV} {x : Names} : toNames v = some x ↔ IsNames v x := by
  cases v with
  | sc k => cases k <;> cases x <;> simp [toNames, IsNames, pyStr]
  | list l => cases x <;> simp [toNames, IsNames, pyStr, toTexts_iff]
  | dict l => cases x <;> simp [toNames, IsNames, pyStr]

theorem toScalar_iff {v : PyV} {x : Scalar} : toScalar v = x ↔ IsScalar v x := by
  cases v with
  | sc k => cases k <;> cases x <;> simp [toScalar, IsScalar]
  | list l => cases x <;> simp [toScalar, IsScalar]
  | dict l => cases x <;> simp [toScalar, IsScalar]

theorem str?_iff {k : PyS} {s : String} : k.str? = some s ↔ k = .str s := by
  cases k <;> simp [PyS.str?]

theorem toEntries_iff {l : List (PyS × PyV)} {d : List (String × Scalar)} :
    toEntries l = some d ↔ List.Forall₂ (fun p q => p.1 = .str q.1 ∧ IsScalar p.2 q.2) l d := by
  induction l generalizing d with
  | nil => cases d <;> simp [toEntries]
  | cons p l ih =>
    obtain ⟨k, v⟩ := p
    unfold toEntries
    cases d with
    | nil => simp [Option.bind_eq_some_iff]
    | cons q d =>
      simp only [Option.bind_eq_some_iff, Option.map_eq_some_iff, List.cons.injEq, List.forall₂_cons, str?_iff]
      constructor
      · rintro ⟨a, h1, b, h2, rfl, rfl⟩
        exact ⟨⟨h1, toScalar_iff.1 rfl⟩, ih.1 h2⟩
      · rintro ⟨⟨h1, h3⟩, h2⟩
        exact ⟨q.1, h1, d, ih.2 h2, by rw [toScalar_iff.2 h3], rfl⟩

theorem toVal_iff {v : PyV} {x : Val} : toVal v = some x ↔ IsVal v x := by
  cases v with
  | sc k => cases k <;> cases x <;> simp [toVal, IsVal]
  | list l => cases x <;> simp [toVal, IsVal]
  | dict l => cases x <;> simp [toVal, IsVal, toEntries_iff]

theorem toCondition_iff {k : CondDyn} {c : Cond} : toCondition k = some c ↔ IsCond k c := by
  unfold toCondition
  simp only [Option.bind_eq_some_iff, Option.map_eq_some_iff, toVal_iff]
  constructor
  · rintro ⟨t, h1, p, h2, e, h3, f, h4, o, h5, r, h6, m, h7, rfl⟩
    exact ⟨h1, h2, h3, h4, h5, h6, h7⟩
  · intro h
    exact ⟨_, h.temperature, _, h.pressure, _, h.equiv, _, h.fuel, _, h.oxidizer, _, h.reactants, _, h.compType, rfl⟩

theorem toIgnition_iff {k : CondDyn} {c : IgnInput} : toIgnition k = some c ↔ IsIgn k c := by
  unfold toIgnition IsIgn
  split
  · rename_i x y z hk
    simp only [Option.bind_eq_some_iff, Option.map_eq_some_iff, toVal_iff, toCondition_iff, hk, List.cons.injEq, and_true]
    constructor
    · rintro ⟨a, h1, b, h2, e, h3, s, h4, rfl⟩
      exact ⟨h1, x, y, z, ⟨rfl, rfl, rfl⟩, h2, h3, h4⟩
    · rintro ⟨h1, _, _, _, ⟨rfl, rfl, rfl⟩, h2, h3, h4⟩
      exact ⟨_, h1, _, h2, _, h3, _, h4, rfl⟩
  · rename_i hk
    refine iff_of_false (by simp) ?_
    rintro ⟨-, x, y, z, h, -⟩
    exact hk x y z h

theorem toFlame_iff {k : CondDyn} {c : FlameInput} : toFlame k = some c ↔ IsFlame k c := by
  unfold toFlame IsFlame
  split
  · rename_i x hk
    simp only [Option.bind_eq_some_iff, Option.map_eq_some_iff, toVal_iff, toCondition_iff, hk, List.cons.injEq, and_true]
    constructor
    · rintro ⟨a, h1, b, h2, rfl⟩
      exact ⟨h1, x, rfl, h2⟩
    · rintro ⟨h1, _, rfl, h2⟩
      exact ⟨_, h1, _, h2, rfl⟩
  · rename_i hk
    refine iff_of_false (by simp) ?_
    rintro ⟨-, x, h, -⟩
    exact hk x h

theorem toAll_iff {α : Type} {f : CondDyn → Option α} {P : CondDyn → α → Prop} (hf : ∀ k x, f k = some x ↔ P k x)
    {l : List CondDyn} {xs : List α} : toAll f l = some xs ↔ List.Forall₂ P l xs := by
  induction l generalizing xs with
  | nil => cases xs <;> simp [toAll]
  | cons k l ih =>
    unfold toAll
    cases xs with
    | nil => simp [Option.bind_eq_some_iff]
    | cons x xs =>
      simp only [Option.bind_eq_some_iff, Option.map_eq_some_iff, List.cons.injEq, List.forall₂_cons]
      constructor
      · rintro ⟨a, h1, b, h2, rfl, rfl⟩
        exact ⟨(hf _ _).1 h1, ih.1 h2⟩
      · rintro ⟨h1, h2⟩
        exact ⟨x, (hf _ _).2 h1, xs, ih.2 h2, rfl, rfl⟩

theorem toInputs_iff {R : InputsDyn} {r : ReductionInputs} : toInputs R = some r ↔ IsInputs R r := by
  unfold toInputs
  simp only [Option.bind_eq_some_iff, Option.map_eq_some_iff, toStr_iff, toNumber_iff, toBool_iff, toOption_iff, toNames_iff,
    toAll_iff (fun k c => toIgnition_iff (k := k) (c := c)), toAll_iff (fun k c => toCondition_iff (k := k) (c := c)),
    toAll_iff (fun k c => toFlame_iff (k := k) (c := c))]
  constructor
  · rintro ⟨a1, h1, a2, h2, a3, h3, a4, h4, a5, h5, a6, h6, a7, h7, a8, h8, a9, h9, a10, h10, a11, h11, a12, h12, a13, h13, rfl⟩
    exact ⟨h1, h2, h3, h4, h5, h6, h7, h8, h9, h10, h11, h12, h13⟩
  · intro h
    exact ⟨_, h.model, _, h.error, _, h.ignition, _, h.psr, _, h.flame, _, h.method, _, h.targets, _, h.safe, _, h.sensitivity,
      _, h.upper, _, h.sensitivityType, _, h.phase, _, h.minFlameSpeed, rfl⟩

theorem loadDyn_str (w : World) (m p : String) : loadDyn w (pyStr m) (pyStr p) = fileNames w m p := rfl

/-- reading and checking agree -/
theorem says_read {w : World} {x : Except Err YNode} {z : Except Err InputDict} (h : Says x z) :
    RelE IsInputs (x >>= readInputs (loadDyn w)) (z >>= fun D => (parseInputs (fileNames w) D).map Prod.fst) := by
  cases h with
  | unread => exact rfl
  | invalid h =>
    show RelE _ (readInputs _ _) _
    unfold readInputs
    rw [h]
    exact rfl
  | values h1 h2 => exact C98_file (loadDyn_str w) h1 h2

theorem programDoc_same {K : Cantera IgnInput Cond FlameInput} {rnd : ℚ → ℚ} {sh : Shell} {doc : String → Except Err YNode}
    {args : List String} {d : Disk} {dfuel fuel saFuel : Nat} {w : World}
    (h : ∀ a i, parseArgs args = .ok a → a.convert = false → a.input = some i → Says (doc i) (sh.yaml i)) :
    programDoc K rnd sh doc args d dfuel fuel saFuel w = some (program K rnd sh args d dfuel fuel saFuel w) := by
  unfold programDoc program mainEntry pymarsCli cli
  by_cases h0 : args = []
  · rw [if_pos h0]; subst h0; rfl
  rw [if_neg h0]
  have e0 : pyWhen (decide (args = [])) (.error .systemExit) = .ok () := by simp [pyWhen, h0]
  dsimp only
  rw [e0]
  cases ha : parseArgs args with
  | error e => rfl
  | ok a =>
  dsimp only [bindOk_eq]
  cases hv : a.version with
  | true => rfl
  | false =>
  cases hc : a.convert with
  | true =>
    cases hm : givenText a.model with
    | true => simp [pyWhen, bindOk_eq]; rfl
    | false => simp [pyWhen, bindOk_eq]; rfl
  | false =>
  cases hi : givenText a.input with
  | false => simp [pyWhen, bindOk_eq]; rfl
  | true =>
  obtain ⟨i, hi'⟩ : ∃ i, a.input = some i := by
    cases hx : a.input with
    | none => rw [hx] at hi; cases hi
    | some i => exact ⟨i, rfl⟩
  have hs := says_read (w := w) (h a i ha hc hi')
  have hg : a.input.getD "" = i := by rw [hi']; rfl
  rw [hg]
  simp only [Bool.false_eq_true, if_false, Bool.not_true]
  generalize (doc i >>= readInputs (loadDyn w)) = X at hs ⊢
  cases hz : sh.yaml i with
  | error e =>
    rw [hz] at hs
    cases X with
    | ok R => exact hs.elim
    | error e' => cases (show e' = e from hs); rfl
  | ok D =>
  rw [hz] at hs
  change RelE IsInputs X ((parseInputs (fileNames w) D).map Prod.fst) at hs
  cases hp : parseInputs (fileNames w) D with
  | error e =>
    rw [hp] at hs
    cases X with
    | ok R => exact hs.elim
    | error e' =>
      cases (show e' = e from hs)
      simp only [bindOk_eq, hp, pyWhen]
      rfl
  | ok r =>
    obtain ⟨inp, D'⟩ := r
    rw [hp] at hs
    cases X with
    | error e' => exact hs.elim
    | ok R =>
      have hR := toInputs_iff.2 (show IsInputs R inp from hs)
      dsimp only
      rw [hR]
      simp only [bindOk_eq, hp, Option.map_some]
      by_cases hext : (splitext inp.model.toList).2 = ".yaml".toList ∨ (splitext inp.model.toList).2 = ".yml".toList
      · rw [if_pos hext]
        have : (!(decide ((splitext inp.model.toList).2 = ".yaml".toList) || decide ((splitext inp.model.toList).2 = ".yml".toList))) = false := by
          rw [Bool.not_eq_false', Bool.or_eq_true, decide_eq_true_eq, decide_eq_true_eq]
          exact hext
        rw [this]
        rfl
      · rw [if_neg hext]
        have : (!(decide ((splitext inp.model.toList).2 = ".yaml".toList) || decide ((splitext inp.model.toList).2 = ".yml".toList))) = true := by
          simpa using hext
        rw [this]
        cases sh.conv inp.model <;> rfl

theorem putKey_has {l : List (PyS × PyV)} {k : PyS} {v : PyV} {t : String} (h : k = .str t ∨ ∃ q ∈ l, q.1 = .str t) :
    ∃ q ∈ putKey l k v, q.1 = .str t := by
  induction l with
  | nil =>
    rcases h with rfl | ⟨q, hq, -⟩
    · exact ⟨_, List.mem_cons_self, rfl⟩
    · cases hq
  | cons p l ih =>
    obtain ⟨k', v'⟩ := p
    unfold putKey
    by_cases hk : sameKey k' k = true
    · rw [if_pos hk]
      rcases h with rfl | ⟨q, hq, hq'⟩
      · rw [sameKey_str] at hk
        exact ⟨_, List.mem_cons_self, by simpa using hk⟩
      · rcases List.mem_cons.1 hq with rfl | hq
        · exact ⟨_, List.mem_cons_self, hq'⟩
        · exact ⟨q, List.mem_cons_of_mem _ hq, hq'⟩
    · rw [if_neg hk]
      rcases h with rfl | ⟨q, hq, hq'⟩
      · obtain ⟨q, hq, hq'⟩ := ih (.inl rfl)
        exact ⟨q, List.mem_cons_of_mem _ hq, hq'⟩
      · rcases List.mem_cons.1 hq with rfl | hq
        · exact ⟨_, List.mem_cons_self, hq'⟩
        · obtain ⟨q, hq, hq'⟩ := ih (.inr ⟨q, hq, hq'⟩)
          exact ⟨q, List.mem_cons_of_mem _ hq, hq'⟩

theorem dictOf_has {ps : List (PyS × PyV)} {t : String} (h : ∃ p ∈ ps, p.1 = .str t) : ∃ q ∈ dictOf ps, q.1 = .str t := by
  have key : ∀ (ps m : List (PyS × PyV)), (∃ p ∈ ps, p.1 = PyS.str t) ∨ (∃ q ∈ m, q.1 = PyS.str t) →
      ∃ q ∈ ps.foldl (fun m p => putKey m p.1 p.2) m, q.1 = PyS.str t := by
    intro ps
    induction ps with
    | nil => intro m h; rcases h with ⟨p, hp, -⟩ | h; exact absurd hp (by simp); exact h
    | cons p ps ih =>
      intro m h
      rw [List.foldl_cons]
      apply ih
      rcases h with ⟨q, hq, hq'⟩ | h
      · rcases List.mem_cons.1 hq with rfl | hq
        · exact .inr (putKey_has (.inl hq'))
        · exact .inl ⟨q, hq, hq'⟩
      · exact .inr (putKey_has (.inr h))
  exact key ps [] (.inl h)

theorem listed_names {v : PyV} {key : String} {y : YNode} {s : YScalar} {l : List String} {x : PyV} {u : PyV}
    (hv : construct y = .ok v) (h : ListsUnder y key s) (hs : LooksText s) (hx : v.get key u = .ok x) (hn : x = .list (l.map pyStr)) :
    String.ofList s.text ∈ l := by
  obtain ⟨xs, hh, hmem⟩ := h
  obtain ⟨d, u', rfl, h1, h2⟩ := constructed_heading hv hh
  rw [get_headOf, h2] at hx
  cases hx
  subst hn
  obtain ⟨vs, h3, h4⟩ := construct_seq h1
  cases h3
  obtain ⟨z, hz, hz'⟩ := forall2_left h4 hmem
  obtain ⟨k, hk, rfl⟩ := construct_scalar hz'
  rw [C131_names_partial hs] at hk
  cases hk
  obtain ⟨n, hn, hn'⟩ := List.mem_map.1 hz
  cases hn'
  exact hn

theorem mixed_needs {v : PyV} {D : InputDict} {y : YNode} {s : YScalar} (hv : construct y = .ok v) (hD : Represents v D)
    (h : Mixes y s) (hs : LooksText s) : Needs D (String.ofList s.text) := by
  obtain ⟨c, ⟨key, hkey, cs, hh, hc⟩, part, hpart, es, hh', x, hx⟩ := h
  obtain ⟨d, u, rfl, h1, h2⟩ := constructed_heading hv hh
  obtain ⟨vs, rfl, h4⟩ := construct_seq h1
  obtain ⟨vc, hvc, hvc'⟩ := forall2_left h4 hc
  have key : ∃ cd ∈ D.ignition ++ D.psr ++ D.flame, IsCase vc cd := by
    have go : ∀ {z : PyV} {cds : List Case}, PyV.get (.dict d) key (.dict []) = .ok z → IsCases z cds → ∃ cd ∈ cds, IsCase vc cd := by
      intro z cds hz hcs
      rw [get_headOf, h2] at hz
      cases hz
      rcases hcs with ⟨l, hl, hf⟩ | ⟨hl, -⟩
      · cases hl
        exact forall2_left hf hvc
      · cases hl
    simp only [List.mem_cons, List.not_mem_nil, or_false] at hkey
    rcases hkey with rfl | rfl | rfl
    · obtain ⟨z, hz, hz'⟩ := hD.ignition
      obtain ⟨cd, m, hcd⟩ := go hz hz'
      exact ⟨cd, by simp [m], hcd⟩
    · obtain ⟨z, hz, hz'⟩ := hD.psr
      obtain ⟨cd, m, hcd⟩ := go hz hz'
      exact ⟨cd, by simp [m], hcd⟩
    · obtain ⟨z, hz, hz'⟩ := hD.flame
      obtain ⟨cd, m, hcd⟩ := go hz hz'
      exact ⟨cd, by simp [m], hcd⟩
  obtain ⟨cd, hcd, hic⟩ := key
  obtain ⟨d', u', rfl, g1, g2⟩ := constructed_heading hvc' hh'
  obtain ⟨ps, g3, rfl⟩ := construct_map g1
  obtain ⟨p, hp1, hp2, -⟩ := forall2_left (constructPairs_ok.1 g3) hx
  dsimp only at hp2
  rw [C131_names_partial hs] at hp2
  obtain ⟨q, hq, hq'⟩ := dictOf_has (t := String.ofList s.text) ⟨p, hp1, (Except.ok.inj hp2).symm⟩
  obtain ⟨z, hz, hz'⟩ := IsCase.get hic part (x := .list []) (y := .list true) ⟨[], rfl, rfl⟩
  rw [get_headOf, g2] at hz
  cases hz
  cases hval : cd.get part (.list true) with
  | dict entries =>
    rw [hval] at hz'
    obtain ⟨l, hl, hf⟩ := hz'
    cases hl
    obtain ⟨e, he, he', -⟩ := forall2_left hf hq
    rw [hq'] at he'
    refine ⟨cd, hcd, part, hpart, entries, (lookup_holds _ _ _ _).1 hval, e.2, ?_⟩
    rw [PyS.str.inj he']
    exact he
  | list e => rw [hval] at hz'; obtain ⟨l, hl, -⟩ := hz'; cases hl
  | _ => rw [hval] at hz'; cases hz'

theorem asked_needed {v : PyV} {D : InputDict} {y : YNode} {s : YScalar} {ts ss : List String} (hv : construct y = .ok v)
    (hD : Represents v D) (hts : D.targets = .list ts) (hss : D.retained.getD (.list []) = .list ss) (h : AsksFor y s)
    (hs : LooksText s) : String.ofList s.text ∈ ts ∨ String.ofList s.text ∈ ss ∨ Needs D (String.ofList s.text) := by
  rcases h with h | h | h
  · obtain ⟨x, hx, hx'⟩ := hD.targets
    rw [hts] at hx'
    exact .inl (listed_names hv h hs hx hx')
  · obtain ⟨x, hx, hx'⟩ := hD.retained
    rw [hss] at hx'
    exact .inr (.inl (listed_names hv h hs hx hx'))
  · exact .inr (.inr (mixed_needs hv hD h hs))

end Verif
