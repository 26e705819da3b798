import Verif.Spec.ParseAgree
import Verif.Props.Blank
/-!
# The two models of `parse_inputs` agree
-/
namespace Verif
open Spec

theorem Spec.RelE.bind {α β γ δ : Type} {R : α → β → Prop} {S : γ → δ → Prop} {x : Except Err α} {y : Except Err β}
    {f : α → Except Err γ} {g : β → Except Err δ} (h : RelE R x y) (hf : ∀ a b, R a b → RelE S (f a) (g b)) :
    RelE S (x >>= f) (y >>= g) := by
  cases x with
  | error e => cases y with
    | error e' => exact h
    | ok b => exact h.elim
  | ok a => cases y with
    | error e' => exact h.elim
    | ok b => exact hf a b h

theorem Spec.RelE.unit {γ δ : Type} {S : γ → δ → Prop} {x y : Except Err Unit}
    {f : Unit → Except Err γ} {g : Unit → Except Err δ} (h : x = y) (hf : RelE S (f ()) (g ())) : RelE S (x >>= f) (y >>= g) := by
  subst h
  cases x with
  | error e => exact rfl
  | ok a => exact hf

theorem IsScalar.gt0 {v : PyV} {s : Scalar} (h : IsScalar v s) : v.gt0 = s.gt0 := by
  cases s with
  | other => rcases h with rfl | rfl | ⟨l, rfl⟩ | ⟨d, rfl⟩ <;> rfl
  | _ => cases h; rfl

theorem IsVal.gt0 {v : PyV} {x : Val} (h : IsVal v x) : v.gt0 = x.gt0 := by
  cases x with
  | list e => obtain ⟨l, rfl, -⟩ := h; rfl
  | dict d => obtain ⟨l, rfl, -⟩ := h; rfl
  | _ => cases h; rfl

theorem IsVal.pos {v : PyV} {x : Val} (h : IsVal v x) : assertPos v = assertPositive x := by
  unfold assertPos assertPositive
  rw [IsVal.gt0 h]

theorem IsVal.truthy {v : PyV} {x : Val} (h : IsVal v x) : v.truthy = x.truthy := by
  cases x with
  | list e => obtain ⟨l, rfl, rfl⟩ := h; rfl
  | dict d =>
    obtain ⟨l, rfl, h⟩ := h
    cases h <;> simp [PyV.truthy, Val.truthy]
  | _ => cases h; rfl

theorem IsVal.isStr {v : PyV} {x : Val} (h : IsVal v x) (s : String) : v.isStr s = decide (x = .str s) := by
  cases x with
  | list e => obtain ⟨l, rfl, rfl⟩ := h; simp [PyV.isStr]
  | dict d => obtain ⟨l, rfl, h⟩ := h; simp [PyV.isStr]
  | str t => cases h; by_cases ht : t = s <;> simp [PyV.isStr, ht]
  | _ => cases h; simp [PyV.isStr]

theorem IsEntries.check {names : List String} {l : List (PyS × PyV)} {d : List (String × Scalar)}
    (h : List.Forall₂ (fun p q => p.1 = .str q.1 ∧ IsScalar p.2 q.2) l d) : entriesDyn names l = checkEntries names d := by
  induction h with
  | nil => rfl
  | @cons p q l d h1 _ ih =>
    obtain ⟨a, b⟩ := p
    obtain ⟨a', b'⟩ := q
    obtain ⟨h1, h2⟩ := h1
    dsimp only at h1 h2
    subst h1
    rw [entriesDyn, checkEntries, IsScalar.gt0 h2, ih]
    cases b'.gt0 with
    | error e => rfl
    | ok t =>
      have : ∀ b : Bool, assertKey b (.str a') = pyAssert b := by
        intro b; cases b <;> rfl
      simp only [bindOk_eq, this]
      rfl

theorem IsVal.amounts {names : List String} {v : PyV} {x : Val} (h : IsVal v x) : amountsDyn names v = checkAmounts names x := by
  cases x with
  | list e =>
    obtain ⟨l, rfl, rfl⟩ := h
    cases l <;> rfl
  | dict d => obtain ⟨l, rfl, h⟩ := h; exact IsEntries.check h
  | str s =>
    cases h
    by_cases hs : s = ""
    · subst hs; rfl
    · unfold amountsDyn checkAmounts
      split <;> simp_all
  | _ => cases h; rfl

theorem IsVal.keys {v : PyV} {x : Val} (h : IsVal v x) : keysDyn v = x.keys.map (·.map PyS.str) := by
  cases x with
  | list e =>
    obtain ⟨l, rfl, rfl⟩ := h
    cases l <;> rfl
  | dict d =>
    obtain ⟨l, rfl, h⟩ := h
    have : l.map (·.1) = (d.map (·.1)).map PyS.str := by
      induction h with
      | nil => rfl
      | cons h1 _ ih => rw [List.map_cons, List.map_cons, List.map_cons, ih, h1.1]
    show Except.ok _ = Except.ok _
    rw [this]
  | str s =>
    cases h
    by_cases hs : s = ""
    · subst hs; rfl
    · unfold keysDyn Val.keys
      split <;> simp_all
      rfl
  | _ => cases h; rfl

theorem IsCond.composition {names : List String} {k : CondDyn} {c : Cond} (h : IsCond k c) :
    compositionDyn names k = checkComposition names c := by
  unfold compositionDyn checkComposition checkMixture
  rw [IsVal.truthy h.equiv, IsVal.truthy h.fuel, IsVal.truthy h.oxidizer, IsVal.truthy h.reactants, IsVal.pos h.equiv,
    IsVal.amounts h.fuel, IsVal.amounts h.oxidizer, IsVal.amounts h.reactants, IsVal.isStr h.compType, IsVal.isStr h.compType]

theorem IsCase.get {v : PyV} {c : Case} (h : IsCase v c) (key : String) {x : PyV} {y : Val} (hd : IsVal x y) :
    ∃ u, v.get key x = .ok u ∧ IsVal u (c.get key y) := by
  obtain ⟨l, rfl, h⟩ := h
  refine ⟨_, get_headOf l key x, ?_⟩
  unfold headOf entryOf Case.get
  induction h with
  | nil => exact hd
  | @cons p q l d h1 _ ih =>
    obtain ⟨a, b⟩ := p
    obtain ⟨a', b'⟩ := q
    obtain ⟨h1, h2⟩ := h1
    dsimp only at h1 h2
    subst h1
    rw [List.find?_cons, List.lookup_cons]
    by_cases hk : a' = key
    · subst hk
      simp only [beq_self_eq_true, Option.map_some, Option.getD_some]
      exact h2
    · have h3 : (PyS.str a' == PyS.str key) = false := by simp [hk]
      have h4 : (key == a') = false := by simp [Ne.symm hk]
      simp only [h3, h4]
      exact ih

theorem IsCase.cond {v : PyV} {c : Case} (h : IsCase v c) (ex : List PyV) :
    ∃ k, condDyn v ex = .ok k ∧ IsCond k (condOf c) ∧ k.extra = ex := by
  obtain ⟨t, h1, t1⟩ := IsCase.get h "temperature" (x := pyNum 0) (y := .num (.fin 0)) rfl
  obtain ⟨p, h2, t2⟩ := IsCase.get h "pressure" (x := pyNum 0) (y := .num (.fin 0)) rfl
  obtain ⟨e, h3, t3⟩ := IsCase.get h "equivalence-ratio" (x := pyNum 0) (y := .num (.fin 0)) rfl
  obtain ⟨f, h4, t4⟩ := IsCase.get h "fuel" (x := .list []) (y := .list true) ⟨[], rfl, rfl⟩
  obtain ⟨o, h5, t5⟩ := IsCase.get h "oxidizer" (x := .list []) (y := .list true) ⟨[], rfl, rfl⟩
  obtain ⟨r, h6, t6⟩ := IsCase.get h "reactants" (x := .list []) (y := .list true) ⟨[], rfl, rfl⟩
  obtain ⟨m, h7, t7⟩ := IsCase.get h "composition-type" (x := pyStr "mole") (y := .str "mole") rfl
  refine ⟨⟨t, p, e, f, o, r, m, ex⟩, ?_, ⟨t1, t2, t3, t4, t5, t6, t7⟩, rfl⟩
  unfold condDyn
  simp only [h1, h2, h3, h4, h5, h6, h7, bindOk_eq]

theorem ignition_agree (names : List String) {v : PyV} {c : Case} (h : IsCase v c) :
    RelE IsIgn (ignitionDyn names v) (parseIgnition names c) := by
  obtain ⟨kind, h1, t1⟩ := IsCase.get h "kind" (x := pyStr "") (y := .str "") rfl
  obtain ⟨e, h2, t2⟩ := IsCase.get h "end-time" (x := pyNum 0) (y := .num (.fin 0)) rfl
  obtain ⟨s, h3, t3⟩ := IsCase.get h "max-steps" (x := pyNum 10000) (y := .num (.fin 10000)) rfl
  obtain ⟨k, h4, t4, t5⟩ := IsCase.cond h [kind, e, s]
  unfold ignitionDyn parseIgnition
  simp only [h1, h2, h3, h4, bindOk_eq, IsVal.isStr t1, IsVal.pos t4.temperature, IsVal.pos t4.pressure, IsCond.composition t4]
  refine .unit rfl (.unit rfl (.unit rfl (.unit rfl ?_)))
  exact ⟨t4, kind, e, s, t5, t1, t2, t3⟩

theorem psr_agree (names : List String) {v : PyV} {c : Case} (h : IsCase v c) :
    RelE IsCond (psrDyn names v) (parsePsr names c) := by
  obtain ⟨k, h4, t4, t5⟩ := IsCase.cond h []
  unfold psrDyn parsePsr
  simp only [h4, bindOk_eq, IsVal.pos t4.temperature, IsVal.pos t4.pressure, IsCond.composition t4]
  refine .unit rfl (.unit rfl (.unit rfl ?_))
  exact t4

theorem flame_agree (names : List String) {v : PyV} {c : Case} (h : IsCase v c) :
    RelE IsFlame (flameDyn names v) (parseFlame names c) := by
  obtain ⟨w, h1, t1⟩ := IsCase.get h "width" (x := pyNum float01) (y := .num (.fin float01)) rfl
  obtain ⟨k, h4, t4, t5⟩ := IsCase.cond h [w]
  unfold flameDyn parseFlame
  simp only [h1, h4, bindOk_eq, IsVal.pos t1, IsVal.pos t4.temperature, IsVal.pos t4.pressure, IsCond.composition t4]
  refine .unit rfl (.unit rfl (.unit rfl (.unit rfl ?_)))
  exact ⟨t4, w, t5, t1⟩

theorem cases_agree {β : Type} {S : CondDyn → β → Prop} {f : PyV → Except Err CondDyn} {g : Case → Except Err β}
    (hfg : ∀ {v c}, IsCase v c → RelE S (f v) (g c)) {l : List PyV} {cs : List Case} (h : List.Forall₂ IsCase l cs) :
    RelE (List.Forall₂ S) (casesDyn f l) (parseCases g cs) := by
  induction h with
  | nil => exact List.Forall₂.nil
  | cons h1 _ ih =>
    rw [casesDyn, parseCases]
    refine (hfg h1).bind fun a b hab => ih.bind fun as bs habs => ?_
    exact List.Forall₂.cons hab habs

theorem iter_agree {v : PyV} {cs : List Case} (h : IsCases v cs) :
    (∃ l, v.iter = .ok l ∧ List.Forall₂ IsCase l cs) ∧ v.truthy = decide (cs ≠ []) := by
  rcases h with ⟨l, rfl, h⟩ | ⟨rfl, rfl⟩
  · exact ⟨⟨l, rfl, h⟩, by cases h <;> simp [PyV.truthy]⟩
  · exact ⟨⟨[], rfl, .nil⟩, rfl⟩

theorem IsNames.truthy {v : PyV} {n : Names} (h : IsNames v n) : v.truthy = n.truthy := by
  cases n with
  | list l => cases h; cases l <;> rfl
  | str s => cases h; rfl

theorem IsNames.check {names : List String} {v : PyV} {n : Names} (h : IsNames v n) :
    namesDyn names v = pyAssert (n.iter.all names.contains) := by
  cases n with
  | list l =>
    cases h
    unfold namesDyn Names.iter
    simp only [PyV.iter, bindOk_eq, List.all_map]
    rfl
  | str s =>
    cases h
    unfold namesDyn Names.iter pyStr
    simp only [PyV.iter, bindOk_eq, List.all_map]
    rfl

theorem IsNames.has {v : PyV} {n : Names} (h : IsNames v n) (sp : String) : v.hasStr sp = .ok (n.has sp) := by
  cases n with
  | list l =>
    cases h
    show Except.ok ((l.map pyStr).any (PyV.isStr sp)) = Except.ok (l.contains sp)
    congr 1
    rw [List.any_map, List.contains_eq_any_beq]
    congr 1
    funext x
    show (x == sp) = (sp == x)
    exact Bool.beq_comm
  | str s => cases h; rfl

theorem IsNames.append {v : PyV} {n : Names} (h : IsNames v n) (sp : String) : RelE IsNames (v.append sp) (n.append sp) := by
  cases n with
  | list l =>
    cases h
    show PyV.list _ = PyV.list _
    rw [List.map_append]
    rfl
  | str s => cases h; exact rfl

theorem retain_agree {t : PyV} {nt : Names} (ht : IsNames t nt) : ∀ {l : List String} {s : PyV} {ns : Names}, IsNames s ns →
    RelE IsNames (retainDyn t (l.map PyS.str) s) (retainNames nt l ns) := by
  intro l
  induction l with
  | nil => intro s ns h; exact h
  | cons sp l ih =>
    intro s ns h
    rw [List.map_cons, retainDyn, retainNames]
    simp only [PyS.str?, IsNames.has ht, IsNames.has h, bindOk_eq]
    by_cases h1 : nt.has sp = true
    · simp only [h1]
      exact ih h
    · by_cases h2 : ns.has sp = true
      · simp only [h1, h2]
        exact ih h
      · simp only [h1, h2]
        exact (IsNames.append h sp).bind fun a b hab => ih hab

theorem retainAll_agree {t : PyV} {nt : Names} (ht : IsNames t nt) {ks : List CondDyn} {cs : List Cond} (hk : List.Forall₂ IsCond ks cs) :
    ∀ {s : PyV} {ns : Names}, IsNames s ns → RelE IsNames (retainAllDyn t ks s) (retainSpecies nt cs ns) := by
  induction hk with
  | nil => intro s ns h; exact h
  | @cons k c ks cs h1 _ ih =>
    intro s ns h
    rw [retainAllDyn, retainSpecies]
    unfold Cond.species
    rw [IsVal.keys h1.fuel, IsVal.keys h1.oxidizer, IsVal.keys h1.reactants]
    cases c.fuel.keys with
    | error e => exact rfl
    | ok f => cases c.oxidizer.keys with
      | error e => exact rfl
      | ok o => cases c.reactants.keys with
        | error e => exact rfl
        | ok r =>
          simp only [Except.map, bindOk_eq, ← List.map_append]
          exact (retain_agree ht h).bind fun a b hab => ih hab

end Verif
