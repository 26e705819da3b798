import Verif.Lemmas.Argparse
import Verif.Props.Main
import Verif.Model.Sampling
/-!
# Properties of the command line (C77, C82, C83)
-/
namespace Verif
open Spec

/-! ## C82: what the options mean -/

/-- the arguments as given to the process -/
def argStrings (tss : List (List Text)) : List String := tss.flatten.map String.ofList

theorem argStrings_toList (tss : List (List Text)) : (argStrings tss).map String.toList = tss.flatten := by
  unfold argStrings
  rw [List.map_map]
  conv_rhs => rw [← List.map_id tss.flatten]
  apply List.map_congr_left
  intro t _
  simp

/-- Any list of settings, each written in any of the ways allowed, is understood: the result is that of
the settings one after the other, so the last one of an option counts. -/
theorem C82_options {its : List Item} {tss : List (List Text)} (h : List.Forall₂ Spells its tss) :
    parseArgs (argStrings tss) = .ok (its.foldl Item.apply noOptions) := by
  obtain ⟨toks, h1, -, h3⟩ := spelled_all h
  unfold parseArgs
  rw [argStrings_toList, h1]
  exact h3 _

/-- Settings of different options may be given in any order. -/
theorem C82_order {its its' : List Item} {tss tss' : List (List Text)} (h : List.Forall₂ Spells its tss)
    (h' : List.Forall₂ Spells its' tss') (hp : its.Perm its') (hd : (its.map Item.dest).Nodup) :
    parseArgs (argStrings tss) = parseArgs (argStrings tss') := by
  rw [C82_options h, C82_options h']
  congr 1
  refine hp.foldl_eq' ?_ _
  intro x hx y hy z
  by_cases hxy : x = y
  · rw [hxy]
  · have hne : x.dest ≠ y.dest := fun he => hxy (List.inj_on_of_nodup_map hd hx hy he)
    cases x <;> cases y <;> first | rfl | exact absurd rfl hne

/-- Without a number, one process less than there are processors is used, but at least one. -/
theorem C82_all_cores {its : List Item} {tss : List (List Text)} (h : List.Forall₂ Spells its tss)
    {t : Text} (ht : NamesOpt t .threads) (cpus : Nat) (hc : 1 ≤ cpus) :
    ∃ a, parseArgs (argStrings (tss ++ [[t]])) = .ok a ∧
      resolveThreads a.threads cpus = max 1 ((cpus : Int) - 1) := by
  have h2 : List.Forall₂ Spells (its ++ [.allThreads]) (tss ++ [[t]]) :=
    List.rel_append h (.cons (.allThreads ht) .nil)
  refine ⟨_, C82_options h2, ?_⟩
  rw [List.foldl_append]
  show resolveThreads 0 cpus = _
  unfold resolveThreads
  rw [if_pos rfl]
  split <;> omega

/-- A text that looks like an option but whose part before `=` begins no option ends the program,
wherever it stands. -/
theorem C82_unknown {args : List String} {t : Text} (ht : String.ofList t ∈ args) (h1 : "--".toList <+: t)
    (h2 : ∀ d, ∀ name ∈ optionNames d, ¬ t.takeWhile (· != '=') <+: name) (h3 : ' ' ∉ t) :
    parseArgs args = .error .systemExit := by
  have hp : (partitionEq t).1 = t.takeWhile (· != '=') := by
    have : ∀ t : Text, (partitionEq t).1 = t.takeWhile (· != '=') := by
      intro t
      induction t with
      | nil => rfl
      | cons c cs ih =>
          rw [partitionEq, List.takeWhile_cons]
          by_cases hc : c = '='
          · rw [if_pos hc, hc]; rfl
          · rw [if_neg hc]
            have : (c != '=') = true := by simpa using hc
            rw [this]
            simp [ih]
    exact this t
  have hpre : t.takeWhile (· != '=') <+: t := List.takeWhile_prefix _
  have hlook : ∀ u : Text, t.takeWhile (· != '=') <+: u → lookupOpt u = none := by
    intro u hu
    apply lookupOpt_none
    intro d hd
    exact h2 d u hd hu
  have hcl : classify t = .ok .unknown := by
    obtain ⟨u, hu⟩ := h1
    have hhead : ¬ (t = [] ∨ t.head? ≠ some '-') := by
      rw [← hu]; simp
    have hlen : ¬ t.length = 1 := by rw [← hu]; simp
    have htake : t.take 2 = "--".toList := by rw [← hu]; rfl
    have hopt : optionTuples t = [] := by
      unfold optionTuples
      rw [if_pos htake]
      dsimp only
      rw [List.map_eq_nil_iff, List.filter_eq_nil_iff]
      intro e he
      rw [hp, List.isPrefixOf_iff_prefix]
      exact h2 e.2 e.1 (mem_optTable.1 he)
    have hneg : negNumber t = false := by
      rw [← hu]
      have : ("--".toList ++ u : Text) = '-' :: '-' :: u := rfl
      rw [this]
      simp only [negNumber]
      rw [List.dropWhile_cons, if_neg (by decide)]
      rfl
    unfold classify
    rw [if_neg hhead, hlook t hpre]
    dsimp only
    rw [if_neg hlen, hp, hlook _ (List.prefix_refl _)]
    rw [hopt, hneg]
    cases (partitionEq t).2 <;> simp [h3]
  exact parseArgs_refused ht hcl id

/-- A flag with a value attached by `=` ends the program, wherever it stands. -/
theorem C82_flag_value {args : List String} {t v : Text} (ht : String.ofList (t ++ '=' :: v) ∈ args)
    {d : Dest} (hd : d = .help ∨ d = .convert ∨ d = .version) (hn : NamesOpt t d) :
    parseArgs args = .error .systemExit := by
  obtain ⟨s, hs⟩ := classify_eq v hn
  refine parseArgs_refused ht hs ?_
  have ha : arity d = .flag := by rcases hd with rfl | rfl | rfl <;> rfl
  rintro ⟨x, hx⟩
  rw [attached] at hx
  cases v with
  | nil => rw [chain, if_pos ha] at hx; cases hx
  | cons c cs =>
      rw [chain, if_pos ha] at hx
      split at hx
      · rw [if_pos (.inl rfl)] at hx; cases hx
      · cases hx

theorem negNumber_iff (t : Text) : negNumber t = true ↔ NegativeNumber t := by
  constructor
  · intro h
    unfold negNumber at h
    split at h
    · rename_i t
      dsimp only at h
      have hd : ∀ c ∈ t.takeWhile Char.isDigit, c.isDigit = true := fun c hc =>
        List.all_eq_true.1 (List.all_takeWhile (p := Char.isDigit) (l := t)) c hc
      have ht : t = t.takeWhile Char.isDigit ++ t.dropWhile Char.isDigit :=
        (List.takeWhile_append_dropWhile).symm
      refine ⟨t.takeWhile Char.isDigit, hd, ?_⟩
      split at h
      · rename_i h0
        rw [h0, List.append_nil] at ht
        exact .inl ⟨by rw [← ht]; simpa using h, by rw [← ht]⟩
      · rename_i v h0
        rw [h0] at ht
        simp only [ne_eq, Bool.and_eq_true, decide_eq_true_eq, List.all_eq_true] at h
        exact .inr ⟨v, h.1, h.2, by rw [← ht]⟩
      · cases h
    · cases h
  · rintro ⟨ds, hd, ⟨hne, rfl⟩ | ⟨fs, hne, hf, rfl⟩⟩
    · unfold negNumber
      simp only
      rw [dropWhile_all hd]
      simpa using hne
    · unfold negNumber
      simp only
      have : (ds ++ '.' :: fs).dropWhile Char.isDigit = '.' :: fs := by
        rw [List.dropWhile_append_of_pos hd]
        rw [List.dropWhile_cons, if_neg (by decide)]
      rw [this]
      simpa [hne] using hf

theorem classify_dash {c : Char} {cs : Text} (hc : c.isDigit = true ∨ c = '.') (h1 : '=' ∉ c :: cs)
    (h2 : ' ' ∉ c :: cs) : classify ('-' :: c :: cs) =
      .ok (if negNumber ('-' :: c :: cs) then .arg ('-' :: c :: cs) else .unknown) := by
  have hnames : ∀ e ∈ optTable, ∀ x ∈ e.1, x.isDigit = false ∧ x ≠ '.' := by decide
  have hno : ∀ e ∈ optTable, c ∉ e.1 := by
    intro e he hm
    obtain ⟨g1, g2⟩ := hnames e he c hm
    rcases hc with h | h
    · rw [h] at g1; cases g1
    · exact g2 h
  have hlook : lookupOpt ('-' :: c :: cs) = none := by
    apply lookupOpt_none
    intro d hd
    exact hno ('-' :: c :: cs, d) (mem_optTable.2 hd) (by simp)
  have hdash : c ≠ '-' := by
    rintro rfl
    rcases hc with h | h <;> revert h <;> decide
  have ho : optionTuples ('-' :: c :: cs) = [] := by
    unfold optionTuples
    rw [if_neg (by
      simp only [List.take_succ_cons, List.take_zero]
      intro h
      exact hdash (List.cons.inj (List.cons.inj h).2).1)]
    rw [List.filterMap_eq_nil_iff]
    intro e he
    rw [if_neg (fun h => hno e he (by rw [h]; simp)), if_neg (fun h => ?_)]
    rw [List.isPrefixOf_iff_prefix] at h
    obtain ⟨w, hw⟩ := h
    exact hno e he (by rw [← hw]; simp)
  have heq : '=' ∉ '-' :: c :: cs := by
    intro hm
    rcases List.mem_cons.1 hm with hm | hm
    · revert hm; decide
    · exact h1 hm
  have hsp : ' ' ∉ '-' :: c :: cs := by
    intro hm
    rcases List.mem_cons.1 hm with hm | hm
    · revert hm; decide
    · exact h2 hm
  unfold classify
  rw [if_neg (by simp), hlook]
  dsimp only
  rw [if_neg (by simp), partitionEq_none heq]
  dsimp only
  rw [ho]
  dsimp only
  rw [if_neg hsp]
  split_ifs <;> rfl

/-- A text that begins with a minus sign and a digit or point can be the value of an option after its
name exactly when it is a negative number; otherwise the program ends. -/
theorem C82_negative {it : Item} {d : Dest} {c : Char} {cs o : Text}
    (hv : it.textValue = some (d, '-' :: c :: cs)) (hn : NamesOpt o d)
    (hc : c.isDigit = true ∨ c = '.') (h1 : '=' ∉ c :: cs) (h2 : ' ' ∉ c :: cs) :
    (NegativeNumber ('-' :: c :: cs) →
      parseArgs (argStrings [[o, '-' :: c :: cs]]) = .ok (it.apply noOptions)) ∧
    (¬ NegativeNumber ('-' :: c :: cs) →
      parseArgs (argStrings [[o, '-' :: c :: cs]]) = .error .systemExit) := by
  have hcl := classify_dash hc h1 h2
  rw [← negNumber_iff]
  constructor
  · intro hneg
    rw [if_pos hneg] at hcl
    obtain ⟨ha, hact⟩ := textValue_arity hv
    obtain ⟨s, hs⟩ := classify_name hn
    have hdash : ('-' :: c :: cs : Text) ≠ "--".toList := by
      intro h
      have : c = '-' := (List.cons.inj (List.cons.inj h).2).1
      subst this
      rcases hc with h | h <;> revert h <;> decide
    unfold parseArgs
    rw [argStrings_toList]
    show (match tokenise [o, '-' :: c :: cs] with | .error e => _ | .ok toks => _) = _
    rw [tokenise_cons (namesOpt_shape hn).2.2.2 hs, tokenise_cons hdash hcl]
    show consume cliDefaults [.opt d s none, .arg ('-' :: c :: cs)] = _
    rw [consume]
    simp only [attached, takeFlags, Option.isSome_none, Bool.false_eq_true, ha, reduceCtorEq, or_self,
      if_false, hact]
    rfl
  · intro hneg
    rw [if_neg hneg] at hcl
    exact parseArgs_refused (by simp [argStrings]) hcl id

/-- The beginning of the names of two options, alone or with a value attached by `=`, ends the
program. -/
theorem C82_ambiguous {args : List String} {t : Text} {v : Option Text}
    (ht : String.ofList (t ++ (v.map ('=' :: ·)).getD []) ∈ args) (h1 : "--".toList <+: t)
    (h0 : '=' ∉ t) {d d' : Dest} (hd : d ≠ d') (hp : ∃ name ∈ optionNames d, t <+: name)
    (hp' : ∃ name ∈ optionNames d', t <+: name) :
    parseArgs args = .error .systemExit := by
  obtain ⟨name, hn, hp⟩ := hp
  obtain ⟨name', hn', hp'⟩ := hp'
  have hfree : ∀ d, ∀ x ∈ optionNames d, ∀ d', ∀ y ∈ optionNames d', x <+: y → x = y := by
    intro d x hx d' y hy
    revert x y
    cases d <;> cases d' <;> decide
  have hno : lookupOpt t = none := by
    apply lookupOpt_none
    intro d0 h
    have e1 := hfree _ _ h _ _ hn hp
    have e2 := hfree _ _ h _ _ hn' hp'
    have := (lookupOpt_names hn).symm.trans ((by rw [← e1, e2] : lookupOpt name = lookupOpt name').trans
      (lookupOpt_names hn'))
    exact hd (Option.some.inj this)
  have hpart : partitionEq (t ++ (v.map ('=' :: ·)).getD []) = (t, v) := by
    cases v with
    | none => simpa using partitionEq_none h0
    | some v => exact partitionEq_eq v h0
  have hno' : lookupOpt (t ++ (v.map ('=' :: ·)).getD []) = none := by
    cases v with
    | none => simpa using hno
    | some v =>
        apply lookupOpt_none
        intro d0 h
        exact (names_shape d0 _ h).1 (by simp)
  have hopt : ∃ a b l, optionTuples (t ++ (v.map ('=' :: ·)).getD []) = a :: b :: l := by
    unfold optionTuples
    rw [if_pos (by obtain ⟨u, rfl⟩ := h1; rfl), hpart]
    dsimp only
    have m1 : (name, d) ∈ optTable.filter (fun e => t.isPrefixOf e.1) :=
      List.mem_filter.2 ⟨mem_optTable.2 hn, List.isPrefixOf_iff_prefix.2 hp⟩
    have m2 : (name', d') ∈ optTable.filter (fun e => t.isPrefixOf e.1) :=
      List.mem_filter.2 ⟨mem_optTable.2 hn', List.isPrefixOf_iff_prefix.2 hp'⟩
    match hF : optTable.filter (fun e => t.isPrefixOf e.1) with
    | [] => rw [hF] at m1; simp at m1
    | [e] =>
        rw [hF, List.mem_singleton] at m1 m2
        rw [← m1] at m2
        exact absurd (congrArg Prod.snd m2).symm hd
    | e :: e' :: r => exact ⟨_, _, _, by rw [hF]; rfl⟩
  refine parseArgs_unreadable ht (e := .systemExit) ?_
  obtain ⟨a, b, l, hopt⟩ := hopt
  unfold classify
  rw [if_neg (by obtain ⟨u, rfl⟩ := h1; simp), hno']
  dsimp only
  rw [if_neg (by obtain ⟨u, rfl⟩ := h1; simp), hpart]
  dsimp only
  rw [hno, hopt]
  cases v <;> rfl

/-- An option that needs a value, at the end or in front of another setting, ends the program. -/
theorem C82_missing {its its' : List Item} {tss tss' : List (List Text)} (h : List.Forall₂ Spells its tss)
    (h' : List.Forall₂ Spells its' tss') {t : Text} {d : Dest}
    (hd : d = .input ∨ d = .path ∨ d = .model ∨ d = .thermo ∨ d = .transport) (ht : NamesOpt t d) :
    parseArgs (argStrings (tss ++ [t] :: tss')) = .error .systemExit := by
  obtain ⟨toks, h1, -, -, h3⟩ := spelled_more h
  obtain ⟨toks', g1, g2, -⟩ := spelled_all h'
  obtain ⟨s, hs⟩ := classify_name ht
  unfold parseArgs
  rw [argStrings_toList, List.flatten_append, h1, List.flatten_cons]
  rw [List.singleton_append, tokenise_cons (namesOpt_shape ht).2.2.2 hs, g1]
  show consume cliDefaults (toks ++ .opt d s none :: toks') = _
  rw [h3 _ (.opt d s none :: toks') (fun _ => trivial), consume]
  have ha : arity d = .one := by rcases hd with rfl | rfl | rfl | rfl | rfl <;> rfl
  simp only [attached, takeFlags, Option.isSome_none, Bool.false_eq_true, ha, reduceCtorEq, or_self,
    if_false, if_true]
  cases toks' with
  | nil => rfl
  | cons o os => cases o <;> first | exact absurd g2 id | rfl

theorem consume_arg (a : CliArgs) (v : Text) (os : List Tok) :
    consume a (.arg v :: os) = .error .systemExit := by
  simp [consume]

/-- An argument in front of all options, or after a setting that is complete, ends the program. -/
theorem C82_stray {its : List Item} {tss : List (List Text)} (h : List.Forall₂ Spells its tss)
    (hl : its.getLast? ≠ some .allThreads) {v : Text} (hv : v.head? ≠ some '-') (more : List (List Text)) :
    parseArgs (argStrings (tss ++ [v] :: more)) = .error .systemExit := by
  obtain ⟨toks, h1, -, -, h3⟩ := spelled_more h
  cases hr : parseArgs (argStrings (tss ++ [v] :: more)) with
  | error x => rw [parseArgs_error hr]
  | ok r =>
      exfalso
      unfold parseArgs at hr
      rw [argStrings_toList, List.flatten_append, h1, List.flatten_cons] at hr
      rw [List.singleton_append, tokenise_cons (by rintro rfl; exact hv rfl) (classify_plain hv)] at hr
      cases hm : tokenise more.flatten with
      | error e => rw [hm] at hr; cases hr
      | ok os =>
          rw [hm] at hr
          replace hr : consume cliDefaults (toks ++ .arg v :: os) = .ok r := hr
          rw [h3 _ _ (fun h => absurd h hl)] at hr
          have := consume_arg (List.foldl Item.apply cliDefaults its) v os
          rw [this] at hr
          cases hr

/-- `-m mech.yaml --conv --num=4 -iin.yaml --num_threads` -/
example : List.Forall₂ Spells
    [.model "mech.yaml".toList, .convert, .threads (-4), .input "in.yaml".toList, .allThreads]
    [["-m".toList, "mech.yaml".toList], ["--conv".toList], ["--num=-4".toList], ["-iin.yaml".toList],
      ["--num_threads".toList]] := by
  have abbr : ∀ (t : Text) (d : Dest), ("--".toList <+: t) → t ≠ "--".toList → '=' ∉ t →
      (∃ name ∈ optionNames d, t <+: name) →
      (∀ d' ∈ [Dest.help, .input, .path, .threads, .convert, .model, .thermo, .transport, .version],
        (∃ name ∈ optionNames d', t <+: name) → d' = d) → NamesOpt t d := by
    intro t d h1 h2 h3 h4 h5
    exact Or.inr ⟨h1, h2, h3, h4, fun d' => h5 d' (by cases d' <;> decide)⟩
  refine .cons (.separate rfl (.inl (by decide)) (by decide)) (.cons (.convert ?_) (.cons ?_ (.cons ?_
    (.cons (.allThreads (.inl (by decide))) .nil))))
  · exact abbr _ _ (by decide) (by decide) (by decide) (by decide) (by decide)
  · exact Spells.threadsEq (t := "--num".toList) (v := "-4".toList)
      (abbr _ _ (by decide) (by decide) (by decide) (by decide) (by decide))
      ⟨"4".toList, 4, by decide, by decide, .inr ⟨rfl, rfl⟩⟩
  · exact Spells.glued (t := "-i".toList) (v := "in.yaml".toList) rfl (by decide) (by decide) (by decide)
      (by decide)

/-- `--t` could be `--thermo` or `--transport` -/
example : ¬ NamesOpt "--t".toList .thermo ∧ parseArgs ["--t", "x"] = .error .systemExit := by
  refine ⟨?_, by decide +kernel⟩
  rintro (h | ⟨-, -, -, -, h⟩)
  · revert h; decide
  · have := h .transport ⟨"--transport".toList, by decide, by decide⟩
    cases this

example : parseArgs ["-i", "in.yaml", "-V=1"] = .error .systemExit :=
  C82_flag_value (t := "-V".toList) (v := "1".toList) (by decide) (.inr (.inr rfl)) (.inl (by decide))

example : parseArgs ["--m=x", "--t=y"] = .error .systemExit :=
  C82_ambiguous (t := "--t".toList) (v := some "y".toList) (d := .thermo) (d' := .transport) (by decide)
    (by decide) (by decide) (by decide) (by decide) (by decide)

example : parseArgs ["--convert", "-m", "--num_threads"] = .error .systemExit :=
  C82_missing (tss := [["--convert".toList]]) (tss' := [["--num_threads".toList]])
    (.cons (.convert (.inl (by decide))) .nil) (.cons (.allThreads (.inl (by decide))) .nil)
    (t := "-m".toList) (.inr (.inr (.inl rfl))) (.inl (by decide))

example : parseArgs ["--convert", "mech.inp", "--model"] = .error .systemExit :=
  C82_stray (tss := [["--convert".toList]]) (.cons (.convert (.inl (by decide))) .nil) (by simp)
    (v := "mech.inp".toList) (by decide) [["--model".toList]]

example : parseArgs ["-i", "in.yaml", "--verbose=1", "-V"] = .error .systemExit :=
  C82_unknown (t := "--verbose=1".toList) (by decide) (by decide) (by intro d; cases d <;> decide) (by decide)

/-- a model called `-1.5` can be given, one called `-.` or `-1.` cannot -/
example : parseArgs ["--model", "-1.5"] = .ok { noOptions with model := some "-1.5" } ∧
    parseArgs ["--model", "-."] = .error .systemExit ∧ parseArgs ["-m", "-1."] = .error .systemExit := by
  have hm : NamesOpt "--model".toList .model := .inl (by decide)
  have hm' : NamesOpt "-m".toList .model := .inl (by decide)
  refine ⟨(C82_negative (it := .model "-1.5".toList) rfl hm (.inl (by decide)) (by decide) (by decide)).1
      ⟨['1'], by decide, .inr ⟨['5'], by decide, by decide, rfl⟩⟩,
    (C82_negative (it := .model "-.".toList) rfl hm (.inr rfl) (by decide) (by decide)).2 ?_,
    (C82_negative (it := .model "-1.".toList) rfl hm' (.inl (by decide)) (by decide) (by decide)).2 ?_⟩
  · rw [← negNumber_iff]; decide
  · rw [← negNumber_iff]; decide

/-! ## C77: the arguments given to `pymars` -/

variable (openYaml : String → Except Err InputDict) (load : String → String → Except Err (List String))
  (conv : String → Except Err Unit)

theorem cli_convert {argv args : List String} {a : CliArgs} (hv : argv ≠ []) (ha : parseArgs args = .ok a)
    (hver : a.version = false) (hcv : a.convert = true) {m : String} (hm : a.model = some m) (hm0 : m ≠ "") :
    pymarsCli openYaml load conv argv args = .ok (.convert m a.thermo a.transport a.path) := by
  unfold pymarsCli cli
  rw [ha]
  simp [hv, pyWhen, hver, hcv, hm, hm0, givenText, bind, Except.bind, pure, Except.pure]

/-- Refutes C77: whatever `argv` asks for, the model named in the arguments of the process is
converted. -/
theorem C77_process_refuted (argv : List String) (h : argv ≠ []) (m : Text) (hm : m ≠ [])
    (hm2 : m.head? ≠ some '-') :
    pymarsCli openYaml load conv argv ["--convert", "-m", String.ofList m] =
      .ok (.convert (String.ofList m) none none "") := by
  have hs : List.Forall₂ Spells [.convert, .model m] [["--convert".toList], ["-m".toList, m]] :=
    .cons (.convert (.inl (by decide))) (.cons (.separate rfl (.inl (by decide)) hm2) .nil)
  have hp := C82_options hs
  have ha : argStrings [["--convert".toList], ["-m".toList, m]] = ["--convert", "-m", String.ofList m] := rfl
  rw [ha] at hp
  have hne : String.ofList m ≠ "" := by
    intro h
    apply hm
    have := congrArg String.toList h
    simpa using this
  exact cli_convert (a := ([.convert, .model m] : List Item).foldl Item.apply noOptions) openYaml load conv
    h hp rfl rfl (m := String.ofList m) rfl hne

/-- Where the arguments given are those of the process, as on the command line, C77 holds: they are
understood as settings; the version ends the program; a conversion or a reduction is done if the model or
the input file is given and the program ended otherwise. -/
theorem C77_same_partial {its : List Item} {tss : List (List Text)} (h : List.Forall₂ Spells its tss)
    (hne : its ≠ []) :
    let a := its.foldl Item.apply noOptions
    let run := pymarsCli openYaml load conv (argStrings tss) (argStrings tss)
    (a.version = true → run = .error .systemExit) ∧
    (a.version = false → a.convert = true →
      (∀ m, a.model = some m → m ≠ "" → run = .ok (.convert m a.thermo a.transport a.path)) ∧
      (a.model = none ∨ a.model = some "" → run = .error .systemExit)) ∧
    (a.version = false → a.convert = false →
      (∀ i d r d', a.input = some i → i ≠ "" → openYaml i = .ok d → parseInputs load d = .ok (r, d') →
        ((splitext d.model.toList).2 = ".yaml".toList ∨ (splitext d.model.toList).2 = ".yml".toList) →
        run = .ok (.reduce r a.path a.threads)) ∧
      (a.input = none ∨ a.input = some "" → run = .error .systemExit)) := by
  have hp := C82_options h
  have harg : argStrings tss ≠ [] := by
    intro h0
    unfold argStrings at h0
    rw [List.map_eq_nil_iff] at h0
    cases h with
    | nil => exact hne rfl
    | cons h1 _ =>
        rw [List.flatten_cons, List.append_eq_nil_iff] at h0
        cases h1 <;> simp at h0
  intro a run
  have hpa : parseArgs (argStrings tss) = .ok a := hp
  refine ⟨fun hv => ?_, fun hv hc => ⟨fun m hm hm0 => ?_, fun hm => ?_⟩,
    fun hv hc => ⟨fun i d r d' hi hi0 hd hpi hext => ?_, fun hi => ?_⟩⟩
  · show cli _ _ _ _ _ _ = _
    unfold cli
    rw [hpa]
    simp [harg, pyWhen, hv, bind, Except.bind]
  · exact cli_convert openYaml load conv harg hpa hv hc hm hm0
  · show cli _ _ _ _ _ _ = _
    unfold cli
    rw [hpa]
    have : givenText a.model = false := by rcases hm with h | h <;> rw [h] <;> rfl
    simp [harg, pyWhen, hv, hc, this, bind, Except.bind]
  · exact C66_yaml_partial _ _ a d d' r harg hpa hv hc hi hi0 hd hpi hext
  · show cli _ _ _ _ _ _ = _
    unfold cli
    rw [hpa]
    have : givenText a.input = false := by rcases hi with h | h <;> rw [h] <;> rfl
    simp [harg, pyWhen, hv, hc, this, bind, Except.bind]

/-! ## C83: the entry point -/

/-- Refutes C83: `main(args)` does nothing with arguments that make the command convert a model. -/
theorem C83_ignored_refuted (m : Text) (hm : m ≠ []) (hm2 : m.head? ≠ some '-') (processArgs : List String) :
    mainEntry openYaml load conv (some ["--convert", "-m", String.ofList m]) processArgs = .ok none ∧
    mainEntry openYaml load conv none ["--convert", "-m", String.ofList m] =
      .ok (some (.convert (String.ofList m) none none "")) := by
  refine ⟨rfl, ?_⟩
  unfold mainEntry
  dsimp only
  rw [C77_process_refuted openYaml load conv _ (by simp) m hm hm2]
  rfl

/-- Called without arguments, `main` acts on the settings the process was started with. -/
theorem C83_process_partial {its : List Item} {tss : List (List Text)} (h : List.Forall₂ Spells its tss)
    (hne : its ≠ []) (hver : (its.foldl Item.apply noOptions).version = false) :
    let a := its.foldl Item.apply noOptions
    let run := mainEntry openYaml load conv none (argStrings tss)
    (∀ m, a.convert = true → a.model = some m → m ≠ "" →
      run = .ok (some (.convert m a.thermo a.transport a.path))) ∧
    (∀ i d r d', a.convert = false → a.input = some i → i ≠ "" → openYaml i = .ok d →
      parseInputs load d = .ok (r, d') →
      ((splitext d.model.toList).2 = ".yaml".toList ∨ (splitext d.model.toList).2 = ".yml".toList) →
      run = .ok (some (.reduce r a.path a.threads))) := by
  intro a run
  obtain ⟨-, h1, h2⟩ := C77_same_partial openYaml load conv h hne
  refine ⟨fun m hc hm hm0 => ?_, fun i d r d' hc hi hi0 hd hp hext => ?_⟩
  · show (pymarsCli _ _ _ _ _).map some = _
    rw [(h1 hver hc).1 m hm hm0]; rfl
  · show (pymarsCli _ _ _ _ _).map some = _
    rw [(h2 hver hc).1 i d r d' hi hi0 hd hp hext]; rfl

example : "a.yaml".toList ≠ [] ∧ "a.yaml".toList.head? ≠ some '-' := by decide

/-- settings of a conversion and of a reduction -/
example : ([.convert, .model "a.yaml".toList] : List Item).foldl Item.apply noOptions =
      ⟨none, "", 1, true, some "a.yaml", none, none, false⟩ ∧
    ([.path "out".toList, .input "in.yaml".toList, .threads 4] : List Item).foldl Item.apply noOptions =
      ⟨some "in.yaml", "out", 4, false, none, none, none, false⟩ := by decide +kernel

end Verif
