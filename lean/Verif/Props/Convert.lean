import Verif.Lemmas.Convert
import Verif.Props.States
import Verif.Props.Tools
import Verif.Props.CkFiles
/-!
# C116: the conversion command, from its arguments to the files it leaves
-/
namespace Verif
open Spec

variable {K : Cantera IgnInput Cond FlameInput} {sh : Shell} {args : List String} {m path : String}
  {thermo transport : Option String} {d : Disk} {w : World} {rnd : ℚ → ℚ} {dfuel fuel saFuel : Nat}
  {C : Converters} {fs : Files}

theorem lastPart_base {p base ext : Text} (h : LastPart p (base ++ '.' :: ext)) : '/' ∉ base :=
  fun hb => h.1 (List.mem_append_left _ hb)

theorem convertCommand_eq (I : AsksConversion args m thermo transport path) :
    convertCommand C (program K rnd sh args d dfuel fuel saFuel w) fs =
      convertModel C m.toList (thermo.map String.toList) (transport.map String.toList) path.toList fs := by
  rw [C97_convert I]
  rfl

theorem convertModel_chemkin {file p base ext : Text} {th tr : Option Text}
    (hm : LastPart file (base ++ '.' :: ext)) (hn : CanteraName base ext) {s : Soln ℚ}
    (hl : C.load fs file = .ok s) :
    convertModel C file th tr p fs = writeCk C.rp s fs (base ++ ".inp".toList) p false false := by
  have h : convertAction file th tr p = .toChemkin file (base ++ ".inp".toList) p := by
    rcases hm.2 with h | ⟨dir, h⟩
    · rw [h]; exact (C54_to_chemkin [] base ext p th tr hn.1 (lastPart_base hm) hn.2).2
    · rw [h]; exact (C54_to_chemkin dir base ext p th tr hn.1 (lastPart_base hm) hn.2).1
  unfold convertModel
  rw [h]
  dsimp only
  rw [hl]

/-- **C116**: a command that asks, in any spelling, for the conversion of a model `base.yaml`,
`base.yml` or `base.cti` and ends normally has written the model, its thermodynamic data and, exactly if
every species has them, its transport data under the name `base` in the output directory; no other file
is changed. -/
theorem C116_to_chemkin (I : AsksConversion args m thermo transport path) {base ext : Text}
    (hm : LastPart m.toList (base ++ '.' :: ext)) (hn : CanteraName base ext) {s : Soln ℚ}
    (hl : C.load fs m.toList = .ok s) {outs : List Text} {fs' : Files}
    (h : convertCommand C (program K rnd sh args d dfuel fuel saFuel w) fs = (.ok outs, fs')) :
    let inp := joinPath path.toList (base ++ ".inp".toList)
    let thermo := joinPath path.toList base ++ "_thermo.dat".toList
    let transport := joinPath path.toList base ++ "_transport.dat".toList
    outs = [inp, thermo] ++ (if ∀ x ∈ s.species, x.transport ≠ none then [transport] else []) ∧
    fs' inp = some (modelText C.rp s).1 ∧ fs' thermo = some (thermoText s.species).1 ∧
    ((∀ x ∈ s.species, x.transport ≠ none) → fs' transport = some (transportText s.species).1) ∧
    ∀ g, g ∉ outs → fs' g = fs g := by
  rw [convertCommand_eq I, convertModel_chemkin hm hn hl] at h
  obtain ⟨h1, h2, h3, h4, h5⟩ := C54_files hn.1 (lastPart_base hm) h
  exact ⟨h1, h4, h2, h3, h5⟩

/-- **C116**: whatever the file names, the direction and the outcome, a conversion changes no file that
has the name of the model file, be it in the same or in another directory. -/
theorem C116_model_kept (I : AsksConversion args m thermo transport path) (ho : OneOutput C)
    {f name : Text} (hf : LastPart f name) (hm : LastPart m.toList name) :
    (convertCommand C (program K rnd sh args d dfuel fuel saFuel w) fs).2 f = fs f := by
  rw [convertCommand_eq I]
  generalize m.toList = file at hm
  generalize thermo.map String.toList = th
  generalize transport.map String.toList = tr
  generalize path.toList = p
  have hb : basename file = name := LastPart_basename hm
  have hparts := splitext_parts name
  have hslash : '/' ∉ (splitext name).1 := splitext_no_slash hm.1
  unfold convertModel convertAction
  rw [hb]
  dsimp only
  split
  · rename_i file' name' p' hact
    split at hact
    · rename_i hext
      cases hact
      split
      · rfl
      · rename_i s _
        have hnd : ∃ c ∈ (splitext name).1, c ≠ '.' := by
          apply splitext_nondot
          rcases hext with h | h | h <;> rw [h] <;> decide
        generalize (splitext name).1 = base at hparts hslash hnd
        generalize (splitext name).2 = ext at hparts hext
        have hj : (splitext (joinPath p (base ++ ".inp".toList))).1 = joinPath p base := by
          rw [show base ++ ".inp".toList = base ++ '.' :: "inp".toList from rfl,
            splitext_join hnd hslash (by decide)]
        have hne : ∀ tail, '/' ∉ tail → tail ≠ ext → f ≠ joinPath p (base ++ tail) := by
          intro tail ht hne he
          have h1 : LastPart f (base ++ tail) := by
            rw [he]
            exact lastPart_join p (by simp only [List.mem_append, not_or]; exact ⟨hslash, ht⟩)
          have h2 := lastPart_unique hf h1
          rw [← hparts] at h2
          exact hne (List.append_cancel_left h2).symm
        have hout : ∀ tail, joinPath p base ++ tail = joinPath p (base ++ tail) := by
          intro tail
          have hb0 : base ≠ [] := by rintro rfl; obtain ⟨c, hc, -⟩ := hnd; cases hc
          have hh : (base ++ tail).head? = base.head? := by
            cases base with
            | nil => exact absurd rfl hb0
            | cons c cs => rfl
          unfold joinPath
          rw [hh]
          split
          · rfl
          · split
            · rfl
            · split <;> simp
        refine writeCk_files (by simp) (hne _ (by decide) ?_) ?_ ?_
        · rcases hext with h | h | h <;> rw [h] <;> decide
        · rw [hj, hout]
          refine hne _ (by decide) ?_
          rcases hext with h | h | h <;> rw [h] <;> decide
        · rw [hj, hout]
          refine hne _ (by decide) ?_
          rcases hext with h | h | h <;> rw [h] <;> decide
    · cases hact
  · rename_i as out hact
    split at hact
    · cases hact
    · rename_i hext
      cases hact
      have hf2 : ∀ as, (C.ck2yaml as fs).2 f = fs f →
          (match C.ck2yaml as fs with
            | (.error e, fs') => ((.error e : Except Err (List Text)), fs')
            | (.ok _, fs') => (.ok [joinPath p ((splitext name).1 ++ ".yaml".toList)], fs')).2 f = fs f := by
        intro as h
        rcases hc : C.ck2yaml as fs with ⟨_ | _, fs'⟩ <;> rw [hc] at h <;> exact h
      apply hf2
      apply ho
      have hne : f ≠ joinPath p ((splitext name).1 ++ ".yaml".toList) := by
        intro he
        have h1 : LastPart f ((splitext name).1 ++ ".yaml".toList) := by
          rw [he]
          exact lastPart_join p (by simp only [List.mem_append, not_or]; exact ⟨hslash, by decide⟩)
        have h2 := lastPart_unique hf h1
        exact hext (.inl (List.append_cancel_left (hparts.trans h2)))
      generalize joinPath p ((splitext name).1 ++ ".yaml".toList) = out at hne
      cases givenFile th <;> cases givenFile tr <;> simp [hne]

/-- **C116**: any other model `base.ext` is handed to `ck2yaml`; the only file that can change is
`base.yaml` in the output directory, and its name is what the command reports. -/
theorem C116_to_yaml (I : AsksConversion args m thermo transport path) (ho : OneOutput C)
    {base ext : Text} (hm : LastPart m.toList (base ++ '.' :: ext)) (hb : ∃ c ∈ base, c ≠ '.')
    (hx : '.' ∉ ext) (he : ext ∉ ["yaml".toList, "yml".toList, "cti".toList]) :
    let r := convertCommand C (program K rnd sh args d dfuel fuel saFuel w) fs
    let out := joinPath path.toList (base ++ ".yaml".toList)
    ∃ as, "--permissive".toList ∈ as ∧ ("--input=".toList ++ m.toList) ∈ as ∧
      ("--output=".toList ++ out) ∈ as ∧
      (∀ t, ("--thermo=".toList ++ t.toList) ∈ as ↔ thermo = some t ∧ t ≠ "") ∧
      (∀ t, ("--transport=".toList ++ t.toList) ∈ as ↔ transport = some t ∧ t ≠ "") ∧
      r.2 = (C.ck2yaml as fs).2 ∧ (∀ g, g ≠ out → r.2 g = fs g) ∧
      (∀ u, (C.ck2yaml as fs).1 = .ok u → r.1 = .ok [out]) ∧
      ∀ e, (C.ck2yaml as fs).1 = .error e → r.1 = .error e := by
  intro r out
  have hx' : ∀ c ∈ ext, c ≠ '.' ∧ c ≠ '/' := by
    intro c hc
    refine ⟨by rintro rfl; exact hx hc, ?_⟩
    rintro rfl
    exact hm.1 (by simp [hc])
  have hin : ¬ ('.' :: ext = ".yaml".toList ∨ '.' :: ext = ".yml".toList ∨ '.' :: ext = ".cti".toList) := by
    intro h
    apply he
    rcases h with h | h | h
    · have : ext = "yaml".toList := (List.cons.inj h).2
      simp [this]
    · have : ext = "yml".toList := (List.cons.inj h).2
      simp [this]
    · have : ext = "cti".toList := (List.cons.inj h).2
      simp [this]
  have hr : r = convertModel C m.toList (thermo.map String.toList) (transport.map String.toList)
      path.toList fs := convertCommand_eq I
  unfold convertModel convertAction at hr
  rw [LastPart_basename hm, splitext_spec hb (lastPart_base hm) hx'] at hr
  dsimp only at hr
  rw [if_neg hin] at hr
  dsimp only at hr
  generalize has : [("--input=".toList ++ m.toList)] ++ _ ++ _ ++ _ ++ _ = as at hr
  have hg : ∀ o : Option String, (givenFile (o.map String.toList) = none ∧ ∀ t, ¬ (o = some t ∧ t ≠ "")) ∨
      ∃ t, givenFile (o.map String.toList) = some t.toList ∧ o = some t ∧ t ≠ "" := by
    intro o
    cases o with
    | none => exact .inl ⟨rfl, by simp⟩
    | some t =>
        by_cases h0 : t = ""
        · subst h0; exact .inl ⟨rfl, by simp⟩
        · refine .inr ⟨t, ?_, rfl, h0⟩
          have h1 : t.toList ≠ [] := by simpa using h0
          show givenFile (some t.toList) = _
          cases h2 : t.toList with
          | nil => exact absurd h2 h1
          | cons c cs => rfl
  have hmem : ∀ g, ("--output=".toList ++ g) ∈ as → g = out := by
    intro g hg'
    rw [← has] at hg'
    change _ ∈ _ ++ [_ ++ out] ++ _ at hg'
    generalize out = o at hg'
    generalize givenFile (thermo.map String.toList) = a at hg'
    generalize givenFile (transport.map String.toList) = b at hg'
    cases a <;> cases b <;> simpa using hg'
  have hlet : r.2 = (C.ck2yaml as fs).2 ∧ (∀ u, (C.ck2yaml as fs).1 = .ok u → r.1 = .ok [out]) ∧
      ∀ e, (C.ck2yaml as fs).1 = .error e → r.1 = .error e := by
    rcases hc : C.ck2yaml as fs with ⟨e | u, fs'⟩
    · rw [hc] at hr
      rw [hr]
      refine ⟨rfl, fun _ h => (by cases h), fun e' h => ?_⟩
      cases h; rfl
    · rw [hc] at hr
      rw [hr]
      exact ⟨rfl, fun _ _ => rfl, fun _ h => by cases h⟩
  refine ⟨as, ?_, ?_, ?_, ?_, ?_, hlet.1, ?_, hlet.2.1, hlet.2.2⟩
  · rw [← has]; simp
  · rw [← has]; simp
  · rw [← has]; simp [out]
  · intro t
    rw [← has]
    rcases hg thermo with ⟨h1, h2⟩ | ⟨t1, h1, h2, h3⟩ <;>
      rcases hg transport with ⟨h4, h5⟩ | ⟨t2, h4, h5, h6⟩ <;> rw [h1, h4]
    · simpa using h2 t
    · simpa using h2 t
    · subst h2
      simp [String.toList_inj]
      constructor
      · rintro rfl; exact ⟨rfl, h3⟩
      · rintro ⟨h, -⟩; exact h.symm
    · subst h2
      simp [String.toList_inj]
      constructor
      · rintro rfl; exact ⟨rfl, h3⟩
      · rintro ⟨h, -⟩; exact h.symm
  · intro t
    rw [← has]
    rcases hg thermo with ⟨h1, h2⟩ | ⟨t1, h1, h2, h3⟩ <;>
      rcases hg transport with ⟨h4, h5⟩ | ⟨t2, h4, h5, h6⟩ <;> rw [h1, h4]
    · simpa using h5 t
    · subst h5
      simp [String.toList_inj]
      constructor
      · rintro rfl; exact ⟨rfl, h6⟩
      · rintro ⟨h, -⟩; exact h.symm
    · simpa using h5 t
    · subst h5
      simp [String.toList_inj]
      constructor
      · rintro rfl; exact ⟨rfl, h6⟩
      · rintro ⟨h, -⟩; exact h.symm
  · intro g hne
    rw [hlet.1]
    exact ho as fs g fun h => hne (hmem g h)

/-- a model with a reaction that cannot be written makes the conversion fail -/
theorem modelText_fails {rp : ℚ → Text} {s : Soln ℚ} {r : Rxn ℚ} (hr : r ∈ s.reactions) (hn : NoText r) :
    ∃ t e, modelText rp s = (t, some e) := by
  have hf : ∃ e, rxnText rp (s.species.map Spec1.name) r = .error e := by
    have hk : (∀ kind k, r.rate ≠ .simple kind k) → PlainKind r :=
      fun h kind k hk => absurd hk (h kind k)
    rcases hn with ⟨sub, chem, lo, hi, cs, h1, h2, h3⟩ | ⟨chem, lo, hi, a, b, c, h1⟩ | ⟨h1, ⟨rates, h2⟩ | ⟨t, p, m, d, h2⟩⟩
    · exact ⟨_, (C59_unsupported rp _ r (hk (by rw [h1]; simp))).2.2.2 sub chem lo hi cs h1 h2 h3⟩
    · exact ⟨_, C59_troe_refuted rp _ r chem lo hi a b c h1⟩
    · exact ⟨_, (C59_unsupported rp _ r (hk (by rw [h2]; simp))).2.1 rates h2 h1⟩
    · exact ⟨_, (C59_unsupported rp _ r (hk (by rw [h2]; simp))).2.2.1 t p m d h2 h1⟩
  obtain ⟨e, he⟩ := writeAll_fails hr hf
  unfold modelText
  dsimp only
  rcases hw : writeAll (rxnText rp (s.species.map Spec1.name)) s.reactions with ⟨t, e'⟩
  rw [hw] at he
  dsimp only at he
  subst he
  exact ⟨_, _, rfl⟩

/-- Refutes C116: a conversion that fails does not leave the files as they were.  If the model has a
reaction that cannot be written, the file `base.inp` in the output directory is replaced, whatever it
held, by a text that breaks off at the end of a line: it is not the end of a Chemkin model. -/
theorem C116_failed_refuted (I : AsksConversion args m thermo transport path) {base ext : Text}
    (hm : LastPart m.toList (base ++ '.' :: ext)) (hn : CanteraName base ext) {s : Soln ℚ}
    (hl : C.load fs m.toList = .ok s) {r : Rxn ℚ} (hr : r ∈ s.reactions) (hN : NoText r) :
    ∃ e fs' t, convertCommand C (program K rnd sh args d dfuel fuel saFuel w) fs = (.error e, fs') ∧
      fs' (joinPath path.toList (base ++ ".inp".toList)) = some t ∧ t.getLast? = some '\n' ∧
      (∀ old, fs (joinPath path.toList (base ++ ".inp".toList)) = some (old ++ "END".toList) →
        fs' (joinPath path.toList (base ++ ".inp".toList)) ≠
          fs (joinPath path.toList (base ++ ".inp".toList))) ∧
      ∀ g, g ≠ joinPath path.toList (base ++ ".inp".toList) → fs' g = fs g := by
  rw [convertCommand_eq I, convertModel_chemkin hm hn hl]
  obtain ⟨t, e, ht⟩ := modelText_fails (rp := C.rp) hr hN
  have hne : base ++ ".inp".toList ≠ [] := by simp
  refine ⟨e, fs.put (joinPath path.toList (base ++ ".inp".toList)) t, t, ?_, ?_, modelText_stops ht, ?_, ?_⟩
  · unfold writeCk
    simp only [if_neg hne, ht]
  · simp [Files.put]
  · intro old ho he
    have h1 : (fs.put (joinPath path.toList (base ++ ".inp".toList)) t)
        (joinPath path.toList (base ++ ".inp".toList)) = some t := by simp [Files.put]
    rw [h1, ho] at he
    have h2 := modelText_stops ht
    cases he
    rw [List.getLast?_append] at h2
    cases h2
  · intro g hg
    show (if g = _ then _ else _) = _
    rw [if_neg hg]

/-- Refutes C116: a conversion replaces files that it did not create.  Whatever `base.inp` in the output
directory was, for example the Chemkin file that `base.yaml` was made from, it afterwards begins with the
writer's title, whether the conversion succeeds or fails. -/
theorem C116_replaced_refuted (I : AsksConversion args m thermo transport path) {base ext : Text}
    (hm : LastPart m.toList (base ++ '.' :: ext)) (hn : CanteraName base ext) {s : Soln ℚ}
    (hl : C.load fs m.toList = .ok s) :
    ∃ t, (convertCommand C (program K rnd sh args d dfuel fuel saFuel w) fs).2
        (joinPath path.toList (base ++ ".inp".toList)) = some t ∧
      "!Chemkin file converted from solution object: ".toList <+: t := by
  rw [convertCommand_eq I, convertModel_chemkin hm hn hl]
  refine ⟨(modelText C.rp s).1, ?_, ?_⟩
  · have hslash := lastPart_base hm
    have hj : splitext (joinPath path.toList (base ++ ".inp".toList)) =
        (joinPath path.toList base, ".inp".toList) := splitext_join hn.1 hslash (by decide)
    have hj1 : joinPath path.toList (base ++ ".inp".toList) = joinPath path.toList base ++ ".inp".toList := by
      have := splitext_parts (joinPath path.toList (base ++ ".inp".toList))
      rw [hj] at this
      exact this.symm
    exact writeCk_inp (by simp) (by rw [hj, hj1]; simp) (by rw [hj, hj1]; simp)
  · unfold modelText
    dsimp only
    split <;> simp only [List.append_assoc] <;> exact List.prefix_append _ _

/-! ### A conversion with and without an unsupported reaction -/

/-- files with a model and an older Chemkin file of the same name; reading the model gives the one
species and the given reactions -/
def convFiles : Files := fun f =>
  if f = "in/gas.yaml".toList then some "model".toList
  else if f = "out/gas.inp".toList then some "REACTIONS\nEND".toList else none

def convC (rs : List (Rxn ℚ)) : Converters where
  load := fun fs f => if (fs f).isSome then
    .ok ⟨"gas".toList, ["H".toList, "O".toList], [ckSpecies], rs⟩ else .error .fileNotFound
  rp := fmtFix 1
  ck2yaml := fun _ fs => (.error .systemExit, fs)

theorem conv_asks : AsksConversion ["--conv", "--path=out", "-min/gas.yaml"] "in/gas.yaml" none none "out" :=
  ⟨[.convert, .path "out".toList, .model "in/gas.yaml".toList],
    [["--conv".toList], ["--path=out".toList], ["-min/gas.yaml".toList]],
    .cons (.convert (.inr ⟨by decide, by decide, by decide, by decide, fun d => by cases d <;> decide⟩)) (.cons (.equals (t := "--path".toList) rfl (.inl (by decide)))
      (.cons (.glued (t := "-m".toList) (d := .model) rfl (by decide) (by decide) (by decide) (by decide)) .nil)),
    rfl, rfl, rfl, rfl, by decide, rfl, rfl, rfl⟩

theorem conv_name : LastPart "in/gas.yaml".toList ("gas".toList ++ '.' :: "yaml".toList) :=
  ⟨by decide, .inr ⟨"in".toList, by decide⟩⟩

theorem conv_cantera : CanteraName "gas".toList "yaml".toList := ⟨⟨'g', by decide, by decide⟩, by decide⟩

/-- a P-log rate with a third body -/
def convBad : Rxn ℚ := { ckFalloff with rate := .plog [(101325, ⟨1, 0, 0⟩)] }

example : OneOutput (convC []) := fun _ _ _ _ => rfl

example : (convertCommand (convC [ckFalloff]) (program K rnd sh ["--conv", "--path=out", "-min/gas.yaml"] d
      dfuel fuel saFuel w) convFiles).1 =
    .ok ["out/gas.inp".toList, "out/gas_thermo.dat".toList, "out/gas_transport.dat".toList] := by
  rw [convertCommand_eq conv_asks]
  decide +kernel

example : NoText convBad := .inr (.inr ⟨by unfold convBad ckFalloff; simp, .inl ⟨_, rfl⟩⟩)

example : ∃ e fs' t, convertCommand (convC [ckFalloff, convBad]) (program K rnd sh
      ["--conv", "--path=out", "-min/gas.yaml"] d dfuel fuel saFuel w) convFiles = (.error e, fs') ∧
    fs' "out/gas.inp".toList = some t ∧ t.getLast? = some '\n' ∧
    fs' "out/gas.inp".toList ≠ convFiles "out/gas.inp".toList := by
  obtain ⟨e, fs', t, h1, h2, h3, h4, -⟩ := C116_failed_refuted (K := K) (sh := sh) (d := d) (w := w)
    (rnd := rnd) (dfuel := dfuel) (fuel := fuel) (saFuel := saFuel) (C := convC [ckFalloff, convBad])
    (fs := convFiles) conv_asks conv_name conv_cantera rfl (r := convBad) (by simp)
    (.inr (.inr ⟨by unfold convBad ckFalloff; simp, .inl ⟨_, rfl⟩⟩))
  have he : joinPath "out".toList ("gas".toList ++ ".inp".toList) = "out/gas.inp".toList := by decide
  rw [he] at h2 h4
  exact ⟨e, fs', t, h1, h2, h3, h4 "REACTIONS\n".toList rfl⟩

end Verif
