import Verif.Lemmas.States
import Verif.Props.Published
import Verif.Props.Program
/-!
# C109: the command keeps what the published coefficients select at the states that the input file
describes
-/
namespace Verif
open Spec

variable {K : Cantera IgnInput Cond FlameInput} {sh : Shell} {args : List String} {i path : String}
  {threads : Int} {d : Disk} {w : World} {dct : InputDict} {sol : Mech} {ts ss : List String}
  {meth : Method}

/-- **C109**: the table of metrics and states made from the records of the conditions is the one
that the input file describes: for each autoignition case the delay to 400 K above the given
temperature and twenty states of the trajectory up to the given end time or to steady state; for each
stirred reactor three metrics and states at the given pressure in atmospheres; for each flame the
speed, above the given floor, and twenty states. -/
theorem C109_table (b : Arith) {c : Conds IgnInput Cond FlameInput} {metrics : List PyF} {rows : List Row}
    (P : Physical (K.inputs dct.minFlameSpeed) sol) (hr : ReadFrom sol.names dct c) (hd : Readable dct)
    (h : Simulated ((K.inputs dct.minFlameSpeed).sims b.rnd) sol c metrics rows) :
    Table K sol (levelTol b) dct.minFlameSpeed dct metrics rows := by
  obtain ⟨a, p, f, h1, h2, h3, h4, h5⟩ := h.ex
  refine ⟨a, p, f, ?_, ?_, ?_, ?_, ?_⟩
  · have := forall₂_comp hr.ign h1
    rw [List.forall₂_iff_zip] at this ⊢
    refine ⟨this.1, fun {x y} hxy => ?_⟩
    obtain ⟨r, g1, g2⟩ := this.2 hxy
    exact ignData P g1 (hd x (List.of_mem_zip hxy).1) g2
  · exact (forall₂_comp hr.psr h2).imp fun x y ⟨r, g1, g2⟩ => psrData P g1 g2
  · exact (forall₂_comp hr.flame h3).imp fun x y ⟨r, g1, g2⟩ => flameData g1 g2
  · rw [h4]; simp
  · rw [h5]; simp

/-- **C109**: when the command with a method ends normally, there are a threshold of the search and
a table of states, the one described by the input file, such that the model in the output directory
consists of the targets, the retained species, the species of the initial mixtures and the species
selected by the published coefficients at the states; in binary64 the selection lies between those
at a threshold a shade higher and a shade lower. -/
theorem C109_program (I : Asks args i path threads) (hy : sh.yaml i = .ok dct)
    (S : Situation sh dct path threads w d sol) (hts : dct.targets = .list ts)
    (hss : dct.retained.getD (.list []) = .list ss) (hm : NamedMethod dct.method meth)
    (hsa : dct.sensitivity = false) (P : Physical (K.inputs dct.minFlameSpeed) sol)
    (hd : Readable dct) (hlim : (PyF.fin 0).le dct.error = true)
    (hsize : 4 * sol.reactions.length + sol.names.length + 14 ≤ 2 ^ 51)
    (hsame : SameBehaviour (K.inputs dct.minFlameSpeed) sol
      (trim sol [] ("reduced_".toList ++ dct.model.toList) dct.phase.toList)) :
    ∃ N, ∀ dfuel ≥ N, ∀ fuel saFuel w' evs,
      program K rnd64 sh args d dfuel fuel saFuel w = .reduced (some (.ok ())) w' evs →
      ∃ red metrics rows j k, w'.fs (joinPath path.toList (reducedName red.nSpecies)) = some red ∧
        Table K sol (1 / 10 ^ 14) dct.minFlameSpeed dct metrics rows ∧ j ≤ lastStart meth .binary64 ∧
        (∀ s ∈ sol.names, KeptPublished meth sol.names ts [] (rows.map (K.chem sol))
            (above meth sol.names.length sol.reactions.length (finalThr rnd64 j k)) s ∨
          s ∈ ts ∨ s ∈ ss ∨ Needs dct s → s ∈ red.names) ∧
        ∀ s ∈ red.names, s ∈ sol.names ∧ (KeptPublished meth sol.names ts [] (rows.map (K.chem sol))
            (below meth sol.names.length sol.reactions.length (finalThr rnd64 j k)) s ∨
          s ∈ ss ∨ Needs dct s) := by
  have hm0 := (namedMethod_ok hm).2
  rcases hp : parseInputs (fileNames w) dct with e | ⟨inp, dct'⟩
  · refine ⟨0, fun dfuel _ fuel saFuel w' evs h => ?_⟩
    obtain ⟨inp, dct', r, hp', -⟩ := program_reduced I hy h
    rw [hp] at hp'; cases hp'
  obtain ⟨Q, hread, -⟩ := program_request S hts hm0 hp
  obtain ⟨f1, f2, f3, f4, f5⟩ := parseInputs_fields hp
  have hmeth : (mainArgs sh inp path threads).method.bind methodOf = some meth := by
    show methodOf inp.method = _
    rw [(parseInputs_method hp).1]
    exact (namedMethod_ok hm).1
  obtain ⟨names, added, hn, g1, g2, -, g5, g3, g4⟩ := C49_protected _ _ _ _ ts ss hp hts hss
  rw [fileNames_eq S.file] at hn
  cases hn
  have hw : w.fs (stageArgs meth (mainArgs sh inp path threads)).modelFile = some sol := by
    show w.fs inp.model.toList = _; rw [f1]; exact S.file
  obtain ⟨N1, hN1⟩ := C92_protected (meth := meth) P (stage_request (meth := meth) Q) .binary64 .binary64
  obtain ⟨N2, hN2⟩ := C108_binary64 (meth := meth) P (stage_request (meth := meth) Q) hsize
    (by show (PyF.fin 0).le inp.error = true; rw [f2]; exact hlim) (by
      show SameBehaviour _ sol (trim sol [] ("reduced_".toList ++ inp.model.toList) inp.phase.toList)
      rw [f1, f4]; exact hsame)
  refine ⟨max N1 N2, fun dfuel hdf fuel saFuel w' evs h => ?_⟩
  obtain ⟨r, hr⟩ := program_method I hy S hts hm0 hsa hp hmeth h
  obtain ⟨h1, -, -⟩ := hN1 dfuel (le_trans (le_max_left _ _) hdf) fuel w w' r evs hw hr
  obtain ⟨metrics, rows, j, k, k1, k2, k3, k4⟩ := hN2 dfuel (le_trans (le_max_right _ _) hdf) fuel w w' r evs hw hr
  obtain ⟨_, _, -, -, h4⟩ := fullRun_ok hw hr
  obtain ⟨q1, q2⟩ := C22_file_holds_model h4
  have ht : (stageArgs meth (mainArgs sh inp path threads)).targets = ts := by
    show inp.targets.iter = ts; rw [g1]; rfl
  have hs : (stageArgs meth (mainArgs sh inp path threads)).safe = ss ++ added := by
    show inp.safe.iter = _; rw [g2]; rfl
  rw [ht, hs] at k3 k4 h1
  have split : ∀ (t : ℚ) (s : String), KeptPublished meth sol.names ts (ss ++ added)
      (rows.map (K.chem sol)) t s ↔ KeptPublished meth sol.names ts [] (rows.map (K.chem sol)) t s ∨
        s ∈ ss ++ added := by
    intro t s
    unfold KeptPublished
    cases meth <;> simp
  have hT := C109_table .binary64 P hread hd k1
  refine ⟨r.model, metrics, rows, j, k, by rw [q2] at q1; exact q1, hT, k2, fun s hs' hk => ?_, fun s hs' => ?_⟩
  · rcases hk with hk | hk
    · exact k3 s hs' ((split _ s).2 (.inl hk))
    · refine h1 s hs' ?_
      rcases hk with hk | hk | hk
      · exact .inl hk
      · exact .inr (by simp [hk])
      · have := g3 s hk
        simp only [List.mem_append] at this ⊢
        tauto
  · obtain ⟨e1, e2⟩ := k4 s hs'
    refine ⟨e1, ?_⟩
    rcases (split _ s).1 e2 with e | e
    · exact .inl e
    · rcases List.mem_append.1 e with e | e
      · exact .inr (.inl e)
      · exact .inr (.inr (g5 s e).2.2)

/-- **C97**: whatever way the options are written, a command that asks for a conversion hands the
given files and the given directory to the converter. -/
theorem C97_convert {rnd : ℚ → ℚ} {dfuel fuel saFuel : Nat} {m : String} {thermo transport : Option String}
    (I : AsksConversion args m thermo transport path) :
    program K rnd sh args d dfuel fuel saFuel w = .converted m thermo transport path := by
  obtain ⟨its, tss, h1, rfl, hver, hcv, hm, hm0, ht, htr, hp⟩ := I
  have hne : its ≠ [] := by
    rintro rfl
    cases hcv
  obtain ⟨-, h2, -⟩ := C77_same_partial (openYaml := sh.yaml) (load := fileNames w) (conv := sh.conv) h1 hne
  have h3 := (h2 hver hcv).1 m hm hm0
  unfold program mainEntry
  rw [show tss.flatten.map String.ofList = argStrings tss from rfl, h3, ht, htr, hp]
  rfl

theorem prog_readable (method : String) (sa : Bool) : Readable (progInput method sa) := by
  intro c hc
  have hc' : c = progCase := by simpa [progInput] using hc
  subst hc'
  constructor
  · rintro v (⟨pre, post, h, -⟩ | ⟨-, rfl⟩)
    · have : ("end-time", v) ∈ progCase := by rw [h]; simp
      simp [progCase] at this
    · exact .inl rfl
  · rintro v (⟨pre, post, h, -⟩ | ⟨-, rfl⟩)
    · have : ("max-steps", v) ∈ progCase := by rw [h]; simp
      simp [progCase] at this
    · exact .inr ⟨10000, by exact_mod_cast Means.num 10000⟩

/-- the run of `Props/Program.lean`, which removes a species -/
example : ∃ N, ∀ dfuel ≥ N, ∀ fuel saFuel w' evs,
    program progK rnd64 (progShell "DRGEP" false) ["-i", "in.yaml"] (fun _ => none) dfuel fuel saFuel
      e2eWorld = .reduced (some (.ok ())) w' evs →
    ∃ red metrics rows j k, w'.fs (joinPath "".toList (reducedName red.nSpecies)) = some red ∧
      Table progK e2eSol (1 / 10 ^ 14) none (progInput "DRGEP" false) metrics rows ∧
      j ≤ lastStart .drgep .binary64 ∧
      (∀ s ∈ e2eSol.names, KeptPublished .drgep e2eSol.names ["A"] [] (rows.map (progK.chem e2eSol))
          (above .drgep e2eSol.names.length e2eSol.reactions.length (finalThr rnd64 j k)) s ∨
        s ∈ ["A"] ∨ s ∈ ([] : List String) ∨ Needs (progInput "DRGEP" false) s → s ∈ red.names) ∧
      ∀ s ∈ red.names, s ∈ e2eSol.names ∧
        (KeptPublished .drgep e2eSol.names ["A"] [] (rows.map (progK.chem e2eSol))
          (below .drgep e2eSol.names.length e2eSol.reactions.length (finalThr rnd64 j k)) s ∨
        s ∈ ([] : List String) ∨ Needs (progInput "DRGEP" false) s) :=
  C109_program prog_asks rfl (prog_situation _ _) rfl rfl .drgep rfl prog_physical (prog_readable _ _)
    (by decide +kernel) (by decide) (prog_same _ _)

example : progView "reduced_3.yaml" (program progK rnd64 (progShell "DRGEP" false) ["-i", "in.yaml"]
      (fun _ => none) 50 20 20 e2eWorld) = some (true, some ["A", "B", "D"]) := by
  decide +kernel

example : AsksConversion ["--convert", "-m", "a.inp", "--thermo=t.dat"] "a.inp" (some "t.dat") none "" :=
  ⟨[.convert, .model "a.inp".toList, .thermo "t.dat".toList],
    [["--convert".toList], ["-m".toList, "a.inp".toList], ["--thermo".toList ++ '=' :: "t.dat".toList]],
    .cons (.convert (.inl (by decide))) (.cons (.separate rfl (.inl (by decide)) (by decide))
      (.cons (.equals rfl (.inl (by decide))) .nil)), by decide +kernel, by decide +kernel, by decide +kernel,
    by decide +kernel, by decide, by decide +kernel, by decide +kernel, by decide +kernel⟩

end Verif
