import Verif.Props.TwoThresholds
import Verif.Props.States
/-!
# The command with both stages: the states of the input file and the two thresholds (C109, C145)
-/
namespace Verif
open Spec

variable {K : Cantera IgnInput Cond FlameInput} {sh : Shell} {args : List String} {i path : String}
  {threads : Int} {d : Disk} {w : World} {dct : InputDict} {sol : Mech} {ts ss : List String}
  {meth : Method}

/-- what the arguments of `main` are -/
theorem program_setup {inp : ReductionInputs} {dct' : InputDict} (S : Situation sh dct path threads w d sol)
    (hts : dct.targets = .list ts) (hss : dct.retained.getD (.list []) = .list ss) (hm : NamedMethod dct.method meth)
    (hp : parseInputs (fileNames w) dct = .ok (inp, dct')) :
    Request (mainArgs sh inp path threads).toReduceArgs sol d ∧ ReadFrom sol.names dct ⟨inp.ignition, inp.psr, inp.flame⟩ ∧
    (mainArgs sh inp path threads).method.bind methodOf = some meth ∧ inp.method = dct.method ∧
    inp.sensitivity = dct.sensitivity ∧ inp.error = dct.error ∧ inp.model = dct.model ∧ inp.phase = dct.phase ∧
    inp.targets.iter = ts ∧ ∃ added, inp.safe.iter = ss ++ added ∧ (∀ s ∈ added, s ∉ ss ∧ s ∉ ts ∧ Needs dct s) ∧
      ∀ s, Needs dct s → s ∈ ts ++ ss ++ added := by
  obtain ⟨Q, hread, -⟩ := program_request S hts (namedMethod_ok hm).2 hp
  obtain ⟨f1, f2, f3, f4, f5⟩ := parseInputs_fields hp
  obtain ⟨-, -, -, -, -, hs⟩ := parseInputs_ok hp
  obtain ⟨names, added, hn, g1, g2, -, g5, g3, g4⟩ := C49_protected _ _ _ _ ts ss hp hts hss
  refine ⟨Q, hread, ?_, (parseInputs_method hp).1, hs, f2, f1, f4, by rw [g1]; rfl, added, by rw [g2]; rfl, g5, g3⟩
  show methodOf inp.method = _
  rw [(parseInputs_method hp).1]
  exact (namedMethod_ok hm).1

theorem keptPublished_split {n : Nat} {names ts safe : List String} (states : List (Chem names.length n)) (t : ℚ) (s : String) :
    KeptPublished meth names ts safe states t s ↔ KeptPublished meth names ts [] states t s ∨ s ∈ safe := by
  unfold KeptPublished
  cases meth <;> simp

/-- **C109** with sensitivity analysis: the model that the command leaves in the output directory consists of retained species,
species of the initial mixtures and species that the published coefficients select at the states that the input file describes. -/
theorem C109_both (I : Asks args i path threads) (hy : sh.yaml i = .ok dct)
    (S : Situation sh dct path threads w d sol) (hts : dct.targets = .list ts)
    (hss : dct.retained.getD (.list []) = .list ss) (hm : NamedMethod dct.method meth)
    (hsa : dct.sensitivity = true) (T : TempDirs sh path) (P : Physical (K.inputs dct.minFlameSpeed) sol)
    (hd : Readable dct) (hlim : (PyF.fin 0).le dct.error = true)
    (hsize : 4 * sol.reactions.length + sol.names.length + 14 ≤ 2 ^ 51)
    (hsame : SameBehaviour (K.inputs dct.minFlameSpeed) sol
      (trim sol [] ("reduced_".toList ++ dct.model.toList) dct.phase.toList)) :
    ∃ N, ∀ dfuel ≥ N, ∀ fuel saFuel w' evs,
      program K rnd64 sh args d dfuel fuel saFuel w = .reduced (some (.ok ())) w' evs →
      ∃ red metrics rows j k, w'.fs (joinPath path.toList (reducedName red.nSpecies)) = some red ∧
        Table K sol (1 / 10 ^ 14) dct.minFlameSpeed dct metrics rows ∧ j ≤ lastStart meth .binary64 ∧
        ∀ s ∈ red.names, s ∈ sol.names ∧ (KeptPublished meth sol.names ts [] (rows.map (K.chem sol))
            (below meth sol.names.length sol.reactions.length (finalThr rnd64 j k)) s ∨
          s ∈ ss ∨ Needs dct s) := by
  rcases hp : parseInputs (fileNames w) dct with e | ⟨inp, dct'⟩
  · refine ⟨0, fun dfuel _ fuel saFuel w' evs h => ?_⟩
    obtain ⟨inp, dct', r, hp', -⟩ := program_reduced I hy h
    rw [hp] at hp'; cases hp'
  obtain ⟨Q, hread, hmeth, -, h1, h2, h3, h4, h5, added, h6, h7, h8⟩ := program_setup S hts hss hm hp
  obtain ⟨N, hN⟩ := C108_both (q := mainArgs sh inp path threads) P Q hmeth (h1.trans hsa) .binary64 (.inr rfl) hsize
    (by show (PyF.fin 0).le inp.error = true; rw [h2]; exact hlim) (fun d' Ms base x y z => tmpDirs_of T d' Ms base x y z) (by
      show SameBehaviour _ sol (trim sol [] ("reduced_".toList ++ inp.model.toList) inp.phase.toList)
      rw [h3, h4]; exact hsame)
  refine ⟨N, fun dfuel hdf fuel saFuel w' evs h => ?_⟩
  obtain ⟨rm, hrm⟩ := program_both I hy hp h
  have hw : w.fs inp.model.toList = some sol := by rw [h3]; exact S.file
  obtain ⟨base, rows, j, k, g1, g2, g3⟩ := hN dfuel hdf fuel saFuel w w' rm evs hw hrm
  obtain ⟨q1, -⟩ := both_files T (h1.trans hsa) hw hmeth hrm
  refine ⟨rm.model, base, rows, j, k, q1, C109_table .binary64 P hread hd g1, g2, fun s hs => ?_⟩
  obtain ⟨e1, e2⟩ := g3 s hs
  rw [show (mainArgs sh inp path threads).targets = ts from h5, show (mainArgs sh inp path threads).safe = ss ++ added from h6,
    keptPublished_split] at e2
  refine ⟨e1, e2.imp id fun e => ?_⟩
  exact (List.mem_append.1 e).imp id fun e => (h7 s e).2.2

/-- **C145** for the command with DRGEP, in a process of its own: if some species that the program may remove lies between the
threshold of the search and the given upper threshold (0.1 if none is given), then the model in the output directory has all
species that the published coefficients select at the upper threshold at the states that the input file describes. -/
theorem C145_program_partial (I : Asks args i path threads) (hy : sh.yaml i = .ok dct)
    (S : Situation sh dct path threads w d sol) (hts : dct.targets = .list ts)
    (hss : dct.retained.getD (.list []) = .list ss) (hm : dct.method = "DRGEP")
    (hsa : dct.sensitivity = true) (T : TempDirs sh path) (P : Physical (K.inputs dct.minFlameSpeed) sol)
    (hd : Readable dct) (hlim : (PyF.fin 0).le dct.error = true)
    (hsize : 4 * sol.reactions.length + sol.names.length + 14 ≤ 2 ^ 51)
    (hsame : SameBehaviour (K.inputs dct.minFlameSpeed) sol
      (trim sol [] ("reduced_".toList ++ dct.model.toList) dct.phase.toList)) (hl : w.limbo = []) {u : ℚ}
    (hu : dct.upper = some (.fin u) ∧ u ≠ 0 ∨ dct.upper = none ∧ u = float01) :
    ∃ N, ∀ dfuel ≥ N, ∀ fuel saFuel w' evs,
      program K rnd64 sh args d dfuel fuel saFuel w = .reduced (some (.ok ())) w' evs →
      ∃ red metrics rows j k, w'.fs (joinPath path.toList (reducedName red.nSpecies)) = some red ∧
        Table K sol (1 / 10 ^ 14) dct.minFlameSpeed dct metrics rows ∧ j ≤ lastStart .drgep .binary64 ∧
        ((∃ s ∈ sol.names, s ∉ ss ∧ ¬ Needs dct s ∧
          KeptPublished .drgep sol.names ts [] (rows.map (K.chem sol))
            (above .drgep sol.names.length sol.reactions.length (finalThr rnd64 j k)) s ∧
          ¬ KeptPublished .drgep sol.names ts [] (rows.map (K.chem sol))
            (below .drgep sol.names.length sol.reactions.length u) s) →
        ∀ s ∈ sol.names, KeptPublished .drgep sol.names ts [] (rows.map (K.chem sol))
            (above .drgep sol.names.length sol.reactions.length u) s ∨ s ∈ ss ∨ Needs dct s ∧ s ∉ ts →
          s ∈ red.names) := by
  rcases hp : parseInputs (fileNames w) dct with e | ⟨inp, dct'⟩
  · refine ⟨0, fun dfuel _ fuel saFuel w' evs h => ?_⟩
    obtain ⟨inp, dct', r, hp', -⟩ := program_reduced I hy h
    rw [hp] at hp'; cases hp'
  have hm' : NamedMethod dct.method .drgep := by rw [hm]; exact .drgep
  obtain ⟨Q, hread, hmeth, h0, h1, h2, h3, h4, h5, added, h6, h7, h8⟩ := program_setup S hts hss hm' hp
  obtain ⟨-, u1, u2⟩ := parseInputs_upper hp hsa hu
  obtain ⟨N, hN⟩ := C145_drgep_partial (q := mainArgs sh inp path threads) P Q
    (by show some inp.method = _; rw [h0, hm]) (h1.trans hsa) .binary64 (.inr rfl) hsize
    (by show (PyF.fin 0).le inp.error = true; rw [h2]; exact hlim) (fun d' Ms base x y z => tmpDirs_of T d' Ms base x y z) (by
      show SameBehaviour _ sol (trim sol [] ("reduced_".toList ++ inp.model.toList) inp.phase.toList)
      rw [h3, h4]; exact hsame) u1 u2
  refine ⟨N, fun dfuel hdf fuel saFuel w' evs h => ?_⟩
  obtain ⟨rm, hrm⟩ := program_both I hy hp h
  have hw : w.fs inp.model.toList = some sol := by rw [h3]; exact S.file
  obtain ⟨base, rows, j, k, g1, g2, -, g3⟩ := hN dfuel hdf fuel saFuel w w' rm evs hw hl hrm
  obtain ⟨q1, -⟩ := both_files T (h1.trans hsa) hw hmeth hrm
  refine ⟨rm.model, base, rows, j, k, q1, C109_table .binary64 P hread hd g1, g2, ?_⟩
  rw [show (mainArgs sh inp path threads).targets = ts from h5, show (mainArgs sh inp path threads).safe = ss ++ added from h6] at g3
  rintro ⟨x, hx, x1, x2, x3, x4⟩ s hs hk
  refine g3 ⟨x, hx, (keptPublished_split _ _ _).2 (.inl x3), fun hc => ?_⟩ s hs ((keptPublished_split _ _ _).2 ?_)
  · rcases (keptPublished_split _ _ _).1 hc with hc | hc
    · exact x4 hc
    · exact (List.mem_append.1 hc).elim x1 fun hc => x2 (h7 x hc).2.2
  · rcases hk with hk | hk | ⟨hk, hk'⟩
    · exact .inl hk
    · exact .inr (by simp [hk])
    · have := h8 s hk
      simp only [List.mem_append] at this ⊢
      tauto

/-- DRGEP with the default upper threshold: `B`, at 1/20, lies below it and is tried in vain; `D`, at 19/20, stays -/
example : progView "reduced_3.yaml" (program progK rnd64 (progShell "DRGEP" true) ["-i", "in.yaml"]
      (fun _ => none) 50 20 20 e2eWorld) = some (true, some ["A", "B", "D"]) := by
  decide +kernel

/-- the theorems apply to that command -/
example := C109_both prog_asks (dct := progInput "DRGEP" true) rfl (prog_situation _ _) rfl rfl .drgep rfl (prog_tmp _ _)
  prog_physical (prog_readable _ _) (by decide) (by decide +kernel) (prog_same _ _)
example := C145_program_partial prog_asks (dct := progInput "DRGEP" true) rfl (prog_situation _ _) rfl rfl rfl rfl (prog_tmp _ _)
  prog_physical (prog_readable _ _) (by decide) (by decide +kernel) (prog_same _ _) rfl (.inr ⟨rfl, rfl⟩)

end Verif
