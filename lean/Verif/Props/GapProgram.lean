import Verif.Props.Gap
import Verif.Props.States
/-!
# C110 for the command
-/
namespace Verif
open Spec

variable {K : Cantera IgnInput Cond FlameInput} {sh : Shell} {args : List String} {i path : String}
  {threads : Int} {dct : InputDict} {w : World} {d : Disk} {sol : Mech} {ts ss : List String}
  {meth : Method}

/-- **C110**: when the command ended normally in binary64 and no published coefficient of the states
described by the input file is within rounding error of a threshold of the search, the model in the
output directory consists of the species that the published coefficients select at the exact
threshold where the search stopped, the targets, the retained species and those of the mixtures, and reproduces
the starting model under the conditions of the file within the limit of the file. -/
theorem C110_program (I : Asks args i path threads) (hy : sh.yaml i = .ok dct)
    (S : Situation sh dct path threads w d sol) (hts : dct.targets = .list ts)
    (hss : dct.retained.getD (.list []) = .list ss) (hm : NamedMethod dct.method meth)
    (hsa : dct.sensitivity = false) (P : Physical (K.inputs dct.minFlameSpeed) sol)
    (hd : Readable dct) {L : ℚ} (hL : dct.error = .fin L) (hL0 : 0 ≤ L) (hL1 : L < 100)
    (hsame : SameBehaviour (K.inputs dct.minFlameSpeed) sol
      (trim sol [] ("reduced_".toList ++ dct.model.toList) dct.phase.toList)) :
    ∃ N, ∀ dfuel ≥ N, ∀ fuel saFuel w' evs,
      program K rnd64 sh args d dfuel fuel saFuel w = .reduced (some (.ok ())) w' evs →
      ∃ red metrics rows j k c, w'.fs (joinPath path.toList (reducedName red.nSpecies)) = some red ∧
        Table K sol (1 / 10 ^ 14) dct.minFlameSpeed dct metrics rows ∧ j ≤ lastStart meth .binary64 ∧
        ReadFrom sol.names dct c ∧
        (ClearSearch meth sol.names ts (rows.map (K.chem sol)) j k →
          (∀ s ∈ sol.names, s ∈ red.names ↔
            KeptPublished meth sol.names ts [] (rows.map (K.chem sol)) (idealThr j k) s ∨
              s ∈ ts ∨ s ∈ ss ∨ Needs dct s) ∧
          Reproduces (K.inputs dct.minFlameSpeed) c sol red L) := by
  have hm0 := (namedMethod_ok hm).2
  rcases hp : parseInputs (fileNames w) dct with e | ⟨inp, dct'⟩
  · refine ⟨0, fun dfuel _ fuel saFuel w' evs h => ?_⟩
    obtain ⟨inp, dct', r, hp', -⟩ := program_reduced I hy h
    rw [hp] at hp'; cases hp'
  obtain ⟨Q, hread, -⟩ := program_request S hts hm0 hp
  obtain ⟨f1, f2, f3, f4, f5⟩ := parseInputs_fields hp
  have hmeth : (mainArgs sh inp path threads).method.bind methodOf = some meth := by
    show methodOf inp.method = _
    rw [(parseInputs_method hp).1]
    exact (namedMethod_ok hm).1
  obtain ⟨names, added, hn, g1, g2, -, g5, g3, g4⟩ := C49_protected _ _ _ _ ts ss hp hts hss
  rw [fileNames_eq S.file] at hn
  cases hn
  have hw : w.fs (stageArgs meth (mainArgs sh inp path threads)).modelFile = some sol := by
    show w.fs inp.model.toList = _; rw [f1]; exact S.file
  obtain ⟨N1, hN1⟩ := C92_protected (meth := meth) P (stage_request (meth := meth) Q) .binary64 .binary64
  obtain ⟨N, hN⟩ := C110_returned (meth := meth) P (stage_request (meth := meth) Q) (L := L)
    (by show inp.error = _; rw [f2]; exact hL) hL0 hL1 (by
      show SameBehaviour _ sol (trim sol [] ("reduced_".toList ++ inp.model.toList) inp.phase.toList)
      rw [f1, f4]; exact hsame)
  refine ⟨max N N1, fun dfuel hdf fuel saFuel w' evs h => ?_⟩
  obtain ⟨r, hr⟩ := program_method I hy S hts hm0 hsa hp hmeth h
  obtain ⟨metrics, rows, j, k, k1, k2, k3⟩ := hN dfuel (le_of_max_le_left hdf) fuel w w' r evs hw hr
  obtain ⟨h1, -, -⟩ := hN1 dfuel (le_of_max_le_right hdf) fuel w w' r evs hw hr
  obtain ⟨_, _, -, -, h4⟩ := fullRun_ok hw hr
  obtain ⟨q1, q2⟩ := C22_file_holds_model h4
  have ht : (stageArgs meth (mainArgs sh inp path threads)).targets = ts := by
    show inp.targets.iter = ts; rw [g1]; rfl
  have hs : (stageArgs meth (mainArgs sh inp path threads)).safe = ss ++ added := by
    show inp.safe.iter = _; rw [g2]; rfl
  have hT := C109_table .binary64 P hread hd k1
  refine ⟨r.model, metrics, rows, j, k, _, by rw [q2] at q1; exact q1, hT, k2, hread, fun hc => ?_⟩
  dsimp only at k3
  rw [ht, hs] at k3 h1
  obtain ⟨-, k4, k5⟩ := k3 hc
  refine ⟨fun s hs' => ?_, k5⟩
  have split : KeptPublished meth sol.names ts (ss ++ added)
      (rows.map (K.chem sol)) (idealThr j k) s ↔
        KeptPublished meth sol.names ts [] (rows.map (K.chem sol)) (idealThr j k) s ∨
        s ∈ ss ++ added := by
    unfold KeptPublished
    cases meth <;> simp
  constructor
  · intro h
    rw [k4, mem_candidate_names] at h
    rcases split.1 h.2 with h | h
    · exact .inl h
    · rcases List.mem_append.1 h with h | h
      · exact .inr (.inr (.inl h))
      · exact .inr (.inr (.inr (g5 s h).2.2))
  · rintro (h | h | h | h)
    · rw [k4, mem_candidate_names]
      exact ⟨hs', split.2 (.inl h)⟩
    · exact h1 s hs' (.inl h)
    · exact h1 s hs' (.inr (List.mem_append_left _ h))
    · refine h1 s hs' ?_
      have := g3 s h
      simp only [List.mem_append] at this ⊢
      tauto

/-- the command of `Props/Program.lean` -/
example : ∃ N, ∀ dfuel ≥ N, ∀ fuel saFuel w' evs,
    program progK rnd64 (progShell "DRGEP" false) ["-i", "in.yaml"] (fun _ => none) dfuel fuel saFuel
      e2eWorld = .reduced (some (.ok ())) w' evs →
    ∃ red metrics rows j k c, w'.fs (joinPath "".toList (reducedName red.nSpecies)) = some red ∧
      Table progK e2eSol (1 / 10 ^ 14) none (progInput "DRGEP" false) metrics rows ∧
      j ≤ lastStart .drgep .binary64 ∧ ReadFrom e2eSol.names (progInput "DRGEP" false) c ∧
      (ClearSearch .drgep e2eSol.names ["A"] (rows.map (progK.chem e2eSol)) j k →
        (∀ s ∈ e2eSol.names, s ∈ red.names ↔
          KeptPublished .drgep e2eSol.names ["A"] [] (rows.map (progK.chem e2eSol)) (idealThr j k) s ∨
            s ∈ ["A"] ∨ s ∈ ([] : List String) ∨ Needs (progInput "DRGEP" false) s) ∧
        Reproduces (progK.inputs none) c e2eSol red 5) :=
  C110_program prog_asks rfl (prog_situation _ _) rfl rfl .drgep rfl prog_physical (prog_readable _ _)
    rfl (by norm_num) (by norm_num) (prog_same _ _)

end Verif
