import Verif.Lemmas.ProgramDoc
/-!
# C141: what the input file asks to keep is in the model the command leaves
-/
namespace Verif
open Verif.Spec

variable {K : Cantera IgnInput Cond FlameInput} {sh : Shell} {doc : String → Except Err YNode} {args : List String}
  {d : Disk} {w : World} {i path : String} {threads : Int} {y : YNode} {v : PyV} {D : InputDict} {sol : Mech}
  {ts ss : List String}

/-- C141: whatever documents the input files hold, as long as their values have the documented types, the command does
what it does with those values -/
theorem C141_same {rnd : ℚ → ℚ} {dfuel fuel saFuel : Nat} (h : ∀ i, Says (doc i) (sh.yaml i)) :
    programDoc K rnd sh doc args d dfuel fuel saFuel w = some (program K rnd sh args d dfuel fuel saFuel w) :=
  programDoc_same (fun _ i _ _ _ => h i)

theorem asks_args (I : Asks args i path threads) :
    ∃ a, parseArgs args = .ok a ∧ a.version = false ∧ a.convert = false ∧ a.input = some i ∧ i ≠ "" := by
  obtain ⟨its, tss, h1, rfl, hver, hcv, hi, hi0, -, -⟩ := I
  exact ⟨_, C82_options h1, hver, hcv, hi, hi0⟩

theorem programDoc_asks {rnd : ℚ → ℚ} {dfuel fuel saFuel : Nat} (I : Asks args i path threads) (hy : doc i = .ok y)
    (hv : construct y = .ok v) (hD : Represents v D) :
    programDoc K rnd sh doc args d dfuel fuel saFuel w =
      some (program K rnd { sh with yaml := fun _ => .ok D } args d dfuel fuel saFuel w) := by
  obtain ⟨a, ha, -, -, hi, -⟩ := asks_args I
  rw [← programDoc_same (sh := { sh with yaml := fun _ => .ok D }) (doc := doc)]
  · rfl
  · intro a' i' h1 _ h2
    rw [ha] at h1
    cases h1
    rw [hi] at h2
    cases h2
    rw [hy]
    exact .values hv hD

theorem Spec.Situation.yaml {g : String → Except Err InputDict} (S : Situation sh D path threads w d sol) :
    Situation { sh with yaml := g } D path threads w d sol :=
  ⟨S.file, S.nodup, S.noclash, S.threads, S.order, S.freshIgn, S.freshPsr, S.freshFlame⟩

theorem Spec.TempDirs.yaml {g : String → Except Err InputDict} (T : TempDirs sh path) : TempDirs { sh with yaml := g } path :=
  ⟨T.tmp_ne, T.tmp_last, T.eval_ne, T.eval_last, T.model_tmp, T.model_eval, T.apart⟩

/-- C141: a method alone.  Every species that the input file names as a target, as a species to retain or in a mixture is
in the model that is left, and no other file has changed -/
theorem C141_kept (I : Asks args i path threads) (hy : doc i = .ok y) (hv : construct y = .ok v) (hD : Represents v D)
    (S : Situation sh D path threads w d sol) (hts : D.targets = .list ts) (hss : D.retained.getD (.list []) = .list ss)
    (hm : D.method ≠ "") (hsa : D.sensitivity = false) (P : Physical (K.inputs D.minFlameSpeed) sol) (a : Arith) :
    ∃ N, ∀ dfuel ≥ N, ∀ fuel saFuel w' evs,
      programDoc K a.rnd sh doc args d dfuel fuel saFuel w = some (.reduced (some (.ok ())) w' evs) →
      ∃ red, w'.fs (joinPath path.toList (reducedName red.nSpecies)) = some red ∧
        (∀ s, AsksFor y s → LooksText s → String.ofList s.text ∈ red.names) ∧
        ∀ f, (∀ n, f ≠ joinPath path.toList (reducedName n)) → w'.fs f = w.fs f := by
  obtain ⟨N, hN⟩ := C97_files (sh := { sh with yaml := fun _ => .ok D }) I rfl S.yaml hts hss hm hsa P a
  refine ⟨N, fun dfuel hd fuel saFuel w' evs h => ?_⟩
  rw [programDoc_asks I hy hv hD] at h
  obtain ⟨red, h1, h2, h3⟩ := hN dfuel hd fuel saFuel w' evs (Option.some.inj h)
  exact ⟨red, h1, fun s hs hs' => h2 _ (asked_needed hv hD hts hss hs hs'), h3⟩

/-- C141: PFA or DRGEP followed by sensitivity analysis -/
theorem C141_both_kept (I : Asks args i path threads) (hy : doc i = .ok y) (hv : construct y = .ok v) (hD : Represents v D)
    (S : Situation sh D path threads w d sol) (hts : D.targets = .list ts) (hss : D.retained.getD (.list []) = .list ss)
    (hm : D.method = "PFA" ∨ D.method = "DRGEP" ∧ w.limbo = [] ∧ ∀ u, finiteUpper D.upper = some u → u ≤ 1)
    (hsa : D.sensitivity = true) (P : Physical (K.inputs D.minFlameSpeed) sol) (a : Arith) (T : TempDirs sh path) :
    ∃ N, ∀ dfuel ≥ N, ∀ fuel saFuel w' evs,
      programDoc K a.rnd sh doc args d dfuel fuel saFuel w = some (.reduced (some (.ok ())) w' evs) →
      ∃ red, w'.fs (joinPath path.toList (reducedName red.nSpecies)) = some red ∧
        ∀ s, AsksFor y s → LooksText s → String.ofList s.text ∈ red.names := by
  obtain ⟨N, hN⟩ := C97_both_protected_partial (sh := { sh with yaml := fun _ => .ok D }) I rfl S.yaml hts hss hm hsa P a T.yaml
  refine ⟨N, fun dfuel hd fuel saFuel w' evs h => ?_⟩
  rw [programDoc_asks I hy hv hD] at h
  obtain ⟨red, h1, h2⟩ := hN dfuel hd fuel saFuel w' evs (Option.some.inj h)
  exact ⟨red, h1, fun s hs hs' => h2 _ (asked_needed hv hD hts hss hs hs')⟩

/-- C141: a species asked for by a name that YAML does not read as a text: the command fails before anything is done, with
any kinds of values in the document -/
theorem C141_refused {rnd : ℚ → ℚ} {s : YScalar} (I : Asks args i path threads) (hy : doc i = .ok y) (h : AsksFor y s)
    (hs : ValueWord s) (dfuel fuel saFuel : Nat) :
    ∃ e, programDoc K rnd sh doc args d dfuel fuel saFuel w = some (.failed e) := by
  have hno : ∀ R, readInputs (loadDyn w) y ≠ .ok R := by
    rcases h with ⟨xs, hh, hx⟩ | ⟨xs, hh, hx⟩ | ⟨c, hc, part, hp, es, hh, x, hx⟩
    · exact C131_words_refuted (.inl rfl) hh hs hx
    · exact C131_words_refuted (.inr rfl) hh hs hx
    · exact C131_composition_refuted hc hp hh hs hx
  obtain ⟨a, ha, h1, h2, h3, h4⟩ := asks_args I
  cases hr : readInputs (loadDyn w) y with
  | ok R => exact absurd hr (hno R)
  | error e =>
    refine ⟨e, ?_⟩
    have hne : args ≠ [] := by
      rintro rfl
      have : parseArgs [] = .ok noOptions := by decide +kernel
      rw [this] at ha
      cases ha
      cases h3
    unfold programDoc
    rw [if_neg hne, ha]
    dsimp only
    rw [h1, h2, h3]
    have hg : givenText (some i) = true := by
      simpa [givenText] using h4
    rw [hg, Option.getD_some, hy]
    show (match readInputs (loadDyn w) y with | .error e => some (ProgEnd.failed e) | .ok R => _) = _
    rw [hr]

/-! ### not vacuous -/

/-- the input file of `Props/Program.lean` -/
def progDoc (method : String) (sa : Bool) : YNode := .map
  [(exPlain "model", .scalar (exPlain "m.yaml")), (exPlain "error", .scalar (exPlain "5")),
    (exPlain "method", .scalar ⟨false, method.toList⟩), (exPlain "sensitivity-analysis", .scalar (exPlain (if sa then "yes" else "no"))),
    (exPlain "targets", .seq [.scalar (exPlain "A")]),
    (exPlain "autoignition-conditions", .seq [.map [(exPlain "kind", .scalar (exPlain "constant volume")),
      (exPlain "temperature", .scalar (exPlain "1000")), (exPlain "pressure", .scalar (exPlain "1.0")),
      (exPlain "reactants", .map [(exPlain "A", .scalar (exPlain "1"))])]])]

/-- what is read from it -/
def progValue (method : String) (sa : Bool) : PyV := .dict
  [(.str "model", pyStr "m.yaml"), (.str "error", pyNum 5), (.str "method", pyStr method),
    (.str "sensitivity-analysis", .sc (.bool sa)), (.str "targets", .list [pyStr "A"]),
    (.str "autoignition-conditions", .list [.dict [(.str "kind", pyStr "constant volume"), (.str "temperature", pyNum 1000),
      (.str "pressure", pyNum 1), (.str "reactants", .dict [(.str "A", pyNum 1)])]])]

theorem prog_read (method : String) (sa : Bool) : construct (progDoc method sa) = .ok (progValue method sa) := by
  have h : ∀ s ∈ ["model", "m.yaml", "error", "method", "sensitivity-analysis", "targets", "A", "autoignition-conditions", "kind",
      "constant volume", "temperature", "pressure", "reactants"], scalarValue (exPlain s) = .ok (.str s) := by decide +kernel
  have n1 : scalarValue (exPlain "5") = .ok (.num (.fin 5)) := by decide +kernel
  have n2 : scalarValue (exPlain "1000") = .ok (.num (.fin 1000)) := by decide +kernel
  have n3 : scalarValue (exPlain "1.0") = .ok (.num (.fin 1)) := by decide +kernel
  have n4 : scalarValue (exPlain "1") = .ok (.num (.fin 1)) := by decide +kernel
  have n5 : scalarValue ⟨false, method.toList⟩ = .ok (.str method) := by
    unfold scalarValue
    simp
  have n6 : scalarValue (exPlain (if sa then "yes" else "no")) = .ok (.bool sa) := by cases sa <;> decide +kernel
  simp only [List.forall_mem_cons] at h
  obtain ⟨h1, h2, h3, h4, h5, h6, h7, h8, h9, h10, h11, h12, h13, -⟩ := h
  simp only [progDoc, construct, constructPairs, constructSeq, h1, h2, h3, h4, h5, h6, h7, h8, h9, h10, h11, h12, h13, n1, n2, n3,
    n4, n5, n6, Except.map, bindOk_eq]
  rfl

theorem prog_represents (method : String) (sa : Bool) : Represents (progValue method sa) (progInput method sa) :=
  ⟨rfl, rfl, rfl, rfl, ⟨_, rfl, rfl⟩, ⟨_, rfl, rfl⟩, rfl, ⟨_, rfl, rfl⟩, rfl, ⟨_, rfl, rfl⟩,
    ⟨_, rfl, .inl ⟨_, rfl, .cons ⟨_, rfl, .cons ⟨rfl, rfl⟩ (.cons ⟨rfl, rfl⟩ (.cons ⟨rfl, rfl⟩ (.cons ⟨rfl, _, rfl, .cons ⟨rfl, rfl⟩ .nil⟩ .nil)))⟩ .nil⟩⟩,
    ⟨_, rfl, .inr ⟨rfl, rfl⟩⟩, ⟨_, rfl, .inr ⟨rfl, rfl⟩⟩⟩

def progDocs (method : String) (sa : Bool) (f : String) : Except Err YNode :=
  if f = "in.yaml" then .ok (progDoc method sa) else .error .fileNotFound

/-- C141: the files of the example -/
example (method : String) (sa : Bool) (i : String) : Says (progDocs method sa i) ((progShell method sa).yaml i) := by
  unfold progDocs progShell
  dsimp only
  split
  · exact .values (prog_read _ _) (prog_represents _ _)
  · exact .unread

/-- C141: the command with the document, run: DRG removes `C`, sensitivity analysis after PFA also `D` -/
example : (programDoc progK id (progShell "DRG" false) (progDocs "DRG" false) ["-i", "in.yaml"]
      (fun _ => none) 50 20 20 e2eWorld).bind (progView "reduced_3.yaml") = some (true, some ["A", "B", "D"]) ∧
    (programDoc progK rnd64 (progShell "PFA" true) (progDocs "PFA" true) ["-i", "in.yaml"]
      (fun _ => none) 50 20 20 e2eWorld).bind (progView "reduced_2.yaml") = some (true, some ["A", "B"]) := by
  decide +kernel

theorem prog_asks_for (method : String) (sa : Bool) : AsksFor (progDoc method sa) (exPlain "A") :=
  .inl ⟨_, ⟨[_, _, _, _], _, [_], rfl, .inr ⟨'t', _, rfl, by decide, by decide +kernel, by decide +kernel⟩, rfl,
    by decide +kernel⟩, List.mem_singleton_self _⟩

/-- C141: its hypotheses are met, and the species asked for is kept -/
example : ∃ N, ∀ dfuel ≥ N, ∀ fuel saFuel w' evs,
    programDoc progK id (progShell "DRG" false) (progDocs "DRG" false) ["-i", "in.yaml"] (fun _ => none) dfuel fuel saFuel e2eWorld =
      some (.reduced (some (.ok ())) w' evs) →
    ∃ red, w'.fs (joinPath "".toList (reducedName red.nSpecies)) = some red ∧ "A" ∈ red.names := by
  obtain ⟨N, hN⟩ := C141_kept (K := progK) (doc := progDocs "DRG" false) (ts := ["A"]) (ss := []) prog_asks rfl (prog_read _ _) (prog_represents _ _)
    (prog_situation "DRG" false) rfl rfl (by decide) rfl prog_physical Arith.exact
  refine ⟨N, fun dfuel hd fuel saFuel w' evs h => ?_⟩
  obtain ⟨red, h1, h2, -⟩ := hN dfuel hd fuel saFuel w' evs h
  exact ⟨red, h1, h2 (exPlain "A") (prog_asks_for _ _)
    (.inr ⟨'A', _, rfl, by decide, by decide +kernel, by decide +kernel⟩)⟩

/-- C141: also with sensitivity analysis -/
example : ∃ N, ∀ dfuel ≥ N, ∀ fuel saFuel w' evs,
    programDoc progK id (progShell "PFA" true) (progDocs "PFA" true) ["-i", "in.yaml"] (fun _ => none) dfuel fuel saFuel e2eWorld =
      some (.reduced (some (.ok ())) w' evs) →
    ∃ red, w'.fs (joinPath "".toList (reducedName red.nSpecies)) = some red ∧ "A" ∈ red.names := by
  obtain ⟨N, hN⟩ := C141_both_kept (K := progK) (doc := progDocs "PFA" true) (ts := ["A"]) (ss := []) prog_asks rfl (prog_read _ _)
    (prog_represents _ _) (prog_situation "PFA" true) rfl rfl (.inl rfl) rfl prog_physical Arith.exact (prog_tmp _ _)
  refine ⟨N, fun dfuel hd fuel saFuel w' evs h => ?_⟩
  obtain ⟨red, h1, h2⟩ := hN dfuel hd fuel saFuel w' evs h
  exact ⟨red, h1, h2 (exPlain "A") (prog_asks_for _ _)
    (.inr ⟨'A', _, rfl, by decide, by decide +kernel, by decide +kernel⟩)⟩

/-- C141: nitric oxide as a target, without quotes -/
example : AsksFor (.map [(exPlain "targets", .seq [.scalar (exPlain "NO")])]) (exPlain "NO") ∧ ValueWord (exPlain "NO") :=
  ⟨.inl ⟨_, ⟨[], _, [], rfl, .inr ⟨'t', _, rfl, by decide, by decide +kernel, by decide +kernel⟩, rfl, by simp⟩,
    List.mem_singleton_self _⟩, rfl, by decide +kernel⟩

end Verif
