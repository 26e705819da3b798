import Verif.Spec.Program
import Verif.Props.Cli
import Verif.Props.Parse
import Verif.Props.FullMain
/-! # From the command line to `main` -/
namespace Verif
open Spec

variable {K : Cantera IgnInput Cond FlameInput} {sh : Shell} {args : List String} {i path : String}
  {threads : Int} {rnd : ℚ → ℚ} {d : Disk} {w : World} {dct : InputDict} {sol : Mech}

theorem cli_reduce_ok {args : List String} {act : CliAction} {a : CliArgs} {yaml load conv}
    (ha : parseArgs args = .ok a) (hver : a.version = false) (hcv : a.convert = false)
    (hi : a.input = some i) (hi0 : i ≠ "") (hy : yaml i = .ok dct)
    (h : pymarsCli yaml load conv args args = .ok act) :
    ∃ inp dct', parseInputs load dct = .ok (inp, dct') ∧ act = .reduce inp a.path a.threads := by
  unfold pymarsCli cli at h
  rw [ha] at h
  simp only [bind_ok] at h
  obtain ⟨_, -, a', ha', _, -, h⟩ := h
  cases ha'
  rw [hcv] at h
  simp only [Bool.false_eq_true, if_false, bind_ok] at h
  obtain ⟨_, -, dict, hd, ⟨inp, dct'⟩, hp, _, -, hr⟩ := h
  rw [hi] at hd
  have : dict = dct := by
    have h1 : yaml i = .ok dict := hd
    rw [hy] at h1; exact (Except.ok.inj h1).symm
  subst this
  rw [pure_ok] at hr
  exact ⟨inp, dct', hp, hr.symm⟩

/-- a command that ended in a reduction has parsed the input file and run `main` on it -/
theorem program_reduced {dfuel fuel saFuel : Nat} {o : Option (Except Err Unit)} {w' : World}
    {evs : List Ev} (I : Asks args i path threads) (hy : sh.yaml i = .ok dct)
    (h : program K rnd sh args d dfuel fuel saFuel w = .reduced o w' evs) :
    ∃ inp dct' r, parseInputs (fileNames w) dct = .ok (inp, dct') ∧
      fullMain (K.inputs inp.minFlameSpeed) rnd (mainArgs sh inp path threads) d dfuel fuel saFuel w =
        ((r, w'), evs) ∧ o = r.map (fun x => x.map (fun _ => ())) := by
  obtain ⟨its, tss, h1, rfl, hver, hcv, hi, hi0, hpath, hthr⟩ := I
  have ha := C82_options h1
  rw [show tss.flatten.map String.ofList = argStrings tss from rfl] at h
  unfold program at h
  rcases hc : pymarsCli sh.yaml (fileNames w) sh.conv (argStrings tss) (argStrings tss) with e | act
  · have : mainEntry sh.yaml (fileNames w) sh.conv none (argStrings tss) = .error e := by
      unfold mainEntry; dsimp only; rw [hc]; rfl
    rw [this] at h; cases h
  · have he : mainEntry sh.yaml (fileNames w) sh.conv none (argStrings tss) = .ok (some act) := by
      unfold mainEntry; dsimp only; rw [hc]; rfl
    obtain ⟨inp, dct', hp, rfl⟩ := cli_reduce_ok ha hver hcv hi hi0 hy hc
    rw [he, hpath, hthr] at h
    dsimp only at h
    rcases hf : fullMain (K.inputs inp.minFlameSpeed) rnd (mainArgs sh inp path threads) d dfuel fuel saFuel w
      with ⟨⟨r, w1⟩, evs1⟩
    rw [hf] at h
    dsimp only at h
    cases h
    exact ⟨inp, dct', r, hp, hf, rfl⟩

/-- the fields `parse_inputs` passes on -/
theorem parseInputs_fields {load : String → String → Except Err (List String)} {inp : ReductionInputs}
    {dct' : InputDict} (h : parseInputs load dct = .ok (inp, dct')) :
    inp.model = dct.model ∧ inp.error = dct.error ∧ inp.minFlameSpeed = dct.minFlameSpeed ∧
    inp.phase = dct.phase ∧ (dct.ignition ≠ [] ∨ dct.psr ≠ [] ∨ dct.flame ≠ []) := by
  simp only [parseInputs, bind_ok, pyAssert_ok, pure_ok] at h
  obtain ⟨_, -, _, -, _, -, _, -, names, -, _, -, _, -, _, hc, ign, -, psr, -, fl, -, safe, -, hr⟩ := h
  cases hr
  refine ⟨rfl, rfl, rfl, rfl, ?_⟩
  simpa [or_assoc] using hc

theorem parseInputs_method {load : String → String → Except Err (List String)} {inp : ReductionInputs}
    {dct' : InputDict} (h : parseInputs load dct = .ok (inp, dct')) :
    inp.method = dct.method ∧ ((∀ u, finiteUpper dct.upper = some u → u ≤ 1) →
      ∀ u, finiteUpper inp.upper = some u → u ≤ 1) := by
  simp only [parseInputs, bind_ok, pyAssert_ok, pure_ok] at h
  obtain ⟨_, -, _, -, _, -, _, -, names, -, _, -, _, -, _, hc, ign, -, psr, -, fl, -, safe, -, hr⟩ := h
  cases hr
  refine ⟨rfl, fun hu u h => ?_⟩
  dsimp only at h
  have h0 : ∀ u, finiteUpper (some (PyF.fin float01)) = some u → u ≤ 1 := by
    intro u hu
    cases hu
    decide +kernel
  rcases hd : dct.upper with _ | v <;> rw [hd] at h hu <;> dsimp only at h <;> split_ifs at h
  · exact h0 u h
  · cases h
  · exact h0 u h
  · exact hu u h

/-- with sensitivity analysis the upper threshold is never missing -/
theorem parseInputs_upper {load : String → String → Except Err (List String)} {inp : ReductionInputs}
    {dct' : InputDict} (h : parseInputs load dct = .ok (inp, dct')) (hs : dct.sensitivity = true) {u : ℚ}
    (hu : dct.upper = some (.fin u) ∧ u ≠ 0 ∨ dct.upper = none ∧ u = float01) :
    inp.sensitivityType = dct.sensitivityType ∧ finiteUpper inp.upper = some u ∧ u ≠ 0 := by
  simp only [parseInputs, bind_ok, pyAssert_ok, pure_ok] at h
  obtain ⟨_, -, _, -, _, -, _, -, names, -, _, -, _, -, _, hc, ign, -, psr, -, fl, -, safe, -, hr⟩ := h
  cases hr
  refine ⟨rfl, ?_⟩
  dsimp only
  rcases hu with ⟨hu, h0⟩ | ⟨hu, rfl⟩ <;> rw [hu] <;> dsimp only
  · rw [if_neg (by simp [PyF.eq, h0])]
    exact ⟨rfl, h0⟩
  · rw [if_pos hs]
    exact ⟨rfl, by decide +kernel⟩

theorem fileNames_eq (hw : w.fs dct.model.toList = some sol) :
    fileNames w dct.model dct.phase = .ok sol.names := by
  unfold fileNames loadModel
  rw [hw]
  rfl

/-- what was parsed makes a request that can be met -/
theorem program_request {inp : ReductionInputs} {dct' : InputDict} {ts : List String}
    (S : Situation sh dct path threads w d sol) (hts : dct.targets = .list ts) (hm : dct.method ≠ "")
    (hp : parseInputs (fileNames w) dct = .ok (inp, dct')) :
    Request (mainArgs sh inp path threads).toReduceArgs sol d ∧
    ReadFrom sol.names dct ⟨inp.ignition, inp.psr, inp.flame⟩ ∧
    ∃ meth, (mainArgs sh inp path threads).method.bind methodOf = some meth := by
  obtain ⟨names, hk, -, h1, h2, -⟩ := parseInputs_ok hp
  obtain ⟨f1, -, -, -, f5⟩ := parseInputs_fields hp
  have hn : names = sol.names := by
    have := hk.loaded
    rw [fileNames_eq S.file] at this
    exact (Except.ok.inj this).symm
  subst hn
  have hne : ∀ {α β : Type} {R : α → β → Prop} {l : List α} {l' : List β}, List.Forall₂ R l l' →
      l ≠ [] → l' ≠ [] := by
    intro α β R l l' h hl he
    subst he
    cases h
    exact hl rfl
  have hmt := hk.method.resolve_left hm
  refine ⟨⟨S.nodup, ?_, ?_, ?_, ?_, ⟨S.threads, S.order⟩, ?_, ?_, ?_⟩, ⟨hk.ignition, hk.psr, hk.flame⟩, ?_⟩
  · intro t ht
    have ht : t ∈ inp.targets.iter := ht
    rw [h1] at ht
    exact hk.targets t ht
  · show inp.targets.iter ≠ []
    rw [h1, hts]
    have := hmt.2
    rw [hts] at this
    simpa [Names.truthy, Names.iter] using this
  · intro n
    show joinPath path.toList (reducedName n) ≠ inp.model.toList
    rw [f1]
    exact S.noclash n
  · exact f5.imp (hne hk.ignition) (Or.imp (hne hk.psr) (hne hk.flame))
  · intro h
    show Unusable .ign 20 1 sol inp.ignition.length d
    rw [← hk.ignition.length_eq]
    exact S.freshIgn (fun h0 => h (List.eq_nil_of_length_eq_zero (by
      show inp.ignition.length = 0
      rw [← hk.ignition.length_eq, h0]; rfl)))
  · intro h
    show Unusable .psr 3 3 sol inp.psr.length d
    rw [← hk.psr.length_eq]
    exact S.freshPsr (fun h0 => h (List.eq_nil_of_length_eq_zero (by
      show inp.psr.length = 0
      rw [← hk.psr.length_eq, h0]; rfl)))
  · intro h
    show Unusable .flame 20 1 sol inp.flame.length d
    rw [← hk.flame.length_eq]
    exact S.freshFlame (fun h0 => h (List.eq_nil_of_length_eq_zero (by
      show inp.flame.length = 0
      rw [← hk.flame.length_eq, h0]; rfl)))
  · show ∃ meth, methodOf inp.method = some meth
    rw [h2]
    have := hmt.1
    simp only [List.mem_cons, List.not_mem_nil, or_false] at this
    rcases this with h | h | h <;> rw [h]
    · exact ⟨.drg, rfl⟩
    · exact ⟨.drgep, rfl⟩
    · exact ⟨.pfa, rfl⟩

end Verif
