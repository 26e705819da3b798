import Verif.Model.Program
import Verif.Spec.Argparse
import Verif.Spec.Parse
import Verif.Spec.EndToEnd
import Verif.Spec.SA
/-!
# What the user of the command relies on
-/
namespace Verif.Spec
open Verif

/-- the command line asks, in any spelling and order, for a reduction with the input file `i`,
the output directory `path` and the given number of processes -/
def Asks (args : List String) (i path : String) (threads : Int) : Prop :=
  ∃ its tss, List.Forall₂ Spells its tss ∧ args = tss.flatten.map String.ofList ∧
    (its.foldl Item.apply noOptions).version = false ∧
    (its.foldl Item.apply noOptions).convert = false ∧
    (its.foldl Item.apply noOptions).input = some i ∧ i ≠ "" ∧
    (its.foldl Item.apply noOptions).path = path ∧
    (its.foldl Item.apply noOptions).threads = threads

/-- the command line asks, in any spelling and order, for the conversion of a model -/
def AsksConversion (args : List String) (m : String) (thermo transport : Option String) (path : String) :
    Prop :=
  ∃ its tss, List.Forall₂ Spells its tss ∧ args = tss.flatten.map String.ofList ∧
    (its.foldl Item.apply noOptions).version = false ∧
    (its.foldl Item.apply noOptions).convert = true ∧
    (its.foldl Item.apply noOptions).model = some m ∧ m ≠ "" ∧
    (its.foldl Item.apply noOptions).thermo = thermo ∧
    (its.foldl Item.apply noOptions).transport = transport ∧
    (its.foldl Item.apply noOptions).path = path

/-- the method that a word of the input file stands for -/
inductive NamedMethod : String → Method → Prop
  | drg : NamedMethod "DRG" .drg
  | drgep : NamedMethod "DRGEP" .drgep
  | pfa : NamedMethod "PFA" .pfa

/-- the directory in which the command is started: the model file is there and is not called
`reduced_<n>.yaml` in the output directory, no samples are saved that could be taken for those of
the request, and the worker pools complete their jobs in some order -/
structure Situation (sh : Shell) (inp : InputDict) (path : String) (threads : Int) (w : World)
    (d : Disk) (sol : Mech) : Prop where
  file : w.fs inp.model.toList = some sol
  nodup : sol.names.Nodup
  noclash : ∀ n, joinPath path.toList (reducedName n) ≠ inp.model.toList
  threads : 1 ≤ resolveThreads threads sh.cpus
  order : ∀ k n, (sh.order k n).Perm (List.range n)
  freshIgn : inp.ignition ≠ [] → Unusable .ign 20 1 sol inp.ignition.length d
  freshPsr : inp.psr ≠ [] → Unusable .psr 3 3 sol inp.psr.length d
  freshFlame : inp.flame ≠ [] → Unusable .flame 20 1 sol inp.flame.length d

/-- the temporary directories of sensitivity analysis: real directory names, no output file lies in
them, and the directory of the loop is apart from those of the evaluations -/
structure TempDirs (sh : Shell) (path : String) : Prop where
  tmp_ne : sh.tmpDir ≠ []
  tmp_last : sh.tmpDir.getLast? ≠ some '/'
  eval_ne : ∀ n, sh.evalDir n ≠ []
  eval_last : ∀ n, (sh.evalDir n).getLast? ≠ some '/'
  model_tmp : ∀ n, ¬ Under sh.tmpDir (joinPath path.toList (reducedName n))
  model_eval : ∀ k n, ¬ Under (sh.evalDir k) (joinPath path.toList (reducedName n))
  apart : ∀ n f, Under sh.tmpDir f → ¬ Under (sh.evalDir n) f

/-- the records read from the conditions of the input file -/
structure ReadFrom (names : List String) (inp : InputDict) (c : Conds IgnInput Cond FlameInput) :
    Prop where
  ign : List.Forall₂ (IgnitionOk names) inp.ignition c.ign
  psr : List.Forall₂ (PsrOk names) inp.psr c.psr
  flame : List.Forall₂ (FlameOk names) inp.flame c.flame

end Verif.Spec
