import Verif.Model.ConcurrentMain
/-!
# Model files with several phases

A YAML file can hold several phases; `ct.Solution(file, phase_name)` loads the one of that name.
The programs of `Model/Concurrent` and `Model/ConcurrentMain` are given a second meaning here, on
files with any number of phases.
-/
namespace Verif

/-- files with their phases in order; the name of a phase is the `name` of its `Solution` -/
abbrev PhaseFs := Text → Option (List Mech)

/-- `ct.Solution(file, phase_name)` as called at `drg.py:183, 291`, `drgep.py:337, 425`,
`pfa.py:207, 317`, `reduce_model.py:38`, `sensitivity_analysis.py:156`, `simulation.py:64`,
`pymars.py:101`: the first phase of that name, or the first phase if the name is empty -/
def selectPhase (phase : Text) (l : List Mech) : Option Mech :=
  if phase = [] then l.head? else l.find? (fun m => m.name = phase)

/-- set or delete one file -/
def PhaseFs.put (pf : PhaseFs) (f : Text) (c : Option (List Mech)) : PhaseFs := fun g => if g = f then c else pf g

/-- delete everything below a directory -/
def PhaseFs.clean (pf : PhaseFs) (dir : Text) : PhaseFs :=
  fun g => if (dir ++ ['/']).isPrefixOf g then none else pf g

/-- all operations of a program on files with several phases: each `ct.Solution` is given the
name of the phase, and `write_yaml` writes a file with the one phase of the solution
(`soln2yaml.py:42`) -/
def FsProg.aloneIn {α} (phase : Text) : FsProg α → PhaseFs → α × PhaseFs
  | done a, pf => (a, pf)
  | read f k, pf => (k ((pf f).bind (selectPhase phase))).aloneIn phase pf
  | look f k, pf => (k (pf f).isSome).aloneIn phase pf
  | write f m k, pf => k.aloneIn phase (pf.put f (some [m]))
  | remove f k, pf => (k (pf f).isSome).aloneIn phase (pf.put f none)
  | clean dir k, pf => k.aloneIn phase (pf.clean dir)

/-- `main` (`pymars.py:152-290`) on files with several phases -/
def mainPhases (p : MainIn) (dflt : List String) (pf : PhaseFs) :
    (Option (Except Err RModel) × List String) × PhaseFs :=
  (mainP p dflt).aloneIn p.phase pf

end Verif
