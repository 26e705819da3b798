import Verif.Model.Simulation
import Verif.Model.Path
/-!
# The data files of ignition cases, and several cases at the same time

An ignition case that is sampled writes its trajectory to a file, reads it back and removes
it.  Here these are separate operations, between which other processes may act.  Opening a
file, writing or reading it and closing it again is one operation: the locks of HDF5, which
are held while a file is open, are not modelled.
-/
namespace Verif

/-- `simulation.py:214, 435`: the name of the data file of a case -/
def dataName (path : Text) (i : Nat) : Text := joinPath path ((toString i).toList ++ ".h5".toList)

/-- the data files: the trajectory in each of them -/
abbrev DataDir := Text → Option (List Point)

/-- set or delete one file -/
def DataDir.put (d : DataDir) (f : Text) (c : Option (List Point)) : DataDir := fun g => if g = f then c else d g

/-- a program that works on data files -/
inductive DProg (α : Type) where
  /-- the end, with a result -/
  | done (a : α)
  /-- `h5py.File(f, "w")` and everything written to it -/
  | write (f : Text) (pts : List Point) (k : DProg α)
  /-- `h5py.File(f, "r")` and everything read from it, if there is such a file -/
  | read (f : Text) (k : Option (List Point) → DProg α)
  /-- `os.remove(f)`, errors ignored (`simulation.py:161-165`) -/
  | remove (f : Text) (k : DProg α)

/-- one operation -/
def DProg.step {α} : DProg α → DataDir → DProg α × DataDir
  | .done a, d => (.done a, d)
  | .write f pts k, d => (k, d.put f (some pts))
  | .read f k, d => (k (d f), d)
  | .remove f k, d => (k, d.put f none)

/-- several processes at the same time: the schedule tells which of them makes the next
operation -/
def together {ι α} [DecidableEq ι] : List ι → (ι → DProg α) → DataDir → (ι → DProg α) × DataDir
  | [], ps, d => (ps, d)
  | i :: l, ps, d => together l (fun j => if j = i then ((ps i).step d).1 else ps j) ((ps i).step d).2

/-- `simulation.py:354-366, 420-457`, `sampling.py:97-102`: what a case does once it has been
integrated -/
def afterRun (rnd : ℚ → ℚ) (file : Text) (r : IgnRun) : DProg (Except Err (List PyF × List Row)) :=
  let rest : DProg (Except Err (List PyF × List Row)) :=
    match r.result with
    | .error e => .done (.error e)
    | .ok _ => .read file fun o =>
        match ignProcess rnd o with
        | .error e => .done (.error e)
        | .ok (t, rows) => .remove file (.done (.ok ([t], rows)))
  match r.file with
  | none => rest
  | some pts => .write file pts rest

/-- `sampling.py:75-102`: `ignition_sample_worker`, as a sequence of file operations; `none` when the
integration does not end within the fuel -/
def caseP (rnd : ℚ → ℚ) (p : IgnProps) (R : Reactor) (fuel : Nat) (file : Text) :
    Option (DProg (Except Err (List PyF × List Row))) :=
  (ignRunCase p R false fuel).map (afterRun rnd file)

end Verif
