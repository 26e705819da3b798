import Verif.Model.ConcurrentMain
/-!
# Directories that do not exist

pyMARS creates no directories but temporary ones (`tempfile`): `path` is only joined with file names
(`soln2yaml.py:33-36`).  The programs of `Model/ConcurrentMain` are given a meaning here in which some
files cannot be written because their directories are missing.  In cantera, `write_yaml`
(`soln2yaml.py:41`) opens a C++ stream; whether it reports that the file could not be opened is left
open (`silent`).
-/
namespace Verif

/-- all operations of a program while the directories of the files `gone` are missing: writing such a file has no
effect if cantera is silent, and otherwise raises an exception that ends the program (`none`) -/
def FsProg.aloneGone {α} (gone : Text → Bool) (silent : Bool) : FsProg α → Fs → Option α × Fs
  | done a, fs => (some a, fs)
  | read f k, fs => (k (fs f)).aloneGone gone silent fs
  | look f k, fs => (k (fs f).isSome).aloneGone gone silent fs
  | write f m k, fs =>
      if gone f then
        if silent then k.aloneGone gone silent fs else (none, fs)
      else k.aloneGone gone silent (fs.put f (some m))
  | remove f k, fs => (k (fs f).isSome).aloneGone gone silent (fs.put f none)
  | clean dir k, fs => k.aloneGone gone silent (fs.clean dir)

/-- the files in a directory and below it (`soln2yaml.py:34`) -/
def liesIn (dir f : Text) : Bool := (dir ++ ['/']).isPrefixOf f

/-- `main` (`pymars.py:152-290`) while the directories of the files `gone` are missing -/
def mainGone (p : MainIn) (gone : Text → Bool) (silent : Bool) (dflt : List String) (fs : Fs) :
    Option (Except Err RModel) × Fs :=
  match (mainP p dflt).aloneGone gone silent fs with
  | (some x, fs') => (x.1, fs')
  | (none, fs') => (some (.error .runtimeError), fs')

/-- the files below a directory, but not in it; a directory just created by `tempfile`
(`sensitivity_analysis.py:76, 202`) contains no other, so that they cannot be written -/
def deeper (dir f : Text) : Bool := liesIn dir f && (f.drop (dir.length + 1)).contains '/'

/-- `run_sa` (`sensitivity_analysis.py:101-276`) while the directories of the files `gone` are missing -/
def saGone (c : SACtx) (gone : Text → Bool) (silent : Bool) (limbo : List String) (fuel : Nat) (fs : Fs) :
    Option (Except Err RModel) × Fs :=
  match (saP c limbo fuel).aloneGone gone silent fs with
  | (some none, fs') => (none, fs')
  | (some (some x), fs') => (some x.1, fs')
  | (none, fs') => (some (.error .runtimeError), fs')

end Verif
