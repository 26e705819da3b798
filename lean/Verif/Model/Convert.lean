import Verif.Model.Program
import Verif.Model.Tools
import Verif.Model.Ck
/-!
# The conversion command (`pymars.py:362-371`, `tools.py:169-228`)

Reading a model with cantera and `ck2yaml` are oracles.  Files are texts here; directories are not
modelled, so opening a file for writing always succeeds.
-/
namespace Verif

/-- the two directions: `ct.Solution(file)` and `repr` of numbers for `soln2ck.write`, and
`ck2yaml.main(args)` with the files it leaves -/
structure Converters where
  load : Files → Text → Except Err (Soln ℚ)
  rp : ℚ → Text
  ck2yaml : List Text → Files → Except Err Unit × Files

/-- `convert`, `tools.py:169-228`: the names of the files written, or the exception, and the files
afterwards.  (A single name is returned as a text and not as a list.) -/
def convertModel (C : Converters) (modelFile : Text) (thermo transport : Option Text) (path : Text)
    (fs : Files) : Except Err (List Text) × Files :=
  match convertAction modelFile thermo transport path with
  | .toChemkin file name p =>
      match C.load fs file with
      | .error e => (.error e, fs)
      | .ok s => writeCk C.rp s fs name p false false
  | .toYaml args out =>
      match C.ck2yaml args fs with
      | (.error e, fs') => (.error e, fs')
      | (.ok _, fs') => (.ok [out], fs')

/-- `pymars.py:293-371`: what the command does to text files when it is asked for a conversion.  The
files of a reduction are those of `program`. -/
def convertCommand (C : Converters) (p : ProgEnd) (fs : Files) : Except Err (List Text) × Files :=
  match p with
  | .converted m thermo transport path =>
      convertModel C m.toList (thermo.map String.toList) (transport.map String.toList) path.toList fs
  | .failed e => (.error e, fs)
  | _ => (.ok [], fs)

end Verif
