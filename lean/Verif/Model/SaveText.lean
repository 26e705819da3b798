import Verif.Model.Argparse
import Verif.Model.MatrixFloat
import Verif.Model.Format
import Verif.Model.Sampling
/-!
# The text of saved samples

`Model/Sampling` keeps saved files as tables of numbers.  Here they are text, as `np.savetxt` writes
it and `np.genfromtxt` reads it (`sampling.py:333-352, 414-475, 562-565, 597-598, 615-617, 644-645,
660-662, 699-700`), and a process may die after any character.  The sign of zero is not modelled,
nor are underscores between digits, line ends other than `\n`, and the order in which the operating
system makes written characters permanent.
-/
namespace Verif

/-- `'%.18e' % x`, the default format of `np.savetxt` -/
def fieldText : PyF → Text
  | .fin q => fmtExp 18 q
  | .inf => "inf".toList
  | .ninf => "-inf".toList
  | .nan => "nan".toList

/-- one row with `delimiter=","` -/
def lineText (r : Row) : Text := joinText [','] (r.map fieldText)

/-- one row with its newline -/
def rowText (r : Row) : Text := lineText r ++ ['\n']

/-- the file that `np.savetxt` leaves -/
def fileText (rows : List Row) : Text := (rows.map rowText).flatten

/-- the value of a string of digits -/
def digitsVal (t : Text) : Nat := t.foldl (fun n c => n * 10 + (c.toNat - 48)) 0

/-- a sign and the rest -/
def signPart : Text → Bool × Text
  | '-' :: t => (true, t)
  | '+' :: t => (false, t)
  | t => (false, t)

/-- the exponent of a decimal number, possibly absent -/
def expPart : Text → Option Int
  | [] => some 0
  | c :: t =>
      if c = 'e' ∨ c = 'E' then
        let s := signPart t
        if s.2 = [] ∨ s.2.all Char.isDigit = false then none
        else some (if s.1 then -(digitsVal s.2 : Int) else digitsVal s.2)
      else none

/-- the digits after the point, and what follows them -/
def fracPart : Text → Text × Text
  | '.' :: t => (t.takeWhile Char.isDigit, t.dropWhile Char.isDigit)
  | t => ([], t)

/-- a decimal number without a sign -/
def decimalVal (t : Text) : Option ℚ :=
  let ip := t.takeWhile Char.isDigit
  let f := fracPart (t.dropWhile Char.isDigit)
  if ip ++ f.1 = [] then none
  else (expPart f.2).map fun e : Int => (digitsVal (ip ++ f.1) : ℚ) * 10 ^ (e - (f.1.length : Int))

/-- Python `float(text)`: the float nearest to the decimal number, or an infinity or NaN by name -/
def pyFloat (t : Text) : Option PyF :=
  let s := signPart (stripText t)
  let u := s.2.map Char.toLower
  if u = "inf".toList ∨ u = "infinity".toList then some (if s.1 then .ninf else .inf)
  else if u = "nan".toList then some .nan
  else (decimalVal s.2).map fun v => rndInf (if s.1 then -v else v)

/-- `text.split(sep)` for one character -/
def splitCh (sep : Char) : Text → List Text
  | [] => [[]]
  | c :: t =>
      if c = sep then [] :: splitCh sep t
      else match splitCh sep t with
        | [] => [[c]]
        | l :: ls => (c :: l) :: ls

/-- `line.strip(" \r\n")` on one line -/
def stripLine (t : Text) : Text :=
  let b : Char → Bool := fun c => c == ' ' || c == '\r' || c == '\n'
  ((t.dropWhile b).reverse.dropWhile b).reverse

/-- one line of `np.genfromtxt` (`LineSplitter._delimited_splitter`, `StringConverter._loose_call`):
comments and blanks are dropped, and a field that is no number counts as NaN -/
def lineFields (l : Text) : Row :=
  let u := stripLine (l.takeWhile (· != '#'))
  if u = [] then [] else (splitCh ',' u).map fun f => (pyFloat f).getD .nan

/-- the rows that `np.genfromtxt` finds in a file; empty lines are skipped.  What it makes of them is
`genfromtxt` of `Model/Sampling`. -/
def textRows (t : Text) : List Row := ((splitCh '\n' t).map lineFields).filter (· ≠ [])

/-- the saved files as text -/
abbrev TextDisk := SaveFile → Option Text

/-- the tables found in the files -/
def TextDisk.view (d : TextDisk) : Disk := fun f => (d f).map textRows

/-- one elementary effect of `np.savetxt` on the text of a file -/
inductive TextEv where
  | truncate (f : SaveFile)
  | put (f : SaveFile) (c : Char)

def applyTextEv (d : TextDisk) : TextEv → TextDisk
  | .truncate f => fun g => if g = f then some [] else d g
  | .put f c => fun g => if g = f then some ((d f).getD [] ++ [c]) else d g

def applyTextEvs (d : TextDisk) (evs : List TextEv) : TextDisk := evs.foldl applyTextEv d

/-- the characters of a write -/
def Ev.chars : Ev → List TextEv
  | .truncate f => [.truncate f]
  | .row f r => (rowText r).map (.put f)

/-- the characters of several writes -/
def evChars (evs : List Ev) : List TextEv := (evs.map Ev.chars).flatten

/-- `sampling.py:505-711`: `sample` in a directory with text files: its result, and the characters
written.  (A phenomenon only reads its own two files, before it writes them.) -/
def sampleText {ι π φ} (S : AllSims ι π φ) (m : Mech) (c : Conds ι π φ) (p : Par) (d : TextDisk) :
    Except Err (List PyF × List Row) × List TextEv :=
  ((sample S m c p d.view).result, evChars (sample S m c p d.view).evs)

/-- `sampling.py:358-502`: `sample_metrics` in such a directory -/
def sampleMetricsText {ι π φ} (S : AllSims ι π φ) (m : Mech) (c : Conds ι π φ) (p : Par)
    (reuse : Bool) (d : TextDisk) : Except Err (List PyF) := sampleMetrics S m c p reuse d.view

/-- `sampling.py:308-355`: `read_metrics` in such a directory -/
def readMetricsText {ι π φ} (c : Conds ι π φ) (d : TextDisk) : Except Err (List PyF) :=
  readMetrics c d.view

end Verif
