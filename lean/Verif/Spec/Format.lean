import Mathlib.Algebra.Order.Field.Rat
import Verif.Model.Path
/-!
# Reading numbers and words back

How a reader of Chemkin files sees the text; independent of how the text is produced.
-/
namespace Verif.Spec

/-- the value of a decimal digit -/
def digitVal (c : Char) : Option Nat :=
  if '0' ≤ c ∧ c ≤ '9' then some (c.toNat - 48) else none

/-- the value of a string of digits, after digits worth `acc` -/
def readDigits : Nat → Text → Option Nat
  | acc, [] => some acc
  | acc, c :: cs => (digitVal c).bind fun d => readDigits (acc * 10 + d) cs

/-- an exponent, possibly absent -/
def readExp : Text → Option Int
  | [] => some 0
  | 'e' :: '+' :: ds => if ds = [] then none else (readDigits 0 ds).map fun n : Nat => (n : Int)
  | 'e' :: '-' :: ds => if ds = [] then none else (readDigits 0 ds).map fun n : Nat => -(n : Int)
  | _ => none

/-- an unsigned decimal number: digits, a point and digits, an exponent -/
def readAbs (t : Text) : Option ℚ :=
  let mant := t.takeWhile (· != 'e')
  let ip := mant.takeWhile (· != '.')
  let fp := (mant.dropWhile (· != '.')).drop 1
  if ip = [] then none
  else (readDigits 0 (ip ++ fp)).bind fun n =>
    (readExp (t.dropWhile (· != 'e'))).map fun e : Int => (n : ℚ) * 10 ^ (e - (fp.length : Int))

/-- a decimal number -/
def readNum : Text → Option ℚ
  | '-' :: t => (readAbs t).map fun q => -q
  | t => readAbs t

/-- a number in a fixed-width field: leading blanks are skipped -/
def readField (t : Text) : Option ℚ := readNum (t.dropWhile (· == ' '))

/-- The text reads as a number within `tol` of `q`. -/
def Reads (t : Text) (q tol : ℚ) : Prop := ∃ v, readNum t = some v ∧ |v - q| ≤ tol

/-- The field reads as a number within `tol` of `q`. -/
def FieldReads (t : Text) (q tol : ℚ) : Prop := ∃ v, readField t = some v ∧ |v - q| ≤ tol

/-- white space -/
def isBlank (c : Char) : Bool := c == ' ' || c == '\n'

/-- split into words at white space; `cur` is the word being read -/
def wordsAux : Text → Text → List Text
  | cur, [] => if cur = [] then [] else [cur]
  | cur, c :: cs =>
      if isBlank c then (if cur = [] then wordsAux [] cs else cur :: wordsAux [] cs)
      else wordsAux (cur ++ [c]) cs

/-- split into words at white space, as `str.split()` does -/
def words (t : Text) : List Text := wordsAux [] t

/-- split into lines at newlines -/
def linesAux : Text → Text → List Text
  | cur, [] => [cur]
  | cur, c :: cs => if c = '\n' then cur :: linesAux [] cs else linesAux (cur ++ [c]) cs

/-- the lines of a text, without their newlines -/
def lines (t : Text) : List Text := linesAux [] t

/-- no white space, and not empty -/
def Word (t : Text) : Prop := t ≠ [] ∧ ∀ c ∈ t, isBlank c = false

end Verif.Spec
