import Verif.Model.SaveText
import Verif.Model.Parse
/-!
# Reading the input file: `yaml.safe_load` (`pymars.py:379-380`)

The composed document (scalars, sequences and mappings) is given; scanning the text of the file is
not modelled, nor are anchors, tags, merge keys (`<<`) and keys that are not scalars.  What remains is
what PyYAML makes of each scalar (`Resolver`, the implicit resolvers of YAML 1.1, and
`SafeConstructor`).  Characters are those of ASCII.  Python integers and floats are both numbers here.
-/
namespace Verif

/-- a scalar of the document: whether it stands there without quotes, and its text -/
structure YScalar where
  plain : Bool
  text : Text
deriving DecidableEq

/-- the composed document -/
inductive YNode where
  | scalar (s : YScalar)
  | seq (l : List YNode)
  | map (l : List (YScalar × YNode))

/-- a scalar python value; `date` stands for dates and times -/
inductive PyS where
  | none
  | bool (b : Bool)
  | num (x : PyF)
  | str (s : String)
  | date
deriving DecidableEq

/-- a python value made by `safe_load` -/
inductive PyV where
  | sc (s : PyS)
  | list (l : List PyV)
  | dict (l : List (PyS × PyV))

/-- what a plain scalar stands for -/
inductive YTag where
  | bool | float | int | merge | null | timestamp | value | str
deriving DecidableEq

/-- `yaml/resolver.py`: words for true and false -/
def boolWords : List Text :=
  ["yes".toList, "Yes".toList, "YES".toList, "no".toList, "No".toList, "NO".toList,
   "true".toList, "True".toList, "TRUE".toList, "false".toList, "False".toList, "FALSE".toList,
   "on".toList, "On".toList, "ON".toList, "off".toList, "Off".toList, "OFF".toList]

/-- `yaml/resolver.py`: words for nothing -/
def nullWords : List Text := ["~".toList, "null".toList, "Null".toList, "NULL".toList, []]

/-- `[0-9_]` -/
def digitOr_ (c : Char) : Bool := c.isDigit || c == '_'

/-- `[-+]?` -/
def dropSign (t : Text) : Text := (signPart t).2

/-- `(?:[eE][-+][0-9]+)?` up to the end -/
def expTail : Text → Bool
  | [] => true
  | e :: s :: t => (e == 'e' || e == 'E') && (s == '-' || s == '+') && t ≠ [] && t.all Char.isDigit
  | _ => false

/-- `[0-9_]*(?:[eE][-+][0-9]+)?` up to the end -/
def fracTail (t : Text) : Bool := expTail (t.dropWhile digitOr_)

/-- `[0-5]?[0-9]` -/
def isBase60 : Text → Bool
  | [a] => a.isDigit
  | [a, b] => ('0' ≤ a && a ≤ '5') && b.isDigit
  | _ => false

/-- `[0-9][0-9_]*` -/
def isDigits_ : Text → Bool
  | [] => false
  | c :: t => c.isDigit && t.all digitOr_

/-- `[1-9][0-9_]*` -/
def isPositive_ : Text → Bool
  | [] => false
  | c :: t => c.isDigit && c != '0' && t.all digitOr_

/-- `yaml/resolver.py`: the pattern of floats -/
def isFloatText (t : Text) : Bool :=
  let u := dropSign t
  let rest := u.dropWhile digitOr_
  (isDigits_ (u.takeWhile digitOr_) && rest.head? == some '.' && fracTail rest.tail) ||
  (match t with
    | '.' :: c :: v => c.isDigit && fracTail v
    | _ => false) ||
  (match splitCh '.' u with
    | [a, b] => (match splitCh ':' a with
        | h :: p :: ps => isDigits_ h && (p :: ps).all isBase60 && b.all digitOr_
        | _ => false)
    | _ => false) ||
  [".inf".toList, ".Inf".toList, ".INF".toList].contains u ||
  [".nan".toList, ".NaN".toList, ".NAN".toList].contains t

/-- hexadecimal digits -/
def isHex (c : Char) : Bool := c.isDigit || ('a' ≤ c && c ≤ 'f') || ('A' ≤ c && c ≤ 'F')

/-- `yaml/resolver.py`: the pattern of integers -/
def isIntText (t : Text) : Bool :=
  let u := dropSign t
  (match u with
    | '0' :: 'b' :: v => v ≠ [] && v.all (fun c => c == '0' || c == '1' || c == '_')
    | '0' :: 'x' :: v => v ≠ [] && v.all (fun c => isHex c || c == '_')
    | '0' :: v => v.all (fun c => ('0' ≤ c && c ≤ '7') || c == '_')
    | _ => false) ||
  isPositive_ u ||
  (match splitCh ':' u with
    | h :: p :: ps => isPositive_ h && (p :: ps).all isBase60
    | _ => false)

/-- `[0-9][0-9]?` at the beginning, and what follows -/
def oneOrTwo : Text → Option Text
  | [] => none
  | a :: t =>
      if a.isDigit then (match t with
        | b :: t' => if b.isDigit then some t' else some (b :: t')
        | [] => some [])
      else none

/-- a given character at the beginning -/
def dropCh (c : Char) : Text → Option Text
  | [] => none
  | a :: t => if a = c then some t else none

/-- two digits at the beginning -/
def twoDigits : Text → Option Text
  | a :: b :: t => if a.isDigit && b.isDigit then some t else none
  | _ => none

/-- the time zone of a timestamp, up to the end -/
def zoneTail (t : Text) : Bool :=
  t = [] ||
  match t.dropWhile (fun c => c == ' ' || c == '\t') with
    | ['Z'] => true
    | s :: v =>
        (s == '-' || s == '+') &&
        (match oneOrTwo v with
          | some [] => true
          | some w => (dropCh ':' w >>= twoDigits) == some []
          | none => false)
    | [] => false

/-- the time of a timestamp -/
def timeTail (t : Text) : Bool :=
  let u := match t with
    | 'T' :: v => some v
    | 't' :: v => some v
    | c :: v => if c = ' ' ∨ c = '\t' then some (v.dropWhile (fun c => c == ' ' || c == '\t')) else none
    | [] => none
  match (u >>= oneOrTwo) >>= dropCh ':' >>= twoDigits >>= dropCh ':' >>= twoDigits with
    | none => false
    | some v => zoneTail (match v with
        | '.' :: w => w.dropWhile Char.isDigit
        | w => w)

/-- `yaml/resolver.py`: the pattern of timestamps -/
def isTimestamp (t : Text) : Bool :=
  match twoDigits t >>= twoDigits >>= dropCh '-' with
    | none => false
    | some u =>
        (twoDigits u >>= dropCh '-' >>= twoDigits) == some [] ||
        (match oneOrTwo u >>= dropCh '-' >>= oneOrTwo with
          | none => false
          | some v => timeTail v)

/-- `yaml/resolver.py`: `resolve` for a plain scalar; the first pattern that fits.  (The table by first
characters only saves time.) -/
def plainTag (t : Text) : YTag :=
  if boolWords.contains t then .bool
  else if isFloatText t then .float
  else if isIntText t then .int
  else if t = "<<".toList then .merge
  else if nullWords.contains t then .null
  else if isTimestamp t then .timestamp
  else if t = "=".toList then .value
  else .str

/-- the value of digits in a base -/
def baseVal (b : Nat) (t : Text) : Nat :=
  t.foldl (fun n c => n * b + (if c.isDigit then c.toNat - 48 else if 'a' ≤ c then c.toNat - 87 else c.toNat - 55)) 0

/-- `int(text, base)`, which refuses an empty text -/
def pyIntBase (b : Nat) (t : Text) : Except Err Nat := if t = [] then .error .valueError else .ok (baseVal b t)

/-- numbers separated by colons -/
def base60 (l : List ℚ) : ℚ := l.foldl (fun n x => n * 60 + x) 0

/-- `construct_yaml_int` after the sign -/
def yamlNat : Text → Except Err ℚ
  | ['0'] => .ok 0
  | '0' :: 'b' :: u => (pyIntBase 2 u).map Nat.cast
  | '0' :: 'x' :: u => (pyIntBase 16 u).map Nat.cast
  | '0' :: u => (pyIntBase 8 ('0' :: u)).map Nat.cast
  | u =>
      .ok (if u.contains ':' then base60 ((splitCh ':' u).map fun p => (digitsVal p : ℚ)) else (digitsVal u : ℚ))

/-- `construct_yaml_int` -/
def yamlInt (t : Text) : Except Err PyF :=
  let s := signPart (t.filter (· != '_'))
  (yamlNat s.2).map fun q => .fin (if s.1 then -q else q)

/-- `construct_yaml_float`; the sum of the parts of a number with colons is rounded once (pyMARS has no
use for these) -/
def yamlFloat (t : Text) : PyF :=
  let s := signPart ((t.filter (· != '_')).map Char.toLower)
  if s.2 = ".inf".toList then (if s.1 then .ninf else .inf)
  else if s.2 = ".nan".toList then .nan
  else
    let v : ℚ :=
      if s.2.contains ':' then base60 ((splitCh ':' s.2).map fun p => (decimalVal p).getD 0)
      else (decimalVal s.2).getD 0
    rndInf (if s.1 then -v else v)

/-- `SafeConstructor` on a scalar.  `<<` and `=` have no constructor (`ConstructorError`, here
`valueError`). -/
def scalarValue (s : YScalar) : Except Err PyS :=
  if s.plain then
    match plainTag s.text with
    | .bool => .ok (.bool (["yes".toList, "true".toList, "on".toList].contains (s.text.map Char.toLower)))
    | .float => .ok (.num (yamlFloat s.text))
    | .int => (yamlInt s.text).map .num
    | .null => .ok .none
    | .timestamp => .ok .date
    | .merge => .error .valueError
    | .value => .error .valueError
    | .str => .ok (.str (String.ofList s.text))
  else .ok (.str (String.ofList s.text))

/-- whether two keys of a dictionary are the same -/
def sameKey : PyS → PyS → Bool
  | .bool a, .bool b => a == b
  | .bool a, .num x => x.eq (.fin (if a then 1 else 0))
  | .num x, .bool a => x.eq (.fin (if a then 1 else 0))
  | .num x, .num y => x.eq y
  | .str a, .str b => a == b
  | .none, .none => true
  | _, _ => false

/-- `mapping[key] = value` -/
def putKey (l : List (PyS × PyV)) (k : PyS) (v : PyV) : List (PyS × PyV) :=
  match l with
  | [] => [(k, v)]
  | (k', v') :: rest => if sameKey k' k then (k', v) :: rest else (k', v') :: putKey rest k v

/-- a dictionary from its entries in order: of two equal keys the later value remains -/
def dictOf (l : List (PyS × PyV)) : List (PyS × PyV) := l.foldl (fun m p => putKey m p.1 p.2) []

mutual
/-- `SafeConstructor.construct_document` -/
def construct : YNode → Except Err PyV
  | .scalar s => (scalarValue s).map .sc
  | .seq l => (constructSeq l).map .list
  | .map l => (constructPairs l).map fun ps => .dict (dictOf ps)

/-- `construct_sequence` -/
def constructSeq : List YNode → Except Err (List PyV)
  | [] => .ok []
  | x :: l => construct x >>= fun v => constructSeq l >>= fun vs => .ok (v :: vs)

/-- the entries of `construct_mapping`, in order -/
def constructPairs : List (YScalar × YNode) → Except Err (List (PyS × PyV))
  | [] => .ok []
  | (k, x) :: l => scalarValue k >>= fun k' => construct x >>= fun v => constructPairs l >>= fun vs => .ok ((k', v) :: vs)
end

end Verif
