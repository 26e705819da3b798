import Verif.Model.Yaml
import Mathlib.Data.Nat.Digits.Defs
/-!
# Numbers and names as they are written
-/
namespace Verif.Spec
open Verif

/-- characters with which a plain scalar that is not a word for a value may begin -/
def plainStart (c : Char) : Bool := !(c.isDigit || c == '-' || c == '+' || c == '.' || c == '<' || c == '=')

/-- the number written by digits in a base -/
def numeral (b : Nat) (t : Text) : Nat := Nat.ofDigits b (t.reverse.map fun c => c.toNat - 48)

/-- the exponent of a decimal number, with its sign -/
def eText : Option (Bool × Text) → Text
  | none => []
  | some (s, x) => 'e' :: (if s then '-' else '+') :: x

/-- a decimal number with a point -/
def pointText (neg : Bool) (i f : Text) (x : Option (Bool × Text)) : Text :=
  (if neg then ['-'] else []) ++ (i ++ '.' :: (f ++ eText x))

/-- the exponent -/
def eVal : Option (Bool × Text) → Int
  | none => 0
  | some (s, x) => if s then -(numeral 10 x : Int) else numeral 10 x

/-- digits only -/
def goodExp : Option (Bool × Text) → Prop
  | none => True
  | some (_, x) => x ≠ [] ∧ x.all Char.isDigit = true

/-- a number with an exponent that lacks a sign or is not preceded by a point: `1e-3`, `1e3`, `1.5E3` -/
inductive OddNumber : Text → Prop
  | nopoint {i x : Text} {e : Char} : i ≠ [] → i.all Char.isDigit = true → e = 'e' ∨ e = 'E' → x ≠ [] → x.all Char.isDigit = true →
      ∀ sign ∈ [[], ['-'], ['+']], OddNumber (i ++ e :: (sign ++ x))
  | nosign {i f x : Text} {e : Char} : i ≠ [] → i.all Char.isDigit = true → f.all Char.isDigit = true → e = 'e' ∨ e = 'E' →
      x ≠ [] → x.all Char.isDigit = true → OddNumber (i ++ '.' :: (f ++ e :: x))

/-- a word in small letters, with a capital, and in capitals -/
def spellings (w : Text) : List Text :=
  [w, (w.take 1).map Char.toUpper ++ w.drop 1, w.map Char.toUpper]

/-- the words for true and false -/
def boolSpellings : List Text :=
  ["yes", "no", "true", "false", "on", "off"].flatMap fun w => spellings w.toList

/-- the words for nothing -/
def nullSpellings : List Text := [[], ['~']] ++ spellings "null".toList

/-- a scalar that looks like a text: in quotes, or beginning with a letter or the like and not one of the words for true,
false and nothing -/
def LooksText (s : YScalar) : Prop :=
  s.plain = false ∨ ∃ c t, s.text = c :: t ∧ plainStart c = true ∧ s.text ∉ boolSpellings ∧ s.text ∉ nullSpellings

/-- one of the words for true, false and nothing, without quotes -/
def ValueWord (s : YScalar) : Prop := s.plain = true ∧ (s.text ∈ boolSpellings ∨ s.text ∈ nullSpellings)

/-- nothing after a heading -/
def Nothing (y : YNode) : Prop := ∃ s : YScalar, y = .scalar s ∧ s.plain = true ∧ s.text ∈ nullSpellings

/-- the last entry of a mapping with this heading -/
def Heading (y : YNode) (key : String) (x : YNode) : Prop :=
  ∃ l1 k l2, y = .map (l1 ++ (k, x) :: l2) ∧ LooksText k ∧ k.text = key.toList ∧ ∀ e ∈ l2, e.1.text ≠ key.toList

/-- a condition of the document -/
def Condition (y c : YNode) : Prop :=
  ∃ key ∈ ["autoignition-conditions", "psr-conditions", "laminar-flame-conditions"], ∃ cs, Heading y key (.seq cs) ∧ c ∈ cs

/-- the headings of the documentation -/
def topKeys : List String :=
  ["model", "error", "method", "sensitivity-analysis", "targets", "upper-threshold", "sensitivity-type", "retained-species",
   "phase-name", "min-flame-speed", "autoignition-conditions", "psr-conditions", "laminar-flame-conditions"]

/-- those with conditions -/
def condHeads : List String := ["autoignition-conditions", "psr-conditions", "laminar-flame-conditions"]

/-- those of a condition -/
def caseKeys : List String :=
  ["kind", "temperature", "pressure", "end-time", "max-steps", "width", "equivalence-ratio", "fuel", "oxidizer", "reactants",
   "composition-type"]

/-- all keys are texts, no two of them the same -/
def Distinct (l : List (YScalar × YNode)) : Prop := (∀ e ∈ l, LooksText e.1) ∧ (l.map fun e => e.1.text).Nodup

/-- the same condition, its entries in any order -/
inductive CaseReorder : YNode → YNode → Prop
  | same (y : YNode) : CaseReorder y y
  | perm {l l' : List (YScalar × YNode)} : Distinct l → l.Perm l' → CaseReorder (.map l) (.map l')

/-- the same entry, conditions under it with their entries in any order -/
def EntryReorder (e e' : YScalar × YNode) : Prop :=
  e.1 = e'.1 ∧ (e.2 = e'.2 ∨ (∃ key ∈ condHeads, e.1.text = key.toList) ∧
    ∃ cs cs', e.2 = .seq cs ∧ e'.2 = .seq cs' ∧ List.Forall₂ CaseReorder cs cs')

/-- the same document, the headings in any order, and the entries of conditions -/
def Reorder (y y' : YNode) : Prop :=
  ∃ l l1 l', y = .map l ∧ y' = .map l' ∧ Distinct l ∧ l.Perm l1 ∧ List.Forall₂ EntryReorder l1 l'

end Verif.Spec
