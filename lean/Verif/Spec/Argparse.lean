import Verif.Model.Argparse
import Verif.Spec.Format
/-!
# What the command line options mean

Stated with the names of the options only.
-/
namespace Verif.Spec

/-- the names of each option -/
def optionNames : Dest → List Text
  | .help => ["-h", "--help"].map String.toList
  | .input => ["-i", "--input"].map String.toList
  | .path => ["--path"].map String.toList
  | .threads => ["--num_threads"].map String.toList
  | .convert => ["--convert"].map String.toList
  | .model => ["-m", "--model"].map String.toList
  | .thermo => ["--thermo"].map String.toList
  | .transport => ["--transport"].map String.toList
  | .version => ["-V", "--version"].map String.toList

/-- `t` stands for the option `d`: it is one of its names, or the beginning of a long name of `d` and
of no other option -/
def NamesOpt (t : Text) (d : Dest) : Prop :=
  t ∈ optionNames d ∨
    ("--".toList <+: t ∧ t ≠ "--".toList ∧ '=' ∉ t ∧ (∃ name ∈ optionNames d, t <+: name) ∧
      ∀ d', (∃ name ∈ optionNames d', t <+: name) → d' = d)

/-- one setting given on the command line -/
inductive Item where
  | convert | version
  | input (v : Text) | path (v : Text) | model (v : Text) | thermo (v : Text) | transport (v : Text)
  | threads (n : Int)
  | allThreads

/-- the option of a setting with a text value, and the value -/
def Item.textValue : Item → Option (Dest × Text)
  | .input v => some (.input, v)
  | .path v => some (.path, v)
  | .model v => some (.model, v)
  | .thermo v => some (.thermo, v)
  | .transport v => some (.transport, v)
  | _ => none

/-- digits, possibly after a minus sign -/
def IntText (v : Text) (n : Int) : Prop :=
  ∃ ds k, ds ≠ [] ∧ readDigits 0 ds = some k ∧ ((v = ds ∧ n = k) ∨ (v = '-' :: ds ∧ n = -k))

/-- The ways to write a setting: a flag by its name; a value after the name, unless it begins with a
dash, or attached with `=`, or directly after a short name; the number of threads as digits, or left
out. -/
inductive Spells : Item → List Text → Prop
  | convert {t} : NamesOpt t .convert → Spells .convert [t]
  | version {t} : NamesOpt t .version → Spells .version [t]
  | separate {it d v t} : it.textValue = some (d, v) → NamesOpt t d → v.head? ≠ some '-' →
      Spells it [t, v]
  | equals {it d v t} : it.textValue = some (d, v) → NamesOpt t d → Spells it [t ++ '=' :: v]
  | glued {it d v t} : it.textValue = some (d, v) → t ∈ optionNames d → t.length = 2 → v ≠ [] →
      v.head? ≠ some '=' → Spells it [t ++ v]
  | threads {n v t} : NamesOpt t .threads → IntText v n → Spells (.threads n) [t, v]
  | threadsEq {n v t} : NamesOpt t .threads → IntText v n → Spells (.threads n) [t ++ '=' :: v]
  | allThreads {t} : NamesOpt t .threads → Spells .allThreads [t]

/-- a minus sign and digits, or a minus sign, perhaps digits, a point and digits -/
def NegativeNumber (v : Text) : Prop :=
  ∃ ds, (∀ c ∈ ds, c.isDigit = true) ∧
    ((ds ≠ [] ∧ v = '-' :: ds) ∨
      ∃ fs, fs ≠ [] ∧ (∀ c ∈ fs, c.isDigit = true) ∧ v = '-' :: (ds ++ '.' :: fs))

/-- what a setting does -/
def Item.apply (a : CliArgs) : Item → CliArgs
  | .convert => { a with convert := true }
  | .version => { a with version := true }
  | .input v => { a with input := some (String.ofList v) }
  | .path v => { a with path := String.ofList v }
  | .model v => { a with model := some (String.ofList v) }
  | .thermo v => { a with thermo := some (String.ofList v) }
  | .transport v => { a with transport := some (String.ofList v) }
  | .threads n => { a with threads := n }
  | .allThreads => { a with threads := 0 }

/-- the option a setting belongs to -/
def Item.dest : Item → Dest
  | .convert => .convert
  | .version => .version
  | .input _ => .input
  | .path _ => .path
  | .model _ => .model
  | .thermo _ => .thermo
  | .transport _ => .transport
  | .threads _ | .allThreads => .threads

/-- without options: no files, no conversion, files in the current directory, one process -/
def noOptions : CliArgs := ⟨none, "", 1, false, none, none, none, false⟩

end Verif.Spec
