import Verif.Model.Main
/-!
# The argument parser of the command line: `pymars.py:295-353`

`ArgumentParser.parse_args` as in CPython 3.11 for the options declared by `pymars`, all of them
optional, plus `-h`.  Every way to fail ends in `sys.exit`, so all failures are `systemExit`; what is
printed is not modelled.  White space and digits are those of ASCII.
-/
namespace Verif

/-- the options, by the attribute they set; `help` is added by argparse -/
inductive Dest where
  | help | input | path | threads | convert | model | thermo | transport | version
deriving DecidableEq

/-- how many arguments an option takes: none (`store_true`), one, or at most one (`nargs="?"`) -/
inductive Arity where
  | flag | one | optional
deriving DecidableEq

/-- `pymars.py:295-347`: option strings in the order of declaration -/
def optTable : List (Text × Dest) :=
  [("-h".toList, .help), ("--help".toList, .help), ("-i".toList, .input), ("--input".toList, .input),
   ("--path".toList, .path), ("--num_threads".toList, .threads), ("--convert".toList, .convert),
   ("-m".toList, .model), ("--model".toList, .model), ("--thermo".toList, .thermo),
   ("--transport".toList, .transport), ("-V".toList, .version), ("--version".toList, .version)]

/-- `pymars.py:297-347`: `action` and `nargs` -/
def arity : Dest → Arity
  | .help | .convert | .version => .flag
  | .threads => .optional
  | .input | .path | .model | .thermo | .transport => .one

/-- defaults, `pymars.py:297-347` -/
def cliDefaults : CliArgs where
  input := none
  path := ""
  threads := 1
  convert := false
  model := none
  thermo := none
  transport := none
  version := false

/-- argparse `_option_string_actions` -/
def lookupOpt (t : Text) : Option Dest := (optTable.find? fun e => e.1 = t).map Prod.snd

/-- an argument after the first pass: an argument, an option with the text attached to it (and
whether by `=`), or `--` -/
inductive Tok where
  | arg (s : Text)
  | opt (d : Dest) (short : Bool) (expl : Option (Bool × Text))
  | unknown
  | dashes
deriving DecidableEq

/-- `str.partition('=')` -/
def partitionEq : Text → Text × Option Text
  | [] => ([], none)
  | c :: cs => if c = '=' then ([], some cs) else
      let r := partitionEq cs
      (c :: r.1, r.2)

/-- argparse `_negative_number_matcher`: `^-\d+$|^-\d*\.\d+$` -/
def negNumber : Text → Bool
  | '-' :: t =>
      let u := t.dropWhile Char.isDigit
      match u with
      | [] => t ≠ []
      | '.' :: v => v ≠ [] && v.all Char.isDigit
      | _ => false
  | _ => false

/-- a single-dash option string -/
def isShort (name : Text) : Bool := name.length = 2

/-- argparse `_get_option_tuples`: abbreviations of long options, short options with text attached -/
def optionTuples (t : Text) : List Tok :=
  if t.take 2 = "--".toList then
    let p := partitionEq t
    (optTable.filter fun e => p.1.isPrefixOf e.1).map fun e =>
      .opt e.2 (isShort e.1) (p.2.map fun v => (true, v))
  else
    optTable.filterMap fun e =>
      if e.1 = t.take 2 then some (.opt e.2 (isShort e.1) (some (false, t.drop 2)))
      else if t.isPrefixOf e.1 then some (.opt e.2 (isShort e.1) none)
      else none

/-- argparse `_parse_optional` -/
def classify (t : Text) : Except Err Tok :=
  if t = [] ∨ t.head? ≠ some '-' then .ok (.arg t)
  else
    match lookupOpt t with
    | some d => .ok (.opt d (isShort t) none)
    | none =>
        if t.length = 1 then .ok (.arg t)
        else
          let p := partitionEq t
          match p.2, lookupOpt p.1 with
          | some v, some d => .ok (.opt d (isShort p.1) (some (true, v)))
          | _, _ =>
              match optionTuples t with
              | [o] => .ok o
              | _ :: _ :: _ => .error .systemExit
              | [] =>
                  if negNumber t then .ok (.arg t)
                  else if ' ' ∈ t then .ok (.arg t)
                  else .ok .unknown

/-- first pass of argparse `_parse_known_args`: what follows `--` is no option -/
def tokenise : List Text → Except Err (List Tok)
  | [] => .ok []
  | t :: ts =>
      if t = "--".toList then .ok (.dashes :: ts.map .arg)
      else
        match classify t with
        | .error e => .error e
        | .ok o => (tokenise ts).map fun os => o :: os

/-- argparse `consume_optional`, option with text attached: short flags may be followed by further
short options.  Gives the flags, and the last option with the text that is left. -/
def chain : Dest → Bool → Bool → Text → Except Err (List Dest × Dest × Option Text)
  | d, short, sep, [] =>
      if arity d = .flag then .error .systemExit else .ok ([], d, some [])
  | d, short, sep, c :: e =>
      if arity d = .flag then
        if short then
          if sep ∨ c = '-' then .error .systemExit
          else
            match lookupOpt ['-', c] with
            | none => .error .systemExit
            | some d' =>
                match e with
                | [] => .ok ([d], d', none)
                | c' :: e' =>
                    if c' = '=' then (chain d' true true e').map fun r => (d :: r.1, r.2)
                    else (chain d' true false (c' :: e')).map fun r => (d :: r.1, r.2)
        else .error .systemExit
      else .ok ([], d, some (c :: e))

/-- digits, with single underscores between them -/
def intDigits : Nat → Bool → Text → Option Nat
  | acc, ok, [] => if ok then some acc else none
  | acc, ok, c :: cs =>
      if c.isDigit then intDigits (acc * 10 + (c.toNat - 48)) true cs
      else if c = '_' ∧ ok then intDigits acc false cs
      else none

/-- white space at both ends removed -/
def stripText (t : Text) : Text :=
  ((t.dropWhile Char.isWhitespace).reverse.dropWhile Char.isWhitespace).reverse

/-- Python `int(text)` -/
def pyInt (t : Text) : Option Int :=
  match stripText t with
  | '-' :: ds => (intDigits 0 false ds).map fun n : Nat => -(n : Int)
  | '+' :: ds => (intDigits 0 false ds).map fun n : Nat => (n : Int)
  | ds => (intDigits 0 false ds).map fun n : Nat => (n : Int)

/-- argparse `take_action`; `none` is an option without argument, which for `--num_threads` gives
the constant 0 -/
def takeAction (a : CliArgs) (d : Dest) (v : Option Text) : Except Err CliArgs :=
  let s := String.ofList (v.getD [])
  match d with
  | .help => .error .systemExit
  | .input => .ok { a with input := some s }
  | .path => .ok { a with path := s }
  | .threads =>
      match v with
      | none => .ok { a with threads := 0 }
      | some t =>
          match pyInt t with
          | some n => .ok { a with threads := n }
          | none => .error .systemExit
  | .convert => .ok { a with convert := true }
  | .model => .ok { a with model := some s }
  | .thermo => .ok { a with thermo := some s }
  | .transport => .ok { a with transport := some s }
  | .version => .ok { a with version := true }

/-- several flags -/
def takeFlags (a : CliArgs) : List Dest → Except Err CliArgs
  | [] => .ok a
  | d :: ds =>
      match takeAction a d none with
      | .error e => .error e
      | .ok a => takeFlags a ds

/-- flags, the last option and the text attached to it -/
def attached (d : Dest) (short : Bool) : Option (Bool × Text) →
    Except Err (List Dest × Dest × Option Text)
  | none => .ok ([], d, none)
  | some (sep, e) => chain d short sep e

/-- second pass of argparse `_parse_known_args` and the check for unrecognized arguments -/
def consume (a : CliArgs) : List Tok → Except Err CliArgs
  | [] => .ok a
  | .opt d short expl :: rest =>
      match attached d short expl with
      | .error e => .error e
      | .ok (flags, d, v) =>
          match takeFlags a flags with
          | .error e => .error e
          | .ok a =>
              if v.isSome ∨ arity d = .flag then
                match takeAction a d v with
                | .error e => .error e
                | .ok a => consume a rest
              else
                match rest with
                | .arg s :: rest =>
                    match takeAction a d (some s) with
                    | .error e => .error e
                    | .ok a => consume a rest
                | rest =>
                    if arity d = .one then .error .systemExit
                    else
                      match takeAction a d none with
                      | .error e => .error e
                      | .ok a => consume a rest
  | _ :: _ => .error .systemExit

/-- `parser.parse_args()` on the arguments of the process, `pymars.py:353` -/
def parseArgs (args : List String) : Except Err CliArgs :=
  match tokenise (args.map String.toList) with
  | .error e => .error e
  | .ok toks => consume cliDefaults toks

/-- `pymars(argv)`, `pymars.py:293-407` -/
def pymarsCli (openYaml : String → Except Err InputDict)
    (load : String → String → Except Err (List String)) (conv : String → Except Err Unit)
    (argv processArgs : List String) : Except Err CliAction :=
  cli parseArgs openYaml load conv argv processArgs

/-- `main(args)`, `__main__.py:8-11`, the entry point of the command (`pyproject.toml:43`):
`pymars` is called only if no arguments are given -/
def mainEntry (openYaml : String → Except Err InputDict)
    (load : String → String → Except Err (List String)) (conv : String → Except Err Unit)
    (args : Option (List String)) (processArgs : List String) : Except Err (Option CliAction) :=
  match args with
  | none => (pymarsCli openYaml load conv processArgs processArgs).map some
  | some _ => .ok none

end Verif
