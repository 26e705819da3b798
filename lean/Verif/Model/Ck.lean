import Verif.Model.Format
import Verif.Model.Graph
import Verif.Model.Solution
/-!
# Writing Chemkin files: `soln2ck.py`

Numbers are exact rationals (rounding of the unit conversions is not modelled).  `str(x)` of a
float (shortest representation), used for third-body efficiencies, falloff parameters, P-log
pressures and Chebyshev ranges, is a parameter `rp`
(`pyRepr` in `Model/Repr`).  A reaction order that is not an integer is
rounded down (`orderOf`); the code raises 1000 to the fractional power.
-/
namespace Verif

/-- `soln2ck.py:12`: calories per 1000 J, here J/kmol per cal/mol -/
def caloriesConstant : ℚ := 4184

/-- `soln2ck.py:15` -/
def debyeConversion : ℚ := 333564 / 10 ^ 35

/-- `ct.boltzmann` -/
def boltzmann : ℚ := 1380649 / 10 ^ 29

/-- `ct.one_atm` -/
def oneAtm : ℚ := 101325

/-- `sum(reaction.reactants.values())` -/
def orderOf (r : Rxn ℚ) : Int := ⌊(r.reactants.map Prod.snd).sum⌋

/-- two blanks -/
def sep2 : Text := "  ".toList

/-- `build_arrhenius`, `soln2ck.py:18-59` -/
def buildArrhenius (k : ArrRate ℚ) (order : Int) (rtype : Text) : Except Err Text :=
  let show3 (A : ℚ) : Text :=
    joinText sep2 [fmtExp 4 A, fmtFix 3 k.b, fmtFix 2 (k.E / caloriesConstant)]
  if rtype = "Arrhenius".toList ∨ rtype = "pressure-dependent-Arrhenius".toList then
    .ok (show3 (k.A * 1000 ^ (order - 1)))
  else if rtype = "three-body-Arrhenius".toList then .ok (show3 (k.A * 1000 ^ order))
  else if "falloff-".toList.isPrefixOf rtype ∨ "chemically-activated".toList.isPrefixOf rtype then
    .error .valueError
  else .error .notImplemented

/-- `build_falloff_arrhenius`, `soln2ck.py:62-111` -/
def buildFalloffArrhenius (k : ArrRate ℚ) (order : Int) (rtype limit : Text) : Except Err Text :=
  let show3 (A : ℚ) : Text :=
    joinText sep2 [fmtExp 4 A, fmtFix 3 k.b, fmtExp 3 (k.E / caloriesConstant)]
  if ¬ (limit = "low".toList ∨ limit = "high".toList) then .error .assertionError
  else if "falloff-".toList.isPrefixOf rtype then
    .ok (show3 (if limit = "low".toList then k.A * 1000 ^ order else k.A * 1000 ^ (order - 1)))
  else if "chemically-activated".toList.isPrefixOf rtype then
    .ok (show3 (if limit = "low".toList then k.A * 1000 ^ (order - 1)
      else k.A * 1000 ^ (order - 2)))
  else .error .valueError

/-- `build_falloff`, `soln2ck.py:114-144`: too few parameters raise `IndexError`, further ones
are ignored -/
def buildFalloff (rp : ℚ → Text) (ps : List ℚ) (fn : Text) : Except Err Text :=
  if fn = "Troe".toList then
    match ps with
    | a :: b :: c :: d :: _ =>
        .ok ("TROE / ".toList ++ rp a ++ sep2 ++ rp b ++ sep2 ++ rp c ++ sep2 ++ rp d ++
          " /\n".toList)
    | _ => .error .indexError
  else if fn = "SRI".toList then
    match ps with
    | a :: b :: c :: d :: e :: _ =>
        .ok ("SRI / ".toList ++ rp a ++ sep2 ++ rp b ++ sep2 ++ rp c ++ sep2 ++ rp d ++ sep2 ++
          rp e ++ " /\n".toList)
    | _ => .error .indexError
  else .error .notImplemented

/-- one element of `composition_string`, `soln2ck.py:165-167` -/
def compText (kv : Text × ℚ) : Text := padRight 2 kv.1 ++ padLeft 3 (intText (truncQ kv.2))

/-- `f"{c:15.8e}"` -/
def coeffText (c : ℚ) : Text := padLeft 15 (fmtExp 8 c)

/-- `soln2ck.py:163-200`: the entry of one species; the middle temperature is `coeffs[0]` -/
def thermoEntry (s : Spec1 ℚ) : Except Err Text :=
  match s.coeffs with
  | [] => .error .indexError
  | tmid :: _ =>
      .ok (
        padRight 18 s.name ++ List.replicate 6 ' ' ++
        padRight 20 (s.comp.map compText).flatten ++ "G".toList ++
        padLeft 10 (fmtFix 3 s.tmin) ++ padLeft 10 (fmtFix 3 s.tmax) ++
        padLeft 8 (fmtFix 2 tmid) ++ List.replicate 6 ' ' ++ "1\n".toList ++
        (((s.coeffs.drop 1).take 5).map coeffText).flatten ++ "    2\n".toList ++
        (((s.coeffs.drop 6).take 2).map coeffText).flatten ++
        (((s.coeffs.drop 8).take 3).map coeffText).flatten ++ "    3\n".toList ++
        (((s.coeffs.drop 11).take 4).map coeffText).flatten ++ List.replicate 19 ' ' ++
        "4\n".toList)

/-- writes the entries in order until one fails: the text written and the exception, if any -/
def writeAll {α : Type} (f : α → Except Err Text) : List α → Text × Option Err
  | [] => ([], none)
  | x :: xs =>
      match f x with
      | .error e => ([], some e)
      | .ok t => let r := writeAll f xs; (t ++ r.1, r.2)

/-- contents of `write_thermo_data`'s file, `soln2ck.py:147-202` -/
def thermoText (ss : List (Spec1 ℚ)) : Text × Option Err :=
  let head : Text := "THERMO\n   300.000  1000.000  5000.000\n".toList
  match writeAll thermoEntry ss with
  | (t, some e) => (head ++ t, some e)
  | (t, none) => (head ++ t ++ "END\n".toList, none)

/-- `geometry`, `soln2ck.py:216` -/
def geometryText (g : Text) : Except Err Text :=
  if g = "atom".toList then .ok "0".toList
  else if g = "linear".toList then .ok "1".toList
  else if g = "nonlinear".toList then .ok "2".toList
  else .error .keyError

/-- `soln2ck.py:222-231`; a species without transport data raises `AttributeError` -/
def transportLine (s : Spec1 ℚ) : Except Err Text :=
  match s.transport with
  | none => .error .attributeError
  | some t =>
      match geometryText t.geometry with
      | .error e => .error e
      | .ok g =>
          .ok (padRight 16 s.name ++ padLeft 4 g ++
            padLeft 10 (fmtFix 3 (t.wellDepth / boltzmann)) ++
            padLeft 10 (fmtFix 3 (t.diameter * 10 ^ 10)) ++
            padLeft 10 (fmtFix 3 (t.dipole / debyeConversion)) ++
            padLeft 10 (fmtFix 3 (t.polar * 10 ^ 30)) ++
            padLeft 10 (fmtFix 3 t.rot) ++ "\n".toList)

/-- contents of `write_transport_data`'s file, `soln2ck.py:205-233` -/
def transportText (ss : List (Spec1 ℚ)) : Text × Option Err := writeAll transportLine ss

/-! ## `textwrap.fill` -/

/-- maximal runs of blanks and of other characters; `cur` is the run being read.  (Tabs and line
breaks, which `textwrap` turns into blanks, are not modelled.) -/
def chunksAux : Text → Text → List Text
  | cur, [] => if cur = [] then [] else [cur]
  | cur, c :: cs =>
      match cur.getLast? with
      | none => chunksAux [c] cs
      | some l => if (l == ' ') = (c == ' ') then chunksAux (cur ++ [c]) cs
          else cur :: chunksAux [c] cs

/-- `TextWrapper._split` with `break_on_hyphens=False` -/
def chunks (t : Text) : List Text := chunksAux [] t

/-- `chunk.strip() == ''` -/
def blankChunk (t : Text) : Bool := t.all (· == ' ')

/-- the inner loop of `_wrap_chunks`: as many chunks as fit after `len` characters -/
def takeLine (width : Nat) : Nat → List Text → List Text × List Text
  | _, [] => ([], [])
  | len, c :: cs =>
      if len + c.length ≤ width then
        let r := takeLine width (len + c.length) cs
        (c :: r.1, r.2)
      else ([], c :: cs)

/-- one pass of the outer loop of `_wrap_chunks` with `break_long_words=False`: a blank chunk at the
start of any but the first line is dropped, a chunk that is too long gets its own line, a blank
chunk at the end of the line is dropped -/
def wrapStep (width : Nat) (started : Bool) (cs : List Text) : List Text × List Text :=
  let cs1 := match cs with
    | [] => []
    | c :: r => if started && blankChunk c then r else c :: r
  let lr := takeLine width 0 cs1
  let lr2 := match lr.2 with
    | [] => lr
    | d :: ds => if width < d.length ∧ lr.1 = [] then ([d], ds) else lr
  let line := match lr2.1.getLast? with
    | none => lr2.1
    | some c => if blankChunk c then lr2.1.dropLast else lr2.1
  (line, lr2.2)

/-- `_wrap_chunks`; every pass uses up at least one chunk, so the number of chunks is enough
fuel -/
def wrapLines (width : Nat) : Nat → Bool → List Text → List (List Text)
  | 0, _, _ => []
  | _ + 1, _, [] => []
  | n + 1, started, cs =>
      let s := wrapStep width started cs
      if s.1 = [] then wrapLines width n started s.2
      else s.1 :: wrapLines width n true s.2

/-- `textwrap.fill(text, width, break_long_words=False, break_on_hyphens=False)` -/
def fillText (width : Nat) (t : Text) : Text :=
  let cs := chunks t
  joinText "\n".toList ((wrapLines width cs.length false cs).map List.flatten)

/-! ## The model file -/

/-- the text of the SPECIES block without keywords, `soln2ck.py:284-289` -/
def speciesBlock (names : List Text) : Text := fillText 60 (joinText sep2 names)

/-- `soln2ck.py:300-335`: what follows the equation on the main line -/
def mainRate (r : Rxn ℚ) : Except Err Text :=
  let t := r.rtype
  if t = "Arrhenius".toList ∨ t = "three-body-Arrhenius".toList then
    match r.rate with
    | .simple _ k => buildArrhenius k (orderOf r) t
    | _ => .error .attributeError
  else if "falloff-".toList.isPrefixOf t then
    match r.rate with
    | .falloff _ _ _ hi _ => buildFalloffArrhenius hi (orderOf r) t "high".toList
    | _ => .error .attributeError
  else if "chemically-activated".toList.isPrefixOf t then
    match r.rate with
    | .falloff _ _ lo _ _ => buildFalloffArrhenius lo (orderOf r) t "low".toList
    | _ => .error .attributeError
  else if t = "Chebyshev".toList then .ok "1.0e0  0.0  0.0".toList
  else if t = "pressure-dependent-Arrhenius".toList then
    match r.rate with
    | .plog [] => .error .indexError
    | .plog ((_, k) :: _) =>
        buildArrhenius k (orderOf r) "pressure-dependent-Arrhenius".toList
    | _ => .error .attributeError
  else .error .notImplemented

/-- `soln2ck.py:339-351`: the line of third-body efficiencies, if any -/
def efficiencyLine (rp : ℚ → Text) (names : List Text) (r : Rxn ℚ) : Text :=
  match r.third with
  | none => []
  | some tb =>
      let l := joinText sep2 ((tb.effs.filter fun kv => decide (kv.1 ∈ names)).map fun kv =>
        kv.1 ++ "/".toList ++ rp kv.2 ++ "/".toList)
      if l = [] then [] else l ++ "\n".toList

/-- falloff parameters, if any: `soln2ck.py:363-367`, `378-382` -/
def falloffLine (rp : ℚ → Text) (sub : Text) (cs : List ℚ) : Except Err Text :=
  if cs = [] then .ok [] else buildFalloff rp cs sub

/-- one PLOG line, `soln2ck.py:385-392` -/
def plogLine (rp : ℚ → Text) (order : Int) (pk : ℚ × ArrRate ℚ) : Except Err Text :=
  (buildArrhenius pk.2 order "pressure-dependent-Arrhenius".toList).map fun a =>
    "PLOG / ".toList ++ rp (pk.1 / oneAtm) ++ " ".toList ++ a ++ " /\n".toList

/-- all PLOG lines -/
def plogLines (rp : ℚ → Text) (order : Int) : List (ℚ × ArrRate ℚ) → Except Err Text
  | [] => .ok []
  | pk :: ps =>
      match plogLine rp order pk with
      | .error e => .error e
      | .ok t => (plogLines rp order ps).map fun r => t ++ r

/-- one row of Chebyshev coefficients, `soln2ck.py:402-404` -/
def chebLine (row : List ℚ) : Text :=
  "CHEB / ".toList ++ joinText " ".toList (row.map (fmtExp 6)) ++ " /\n".toList

/-- `soln2ck.py:353-404`: auxiliary lines -/
def auxLines (rp : ℚ → Text) (r : Rxn ℚ) : Except Err Text :=
  match r.rate with
  | .falloff sub false lo _ cs =>
      match buildFalloffArrhenius lo (orderOf r) r.rtype "low".toList with
      | .error e => .error e
      | .ok a => (falloffLine rp sub cs).map fun f => "LOW / ".toList ++ a ++ " /\n".toList ++ f
  | .falloff sub true _ hi cs =>
      match buildFalloffArrhenius hi (orderOf r) r.rtype "high".toList with
      | .error e => .error e
      | .ok a => (falloffLine rp sub cs).map fun f => "HIGH / ".toList ++ a ++ " /\n".toList ++ f
  | .plog rates => plogLines rp (orderOf r) rates
  | .cheb t p nP data =>
      .ok ("TCHEB / ".toList ++ rp t.1 ++ sep2 ++ rp t.2 ++ " /\n".toList ++
        "PCHEB / ".toList ++ rp (p.1 / oneAtm) ++ sep2 ++ rp (p.2 / oneAtm) ++ " /\n".toList ++
        "CHEB / ".toList ++ natText data.length ++ sep2 ++ natText nP ++ " /\n".toList ++
        (data.map chebLine).flatten)
  | .simple _ _ => .ok []

/-- `soln2ck.py:297-409`: everything written for one reaction -/
def rxnText (rp : ℚ → Text) (names : List Text) (r : Rxn ℚ) : Except Err Text :=
  match mainRate r with
  | .error e => .error e
  | .ok a =>
      match auxLines rp r with
      | .error e => .error e
      | .ok x =>
          .ok (padRight 51 r.eqn ++ a ++ "\n".toList ++ efficiencyLine rp names r ++ x ++
            (if r.dup then "DUPLICATE\n".toList else []))

/-- contents of the model file, `soln2ck.py:274-411` -/
def modelText (rp : ℚ → Text) (s : Soln ℚ) : Text × Option Err :=
  let names := s.species.map Spec1.name
  let head : Text := "!Chemkin file converted from solution object: ".toList ++ s.name ++
    "\n\nELEMENTS\n".toList ++ joinText sep2 s.elements ++ "\nEND\n\nSPECIES\n".toList ++
    speciesBlock names ++ "\nEND\n\nREACTIONS\n".toList
  match writeAll (rxnText rp names) s.reactions with
  | (t, some e) => (head ++ t, some e)
  | (t, none) => (head ++ t ++ "END".toList, none)

/-- a file system: names to contents -/
abbrev Files := Text → Option Text

/-- create or overwrite a file -/
def Files.put (fs : Files) (f : Text) (t : Text) : Files := fun g => if g = f then some t else fs g

/-- `write`, `soln2ck.py:236-425`: the files written, in order, or the exception; and the file
system afterwards -/
def writeCk (rp : ℚ → Text) (s : Soln ℚ) (fs : Files) (name path : Text)
    (skipThermo skipTransport : Bool) : Except Err (List Text) × Files :=
  let out := if name = [] then joinPath path (s.name ++ ".inp".toList) else joinPath path name
  let m := modelText rp s
  let fs1 := fs.put out m.1
  match m.2 with
  | some e => (.error e, fs1)
  | none =>
      let base := (splitext out).1
      let thermo := base ++ "_thermo.dat".toList
      let th := thermoText s.species
      let fs2 := if skipThermo then fs1 else fs1.put thermo th.1
      match (if skipThermo then none else th.2) with
      | some e => (.error e, fs2)
      | none =>
          let outs := if skipThermo then [out] else [out, thermo]
          if !skipTransport && s.species.all fun x => x.transport.isSome then
            let tr := base ++ "_transport.dat".toList
            let x := transportText s.species
            let fs3 := fs2.put tr x.1
            match x.2 with
            | some e => (.error e, fs3)
            | none => (.ok (outs ++ [tr]), fs3)
          else (.ok outs, fs2)

end Verif
