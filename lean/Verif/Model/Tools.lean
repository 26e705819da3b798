import Mathlib.Data.Char
import Mathlib.Data.List.Lex
import Verif.Model.Graph
import Verif.Model.Solution
/-!
# Comparing and converting models: `tools.py`

Floating-point rounding is not modelled.  Attributes that every cantera object has
(`transport`, `rate`, `third_body`) are not guarded by `hasattr`.
-/
namespace Verif

/-- `np.isclose(a, b)` with the default `rtol=1e-5` (also the explicit one at
`tools.py:47-52`) and `atol=1e-8`: relative to the magnitude of the *second* argument; NaN is
close to nothing, an infinity only to itself. -/
def isclose : PyF → PyF → Bool
  | .fin a, .fin b => decide (|a - b| ≤ 1 / 10 ^ 8 + 1 / 10 ^ 5 * |b|)
  | a, b => PyF.eq a b

/-- numpy broadcasting of two one-dimensional arrays: equal lengths pair up, an array of
length one is repeated, anything else raises `ValueError` -/
def bcast {α : Type} (xs ys : List α) : Except Err (List (α × α)) :=
  if xs.length = ys.length then .ok (xs.zip ys)
  else match xs, ys with
    | [x], ys => .ok (ys.map fun y => (x, y))
    | xs, [y] => .ok (xs.map fun x => (x, y))
    | _, _ => .error .valueError

/-- `np.allclose` on one-dimensional arrays (`tools.py:109`) -/
def allclose (xs ys : List PyF) : Except Err Bool :=
  (bcast xs ys).map fun ps => ps.all fun p => isclose p.1 p.2

/-- `np.allclose` on two-dimensional arrays (`tools.py:140`), given by rows.  (Two arrays
with no rows but a different number of columns are not distinguished.) -/
def allclose2 (xs ys : List (List PyF)) : Except Err Bool := do
  let rows ← bcast xs ys
  let entries ← rows.mapM fun r => bcast r.1 r.2
  .ok (entries.flatten.all fun p => isclose p.1 p.2)

/-- `==` of two dicts, given by their items -/
def dictEq (d e : List (Text × PyF)) : Bool :=
  d.length == e.length &&
    d.all fun kv => match e.lookup kv.1 with
      | some v => PyF.eq kv.2 v
      | none => false

/-- `sorted(xs, key=…)`: stable -/
def sortedBy {α : Type} (key : α → Text) (xs : List α) : List α :=
  xs.mergeSort fun a b => decide (key a ≤ key b)

/-- the loop `for attr in ("pre_exponential_factor", "temperature_exponent",
"activation_energy")`, `tools.py:96-100`, `124-132`, `145-153` -/
def arrClose (a b : ArrRate PyF) : Bool := isclose a.A b.A && isclose a.b b.b && isclose a.E b.E

/-- `tools.py:54-69`.  The attributes compared are those of the first transport object.  `None`
has no public attribute, so nothing is compared when the first species has no transport data;
when only the second has none, its attributes default to `0.0`, which the name of the geometry
never equals. -/
def transportMatch : Option (Transport PyF) → Option (Transport PyF) → Bool
  | none, _ => true
  | some _, none => false
  | some s, some t =>
      decide (s.geometry = t.geometry) && PyF.eq s.wellDepth t.wellDepth &&
      PyF.eq s.diameter t.diameter && PyF.eq s.dipole t.dipole && PyF.eq s.polar t.polar &&
      PyF.eq s.rot t.rot && decide (s.extra.length = t.extra.length) &&
      (s.extra.zip t.extra).all fun p => PyF.eq p.1 p.2

/-- `tools.py:40-69`: the body of the loop over species -/
def speciesMatch (s t : Spec1 PyF) : Bool :=
  decide (s.name = t.name) && dictEq s.comp t.comp &&
  ([500, 1000, 2000].all fun T =>
    isclose (s.eval T).1 (t.eval T).1 && isclose (s.eval T).2.1 (t.eval T).2.1 &&
    isclose (s.eval T).2.2 (t.eval T).2.2) &&
  transportMatch s.transport t.transport

/-- `tools.py:87-154`: the rates.  `type(rate1) is not type(rate2)` is the mismatch of
constructor, class name or falloff sub-type.  Sorting the P-log table by pressure assumes
that no pressure is NaN. -/
def rateMatch : RateObj PyF → RateObj PyF → Except Err Bool
  | .simple k a, .simple l b => .ok (decide (k = l) && arrClose a b)
  | .falloff k _ lo hi cs, .falloff l _ lo' hi' cs' =>
      if k ≠ l then .ok false
      else if !(arrClose lo lo' && arrClose hi hi') then .ok false
      else allclose cs cs'
  | .plog t, .plog u =>
      if t.length ≠ u.length then .ok false
      else
        .ok (((t.mergeSort fun x y => PyF.le x.1 y.1).zip
          (u.mergeSort fun x y => PyF.le x.1 y.1)).all fun p =>
            isclose p.1.1 p.2.1 && arrClose p.1.2 p.2.2)
  | .cheb t p _ d, .cheb t' p' _ d' =>
      if !(isclose p.1 p'.1 && isclose p.2 p'.2) then .ok false
      else if !(isclose t.1 t'.1 && isclose t.2 t'.2) then .ok false
      else allclose2 d d'
  | _, _ => .ok false

/-- `tools.py:156-164`: third bodies -/
def thirdMatch : Option (Collider PyF) → Option (Collider PyF) → Bool
  | none, none => true
  | some a, some b => PyF.eq a.dflt b.dflt && dictEq a.effs b.effs
  | _, _ => false

/-- `tools.py:75-164`: the body of the loop over reactions; `equation` is only a sorting key -/
def rxnMatch (r s : Rxn PyF) : Except Err Bool :=
  if r.rtype ≠ s.rtype then .ok false
  else if !dictEq r.reactants s.reactants then .ok false
  else if !dictEq r.products s.products then .ok false
  else if r.dup ≠ s.dup then .ok false
  else match rateMatch r.rate s.rate with
    | .error e => .error e
    | .ok false => .ok false
    | .ok true => .ok (thirdMatch r.third s.third)

/-- a `for` loop over `zip(xs, ys)` that returns `False` at the first mismatch -/
def forPairs {α : Type} (f : α → α → Except Err Bool) : List α → List α → Except Err Bool
  | x :: xs, y :: ys =>
      match f x y with
      | .error e => .error e
      | .ok false => .ok false
      | .ok true => forPairs f xs ys
  | _, _ => .ok true

/-- `compare_models`, `tools.py:14-166` -/
def compareModels (m n : Soln PyF) : Except Err Bool :=
  if m.species.length ≠ n.species.length then .ok false
  else if m.reactions.length ≠ n.reactions.length then .ok false
  else
    match forPairs (fun s t => .ok (speciesMatch s t))
        (sortedBy Spec1.name m.species) (sortedBy Spec1.name n.species) with
    | .error e => .error e
    | .ok false => .ok false
    | .ok true =>
        forPairs rxnMatch (sortedBy Rxn.eqn m.reactions) (sortedBy Rxn.eqn n.reactions)

/-- what `convert` does with its arguments (`tools.py:196-228`) -/
inductive ConvAction where
  /-- `soln2ck.write(ct.Solution(file), name, path=path)` -/
  | toChemkin (file name path : Text)
  /-- `ck2yaml.main(args)`, then return `output` -/
  | toYaml (args : List Text) (output : Text)
deriving DecidableEq

/-- an optional file name argument that is given and not empty -/
def givenFile : Option Text → Option Text
  | some (c :: cs) => some (c :: cs)
  | _ => none

/-- `convert`, `tools.py:169-228`, up to the calls of the two converters -/
def convertAction (modelFile : Text) (thermo transport : Option Text) (path : Text) :
    ConvAction :=
  let base := (splitext (basename modelFile)).1
  let ext := (splitext (basename modelFile)).2
  if ext = ".yaml".toList ∨ ext = ".yml".toList ∨ ext = ".cti".toList then
    .toChemkin modelFile (base ++ ".inp".toList) path
  else
    let out := joinPath path (base ++ ".yaml".toList)
    .toYaml
      ([("--input=".toList ++ modelFile)]
        ++ (match givenFile thermo with | some f => ["--thermo=".toList ++ f] | none => [])
        ++ (match givenFile transport with | some f => ["--transport=".toList ++ f] | none => [])
        ++ ["--output=".toList ++ out] ++ ["--permissive".toList])
      out

end Verif
