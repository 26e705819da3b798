import Verif.Model.Ck
import Verif.Model.Repr
/-!
# `soln2ck.py` in floating-point arithmetic

The unit conversions of `soln2ck.py` with a rounding after each operation, and reaction orders that
need not be integers: `1e3**x` is a parameter.  Orders (sums of coefficients, less one or two) are
computed exactly; they are integers or short fractions.  `Model/Ck` has the same functions in exact
arithmetic for integer orders.
-/
namespace Verif

/-- the arithmetic: rounding of products and quotients, and `1e3**x` -/
structure CkArith where
  rnd : ℚ → ℚ
  pw : ℚ → ℚ

/-- `sum(reaction.reactants.values())` (`soln2ck.py:305`) -/
def orderQ (r : Rxn ℚ) : ℚ := (r.reactants.map Prod.snd).sum

/-- `rate.pre_exponential_factor * 1e3**x` (`soln2ck.py:38-44, 83-101`) -/
def CkArith.factor (a : CkArith) (k : ArrRate ℚ) (x : ℚ) : ℚ := a.rnd (k.A * a.pw x)

/-- `rate.activation_energy / CALORIES_CONSTANT` (`soln2ck.py:57, 109`) -/
def CkArith.energy (a : CkArith) (k : ArrRate ℚ) : ℚ := a.rnd (k.E / caloriesConstant)

/-- `build_arrhenius`, `soln2ck.py:18-59` -/
def buildArrheniusR (a : CkArith) (k : ArrRate ℚ) (order : ℚ) (rtype : Text) : Except Err Text :=
  let show3 (A : ℚ) : Text := joinText sep2 [fmtExp 4 A, fmtFix 3 k.b, fmtFix 2 (a.energy k)]
  if rtype = "Arrhenius".toList ∨ rtype = "pressure-dependent-Arrhenius".toList then
    .ok (show3 (a.factor k (order - 1)))
  else if rtype = "three-body-Arrhenius".toList then .ok (show3 (a.factor k order))
  else if "falloff-".toList.isPrefixOf rtype ∨ "chemically-activated".toList.isPrefixOf rtype then
    .error .valueError
  else .error .notImplemented

/-- `build_falloff_arrhenius`, `soln2ck.py:62-111` -/
def buildFalloffArrheniusR (a : CkArith) (k : ArrRate ℚ) (order : ℚ) (rtype limit : Text) : Except Err Text :=
  let show3 (A : ℚ) : Text := joinText sep2 [fmtExp 4 A, fmtFix 3 k.b, fmtExp 3 (a.energy k)]
  if ¬ (limit = "low".toList ∨ limit = "high".toList) then .error .assertionError
  else if "falloff-".toList.isPrefixOf rtype then
    .ok (show3 (if limit = "low".toList then a.factor k order else a.factor k (order - 1)))
  else if "chemically-activated".toList.isPrefixOf rtype then
    .ok (show3 (if limit = "low".toList then a.factor k (order - 1) else a.factor k (order - 2)))
  else .error .valueError

/-- `soln2ck.py:300-335`: what follows the equation on the main line -/
def mainRateR (a : CkArith) (r : Rxn ℚ) : Except Err Text :=
  let t := r.rtype
  if t = "Arrhenius".toList ∨ t = "three-body-Arrhenius".toList then
    match r.rate with
    | .simple _ k => buildArrheniusR a k (orderQ r) t
    | _ => .error .attributeError
  else if "falloff-".toList.isPrefixOf t then
    match r.rate with
    | .falloff _ _ _ hi _ => buildFalloffArrheniusR a hi (orderQ r) t "high".toList
    | _ => .error .attributeError
  else if "chemically-activated".toList.isPrefixOf t then
    match r.rate with
    | .falloff _ _ lo _ _ => buildFalloffArrheniusR a lo (orderQ r) t "low".toList
    | _ => .error .attributeError
  else if t = "Chebyshev".toList then .ok "1.0e0  0.0  0.0".toList
  else if t = "pressure-dependent-Arrhenius".toList then
    match r.rate with
    | .plog [] => .error .indexError
    | .plog ((_, k) :: _) => buildArrheniusR a k (orderQ r) "pressure-dependent-Arrhenius".toList
    | _ => .error .attributeError
  else .error .notImplemented

/-- one PLOG line, `soln2ck.py:385-392`; `pyRepr` rounds the quotient -/
def plogLineR (a : CkArith) (order : ℚ) (pk : ℚ × ArrRate ℚ) : Except Err Text :=
  (buildArrheniusR a pk.2 order "pressure-dependent-Arrhenius".toList).map fun t =>
    "PLOG / ".toList ++ pyRepr (pk.1 / oneAtm) ++ " ".toList ++ t ++ " /\n".toList

/-- all PLOG lines -/
def plogLinesR (a : CkArith) (order : ℚ) : List (ℚ × ArrRate ℚ) → Except Err Text
  | [] => .ok []
  | pk :: ps =>
      match plogLineR a order pk with
      | .error e => .error e
      | .ok t => (plogLinesR a order ps).map fun r => t ++ r

/-- `soln2ck.py:353-404`: auxiliary lines -/
def auxLinesR (a : CkArith) (r : Rxn ℚ) : Except Err Text :=
  match r.rate with
  | .falloff sub false lo _ cs =>
      match buildFalloffArrheniusR a lo (orderQ r) r.rtype "low".toList with
      | .error e => .error e
      | .ok t => (falloffLine pyRepr sub cs).map fun f => "LOW / ".toList ++ t ++ " /\n".toList ++ f
  | .falloff sub true _ hi cs =>
      match buildFalloffArrheniusR a hi (orderQ r) r.rtype "high".toList with
      | .error e => .error e
      | .ok t => (falloffLine pyRepr sub cs).map fun f => "HIGH / ".toList ++ t ++ " /\n".toList ++ f
  | .plog rates => plogLinesR a (orderQ r) rates
  | .cheb t p nP data =>
      .ok ("TCHEB / ".toList ++ pyRepr t.1 ++ sep2 ++ pyRepr t.2 ++ " /\n".toList ++
        "PCHEB / ".toList ++ pyRepr (p.1 / oneAtm) ++ sep2 ++ pyRepr (p.2 / oneAtm) ++ " /\n".toList ++
        "CHEB / ".toList ++ natText data.length ++ sep2 ++ natText nP ++ " /\n".toList ++
        (data.map chebLine).flatten)
  | .simple _ _ => .ok []

/-- `soln2ck.py:297-409`: everything written for one reaction -/
def rxnTextR (a : CkArith) (names : List Text) (r : Rxn ℚ) : Except Err Text :=
  match mainRateR a r with
  | .error e => .error e
  | .ok t =>
      match auxLinesR a r with
      | .error e => .error e
      | .ok x =>
          .ok (padRight 51 r.eqn ++ t ++ "\n".toList ++ efficiencyLine pyRepr names r ++ x ++
            (if r.dup then "DUPLICATE\n".toList else []))

/-- `soln2ck.py:222-231`; the constants are floats too -/
def transportLineR (a : CkArith) (s : Spec1 ℚ) : Except Err Text :=
  match s.transport with
  | none => .error .attributeError
  | some t =>
      match geometryText t.geometry with
      | .error e => .error e
      | .ok g =>
          .ok (padRight 16 s.name ++ padLeft 4 g ++
            padLeft 10 (fmtFix 3 (a.rnd (t.wellDepth / a.rnd boltzmann))) ++
            padLeft 10 (fmtFix 3 (a.rnd (t.diameter * 10 ^ 10))) ++
            padLeft 10 (fmtFix 3 (a.rnd (t.dipole / a.rnd debyeConversion))) ++
            padLeft 10 (fmtFix 3 (a.rnd (t.polar * a.rnd (10 ^ 30)))) ++
            padLeft 10 (fmtFix 3 t.rot) ++ "\n".toList)

end Verif
