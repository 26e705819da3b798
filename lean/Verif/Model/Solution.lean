import Verif.Model.Num
import Verif.Model.Path
/-!
# Solutions as seen by `tools.py` and `soln2ck.py`

The attributes of cantera's `Solution`, `Species` and `Reaction` objects that
`tools.py:14-166` and `soln2ck.py:147-425` read, over a type `F` of numbers (`PyF` where NaN
matters, `ℚ` where numbers are printed).  The reaction type string is not an independent
attribute: in cantera 3 it is computed from the rate and the third body
(`Rxn.rtype` below follows `Reaction::type`).
-/
namespace Verif

/-- A modified Arrhenius rate: pre-exponential factor, temperature exponent, activation
energy (`soln2ck.py:54-59`, `tools.py:96-100`). -/
structure ArrRate (F : Type) where
  A : F
  b : F
  E : F
deriving DecidableEq

/-- The rate object of a reaction (`tools.py:87-153`, `soln2ck.py:302-404`).  `simple` is any
rate class with none of the attributes `low_rate`, `rates`, `data`; `kind` names the class,
as it appears in the reaction type string (`"Arrhenius"`, `"Blowers-Masel"`, …).
For falloff rates the class is given by `sub` (`"Lindemann"`, `"Troe"`, `"SRI"`, `"Tsang"`). -/
inductive RateObj (F : Type) where
  | simple (kind : Text) (k : ArrRate F)
  | falloff (sub : Text) (chem : Bool) (lo hi : ArrRate F) (coeffs : List F)
  | plog (rates : List (F × ArrRate F))
  | cheb (trange prange : F × F) (nP : Nat) (data : List (List F))
deriving DecidableEq

/-- `reaction.third_body`: default efficiency and the explicit efficiencies (a dict). -/
structure Collider (F : Type) where
  dflt : F
  effs : List (Text × F)
deriving DecidableEq

/-- A reaction.  `reversible` and `orders` (explicit reaction orders) are attributes of
cantera reactions that neither module reads. -/
structure Rxn (F : Type) where
  eqn : Text
  reactants : List (Text × F)
  products : List (Text × F)
  reversible : Bool
  orders : List (Text × F)
  dup : Bool
  rate : RateObj F
  third : Option (Collider F)
deriving DecidableEq

/-- `Species.transport`: a geometry name and the numeric attributes
(`soln2ck.py:223-231`); `extra` holds the attributes that only `tools.py:54-69` looks at
(acentric factor, dispersion coefficient, quadrupole polarizability). -/
structure Transport (F : Type) where
  geometry : Text
  wellDepth : F
  diameter : F
  dipole : F
  polar : F
  rot : F
  extra : List F
deriving DecidableEq

/-- A species.  `eval T` gives `(thermo.cp(T), thermo.h(T), thermo.s(T))`. -/
structure Spec1 (F : Type) where
  name : Text
  comp : List (Text × F)
  tmin : F
  tmax : F
  coeffs : List F
  eval : Nat → F × F × F
  transport : Option (Transport F)

/-- A model. -/
structure Soln (F : Type) where
  name : Text
  elements : List Text
  species : List (Spec1 F)
  reactions : List (Rxn F)

/-- `reaction.reaction_type` in cantera 3: the rate's type and sub-type joined by a hyphen
if there is a sub-type; otherwise the rate's type, prefixed by `three-body-` if the reaction
has a third body. -/
def Rxn.rtype {F : Type} (r : Rxn F) : Text :=
  let pre : Text := if r.third.isSome then "three-body-".toList else []
  match r.rate with
  | .simple kind _ => pre ++ kind
  | .falloff sub false _ _ _ => "falloff-".toList ++ sub
  | .falloff sub true _ _ _ => "chemically-activated-".toList ++ sub
  | .plog _ => pre ++ "pressure-dependent-Arrhenius".toList
  | .cheb _ _ _ _ => pre ++ "Chebyshev".toList

end Verif
