import Verif.Model.Trim
import Verif.Model.Solution
/-!
# `trim` on models with all their data

`Model/Trim` keeps the data of species and the rates of reactions as codes.  Here `trim`
(`reduce_model.py:18-85`) works on solutions with all attributes that the converters read.
-/
namespace Verif

/-- `reduce_model.py:47-54`: is the reaction skipped because its explicit third body was removed? -/
def skipCollider (excl : List Text) (r : Rxn ℚ) : Bool :=
  match r.third with
  | none => false
  | some tb =>
      if tb.dflt == 0 then
        match tb.effs with
        | [e] => excl.contains e.1
        | _ => false
      else false

/-- `reduce_model.py:61-66`: drop efficiencies of removed species; everything else is copied -/
def filterCollider (names : List Text) (r : Rxn ℚ) : Rxn ℚ :=
  { r with third := r.third.map fun tb =>
      { tb with effs := tb.effs.filter (fun e => names.contains e.1) } }

/-- `reduce_model.py:45-67`: the reaction loop -/
def rxnLoop (excl names : List Text) : List (Rxn ℚ) → List (Rxn ℚ)
  | [] => []
  | r :: rs =>
      if skipCollider excl r then rxnLoop excl names rs
      else if (r.products.map Prod.fst ++ r.reactants.map Prod.fst).all (fun s => names.contains s) then
        filterCollider names r :: rxnLoop excl names rs
      else rxnLoop excl names rs

/-- `reduce_model.py:18-85`: `trim`.  The elements of the new solution are found by cantera from the
species (`elems`); the name is that of the phase or comes from the new file's name
(`reduce_model.py:80-83`). -/
def trimSoln (elems : List (Spec1 ℚ) → List Text) (s : Soln ℚ) (excl : List Text) (newFile phase : Text) :
    Soln ℚ :=
  let fs := s.species.filter (fun sp => !(excl.contains sp.name))
  { name := if phase = [] then (splitext newFile).1 else phase
    elements := elems fs
    species := fs
    reactions := rxnLoop excl (fs.map Spec1.name) s.reactions }

/-- codes for the data of species and reactions that `trim` copies without looking at them -/
structure Codes where
  species : List (Text × ℚ) → ℚ → ℚ → List ℚ → (Nat → ℚ × ℚ × ℚ) → Option (Transport ℚ) → Nat
  rate : Text → Bool → List (Text × ℚ) → Bool → RateObj ℚ → Nat

/-- a dictionary as in `Model/Trim` -/
def toDict (l : List (Text × ℚ)) : List (String × ℚ) := l.map fun kv => (String.ofList kv.1, kv.2)

/-- a reaction as in `Model/Trim` (`reduce_model.py:46-67`) -/
def Rxn.toReaction (K : Codes) (r : Rxn ℚ) : Reaction where
  reactants := toDict r.reactants
  products := toDict r.products
  thirdBody := r.third.map fun tb => ⟨tb.dflt, toDict tb.effs⟩
  rate := K.rate r.eqn r.reversible r.orders r.dup r.rate

/-- a species as in `Model/Trim` (`reduce_model.py:41`) -/
def Spec1.toSpecies (K : Codes) (x : Spec1 ℚ) : Species where
  name := String.ofList x.name
  data := K.species x.comp x.tmin x.tmax x.coeffs x.eval x.transport

/-- a solution as in `Model/Trim` (`reduce_model.py:38`); transport model, temperature, pressure and
equation of state are not attributes that the converters read -/
def Soln.toMech (K : Codes) (transport tp thermo : Nat) (s : Soln ℚ) : Mech where
  species := s.species.map (Spec1.toSpecies K)
  reactions := s.reactions.map (Rxn.toReaction K)
  transport := transport
  tp := tp
  name := s.name
  thermo := thermo

end Verif
