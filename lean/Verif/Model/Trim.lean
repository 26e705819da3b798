import Mathlib.Algebra.Order.Field.Rat
import Verif.Model.Path
/-!
# `reduce_model.py`: models and `trim`

A Cantera `Solution` is reduced to what `trim` and its callers read.  Thermodynamic and
transport data of a species, and the rate data of a reaction, are opaque codes (`Nat`)
which the code only copies.
-/
namespace Verif

/-- A species: its name and opaque thermo/transport data. -/
structure Species where
  name : String
  data : Nat
deriving DecidableEq, Repr

/-- `cantera.ThirdBody` as used by `reduce_model.py:47-66`: default efficiency and the
`efficiencies` dictionary (insertion-ordered association list). -/
structure ThirdBody where
  defaultEff : ℚ
  effs : List (String × ℚ)
deriving DecidableEq

/-- `cantera.Reaction` as used by `reduce_model.py:46-67`: the `reactants` and `products`
dictionaries, the optional third body, and opaque rate data. -/
structure Reaction where
  reactants : List (String × ℚ)
  products : List (String × ℚ)
  thirdBody : Option ThirdBody
  rate : Nat
deriving DecidableEq

/-- The thermodynamic model `"ideal-gas"`. -/
def idealGas : Nat := 0

/-- `cantera.Solution` as used by pyMARS.  `transport` is the transport model name, `tp` the
(opaque) current temperature and pressure and `thermo` the thermodynamic model (equation of
state): the ideal gas or another one. -/
structure Mech where
  species : List Species
  reactions : List Reaction
  transport : Nat
  tp : Nat
  name : Text
  thermo : Nat := idealGas
deriving DecidableEq

/-- `Solution.species_names`. -/
def Mech.names (m : Mech) : List String := m.species.map (·.name)

/-- `Solution.n_species`. -/
def Mech.nSpecies (m : Mech) : Nat := m.species.length

/-- `reduce_model.py:41`: the comprehension over `solution.species()`. -/
def finalSpecies (m : Mech) (excl : List String) : List Species :=
  m.species.filter (fun sp => !(excl.contains sp.name))

/-- `reduce_model.py:47-54`: is the reaction skipped because its explicit (zero default
efficiency, exactly one entry) third body was removed? -/
def skipExplicitThirdBody (excl : List String) (r : Reaction) : Bool :=
  match r.thirdBody with
  | none => false
  | some tb =>
      if tb.defaultEff == 0 then
        match tb.effs with
        | [e] => excl.contains e.1
        | _ => false
      else false

/-- `reduce_model.py:56-59`: the keys of `products` then of `reactants`, all still present. -/
def allSpeciesKept (names : List String) (r : Reaction) : Bool :=
  (r.products.map Prod.fst ++ r.reactants.map Prod.fst).all (fun s => names.contains s)

/-- `reduce_model.py:61-66`: drop efficiencies of removed species. -/
def filterThirdBody (names : List String) (r : Reaction) : Reaction :=
  match r.thirdBody with
  | none => r
  | some tb =>
      let tb' : ThirdBody := { tb with effs := tb.effs.filter (fun e => names.contains e.1) }
      { r with thirdBody := some tb' }

/-- `reduce_model.py:45-67`: the reaction loop, appending to `final_reactions`. -/
def reactionLoop (excl names : List String) : List Reaction → List Reaction → List Reaction
  | acc, [] => acc
  | acc, r :: rs =>
      if skipExplicitThirdBody excl r then reactionLoop excl names acc rs
      else if allSpeciesKept names r then
        reactionLoop excl names (acc ++ [filterThirdBody names r]) rs
      else reactionLoop excl names acc rs

/-- `reduce_model.py:18-85`: `trim`.  The argument `m` stands for the model loaded from
`initial_model_file`.  Not modelled: failures of Cantera's constructor. -/
def trim (m : Mech) (excl : List String) (newFile : Text) (phase : Text := []) : Mech :=
  let fs := finalSpecies m excl
  let names := fs.map (·.name)
  { species := fs
    reactions := reactionLoop excl names [] m.reactions
    transport := m.transport
    tp := m.tp
    name := if phase = [] then (splitext newFile).1 else phase
    thermo := idealGas }

end Verif
