import Verif.Model.Yaml
/-!
# `parse_inputs` on whatever the input file contains: `pymars.py:49-149`, `sampling.py:714-1001`

`Model/Parse` has a dictionary with fields of the intended types; here every value may have any type.
Which exception a failing operation raises is modelled; that of indexing a list by its entries is
`TypeError` also where python may say `IndexError`.
-/
namespace Verif

/-- python truth value -/
def PyS.truthy : PyS → Bool
  | .none => false
  | .bool b => b
  | .num x => !(x.eq (.fin 0))
  | .str s => s ≠ ""
  | .date => true

/-- python truth value -/
def PyV.truthy : PyV → Bool
  | .sc s => s.truthy
  | .list l => !l.isEmpty
  | .dict l => !l.isEmpty

/-- whether a value is this text -/
def PyV.isStr (s : String) : PyV → Bool
  | .sc (.str t) => t == s
  | _ => false

/-- the text of a scalar, if it is one -/
def PyS.str? : PyS → Option String
  | .str s => some s
  | _ => Option.none

/-- `d.get(key, default)`: only dictionaries have `get` -/
def PyV.get (v : PyV) (key : String) (default : PyV) : Except Err PyV :=
  match v with
  | .dict l => .ok (((l.find? (fun p => p.1 == .str key)).map (·.2)).getD default)
  | _ => .error .attributeError

/-- `for x in v` -/
def PyV.iter : PyV → Except Err (List PyV)
  | .list l => .ok l
  | .dict l => .ok (l.map fun p => .sc p.1)
  | .sc (.str s) => .ok (s.toList.map fun c => .sc (.str (String.ofList [c])))
  | .sc _ => .error .typeError

/-- `v > 0` -/
def PyV.gt0 : PyV → Except Err Bool
  | .sc (.num x) => .ok ((PyF.fin 0).lt x)
  | .sc (.bool b) => .ok b
  | _ => .error .typeError

/-- `sp in v` for a text -/
def PyV.hasStr (sp : String) : PyV → Except Err Bool
  | .list l => .ok (l.any (PyV.isStr sp))
  | .dict l => .ok (l.any fun p => p.1 == .str sp)
  | .sc (.str s) => .ok (decide (sp.toList <:+: s.toList))
  | .sc _ => .error .typeError

/-- `v.append(sp)` -/
def PyV.append (sp : String) : PyV → Except Err PyV
  | .list l => .ok (.list (l ++ [.sc (.str sp)]))
  | _ => .error .attributeError

/-- `assert v > 0` -/
def assertPos (v : PyV) : Except Err Unit := v.gt0 >>= pyAssert

/-- an assertion whose message is put together with the key: a key that is no text makes that fail -/
def assertKey (b : Bool) (k : PyS) : Except Err Unit :=
  if b then .ok () else .error (if k.str?.isSome then .assertionError else .typeError)

/-- whether a key is one of the names -/
def PyS.isIn (names : List String) : PyS → Bool
  | .str s => names.contains s
  | _ => false

/-- the loop over the entries of a composition (`sampling.py:766-770` and its copies) -/
def entriesDyn (names : List String) : List (PyS × PyV) → Except Err Unit
  | [] => .ok ()
  | (k, v) :: rest =>
      v.gt0 >>= fun b => assertKey b k >>= fun _ => assertKey (k.isIn names) k >>= fun _ => entriesDyn names rest

/-- the loop when the value may not be a dictionary -/
def amountsDyn (names : List String) : PyV → Except Err Unit
  | .dict d => entriesDyn names d
  | .list [] => .ok ()
  | .sc (.str "") => .ok ()
  | _ => .error .typeError

/-- one condition: the fields of `InputIgnition`, `InputPSR` and `InputLaminarFlame`
(`sampling.py:23-72`) -/
structure CondDyn where
  temperature : PyV
  pressure : PyV
  equiv : PyV
  fuel : PyV
  oxidizer : PyV
  reactants : PyV
  compType : PyV
  /-- `kind`, `end-time` and `max-steps`, or `width` -/
  extra : List PyV

/-- `sampling.py:752-796` and its copies -/
def compositionDyn (names : List String) (k : CondDyn) : Except Err Unit :=
  let mix := k.equiv.truthy || k.fuel.truthy || k.oxidizer.truthy
  pyAssert (decide (mix.toNat + k.reactants.truthy.toNat = 1)) >>= fun _ =>
  pyWhen mix (assertPos k.equiv >>= fun _ => pyAssert k.fuel.truthy >>= fun _ => amountsDyn names k.fuel >>= fun _ =>
    pyAssert k.oxidizer.truthy >>= fun _ => amountsDyn names k.oxidizer) >>= fun _ =>
  pyWhen k.reactants.truthy (amountsDyn names k.reactants) >>= fun _ =>
  pyAssert (k.compType.isStr "mole" || k.compType.isStr "mass") >>= fun _ =>
  pyAssert (!(k.compType.isStr "mass" && k.equiv.truthy))

/-- a number as a value -/
def pyNum (q : ℚ) : PyV := .sc (.num (.fin q))

/-- a text as a value -/
def pyStr (s : String) : PyV := .sc (.str s)

/-- the values of a case with the defaults of `case.get` -/
def condDyn (c : PyV) (extra : List PyV) : Except Err CondDyn :=
  c.get "temperature" (pyNum 0) >>= fun t => c.get "pressure" (pyNum 0) >>= fun p =>
  c.get "equivalence-ratio" (pyNum 0) >>= fun e => c.get "fuel" (.list []) >>= fun f =>
  c.get "oxidizer" (.list []) >>= fun o => c.get "reactants" (.list []) >>= fun r =>
  c.get "composition-type" (pyStr "mole") >>= fun m => .ok ⟨t, p, e, f, o, r, m, extra⟩

/-- one iteration of `parse_ignition_inputs` (`sampling.py:735-811`) -/
def ignitionDyn (names : List String) (c : PyV) : Except Err CondDyn :=
  c.get "kind" (pyStr "") >>= fun kind => c.get "end-time" (pyNum 0) >>= fun e => c.get "max-steps" (pyNum 10000) >>= fun s =>
  condDyn c [kind, e, s] >>= fun k =>
  pyAssert (kind.isStr "constant volume" || kind.isStr "constant pressure") >>= fun _ =>
  assertPos k.temperature >>= fun _ => assertPos k.pressure >>= fun _ => compositionDyn names k >>= fun _ => .ok k

/-- one iteration of `parse_psr_inputs` (`sampling.py:837-903`) -/
def psrDyn (names : List String) (c : PyV) : Except Err CondDyn :=
  condDyn c [] >>= fun k =>
  assertPos k.temperature >>= fun _ => assertPos k.pressure >>= fun _ => compositionDyn names k >>= fun _ => .ok k

/-- one iteration of `parse_flame_inputs` (`sampling.py:929-999`) -/
def flameDyn (names : List String) (c : PyV) : Except Err CondDyn :=
  c.get "width" (pyNum float01) >>= fun width => condDyn c [width] >>= fun k =>
  assertPos k.temperature >>= fun _ => assertPos k.pressure >>= fun _ => assertPos width >>= fun _ =>
  compositionDyn names k >>= fun _ => .ok k

/-- the loop over the cases -/
def casesDyn (parse : PyV → Except Err CondDyn) : List PyV → Except Err (List CondDyn)
  | [] => .ok []
  | c :: cs => parse c >>= fun x => casesDyn parse cs >>= fun xs => .ok (x :: xs)

/-- `for sp in v: assert sp in gas.species_names` (`pymars.py:106-110`) -/
def namesDyn (names : List String) (v : PyV) : Except Err Unit :=
  v.iter >>= fun l => pyAssert (l.all fun x => match x with | .sc k => k.isIn names | _ => false)

/-- `list(v)` of a composition that got past the checks -/
def keysDyn : PyV → Except Err (List PyS)
  | .dict d => .ok (d.map (·.1))
  | .list [] => .ok []
  | .sc (.str "") => .ok []
  | _ => .error .typeError

/-- `pymars.py:131-133`: the inner loop; the keys are names of the model by now (otherwise
`TypeError`) -/
def retainDyn (targets : PyV) : List PyS → PyV → Except Err PyV
  | [], safe => .ok safe
  | k :: rest, safe =>
      match k.str? with
      | none => .error .typeError
      | some sp =>
          targets.hasStr sp >>= fun a =>
          if a then retainDyn targets rest safe
          else safe.hasStr sp >>= fun b =>
            if b then retainDyn targets rest safe
            else safe.append sp >>= fun s => retainDyn targets rest s

/-- `pymars.py:130-133` -/
def retainAllDyn (targets : PyV) : List CondDyn → PyV → Except Err PyV
  | [], safe => .ok safe
  | k :: rest, safe =>
      keysDyn k.fuel >>= fun f => keysDyn k.oxidizer >>= fun o => keysDyn k.reactants >>= fun r =>
      retainDyn targets (f ++ o ++ r) safe >>= fun s => retainAllDyn targets rest s

/-- `ReductionInputs` (`pymars.py:29-46`) -/
structure InputsDyn where
  model : PyV
  error : PyV
  ignition : List CondDyn
  psr : List CondDyn
  flame : List CondDyn
  method : PyV
  targets : PyV
  safe : PyV
  sensitivity : PyV
  upper : PyV
  sensitivityType : PyV
  phase : PyV
  minFlameSpeed : PyV

/-- `pymars.py:49-149`: `parse_inputs`; `load` is `ct.Solution(model, phase).species_names`, with its
`ValueError` raised again -/
def parseDyn (load : PyV → PyV → Except Err (List String)) (d : PyV) : Except Err InputsDyn :=
  d.get "model" (pyStr "") >>= fun model => pyAssert model.truthy >>= fun _ =>
  d.get "error" (pyNum 0) >>= fun error => pyAssert error.truthy >>= fun _ =>
  d.get "method" (pyStr "") >>= fun method => d.get "sensitivity-analysis" (.sc (.bool false)) >>= fun sa =>
  pyAssert (method.truthy || sa.truthy) >>= fun _ =>
  d.get "targets" (.list []) >>= fun targets =>
  pyWhen method.truthy (pyAssert (["DRG", "DRGEP", "PFA"].any fun s => method.isStr s) >>= fun _ =>
    pyAssert targets.truthy) >>= fun _ =>
  d.get "upper-threshold" (.sc .none) >>= fun upper0 =>
  d.get "sensitivity-type" (pyStr "initial") >>= fun stype =>
  d.get "retained-species" (.list []) >>= fun safe0 =>
  d.get "phase-name" (pyStr "") >>= fun phase =>
  d.get "min-flame-speed" (.sc .none) >>= fun mfs =>
  load model phase >>= fun names =>
  namesDyn names targets >>= fun _ => namesDyn names safe0 >>= fun _ =>
  d.get "autoignition-conditions" (.dict []) >>= fun ign0 =>
  d.get "psr-conditions" (.dict []) >>= fun psr0 =>
  d.get "laminar-flame-conditions" (.dict []) >>= fun flame0 =>
  pyAssert (ign0.truthy || psr0.truthy || flame0.truthy) >>= fun _ =>
  ign0.iter >>= fun l1 => casesDyn (ignitionDyn names) l1 >>= fun ign =>
  psr0.iter >>= fun l2 => casesDyn (psrDyn names) l2 >>= fun psr =>
  flame0.iter >>= fun l3 => casesDyn (flameDyn names) l3 >>= fun flame =>
  retainAllDyn targets (ign ++ psr ++ flame) safe0 >>= fun safe =>
  .ok ⟨model, error, ign, psr, flame, method, targets, safe, sa,
    if !upper0.truthy && sa.truthy then pyNum float01 else upper0, stype, phase, mfs⟩

/-- `pymars.py:271-272`: the algorithm `main` chooses -/
def saType (v : PyV) : PyV := if v.truthy then v else pyStr "greedy"

/-- `pymars.py:379-382`: reading the input file and checking it -/
def readInputs (load : PyV → PyV → Except Err (List String)) (y : YNode) : Except Err InputsDyn :=
  construct y >>= parseDyn load

end Verif
