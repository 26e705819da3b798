import Verif.Model.Solution
/-!
# What it means for models to agree

Stated without reference to the comparison code.
-/
namespace Verif.Spec

/-- The number is defined. -/
def Defined (x : PyF) : Prop := x ≠ .nan

/-- A dict: no key twice, no undefined value. -/
def GoodDict (d : List (Text × PyF)) : Prop :=
  (d.map Prod.fst).Nodup ∧ ∀ kv ∈ d, Defined kv.2

/-- `x` is one of the three parameters. -/
def ArrNum (k : ArrRate PyF) (x : PyF) : Prop := x = k.A ∨ x = k.b ∨ x = k.E

/-- `x` is one of the numbers of a rate. -/
def RateNum : RateObj PyF → PyF → Prop
  | .simple _ k, x => ArrNum k x
  | .falloff _ _ lo hi cs, x => ArrNum lo x ∨ ArrNum hi x ∨ x ∈ cs
  | .plog t, x => ∃ r ∈ t, x = r.1 ∨ ArrNum r.2 x
  | .cheb t p _ d, x => x = t.1 ∨ x = t.2 ∨ x = p.1 ∨ x = p.2 ∨ ∃ r ∈ d, x ∈ r

/-- `x` is a thermodynamic value of the species. -/
def ThermoNum (s : Spec1 PyF) (x : PyF) : Prop :=
  ∃ T, x = (s.eval T).1 ∨ x = (s.eval T).2.1 ∨ x = (s.eval T).2.2

/-- `x` is one of the rate parameters or thermodynamic values of the model. -/
def ModelNum (m : Soln PyF) (x : PyF) : Prop :=
  (∃ s ∈ m.species, ThermoNum s x) ∨ (∃ r ∈ m.reactions, RateNum r.rate x)

/-- Nothing undefined in the transport data. -/
def TransportDefined (t : Transport PyF) : Prop :=
  Defined t.wellDepth ∧ Defined t.diameter ∧ Defined t.dipole ∧ Defined t.polar ∧
  Defined t.rot ∧ ∀ x ∈ t.extra, Defined x

/-- A model as cantera builds it: names are unique, dicts are dicts, no number is undefined,
the rows of a Chebyshev table have the same length. -/
structure WellDefined (m : Soln PyF) : Prop where
  names : (m.species.map Spec1.name).Nodup
  nums : ∀ x, ModelNum m x → Defined x
  comp : ∀ s ∈ m.species, GoodDict s.comp
  transport : ∀ s ∈ m.species, ∀ t ∈ s.transport, TransportDefined t
  reactants : ∀ r ∈ m.reactions, GoodDict r.reactants
  products : ∀ r ∈ m.reactions, GoodDict r.products
  third : ∀ r ∈ m.reactions, ∀ t ∈ r.third, Defined t.dflt ∧ GoodDict t.effs

/-- Two numbers at a distance that is tolerated relative to one of them but not relative to the
other. -/
def Borderline : PyF → PyF → Prop
  | .fin a, .fin b =>
      1 / 10 ^ 8 + 1 / 10 ^ 5 * min |a| |b| < |a - b| ∧
      |a - b| ≤ 1 / 10 ^ 8 + 1 / 10 ^ 5 * max |a| |b|
  | _, _ => False

/-- Two numbers that agree to within `1e-8` plus a hundred-thousandth of the second. -/
def Near : PyF → PyF → Prop
  | .fin a, .fin b => |a - b| ≤ 1 / 10 ^ 8 + 1 / 10 ^ 5 * |b|
  | .inf, .inf => True
  | .ninf, .ninf => True
  | _, _ => False

/-- The same mapping. -/
def SameDict (d e : List (Text × PyF)) : Prop :=
  d.length = e.length ∧ ∀ kv ∈ d, kv ∈ e

/-- Parameters agree. -/
def ArrNear (a b : ArrRate PyF) : Prop := Near a.A b.A ∧ Near a.b b.b ∧ Near a.E b.E

/-- Rates of the same kind whose numbers agree.  Arrays are compared entry by entry when they
have the same shape. -/
inductive RateNear : RateObj PyF → RateObj PyF → Prop
  | simple {k a b} : ArrNear a b → RateNear (.simple k a) (.simple k b)
  | falloff {k c c' lo hi cs lo' hi' cs'} : ArrNear lo lo' → ArrNear hi hi' →
      (cs.length = cs'.length → List.Forall₂ Near cs cs') →
      RateNear (.falloff k c lo hi cs) (.falloff k c' lo' hi' cs')
  | plog {t u t' u'} : t.Perm t' → u.Perm u' →
      List.Forall₂ (fun p q => Near p.1 q.1 ∧ ArrNear p.2 q.2) t' u' →
      RateNear (.plog t) (.plog u)
  | cheb {t p n d t' p' n' d'} : Near t.1 t'.1 → Near t.2 t'.2 → Near p.1 p'.1 →
      Near p.2 p'.2 →
      (d.map List.length = d'.map List.length →
        List.Forall₂ (List.Forall₂ Near) d d') →
      RateNear (.cheb t p n d) (.cheb t' p' n' d')

/-- The same third body. -/
def SameThird : Option (Collider PyF) → Option (Collider PyF) → Prop
  | none, none => True
  | some a, some b => a.dflt = b.dflt ∧ SameDict a.effs b.effs
  | _, _ => False

/-- Two species that agree in everything but transport data. -/
structure SpeciesNear (s t : Spec1 PyF) : Prop where
  name : s.name = t.name
  comp : SameDict s.comp t.comp
  cp : ∀ T ∈ [500, 1000, 2000], Near (s.eval T).1 (t.eval T).1
  h : ∀ T ∈ [500, 1000, 2000], Near (s.eval T).2.1 (t.eval T).2.1
  s : ∀ T ∈ [500, 1000, 2000], Near (s.eval T).2.2 (t.eval T).2.2

/-- Two reactions that agree in everything but reversibility, orders and the way the equation
is written. -/
structure RxnNear (r s : Rxn PyF) : Prop where
  rtype : r.rtype = s.rtype
  reactants : SameDict r.reactants s.reactants
  products : SameDict r.products s.products
  dup : r.dup = s.dup
  rate : RateNear r.rate s.rate
  third : SameThird r.third s.third

end Verif.Spec
