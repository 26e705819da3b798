import Verif.Model.Solution
/-!
# Agreement of rate data up to the digits of a Chemkin file
-/
namespace Verif.Spec

/-- factor, exponent and energy agree to the digits printed -/
def CloseArr (tolE : ℚ) (k k' : ArrRate ℚ) : Prop :=
  |k.A - k'.A| ≤ (|k.A| + |k'.A|) / 20000 ∧ |k.b - k'.b| ≤ 1 / 1000 ∧ |k.E - k'.E| ≤ tolE

/-- energies printed with three decimals in exponent format -/
def CloseExp (k k' : ArrRate ℚ) : Prop := CloseArr ((|k.E| + |k'.E|) / 2000) k k'

/-- energies printed in cal/mol with two decimals -/
def CloseFix (k k' : ArrRate ℚ) : Prop := CloseArr (4184 / 100) k k'

/-- The rates are of the same class and their data agree to the digits printed; temperature ranges
and falloff parameters agree, and so do pressures in atmospheres, when rounded by `rnd`. -/
def SameRate (rnd : ℚ → ℚ) : RateObj ℚ → RateObj ℚ → Prop
  | .simple kind k, .simple kind' k' => kind = kind' ∧ CloseFix k k'
  | .falloff sub chem lo hi cs, .falloff sub' chem' lo' hi' cs' =>
      chem = chem' ∧ CloseExp lo lo' ∧ CloseExp hi hi' ∧ (cs = [] ↔ cs' = []) ∧
      (cs ≠ [] → sub = sub' ∧
        ((sub = "Troe".toList ∧ (cs.take 4).map rnd = (cs'.take 4).map rnd) ∨
          (sub = "SRI".toList ∧ (cs.take 5).map rnd = (cs'.take 5).map rnd)))
  | .plog rates, .plog rates' =>
      List.Forall₂ (fun pk pk' => rnd (pk.1 / 101325) = rnd (pk'.1 / 101325) ∧ CloseFix pk.2 pk'.2)
        rates rates'
  | .cheb t p nP data, .cheb t' p' nP' data' =>
      rnd t.1 = rnd t'.1 ∧ rnd t.2 = rnd t'.2 ∧ rnd (p.1 / 101325) = rnd (p'.1 / 101325) ∧
      rnd (p.2 / 101325) = rnd (p'.2 / 101325) ∧ nP = nP' ∧
      List.Forall₂ (List.Forall₂ fun c c' => |c - c'| ≤ (|c| + |c'|) / 2000000) data data'
  | _, _ => False

/-- the efficiencies of species of the model -/
def keptEffs (names : List Text) (r : Rxn ℚ) : List (Text × ℚ) :=
  match r.third with
  | none => []
  | some tb => tb.effs.filter fun kv => decide (kv.1 ∈ names)

/-- Chebyshev coefficients of the decimal logarithm of the rate coefficient in the units mol, cm, s
for a reaction of order `n`: only the first one changes. -/
def chebConverted (n : Int) : List (List ℚ) → List (List ℚ)
  | (a :: row) :: data => ((a + 3 * (n - 1)) :: row) :: data
  | data => data

end Verif.Spec
