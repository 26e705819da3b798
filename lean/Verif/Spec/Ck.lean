import Verif.Model.Solution
import Verif.Spec.Format
/-!
# What a Chemkin file should say

Stated with the readers of `Spec/Format.lean` only: words, lines, columns and the numbers they
read as.  `rp` is the shortest decimal representation of a float.
-/
namespace Verif.Spec

/-- Three words that read as the parameters of a rate: the factor to five digits, the exponent to
three decimals, the energy to within `tolE`. -/
def RateWords (ws : List Text) (A b E tolE : ℚ) : Prop :=
  ∃ wa wb we, ws = [wa, wb, we] ∧ Reads wa A (|A| / 20000) ∧ Reads wb b (1 / 2000) ∧
    Reads we E tolE

/-- The words after the equation: the rate in the units mol, cm, s, cal; `n` is the sum of the
reactants' coefficients. -/
def MainWords (r : Rxn ℚ) (n : Int) (ws : List Text) : Prop :=
  match r.rate with
  | .simple _ k =>
      RateWords ws (k.A * 1000 ^ (if r.third.isSome then n else n - 1)) k.b (k.E / 4184) (1 / 200)
  | .falloff _ chem lo hi _ =>
      let k := if chem then lo else hi
      RateWords ws (k.A * 1000 ^ (n - 1)) k.b (k.E / 4184) (|k.E / 4184| / 2000)
  | .plog rates =>
      ∃ p k rest, rates = (p, k) :: rest ∧
        RateWords ws (k.A * 1000 ^ (n - 1)) k.b (k.E / 4184) (1 / 200)
  | .cheb _ _ _ _ => ws = ["1.0e0".toList, "0.0".toList, "0.0".toList]

/-- The efficiency lines: one, naming the listed species that are in the model, or none if there
is no such species. -/
def EffLines (rp : ℚ → Text) (names : List Text) (r : Rxn ℚ) (ls : List Text) : Prop :=
  match r.third with
  | none => ls = []
  | some tb =>
      let kept := tb.effs.filter fun kv => decide (kv.1 ∈ names)
      (kept = [] → ls = []) ∧
      (kept ≠ [] → ∃ l, ls = [l] ∧
        words l = kept.map fun kv => kv.1 ++ '/' :: (rp kv.2 ++ ['/']))

/-- The other auxiliary lines. -/
def AuxLines (rp : ℚ → Text) (r : Rxn ℚ) (n : Int) (ls : List Text) : Prop :=
  match r.rate with
  | .simple _ _ => ls = []
  | .falloff sub chem lo hi cs =>
      let k := if chem then hi else lo
      ∃ l ps, ls = l :: ps ∧
        (∃ ws, words l = [(if chem then "HIGH" else "LOW").toList, "/".toList] ++ ws ++ ["/".toList] ∧
          RateWords ws (k.A * 1000 ^ (if chem then n - 2 else n)) k.b (k.E / 4184)
            (|k.E / 4184| / 2000)) ∧
        (cs = [] → ps = []) ∧
        (cs ≠ [] → ∃ l', ps = [l'] ∧
          ((sub = "Troe".toList ∧ words l' = ["TROE".toList, "/".toList] ++ (cs.take 4).map rp ++
              ["/".toList] ∧ 4 ≤ cs.length) ∨
            (sub = "SRI".toList ∧ words l' = ["SRI".toList, "/".toList] ++ (cs.take 5).map rp ++
              ["/".toList] ∧ 5 ≤ cs.length)))
  | .plog rates =>
      List.Forall₂ (fun l pk => ∃ ws,
        words l = ["PLOG".toList, "/".toList, rp (pk.1 / 101325)] ++ ws ++ ["/".toList] ∧
        RateWords ws (pk.2.A * 1000 ^ (n - 1)) pk.2.b (pk.2.E / 4184) (1 / 200)) ls rates
  | .cheb t p nP data =>
      ∃ l1 l2 l3 rows, ls = l1 :: l2 :: l3 :: rows ∧
        words l1 = ["TCHEB".toList, "/".toList, rp t.1, rp t.2, "/".toList] ∧
        words l2 = ["PCHEB".toList, "/".toList, rp (p.1 / 101325), rp (p.2 / 101325),
          "/".toList] ∧
        (∃ a b, words l3 = ["CHEB".toList, "/".toList, a, b, "/".toList] ∧
          readDigits 0 a = some data.length ∧ readDigits 0 b = some nP) ∧
        List.Forall₂ (fun l row => ∃ ws, words l = ["CHEB".toList, "/".toList] ++ ws ++
          ["/".toList] ∧ List.Forall₂ (fun w c => Reads w c (|c| / 2000000)) ws row) rows data

/-- The rates that can be written: plain Arrhenius rates with or without a third body, falloff and
chemically activated rates without parameters or with enough Troe or SRI parameters, P-log rates
with at least one pressure and Chebyshev rates, these two without a third body. -/
def Writable (r : Rxn ℚ) : Prop :=
  match r.rate with
  | .simple kind _ => kind = "Arrhenius".toList
  | .falloff sub _ _ _ cs => cs = [] ∨ (sub = "Troe".toList ∧ 4 ≤ cs.length) ∨
      (sub = "SRI".toList ∧ 5 ≤ cs.length)
  | .plog rates => r.third = none ∧ rates ≠ []
  | .cheb _ _ _ _ => r.third = none

/-- A number that prints in at most `d + 7` characters in exponent format. -/
def ExpRange (q : ℚ) : Prop := q = 0 ∨ (1 / 10 ^ 99 ≤ |q| ∧ |q| < 10 ^ 99)

/-- columns `i` to `i + n` of a line (from 0) -/
def cols (l : Text) (i n : Nat) : Text := (l.drop i).take n

end Verif.Spec
