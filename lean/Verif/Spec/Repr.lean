import Verif.Model.Num
import Verif.Spec.Format
import Verif.Model.Solution
/-!
# Numbers in text that are read back as the same float
-/
namespace Verif.Spec

/-- a binary64 number -/
def IsFloat (x : ℚ) : Prop := rnd754 x = x

/-- A reader that rounds the decimal it finds to the nearest float finds `x`. -/
def ReadsBack (t : Text) (x : ℚ) : Prop := ∃ v, readNum t = some v ∧ rnd754 v = x

/-- a number with at most `k` significant decimal digits -/
def Decimal (k : Nat) (v : ℚ) : Prop := ∃ (m : Nat) (e : Int), m < 10 ^ k ∧ |v| = m * 10 ^ e

/-- The efficiency lines: each species of the model that is listed, with a number that reads back as
its efficiency. -/
def EffsBack (names : List Text) (r : Rxn ℚ) (ls : List Text) : Prop :=
  match r.third with
  | none => ls = []
  | some tb =>
      let kept := tb.effs.filter fun kv => decide (kv.1 ∈ names)
      (kept = [] → ls = []) ∧
      (kept ≠ [] → ∃ l, ls = [l] ∧
        List.Forall₂ (fun w kv => ∃ s, w = kv.1 ++ '/' :: (s ++ ['/']) ∧ ReadsBack s kv.2) (words l) kept)

/-- The numbers without a format in the other lines: falloff parameters and temperatures read back
as they are, pressures as the float next to the pressure in atmospheres. -/
def AuxBack (r : Rxn ℚ) (ls : List Text) : Prop :=
  match r.rate with
  | .simple _ _ => ls = []
  | .falloff sub _ _ _ cs =>
      cs ≠ [] → ∃ l l' key ws, ls = [l, l'] ∧ words l' = [key, "/".toList] ++ ws ++ ["/".toList] ∧
        ((sub = "Troe".toList ∧ key = "TROE".toList ∧ List.Forall₂ ReadsBack ws (cs.take 4)) ∨
          (sub = "SRI".toList ∧ key = "SRI".toList ∧ List.Forall₂ ReadsBack ws (cs.take 5)))
  | .plog rates =>
      List.Forall₂ (fun l pk => ∃ w ws, words l = ["PLOG".toList, "/".toList, w] ++ ws ++ ["/".toList] ∧
        ReadsBack w (rnd754 (pk.1 / 101325))) ls rates
  | .cheb t p _ _ =>
      ∃ l1 l2 a b x y rest, ls = l1 :: l2 :: rest ∧
        words l1 = ["TCHEB".toList, "/".toList, a, b, "/".toList] ∧ ReadsBack a t.1 ∧ ReadsBack b t.2 ∧
        words l2 = ["PCHEB".toList, "/".toList, x, y, "/".toList] ∧
        ReadsBack x (rnd754 (p.1 / 101325)) ∧ ReadsBack y (rnd754 (p.2 / 101325))

/-- The efficiencies, falloff parameters and temperature ranges of a reaction are floats. -/
def FloatData (r : Rxn ℚ) : Prop :=
  (∀ tb, r.third = some tb → ∀ kv ∈ tb.effs, IsFloat kv.2) ∧
  match r.rate with
  | .falloff _ _ _ _ cs => ∀ c ∈ cs, IsFloat c
  | .cheb t _ _ _ => IsFloat t.1 ∧ IsFloat t.2
  | _ => True

end Verif.Spec
