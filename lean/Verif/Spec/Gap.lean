import Verif.Spec.Accuracy
/-!
# Thresholds that no published coefficient comes close to
-/
namespace Verif.Spec
open Verif

/-- the threshold tried after `k` increments from the `j`-th starting threshold, without rounding -/
def idealThr (j k : Nat) : ℚ := (k + 1) * (1 / 100 / 10 ^ j)

/-- how far published coefficients have to stay from the threshold `idealThr j k` for binary64 to
make the same decisions, with `n` species and `m` reactions -/
def margin (meth : Method) (n m j k : Nat) : ℚ :=
  match meth with
  | .drgep => (k + 17) / 2 ^ 52 * idealThr j k + n * ((m + 3) / 2 ^ 49)
  | _ => (k + 4 * m + n + 19) / 2 ^ 50 * idealThr j k

/-- no published coefficient (DRG, PFA) and no published importance (DRGEP) is within `δ` of `t` -/
def Clear {m : Nat} (meth : Method) (names targets : List String)
    (states : List (Chem names.length m)) (t δ : ℚ) : Prop :=
  match meth with
  | .drgep => ∀ s ∈ names, ∀ x, IsGreatest (Candidates id names targets
      (states.map (fun c => (published .drgep c).toN)) s) x → δ < |x - t|
  | meth => ∀ c ∈ states, ∀ a b, δ < |published meth c a b - t|

/-- the search with published coefficients and exact thresholds, when it accepts the `k`-th increment
of the `j`-th starting threshold and rejects the next one -/
structure PublishedSearch {m : Nat} (meth : Method) (c : Ctx) (sol : Mech)
    (states : List (Chem sol.names.length m)) (limit : PyF) (j k : Nat) : Prop where
  starts : ∀ i < j, Exceeds c sol (KeptPublished meth sol.names c.targets c.safe states) limit (idealThr i 0)
  accepted : ∀ i ≤ k, Meets c sol (KeptPublished meth sol.names c.targets c.safe states) limit (idealThr j i)
  rejected : Exceeds c sol (KeptPublished meth sol.names c.targets c.safe states) limit (idealThr j (k + 1))

/-- no published coefficient comes close to any threshold of that search -/
structure ClearSearch {m : Nat} (meth : Method) (names targets : List String)
    (states : List (Chem names.length m)) (j k : Nat) : Prop where
  size : k + 4 * m + names.length + 21 ≤ 2 ^ 50
  starts : ∀ i < j, Clear meth names targets states (idealThr i 0) (margin meth names.length m i 0)
  grid : ∀ i ≤ k + 1, Clear meth names targets states (idealThr j i) (margin meth names.length m j i)

end Verif.Spec
