import Verif.Model.Sampling
/-!
# Specifications for sampling
-/
namespace Verif.Spec
open Verif

/-- every case succeeds, with these results in case order -/
def AllOk {κ α} (worker : κ → Except Err α) (cases : List κ) (rs : List α) : Prop :=
  List.Forall₂ (fun c r => worker c = .ok r) cases rs

/-- a number of processes that can be used and completion orders that list every job once -/
structure ParOk (p : Par) : Prop where
  threads : 1 ≤ p.eff
  order : ∀ k n, (p.order k n).Perm (List.range n)

/-- each simulated case gives `rows` states of 2 + number of species values, and `mets`
metrics; there is at least one state -/
structure Shaped {κ} (S : Sims κ) (m : Mech) : Prop where
  rows_pos : 0 < S.rows
  two : 1 < S.rows
  run : ∀ c ms rows, S.run m c = .ok (ms, rows) →
    ms.length = S.mets ∧ rows.length = S.rows ∧ ∀ r ∈ rows, r.length = 2 + m.nSpecies

/-- the three simulators concern the three phenomena -/
structure Kinds {ι π φ} (S : AllSims ι π φ) : Prop where
  ign : S.ign.kind = .ign
  psr : S.psr.kind = .psr
  flame : S.flame.kind = .flame

/-- the three simulators as in pyMARS: 20 states per ignition and flame case with one metric,
three states and three metrics per reactor case -/
structure SimsOk {ι π φ} (S : AllSims ι π φ) (m : Mech) : Prop extends Kinds S where
  ignShape : Shaped S.ign m
  psrShape : Shaped S.psr m
  flameShape : Shaped S.flame m

/-- the outcome `sample` would have without any saved file: all cases simulated -/
structure Simulated {ι π φ} (S : AllSims ι π φ) (m : Mech) (c : Conds ι π φ)
    (metrics : List PyF) (data : List Row) : Prop where
  ex : ∃ a b f, AllOk (S.ign.run m) c.ign a ∧ AllOk (S.psr.run m) c.psr b ∧
    AllOk (S.flame.run m) c.flame f ∧
    metrics = (a.map (·.1)).flatten ++ (b.map (·.1)).flatten ++ (f.map (·.1)).flatten ∧
    data = (a.map (·.2)).flatten ++ (b.map (·.2)).flatten ++ (f.map (·.2)).flatten

/-- the saved files of a phenomenon cannot belong to `n` cases of the model: one is missing, or they
are tables whose number of metrics, states or columns is another one -/
def Unusable (kind : Kind) (rows mets : Nat) (m : Mech) (n : Nat) (d : Disk) : Prop :=
  d ⟨kind, false⟩ = none ∨ d ⟨kind, true⟩ = none ∨
  ∃ (table : List Row) (ms : List PyF) (w : Nat), d ⟨kind, false⟩ = some table ∧ d ⟨kind, true⟩ = some (ms.map ([·])) ∧
    2 ≤ table.length ∧ 2 ≤ w ∧ (∀ r ∈ table, r.length = w) ∧
    (ms.length ≠ mets * n ∨ table.length ≠ rows * n ∨ w ≠ 2 + m.nSpecies)

/-- the directory after the process died having completed `k` elementary writes -/
def crashAfter (k : Nat) (d : Disk) (r : PartResult) : Disk := applyEvs d (r.evs.take k)

end Verif.Spec
