import Verif.Model.FullMain
/-!
# Renaming species
-/
namespace Verif.Spec
open Verif

/-- rename the keys of a dictionary -/
def renKeys (σ : String ≃ String) (l : List (String × ℚ)) : List (String × ℚ) := l.map (fun p => (σ p.1, p.2))

/-- rename the species of a reaction -/
def renReaction (σ : String ≃ String) (r : Reaction) : Reaction :=
  { r with
    reactants := renKeys σ r.reactants
    products := renKeys σ r.products
    thirdBody := r.thirdBody.map (fun t => { t with effs := renKeys σ t.effs }) }

/-- rename the species of a model -/
def renMech (σ : String ≃ String) (m : Mech) : Mech :=
  { m with
    species := m.species.map (fun s => { s with name := σ s.name })
    reactions := m.reactions.map (renReaction σ) }

/-- rename the species of a reduced model -/
def renModel (σ : String ≃ String) (r : RModel) : RModel :=
  { r with model := renMech σ r.model, limbo := r.limbo.map (List.map σ) }

/-- rename the species in all files -/
def renWorld (σ : String ≃ String) (w : World) : World :=
  ⟨fun f => (w.fs f).map (renMech σ), w.limbo.map σ⟩

/-- rename the species in the arguments of a reduction; the errors are those of the models before -/
def renCtx (σ : String ≃ String) (c : Ctx) : Ctx :=
  { c with
    targets := c.targets.map σ
    safe := c.safe.map σ
    errOf := fun m => c.errOf (renMech σ.symm m) }

/-- rename the species in the result of a run -/
def renRun (σ : String ≃ String) (r : RunResult) : RunResult :=
  (r.1.map (Except.map (renModel σ)), renWorld σ r.2)

/-- one model is the other with its species renamed (and perhaps another name of the phase) -/
def Named (σ : String ≃ String) (m m' : Mech) : Prop := ∃ n, m' = renMech σ { m with name := n }

/-- rename conditions -/
def renConds {ι π φ : Type} (fi : ι → ι) (fp : π → π) (ff : φ → φ) (c : Conds ι π φ) : Conds ι π φ :=
  ⟨c.ign.map fi, c.psr.map fp, c.flame.map ff⟩

/-- Cantera gives the same results after species were renamed in the model and (by `fi`, `fp` and `ff`)
in the conditions -/
structure RenCantera {ι π φ : Type} (σ : String ≃ String) (fi : ι → ι) (fp : π → π) (ff : φ → φ)
    (K K' : Cantera ι π φ) : Prop where
  props : ∀ x, K'.ignProps (fi x) = K.ignProps x
  reactor : ∀ {m m'}, Named σ m m' → ∀ x, K'.reactor m' (fi x) = K.reactor m x
  fuel : K'.fuel = K.fuel
  psr : ∀ {m m'}, Named σ m m' → ∀ x, K'.psr m' (fp x) = K.psr m x
  pressure : ∀ x, K'.psrPressure (fp x) = K.psrPressure x
  flame : ∀ {m m'}, Named σ m m' → ∀ x, K'.flame m' (ff x) = K.flame m x
  floor : K'.floor = K.floor
  chem : ∀ {m m'}, Named σ m m' → ∀ r, HEq (K'.chem m' r) (K.chem m r)

/-- rename the species in the arguments of a reduction -/
def renArgs {ι π φ : Type} (σ : String ≃ String) (fi : ι → ι) (fp : π → π) (ff : φ → φ) (q : ReduceArgs ι π φ) :
    ReduceArgs ι π φ :=
  { q with targets := q.targets.map σ, safe := q.safe.map σ, conds := renConds fi fp ff q.conds }

/-- rename the species in the arguments of `main` -/
def renMainArgs {ι π φ : Type} (σ : String ≃ String) (fi : ι → ι) (fp : π → π) (ff : φ → φ) (q : MainArgs ι π φ) :
    MainArgs ι π φ :=
  { q with targets := q.targets.map σ, safe := q.safe.map σ, conds := renConds fi fp ff q.conds }

end Verif.Spec
