import Verif.Model.Concurrent
/-!
# What processes may touch
-/
namespace Verif.Spec
open Verif

/-- the program reads and looks at only files in `R`, and writes and removes only files in `W`, whatever
it finds in them -/
inductive TouchesOnly {α} (R W : Text → Prop) : FsProg α → Prop
  | done (a : α) : TouchesOnly R W (.done a)
  | read {f : Text} {k : Option Mech → FsProg α} : R f → (∀ o, TouchesOnly R W (k o)) → TouchesOnly R W (.read f k)
  | look {f : Text} {k : Bool → FsProg α} : R f → (∀ b, TouchesOnly R W (k b)) → TouchesOnly R W (.look f k)
  | write {f : Text} {m : Mech} {k : FsProg α} : W f → TouchesOnly R W k → TouchesOnly R W (.write f m k)
  | remove {f : Text} {k : Bool → FsProg α} : W f → (∀ b, TouchesOnly R W (k b)) → TouchesOnly R W (.remove f k)
  | clean {dir : Text} {k : FsProg α} : (∀ f, dir ++ ['/'] <+: f → W f) → TouchesOnly R W k →
      TouchesOnly R W (.clean dir k)

/-- the files of a reduction in a directory: `reduced_<number>.yaml` -/
def OwnFile (path f : Text) : Prop := ∃ n : Nat, f = joinPath path (reducedName n)

/-- the name of a directory, empty for the present one, otherwise not ending in a slash -/
def DirName (path : Text) : Prop := path = [] ∨ (path ≠ [] ∧ path.getLast? ≠ some '/')

/-- the reduction step of a method for an input model -/
def reduceFnOf (m : Method) (c : Ctx) (sim : Mech → Except Err PyF) (sol : Mech) (dfuel : Nat) : Except Err ReduceFn :=
  match m with
  | .drg => .ok (reduceDrgS c sim)
  | .pfa => .ok (reducePfaS c sim)
  | .drgep =>
    match getImportanceCoeffs c.rndMul sol.names c.targets c.matrices dfuel with
    | .error e => .error e
    | .ok imp => .ok (reduceDrgepS c sim imp)

/-- the first step of a run, at the threshold 0.01, gives a smaller model `r` within the limit -/
def FirstAccepted (m : Method) (c : Ctx) (sim : Mech → Except Err PyF) (rnd : ℚ → ℚ) (limit : PyF) (dfuel : Nat)
    (fs : Fs) (r : RModel) : Prop :=
  ∃ sol f w', fs c.modelFile = some sol ∧ c.targets ≠ [] ∧ reduceFnOf m c sim sol dfuel = .ok f ∧
    f (rnd (1 / 100)) (some ⟨sol, c.modelFile, .fin 0, none⟩) ⟨fs, []⟩ = (.ok r, w') ∧
    (PyF.fin 0).le limit = true ∧ limit.lt r.error = false ∧ sol.nSpecies ≠ r.model.nSpecies

end Verif.Spec
