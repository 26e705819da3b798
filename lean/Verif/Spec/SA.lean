import Verif.Model.SA
/-!
# Specification of sensitivity analysis, without files
-/
namespace Verif.Spec
open Verif

/-- a file lies below a directory -/
def Under (dir f : Text) : Prop := dir ++ ['/'] <+: f

/-- the temporary directories are real directory names, none of them contains the model file,
and the directory of the loop is apart from those of the evaluations -/
structure TmpOk (c : SACtx) : Prop where
  tmp_ne : c.tmpDir ≠ []
  tmp_last : c.tmpDir.getLast? ≠ some '/'
  eval_ne : ∀ n, c.evalDir n ≠ []
  eval_last : ∀ n, (c.evalDir n).getLast? ≠ some '/'
  model_tmp : ¬ Under c.tmpDir c.modelFile
  model_eval : ∀ n, ¬ Under (c.evalDir n) c.modelFile
  apart : ∀ n f, Under c.tmpDir f → ¬ Under (c.evalDir n) f

/-- a model without one more species -/
def without (c : SACtx) (m : Mech) (sp : String) : Mech := trim m [sp] (candidateName sp) c.phase

/-- `errs` are the errors induced by removing each of the species from `base` -/
def Induced (c : SACtx) (initial : List PyF) (base : Mech) (limbo : List String)
    (errs : List PyF) : Prop :=
  List.Forall₂ (fun sp e => saErr c initial (without c base sp) = .ok e) limbo errs

/-- index `i` holds the first value nearest to `cur` (a NaN distance, the first one, wins) -/
def Nearest (c : SACtx) (errs : List PyF) (cur : PyF) (i : Nat) : Prop :=
  ∃ e, errs[i]? = some e ∧
    ((c.dist e cur = .nan ∧ ∀ j < i, ∀ e', errs[j]? = some e' → c.dist e' cur ≠ .nan) ∨
    ((∀ e' ∈ errs, c.dist e' cur ≠ .nan) ∧
      (∀ e' ∈ errs, (c.dist e cur).le (c.dist e' cur) = true) ∧
      ∀ j < i, ∀ e', errs[j]? = some e' → (c.dist e cur).lt (c.dist e' cur) = true))

/-- python's least value of a sequence: a NaN in front wins, other NaNs are passed over -/
def Least (errs : List PyF) (x : PyF) : Prop :=
  x ∈ errs ∧ ((errs.head? = some .nan ∧ x = .nan) ∨
    (errs.head? ≠ some .nan ∧ x ≠ .nan ∧ ∀ y ∈ errs, y ≠ .nan → x.le y = true))

/-- the course of the analysis from the current model `m` with error `e` and the species
`limbo` still to be tried, the induced errors being those of `base`.  Indices: the accepted
species in order, the final model and error, and the species left. -/
inductive Course (c : SACtx) (initial : List PyF) :
    Mech → Mech → PyF → List String → List String → Mech → PyF → List String → Prop where
  /-- nothing left to try -/
  | done {base m e} : Course c initial base m e [] [] m e []
  /-- the nearest species is tried and its removal exceeds the limit -/
  | reject {base m e limbo errs i sp e'} (hi : Induced c initial base limbo errs)
      (hn : Nearest c errs e i) (hs : limbo[i]? = some sp)
      (he : saErr c initial (without c m sp) = .ok e') (hl : c.limit.lt e' = true) :
      Course c initial base m e limbo [] m e (limbo.eraseIdx i)
  /-- the nearest species is removed; the greedy algorithm evaluates the others again and goes
  on -/
  | accept {base m e limbo errs i sp e' acc mf ef rest} (hi : Induced c initial base limbo errs)
      (hn : Nearest c errs e i) (hs : limbo[i]? = some sp)
      (he : saErr c initial (without c m sp) = .ok e') (hl : c.limit.lt e' = false)
      (hg : c.greedy = true → ∃ errs' x,
        Induced c initial (without c m sp) (limbo.eraseIdx i) errs' ∧ Least errs' x ∧
        c.limit.lt x = false)
      (next : Course c initial (if c.greedy then without c m sp else base) (without c m sp) e'
        (limbo.eraseIdx i) acc mf ef rest) :
      Course c initial base m e limbo (sp :: acc) mf ef rest
  /-- the greedy algorithm stops because every other removal exceeds the limit -/
  | last {base m e limbo errs i sp e' errs' x} (hi : Induced c initial base limbo errs)
      (hn : Nearest c errs e i) (hs : limbo[i]? = some sp)
      (he : saErr c initial (without c m sp) = .ok e') (hl : c.limit.lt e' = false)
      (hg : c.greedy = true)
      (hi' : Induced c initial (without c m sp) (limbo.eraseIdx i) errs')
      (hx : Least errs' x) (hlx : c.limit.lt x = true) :
      Course c initial base m e limbo [sp] (without c m sp) e' (limbo.eraseIdx i)

end Verif.Spec
