import Verif.Lemmas.RenameRun
import Verif.Props.SAOrder
/-!
# Sampling, whole runs and sensitivity analysis with renamed species
-/
namespace Verif
open Spec

variable {σ : String ≃ String}

theorem Spec.Named.ren (m : Mech) : Named σ m (renMech σ m) := ⟨m.name, rfl⟩

theorem Spec.Named.names {m m' : Mech} (h : Named σ m m') : m'.names = m.names.map σ := by
  obtain ⟨n, rfl⟩ := h
  rw [renMech_names]
  rfl

theorem Spec.Named.nSpecies {m m' : Mech} (h : Named σ m m') : m'.nSpecies = m.nSpecies := by
  obtain ⟨n, rfl⟩ := h
  rw [renMech_nSpecies]
  rfl

theorem Spec.Named.trim {m m' : Mech} (h : Named σ m m') (excl : List String) (f f' p : Text) :
    Named σ (trim m excl f p) (trim m' (excl.map σ) f' p) := by
  obtain ⟨n, rfl⟩ := h
  rw [trim_ren]
  exact ⟨_, rfl⟩

theorem Spec.Named.symm {m m' : Mech} (h : Named σ m m') : Named σ.symm m' m := by
  obtain ⟨n, rfl⟩ := h
  refine ⟨m.name, ?_⟩
  rw [show ({ renMech σ { m with name := n } with name := m.name } : Mech) = renMech σ m from rfl, renMech_symm]

/-! ### sampling -/

section jobs
variable {κ κ' α : Type}

theorem serialMap_map (f : κ' → Except Err α) (g : κ → κ') : ∀ l : List κ,
    serialMap f (l.map g) = serialMap (fun x => f (g x)) l
  | [] => rfl
  | x :: l => by rw [List.map_cons, serialMap, serialMap, serialMap_map f g l]

theorem poolMap_map (f : κ' → Except Err α) (g : κ → κ') (l : List κ) (order : List Nat) :
    poolMap f (l.map g) order = poolMap (fun x => f (g x)) l order := by
  unfold poolMap
  have : poolStep f (l.map g) = poolStep (fun x => f (g x)) l := by
    funext st i
    unfold poolStep
    rw [List.getElem?_map]
    cases l[i]? <;> rfl
  rw [this, List.length_map]

theorem runWorkers_map {worker : κ' → Except Err α} {worker' : κ → Except Err α} {g : κ → κ'}
    (h : ∀ x, worker (g x) = worker' x) (cases' : List κ) (threads : Int) (order : List Nat) :
    runWorkers worker (cases'.map g) threads order = runWorkers worker' cases' threads order := by
  unfold runWorkers
  have hj : (cases'.map g).zipIdx = cases'.zipIdx.map (fun p => (g p.1, p.2)) := by
    rw [List.zipIdx_map]
    rfl
  have hr : (fun p : κ × Nat => runJob worker (g p.1, p.2)) = runJob worker' := by
    funext p
    unfold runJob
    dsimp only
    rw [h]
  simp only [hj, serialMap_map, poolMap_map, hr]

/-- simulators that agree up to a renaming -/
structure RenSims (σ : String ≃ String) (g : κ → κ) (S S' : Sims κ) : Prop where
  kind : S'.kind = S.kind
  rows : S'.rows = S.rows
  mets : S'.mets = S.mets
  run : ∀ {m m'}, Named σ m m' → ∀ x, S'.run m' (g x) = S.run m x
  metric : ∀ {m m'}, Named σ m m' → ∀ x, S'.metric m' (g x) = S.metric m x

variable {g : κ → κ} {S S' : Sims κ} {m m' : Mech}

theorem samplePart_ren (R : RenSims σ g S S') (h : Named σ m m') (l : List κ) (p : Par) (d : Disk) :
    samplePart S' m' (l.map g) p d = samplePart S m l p d := by
  unfold samplePart
  have hc : readCache S' m' l.length d = readCache S m l.length d := by
    unfold readCache
    rw [R.kind, R.rows, R.mets, h.nSpecies]
  have hr : ∀ t o, runSamplingJobs (S'.run m') (l.map g) t o = runSamplingJobs (S.run m) l t o := by
    intro t o
    unfold runSamplingJobs
    rw [runWorkers_map (R.run h)]
  have hn : (l.map g = []) = (l = []) := by simp
  simp only [hc, hr, hn, R.kind, List.length_map]

theorem metricsPart_ren (R : RenSims σ g S S') (h : Named σ m m') (init : Nat → List PyF) (l : List κ) (p : Par)
    (reuse : Bool) (d : Disk) :
    metricsPart S' init m' (l.map g) p reuse d = metricsPart S init m l p reuse d := by
  unfold metricsPart
  have hr : ∀ t o, runMetricJobs (S'.metric m') (l.map g) t o = runMetricJobs (S.metric m) l t o := by
    intro t o
    unfold runMetricJobs
    rw [runWorkers_map (R.metric h)]
  have hn : (l.map g = []) = (l = []) := by simp
  simp only [hr, hn, R.kind, R.mets, List.length_map]

end jobs

section cantera
variable {ι π φ : Type} {fi : ι → ι} {fp : π → π} {ff : φ → φ} {K K' : Cantera ι π φ}

theorem Spec.RenCantera.ignSims (R : RenCantera σ fi fp ff K K') (rnd : ℚ → ℚ) :
    RenSims σ fi (K.ignSims rnd) (K'.ignSims rnd) where
  kind := rfl
  rows := rfl
  mets := rfl
  run h x := by
    unfold Cantera.ignSims
    dsimp only
    rw [R.reactor h, R.props, R.fuel]
  metric h x := by
    unfold Cantera.ignSims
    dsimp only
    rw [R.reactor h, R.props, R.fuel]

theorem Spec.RenCantera.psrSims (R : RenCantera σ fi fp ff K K') : RenSims σ fp K.psrSims K'.psrSims where
  kind := rfl
  rows := rfl
  mets := rfl
  run h x := by
    unfold Cantera.psrSims
    dsimp only
    rw [R.psr h, R.pressure]
  metric h x := by
    unfold Cantera.psrSims
    dsimp only
    rw [R.psr h]

theorem Spec.RenCantera.flameSims (R : RenCantera σ fi fp ff K K') (rnd : ℚ → ℚ) :
    RenSims σ ff (K.flameSims rnd) (K'.flameSims rnd) where
  kind := rfl
  rows := rfl
  mets := rfl
  run h x := by
    unfold Cantera.flameSims
    dsimp only
    rw [R.flame h, R.floor]
  metric h x := by
    unfold Cantera.flameSims
    dsimp only
    rw [R.flame h, R.floor]

variable (R : RenCantera σ fi fp ff K K') {m m' : Mech}
include R

theorem sample_ren (h : Named σ m m') (rnd : ℚ → ℚ) (c : Conds ι π φ) (p : Par) (d : Disk) :
    sample (K'.sims rnd) m' (renConds fi fp ff c) p d = sample (K.sims rnd) m c p d := by
  unfold sample renConds Cantera.sims
  simp only [samplePart_ren (R.ignSims rnd) h, samplePart_ren R.psrSims h, samplePart_ren (R.flameSims rnd) h]

theorem sampleMetrics_ren (h : Named σ m m') (rnd : ℚ → ℚ) (c : Conds ι π φ) (p : Par) (reuse : Bool) (d : Disk) :
    sampleMetrics (K'.sims rnd) m' (renConds fi fp ff c) p reuse d = sampleMetrics (K.sims rnd) m c p reuse d := by
  unfold sampleMetrics renConds Cantera.sims
  simp only [metricsPart_ren (R.ignSims rnd) h, metricsPart_ren R.psrSims h, metricsPart_ren (R.flameSims rnd) h]

omit R in
theorem matrixOf_heq {n n' k k' : Nat} (hn : n = n') (hk : k = k') {c : Chem n k} {c' : Chem n' k'} (h : HEq c c')
    (meth : Method) (rnd : ℚ → ℚ) : matrixOf meth rnd c = matrixOf meth rnd c' := by
  subst hn; subst hk
  rw [eq_of_heq h]

theorem matrix_ren (h : Named σ m m') (meth : Method) (rnd : ℚ → ℚ) (r : Row) :
    matrixOf meth rnd (K'.chem m' r) = matrixOf meth rnd (K.chem m r) := by
  refine matrixOf_heq ?_ ?_ (R.chem h r) meth rnd
  · rw [h.names, List.length_map]
  · obtain ⟨n, rfl⟩ := h
    simp [renMech]

end cantera

/-! ### sensitivity analysis -/

/-- analyses that agree up to a renaming -/
structure RenSA (σ : String ≃ String) (c c' : SACtx) : Prop where
  file : c'.modelFile = c.modelFile
  startErr : c'.startErr = c.startErr
  limit : c'.limit = c.limit
  safe : c'.safe = c.safe.map σ
  phase : c'.phase = c.phase
  greedy : c'.greedy = c.greedy
  initial : ∀ {m m'}, Named σ m m' → c'.initial m' = c.initial m
  metrics : ∀ {m m'}, Named σ m m' → c'.metrics m' = c.metrics m
  tmpDir : c'.tmpDir = c.tmpDir
  evalDir : c'.evalDir = c.evalDir
  errOf : c'.errOf = c.errOf
  dist : c'.dist = c.dist

section sa
variable {c c' : SACtx} (R : RenSA σ c c')
include R

theorem RenSA.tmpOk (T : TmpOk c) : TmpOk c' where
  tmp_ne := by rw [R.tmpDir]; exact T.tmp_ne
  tmp_last := by rw [R.tmpDir]; exact T.tmp_last
  eval_ne := by rw [R.evalDir]; exact T.eval_ne
  eval_last := by rw [R.evalDir]; exact T.eval_last
  model_tmp := by rw [R.tmpDir, R.file]; exact T.model_tmp
  model_eval := by rw [R.evalDir, R.file]; exact T.model_eval
  apart := by rw [R.evalDir, R.tmpDir]; exact T.apart

theorem RenSA.saErr {m m' : Mech} (h : Named σ m m') (initial : List PyF) : saErr c' initial m' = saErr c initial m := by
  unfold Verif.saErr
  rw [R.metrics h, R.errOf]

theorem RenSA.without {m m' : Mech} (h : Named σ m m') (sp : String) : Named σ (without c m sp) (without c' m' (σ sp)) := by
  unfold Spec.without
  rw [R.phase]
  exact h.trim [sp] _ _ _

theorem RenSA.induced {initial : List PyF} {m m' : Mech} (h : Named σ m m') {l : List String} {errs : List PyF}
    (hi : Induced c initial m l errs) : Induced c' initial m' (l.map σ) errs := by
  unfold Induced at hi ⊢
  rw [List.forall₂_map_left_iff]
  refine hi.imp (fun sp e he => ?_)
  rw [R.saErr (R.without h sp)]
  exact he

theorem RenSA.nearest {errs : List PyF} {e : PyF} {i : Nat} (h : Nearest c errs e i) : Nearest c' errs e i := by
  unfold Nearest at h ⊢
  rw [R.dist]
  exact h

theorem RenSA.course {initial : List PyF} {base m : Mech} {e : PyF} {limbo acc : List String} {mf : Mech} {ef : PyF}
    {rest : List String} (h : Course c initial base m e limbo acc mf ef rest) :
    ∀ {base' m' : Mech}, Named σ base base' → Named σ m m' →
      ∃ mf', Named σ mf mf' ∧ Course c' initial base' m' e (limbo.map σ) (acc.map σ) mf' ef (rest.map σ) := by
  induction h with
  | done => intro base' m' _ hm; exact ⟨m', hm, .done⟩
  | @reject base m e limbo errs i sp e' hi hn hs he hl =>
    intro base' m' hb hm
    refine ⟨m', hm, ?_⟩
    rw [← List.eraseIdx_map]
    refine .reject (R.induced hb hi) (R.nearest hn) (by rw [List.getElem?_map, hs]; rfl) ?_ (by rw [R.limit]; exact hl)
    · rw [R.saErr (R.without hm sp)]; exact he
  | @accept base m e limbo errs i sp e' acc mf ef rest hi hn hs he hl hg next ih =>
    intro base' m' hb hm
    have hw := R.without hm sp
    have hb2 : Named σ (if c.greedy then Spec.without c m sp else base) (if c'.greedy then Spec.without c' m' (σ sp) else base') := by
      rw [R.greedy]
      split_ifs
      · exact hw
      · exact hb
    obtain ⟨mf', h1, h2⟩ := ih hb2 hw
    refine ⟨mf', h1, ?_⟩
    rw [← List.eraseIdx_map] at h2
    refine .accept (R.induced hb hi) (R.nearest hn) (by rw [List.getElem?_map, hs]; rfl) ?_ (by rw [R.limit]; exact hl) ?_ h2
    · rw [R.saErr hw]; exact he
    · intro hg'
      rw [R.greedy] at hg'
      obtain ⟨errs', x, g1, g2, g3⟩ := hg hg'
      refine ⟨errs', x, ?_, g2, by rw [R.limit]; exact g3⟩
      rw [List.eraseIdx_map]
      exact R.induced hw g1
  | @last base m e limbo errs i sp e' errs' x hi hn hs he hl hg hi' hx hlx =>
    intro base' m' hb hm
    have hw := R.without hm sp
    refine ⟨_, hw, ?_⟩
    rw [← List.eraseIdx_map]
    refine .last (R.induced hb hi) (R.nearest hn) (by rw [List.getElem?_map, hs]; rfl) ?_ (by rw [R.limit]; exact hl)
      (by rw [R.greedy]; exact hg) ?_ hx (by rw [R.limit]; exact hlx)
    · rw [R.saErr hw]; exact he
    · rw [List.eraseIdx_map]; exact R.induced hw hi'

theorem RenSA.limbo {m m' : Mech} (h : Named σ m m') (l : List String) :
    saLimbo c'.safe m' (l.map σ) = (saLimbo c.safe m l).map σ := by
  unfold saLimbo
  have hn : (l.map σ = []) = (l = []) := by simp
  simp only [hn]
  split_ifs
  · rw [h.names, R.safe]
    exact filter_map_equiv _ _ _ (fun a => by rw [contains_map_equiv]) _
  · rfl

end sa

end Verif
