import Verif.Model.Reduce
/-!
# `sampling.py`: jobs, errors, saved samples

Simulations are oracles: a function from the model and the case to a result or an exception
(`Sims`).  Saved files are tables of numbers, one list per line; `%.18e` round-trips binary64
numbers, so reading gives back the numbers written.  A write is a sequence of events (truncate,
append one row), so that a crash is a prefix of that sequence.  Logging is left out.
-/
namespace Verif

/-- the literal `0.1` of python (`pymars.py:89`, `sampling.py:939`), a binary64 number -/
def float01 : ℚ := rnd754 (1 / 10)

/-- the literal `0.05` of python (`simulation.py:487`) -/
def float005 : ℚ := rnd754 (1 / 20)

/-! ### `sampling.py:284-305`: errors -/

/-- numpy broadcasting of two one-dimensional arrays: equal lengths, or one of length 1 -/
def broadcast (a b : List PyF) : Except Err (List (PyF × PyF)) :=
  if a.length = b.length then .ok (a.zip b)
  else match a, b with
  | [x], _ => .ok (b.map (fun y => (x, y)))
  | _, [y] => .ok (a.map (fun x => (x, y)))
  | _, _ => .error .valueError

/-- `np.max` of a one-dimensional array; raises on an empty one, propagates NaN -/
def npMax : List PyF → Except Err PyF
  | [] => .error .valueError
  | x :: xs => .ok (xs.foldl PyF.nmax x)

/-- `|o - t| / o` (`sampling.py:300`) -/
def relDev (p : PyF × PyF) : PyF := ((p.1.sub p.2).abs).div p.1

/-- `sampling.py:284-305`: `calculate_error`. -/
def calculateError (orig test : List PyF) : Except Err PyF :=
  match broadcast orig test with
  | .error e => .error e
  | .ok ps =>
  match npMax (ps.map relDev) with
  | .error e => .error e
  | .ok m =>
  if test.any (fun t => t.eq (.fin 0)) then .ok (.fin 100) else .ok ((PyF.fin 100).mul m)

/-! ### `sampling.py:209-281`: running jobs -/

/-- python `d[k] = v`: replace in place or append -/
def dictSet {α} (d : List (Nat × α)) (k : Nat) (v : α) : List (Nat × α) :=
  if d.any (fun p => p.1 == k) then d.map (fun p => if p.1 == k then (k, v) else p)
  else d ++ [(k, v)]

/-- python `d[k]` -/
def dictGet {α} (d : List (Nat × α)) (k : Nat) : Except Err α :=
  match d.find? (fun p => p.1 == k) with
  | some p => .ok p.2
  | none => .error .keyError

/-- the comprehension at `sampling.py:235` over `{idx: result}` dictionaries -/
def mergeResults {α} (rs : List (Nat × α)) : List (Nat × α) :=
  rs.foldl (fun d p => dictSet d p.1 p.2) []

/-- a worker on one job `[sim, idx]`: the result keyed by the identifier -/
def runJob {κ α} (worker : κ → Except Err α) (job : κ × Nat) : Except Err (Nat × α) :=
  match worker job.1 with
  | .ok r => .ok (job.2, r)
  | .error e => .error e

/-- `[worker(job) for job in jobs]`: stops at the first exception -/
def serialMap {κ α} (f : κ → Except Err α) : List κ → Except Err (List α)
  | [] => .ok []
  | x :: xs =>
      match f x with
      | .error e => .error e
      | .ok r =>
      match serialMap f xs with
      | .error e => .error e
      | .ok rs => .ok (r :: rs)

/-- state of `multiprocessing.pool.MapResult`: one slot per job and the first exception to
arrive -/
structure PoolState (α : Type) where
  slots : Nat → Option α
  failed : Option Err

/-- job number `i` completes -/
def poolStep {κ α} (f : κ → Except Err α) (jobs : List κ) (st : PoolState α) (i : Nat) :
    PoolState α :=
  match jobs[i]? with
  | none => st
  | some j =>
  match f j with
  | .ok r => { st with slots := fun k => if k = i then some r else st.slots k }
  | .error e => { st with failed := st.failed.or (some e) }

/-- `pool.map` with completion order `order` (chunks of one job): all jobs run; then the first
exception to arrive is raised, or the slots are returned in job order. -/
def poolMap {κ α} (f : κ → Except Err α) (jobs : List κ) (order : List Nat) :
    Except Err (List α) :=
  let st := order.foldl (poolStep f jobs) ⟨fun _ => none, none⟩
  match st.failed with
  | some e => .error e
  | none => .ok ((List.range jobs.length).filterMap st.slots)

/-- `sampling.py:209-235`: `_run_workers` on the jobs `[sim(case), idx]` built by the callers
with `enumerate`.  `multiprocessing.Pool` refuses fewer than one process. -/
def runWorkers {κ α} (worker : κ → Except Err α) (cases : List κ) (threads : Int)
    (order : List Nat) : Except Err (List (Nat × α)) :=
  let jobs := cases.zipIdx
  let results :=
    if threads = 1 then serialMap (runJob worker) jobs
    else if threads < 1 then .error .valueError
    else poolMap (runJob worker) jobs order
  match results with
  | .error e => .error e
  | .ok rs => .ok (mergeResults rs)

/-- `results[idx] for idx in range(len(results))` -/
def orderedResults {α} (d : List (Nat × α)) : Except Err (List α) :=
  serialMap (dictGet d) (List.range d.length)

/-- `sampling.py:265-281`: `_run_metric_jobs`; a metric is already flattened by
`np.atleast_1d`. -/
def runMetricJobs {κ} (worker : κ → Except Err (List PyF)) (cases : List κ) (threads : Int)
    (order : List Nat) : Except Err (List PyF) :=
  match runWorkers worker cases threads order with
  | .error e => .error e
  | .ok d => (orderedResults d).map List.flatten

abbrev Row := List PyF

/-- `np.array(rows)`: rows of different lengths are refused -/
def rectangular (rows : List Row) : Bool :=
  match rows with
  | [] => true
  | r :: rs => rs.all (fun x => x.length == r.length)

/-- `sampling.py:238-262`: `_run_sampling_jobs`. -/
def runSamplingJobs {κ} (worker : κ → Except Err (List PyF × List Row)) (cases : List κ)
    (threads : Int) (order : List Nat) : Except Err (List PyF × List Row) :=
  match runWorkers worker cases threads order with
  | .error e => .error e
  | .ok d =>
  match orderedResults d with
  | .error e => .error e
  | .ok rs =>
  let data := (rs.map (·.2)).flatten
  if rectangular data then .ok ((rs.map (·.1)).flatten, data) else .error .valueError

/-- `sampling.py:404-405, 547-548`: the number of processes used -/
def resolveThreads (threads : Int) (cpus : Nat) : Int :=
  if threads = 0 then (if (cpus : Int) - 1 = 0 then 1 else cpus - 1) else threads

/-! ### saved files -/

/-- the three phenomena -/
inductive Kind where
  | ign | psr | flame
deriving DecidableEq

/-- `sampling.py:13-20`: the six files of the working directory -/
structure SaveFile where
  kind : Kind
  output : Bool
deriving DecidableEq

/-- content of the working directory -/
abbrev Disk := SaveFile → Option (List Row)

/-- what `np.genfromtxt` returns: its dimension depends on the content -/
inductive Arr where
  | d0 (x : PyF)
  | d1 (xs : List PyF)
  | d2 (rows : List Row)
deriving DecidableEq

/-- `np.genfromtxt(file, delimiter=",")`: lines of different lengths raise; single rows and
single columns are squeezed; an empty file gives an empty one-dimensional array (with a
warning). -/
def genfromtxt (rows : List Row) : Except Err Arr :=
  match rows with
  | [] => .ok (.d1 [])
  | r :: rs =>
      if rectangular rows then
        (match r, rs with
        | [x], [] => .ok (.d0 x)
        | _, [] => .ok (.d1 r)
        | [_], _ => .ok (.d1 rows.flatten)
        | _, _ => .ok (.d2 rows))
      else .error .valueError

/-- `np.atleast_1d(a)`, flattened.  Simplification: pyMARS writes metrics files with one number
per line, for which nothing is flattened; a metrics file of several lines and several columns
would not behave as modelled. -/
def Arr.flat : Arr → List PyF
  | .d0 x => [x]
  | .d1 xs => xs
  | .d2 rows => rows.flatten

/-- `a.shape[0]` and `a.shape[1]` -/
def Arr.shape0 : Arr → Except Err Nat
  | .d0 _ => .error .indexError
  | .d1 xs => .ok xs.length
  | .d2 rows => .ok rows.length

def Arr.shape1 : Arr → Except Err Nat
  | .d2 (r :: _) => .ok r.length
  | _ => .error .indexError

/-- one elementary effect of `np.savetxt` -/
inductive Ev where
  | truncate (f : SaveFile)
  | row (f : SaveFile) (r : Row)

def applyEv (d : Disk) : Ev → Disk
  | .truncate f => fun g => if g = f then some [] else d g
  | .row f r => fun g => if g = f then some ((d f).getD [] ++ [r]) else d g

def applyEvs (d : Disk) (evs : List Ev) : Disk := evs.foldl applyEv d

/-- `np.savetxt(file, rows)`: the file is truncated, then the rows are written in order -/
def savetxt (f : SaveFile) (rows : List Row) : List Ev :=
  .truncate f :: rows.map (.row f)

/-- the simulations of one phenomenon: `run` is the sampling worker (`sampling.py:75-102,
125-142, 165-186`), `metric` the metric-only worker (`sampling.py:105-122, 145-162, 189-206`);
`rows` sampled states and `mets` metrics per case -/
structure Sims (κ : Type) where
  kind : Kind
  rows : Nat
  mets : Nat
  run : Mech → κ → Except Err (List PyF × List Row)
  metric : Mech → κ → Except Err (List PyF)

/-- number of processes, of processors, and completion orders of the pools -/
structure Par where
  threads : Int
  cpus : Nat
  order : Kind → Nat → List Nat

def Par.eff (p : Par) : Int := resolveThreads p.threads p.cpus

/-- result of the reading half of `sample`: saved samples to reuse, none, or an exception -/
inductive Cached where
  | hit (metrics : List PyF) (data : List Row)
  | miss
  | fail (e : Err)
deriving DecidableEq

/-- `sampling.py:556-574, 608-623, 653-671`: read both files, compare the number of cases (the
division by the number of rows per case is taken as exact) and the number of columns. -/
def readCache {κ} (S : Sims κ) (m : Mech) (n : Nat) (d : Disk) : Cached :=
  match d ⟨S.kind, false⟩, d ⟨S.kind, true⟩ with
  | some dat, some out =>
      (match genfromtxt out with
      | .error e => .fail e
      | .ok o =>
      match genfromtxt dat with
      | .error e => .fail e
      | .ok a =>
      match (if o.flat.length = S.mets * n then
              (a.shape0).map (fun k => decide (k = S.rows * n)) else .ok false) with
      | .error e => .fail e
      | .ok matchesNumber =>
      match a.shape1 with
      | .error e => .fail e
      | .ok c =>
      match a with
      | .d2 rows =>
          if matchesNumber && decide (c = 2 + m.nSpecies) then .hit o.flat rows else .miss
      | _ => .miss)
  | _, _ => .miss

/-- result of sampling one phenomenon, the writes, and whether simulations were started -/
structure PartResult where
  result : Except Err (List PyF × List Row)
  evs : List Ev
  simulated : Bool

/-- `sampling.py:550-598, 602-645, 647-700`: one phenomenon of `sample`: nothing without cases;
reuse; or simulate, then save the data, then the metrics. -/
def samplePart {κ} (S : Sims κ) (m : Mech) (cases : List κ) (p : Par) (d : Disk) : PartResult :=
  if cases = [] then ⟨.ok ([], []), [], false⟩
  else match readCache S m cases.length d with
  | .fail e => ⟨.error e, [], false⟩
  | .hit ms rows => ⟨.ok (ms, rows), [], false⟩
  | .miss =>
  match runSamplingJobs (S.run m) cases p.eff (p.order S.kind cases.length) with
  | .error e => ⟨.error e, [], true⟩
  | .ok (ms, rows) =>
      ⟨.ok (ms, rows), savetxt ⟨S.kind, false⟩ rows ++ savetxt ⟨S.kind, true⟩ (ms.map ([·])), true⟩

/-- the simulators for the three phenomena -/
structure AllSims (ι π φ : Type) where
  ign : Sims ι
  psr : Sims π
  flame : Sims φ

/-- the requested conditions -/
structure Conds (ι π φ : Type) where
  ign : List ι
  psr : List π
  flame : List φ

/-- `np.vstack` of the non-empty data arrays: the column counts must agree -/
def vstack (l : List (List Row)) : Except Err (List Row) :=
  if rectangular (l.filterMap List.head?) then .ok l.flatten else .error .valueError

/-- `sampling.py:505-711`: `sample` on the loaded model. -/
def sample {ι π φ} (S : AllSims ι π φ) (m : Mech) (c : Conds ι π φ) (p : Par) (d : Disk) :
    PartResult :=
  let a := samplePart S.ign m c.ign p d
  match a.result with
  | .error e => ⟨.error e, a.evs, a.simulated⟩
  | .ok (ms1, r1) =>
  let d1 := applyEvs d a.evs
  let b := samplePart S.psr m c.psr p d1
  match b.result with
  | .error e => ⟨.error e, a.evs ++ b.evs, a.simulated || b.simulated⟩
  | .ok (ms2, r2) =>
  let d2 := applyEvs d1 b.evs
  let f := samplePart S.flame m c.flame p d2
  match f.result with
  | .error e => ⟨.error e, a.evs ++ b.evs ++ f.evs, a.simulated || b.simulated || f.simulated⟩
  | .ok (ms3, r3) =>
      ⟨(vstack [r1, r2, r3]).map (fun rows => (ms1 ++ ms2 ++ ms3, rows)),
        a.evs ++ b.evs ++ f.evs, a.simulated || b.simulated || f.simulated⟩

/-- `sampling.py:407-435, 439-464, 466-497`: one phenomenon of `sample_metrics`.  `init` is the
array used when nothing is read: zeros for ignition and flames, empty for reactors. -/
def metricsPart {κ} (S : Sims κ) (init : Nat → List PyF) (m : Mech) (cases : List κ) (p : Par)
    (reuse : Bool) (d : Disk) : Except Err (List PyF) :=
  if cases = [] then .ok []
  else
    match (if reuse then
            match d ⟨S.kind, true⟩ with
            | some rows => (genfromtxt rows).map Arr.flat
            | none => .ok (init cases.length)
          else .ok (init cases.length)) with
    | .error e => .error e
    | .ok cur =>
    if reuse && decide (cur.length = S.mets * cases.length) then .ok cur
    else runMetricJobs (S.metric m) cases p.eff (p.order S.kind cases.length)

/-- `sampling.py:358-502`: `sample_metrics` on the loaded model. -/
def sampleMetrics {ι π φ} (S : AllSims ι π φ) (m : Mech) (c : Conds ι π φ) (p : Par)
    (reuse : Bool) (d : Disk) : Except Err (List PyF) :=
  match metricsPart S.ign (fun n => List.replicate n (.fin 0)) m c.ign p reuse d with
  | .error e => .error e
  | .ok a =>
  match metricsPart S.psr (fun _ => []) m c.psr p reuse d with
  | .error e => .error e
  | .ok b =>
  match metricsPart S.flame (fun n => List.replicate n (.fin 0)) m c.flame p reuse d with
  | .error e => .error e
  | .ok f => .ok (a ++ b ++ f)

/-- one phenomenon of `read_metrics` (`sampling.py:327-353`) -/
def readPart {κ} (kind : Kind) (cases : List κ) (d : Disk) : Except Err (List PyF) :=
  if cases = [] then .ok []
  else match d ⟨kind, true⟩ with
  | some rows => (genfromtxt rows).map Arr.flat
  | none => .error .systemError

/-- `sampling.py:308-355`: `read_metrics`. -/
def readMetrics {ι π φ} (c : Conds ι π φ) (d : Disk) : Except Err (List PyF) :=
  match readPart .ign c.ign d with
  | .error e => .error e
  | .ok a =>
  match readPart .psr c.psr d with
  | .error e => .error e
  | .ok b =>
  match readPart .flame c.flame d with
  | .error e => .error e
  | .ok f => .ok (a ++ b ++ f)

end Verif
