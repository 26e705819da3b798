# Formal model of pyMARS: design

Source: `/repo/src/pymars` (python, read as text, never run).  Prover: Lean 4.33.0 with
the pre-installed Mathlib.  Model in `lean/Verif/Model`, independent specifications in
`lean/Verif/Spec`, helper lemmas in `lean/Verif/Lemmas`, property theorems (one file per
group of properties, theorem names start with the property id) in `lean/Verif/Props`.

## 1. Trusted base

* Lean's kernel, and the axioms `propext`, `Classical.choice`, `Quot.sound` at most.
  No axiom of our own, no `sorry`, no `native_decide`, no compiler trust.
* The reading of the python source: each model definition cites the file and lines it
  models and states what it simplifies.
* What is **not** modelled and therefore trusted or left abstract:
  * Cantera (thermodynamics, kinetics, reactor and flame integration): represented by
    arbitrary functions or arbitrary traces, over which the theorems quantify.
    Simulating the same model twice is assumed to give the same answer (an error
    function of the model), stated as part of the model of the reduction loops.
  * `cantera.Solution.write_yaml` followed by loading: a loss-free round trip.
    A file's content is the model it holds.
  * numpy / networkx primitives: modelled by their documented meaning (element-wise
    arithmetic, `argmin` = first minimum, `dfs_preorder_nodes` = iterative DFS,
    stable `sorted`, `isclose`).  `list(set(x))` has unspecified order: only membership
    and absence of repetition are modelled.
  * HDF5/PyTables files, logging, signal handling; of reading YAML text the scanner, anchors, tags and merge keys (resolvers and constructors are modelled, `Model/Yaml`).  argparse is
    modelled for the options in use (`Model/Argparse`).
  * The axioms of each property theorem are listed in `AXIOMS.md`.
* Numbers.  Interaction matrices use exact rationals (`ℚ`) and, in `Model/MatrixRound`, any rounding
  operator applied after each operation, in the order numpy adds columns.  Metrics and errors use an extended type (`fin q`, `±inf`, `nan`) with IEEE
  comparison rules.  Thresholds are modelled both exactly and with a computable
  binary64 rounding operator (`rnd64`: round to nearest even, 53 bits, no overflow/underflow; `rnd754`: the same with
  gradual underflow);
  the loop takes the rounding operator as a parameter.  The path search takes the
  multiplication as a parameter, so that its theorem also covers rounded multiplication.
* Exceptions are values (`Except Err α`), with the state of the file system at the time
  of the exception where file effects matter.

## 2. Modelling by file

| file | model | what is kept |
|---|---|---|
| `reduce_model.py` | `Model/Trim` | species with opaque data, reactions with reactants, products, optional third body (default efficiency, efficiencies), opaque rate; labels for transport model, state and equation of state (kinetics always `bulk`) |
| `drg.py`, `drgep.py`, `pfa.py` matrices | `Model/Matrix` | every array operation, including in-place mutation of views in PFA (as a sequential state update) |
| `graph_search`, `trim_drg`, `trim_pfa` | `Model/Graph` | adjacency by index, iterative DFS with explicit stack and visited set |
| `mod_dijkstra` and callers | `Model/Dijkstra`, `Model/Importance` | heap as a multiset popped at its minimum (value, counter), `dist`, `seen`, `cutoff`, `target` |
| `reduce_*`, `run_*` | `Model/Reduce` | the loops as step functions with fuel; world = file system + shared limbo list |
| `run_*` from conditions to result | `Model/EndToEnd` | `fullRun`: sampling, workers, matrices, loop and errors composed; Cantera (trajectories, curves, flames, rates) is the only oracle; an exception while a candidate is simulated ends the run, as in the code |
| `main` from conditions to result | `Model/FullMain` | `fullMain`: both stages composed with the same oracle; without a known method the first stage is skipped |
| input files | `Model/Yaml`, `Model/ParseDyn` | `pymars.py:379-382` with PyYAML's resolvers and constructors (`yaml/resolver.py`, `yaml/constructor.py`), and `parse_inputs` over values of any type |
| the program | `Model/Program` | `__main__.py:8-15`, `pymars.py:293-407`: from the arguments of the process to the files it leaves, composing `Model/Argparse`, `Model/Parse` and `Model/FullMain`; YAML reader, Chemkin conversion, names of temporary directories, number of processors and order of completion are arbitrary; a step limit that is no integer is rounded down; an infinite or undefined upper threshold counts as none; text given for a list of species is the list of its characters |
| `sensitivity_analysis.py` | `Model/SA` | both algorithms, list mutation, file writes and deletes; arithmetic as a parameter (`Model/SARound`) |
| `sampling.py` | `Model/Sampling`, `Model/Parse` | `calculate_error`, cache logic over an abstract file system, jobs, input parsing; the text of the saved files, character by character (`Model/SaveText`) |
| `simulation.py` | `Model/Simulation` | profile sampling, both ignition loops over an abstract trajectory, flame and PSR detection |
| processes at the same time | `Model/Concurrent`, `Model/ConcurrentMain`, `Model/DataFiles` | the stages as programs of file operations (load, write, remove, delete a directory) that run alone, interleaved with another program, or one per job; run alone they do what the functions of `Model/Reduce`, `Model/SA` and `Model/Main` do |
| model files with several phases | `Model/Phases` | the same programs on files that hold a list of phases |
| `psr_solver.py` | `Model/Psr`, `Model/PsrCase` (the call from `simulation.py`) | damped Newton with line search, core residual and Jacobian, fixed-time solve, arc-length continuation; gas properties, linear solver and SVD tangent are parameters |
| `pymars.py`, `__main__.py` | `Model/Parse`, `Model/Main`, `Model/Argparse` | `parse_inputs`, `main`, the argument parser, `pymars(argv)` and the entry point |
| `tools.py`, `soln2ck.py`, `soln2yaml.py` | `Model/Tools`, `Model/Ck` | comparison, naming, Chemkin text character by character (`Model/Format`: `%`-style number formatting) |

## 3. Per-property plan

"Refuted" = the property is false of the code; the negation is proved with a concrete
witness, and the part that does hold is proved under the suffix `_partial`.

| id | plan |
|---|---|
| C01–C04 | `trim` on lists; specification by membership/filter of the *input*, proved by list lemmas for all inputs |
| C05 | refuted by a reaction with zero default efficiency and two colliders; partial: holds when no reaction has zero default efficiency and ≥ 2 efficiencies |
| C06–C09 | matrices over ℚ as functions on `Fin n`; code-shaped definitions versus formula with `Finset.sum` and explicit side conditions |
| C10 | DFS with stack: invariant (visited closed under edges except through the stack) and a decreasing measure; spec = `Relation.ReflTransGen` |
| C11 | composition with C10; monotonicity from the edge relation |
| C12 | generic linearly ordered weights with abstract multiplication; invariants: every `seen`/`dist` value is realised by a walk, edges are relaxed once the fringe is empty; termination because `seen` values strictly increase within a finite set of simple-walk products |
| C13, C14 | refuted by concrete graphs (every cutoff, for all graphs, in the case of C13); partial: what is still true (lower bound, value realised by a path) |
| C15 | invariant that the heap holds exactly one ever-growing entry for a two-cycle away from the source, for all step counts; a two-cycle through the source is shown to stop |
| C16, C17 | from C12 by maximum over lists |
| C18 | monotone families of sets with equal cardinality are equal |
| C19–C25 | loop invariant on `(threshold, previous, first)`, parametrised by rounding; file system invariants; explicit step counts |
| C20 (DRGEP) | above threshold one the candidate no longer changes, so the loop cannot leave there; the run of binary64 thresholds up to one is followed with a proved closed form within each binade, which bounds the last back-step by one |
| C26 | exact arithmetic: proved; binary64: witness found by evaluating the rounding operator in the kernel |
| C27 | refuted by a two-species graph; partial: limbo ⊆ reduced model |
| C28 | refuted by two successive runs; partial: first run in a process |
| C29–C32 | loop invariant over the SA loop; C31 refuted; the empty list case |
| C33, C34 | refuted (zero baseline; missing path), partial theorems for the cases that work |
| C35–C37 | abstract file system with saved arrays; C36 refuted (stale cache); C37 crash points as prefixes of the write sequence |
| C38 | results sorted back by index: equality for every permutation |
| C39–C41 | list layout; extended arithmetic |
| C42 | fold over profile points versus greedy specification |
| C43–C47 | traces as functions of the step number with an optional failure |
| C48–C51 | decision procedure of the parser versus declarative well-formedness; dispatch by cases; C51 refuted for DRG + SA |
| C52, C53 | sort by key is canonical for distinct keys; C52 refuted for duplicate equations, C53 by rtol·|b|; partial theorems |
| C54–C59 | strings as `List Char`; padding/wrapping lemmas; C58 refuted for long equations |
| C60–C63 | solver loops over an arbitrary ordered field, residual, root finder and linear solver; loop invariants on residual norms, residence times and step sizes; C60 also exact on affine systems; C62 refuted in part (the branch never ends at the extinction point; swapped seeds), C63 refuted in part (`ds_max` does not bound the first step) |
| C64 | `HasDerivAt` over ℝ along every smooth path, for physical and scaled unknowns, from the ideal gas law and given derivatives of kinetics and enthalpies |
| C65, C66 | file naming; NamedTuple assignment raises |
| C67 | `reducePfa` symbolic evaluation of both branches |
| C69 | the saved column is read back by `genfromtxt` for every length |
| C68 | loop never entered; refuted for DRG (the back-step branch runs) |
| C70 | file-system invariant through both loops; `TemporaryDirectory` names are arbitrary fresh directories |
| C71 | refuted (NaN passes `error > error_limit`); partial theorem when no evaluation gives NaN |
| C72 | greedy specification with exact levels; refuted in binary64 for every profile between two given temperatures |
| C73 | agreement of the recording and the metric-only loops, linked to the error measure |
| C74 | file state returned with the result; refuted when nothing ignites |
| C75 | Conditions as dynamic dictionaries; `_setup_gas` on the parsed record. Compose with the characterisation of accepted conditions (C48). |
| C76 | `targets` as a list or a single text, iteration and `in` as in python. Refuted for a text; for lists it is C49. |
| C77 | The command line with two argument lists, that of the call and that of the process. Refuted: only the emptiness of the first matters (`C77_argv_refuted`, `C77_process_refuted`). Where both agree: every spelled list of settings leads to the action it asks for (`C77_same_partial`), through C82. |
| C78 | `compareModels` true gives a correspondence of species and reactions with near numbers (`_partial`); reversibility and orders are not compared, so flipping them is unnoticed (`_refuted`). |
| C79 | words of `transportLine`; each word read back with `Spec.readNum`. |
| C80 | universally quantified: changing `orders` or `third.dflt` leaves the text unchanged (`_refuted`). `C80_written_partial`: two reactions written alike agree in kind, duplicates, efficiencies of species in the model and all numbers up to the digits printed; the lines after the main one are told apart by their first word. |
| C81 | the first coefficient reads back as itself and not as itself plus `3(n-1)` (`_refuted`); every other coefficient, and the first of an order-one reaction, is in its place (`C81_others_partial`). |
| C82 | argparse (CPython 3.11) for the declared options as two passes, tokenise and consume (`Model/Argparse.lean`). The spellings are an inductive relation over option names; induction over the list of settings. The model was compared with CPython's argparse on 3000 random argument lists. |
| C83 | `__main__.main` with optional arguments. Refuted when given; with none, C77's positive part applies. |
| C84 | `Model/MatrixRound`: the matrix functions with a rounding after every operation; range by monotonicity of rounding (skipping a term = adding zero), then C16 for rounded products |
| C85 | relative-error induction over the sums; edges from the bound; scaling by induction |
| C86 | invariant beside that of C12: the recorded path is simple and worth at least the value seen; the recorded predecessors attain the value seen, and every treated edge that attains it is recorded |
| C87 | refuted: exact condition for the path of the source, and families of graphs for the other parts |
| C88 | `runMain` with both stages: the course of the sensitivity analysis (Spec/SA) started from the file the method stored; error bound from C19 with exact thresholds. |
| C89 | `fullRun` composes the models of sampling, workers, matrices, loop and error; only Cantera stays an oracle. The returned model's error is `calculate_error` of its metrics (C19); an error below 100 forces every metric to be a number, non-zero and near (C40, C41); the layout of the metric vectors (C39) assigns them to the conditions; the workers (C43, C44, C46, C47) turn them into statements about trajectories, flames and curves. |
| C90 | `fullRun` with two process settings: job results agree up to the exception raised (C38), so sampling, the loop's context and hence the whole run agree. |
| C91 | The saved samples reproduce the sampled states (C35), so the second run has the same loop context; the loop's outcome is characterised by that context alone (C19), independent of the files present. |
| C92 | C20, C21 and C22 applied to the context that `fullRun` builds; sampling one condition gives at least one matrix. |
| C93 | `fullMain` composes `fullRun`'s contexts with the sensitivity stage; C88 gives the error of the final model against the sampled metrics, and the workers relate these metrics to the simulations (as in C89). |
| C94 | The saved metrics are absent, so the baseline consists of zeros (C33) and simulated reactor metrics; an error against a zero is 100, infinite or NaN, and C29 shows that a model that was accepted has an error not above the limit. `Props/AloneRound`: in any arithmetic a starting metric of zero makes every computed deviation infinite or undefined. |
| C95 | `runMethodS` runs the loop with a simulation that may raise. The run that reaches a raising candidate is followed to the raise (`runMethodS_raises`), which refutes the property for every method, setting, number of accepted candidates and arithmetic; kept: a returned model was simulated, other files are untouched. |
| C96 | `Spec/Load` states when Cantera accepts a model, for any assignment of orders, duplicate flags, reversibility and type to the opaque rates. `trim` is characterised exactly (iff): the two ways to fail are orders in removed species and duplicates whose partners are dropped with their sole collider; both occur (refuted), and no other failure is possible. |
| C97 | Compose the argument parser (C82), `parse_inputs` (C48, C49) and the whole run (C89, C92, C93) into one function `program`; a method alone keeps all promises; with sensitivity analysis the limit and the files are kept, protected species are kept after PFA and DRGEP, and are lost after DRG whenever the simulations do not depend on strongly linked species |
| C98 | Characterise success of the model of `parse_inputs` by a specification taken from the documentation; refute the two places where they differ: keys without a value (`TypeError`) and the unchecked type of sensitivity analysis (any other text runs as `initial`). `C98_file` carries this over to documents: reading one whose values have the documented types (model of C131) gives the values or the exception of the typed model |
| C99 | Compare the starting threshold and the number of accepted steps of the two runs (`C19_returned`) and use that a smaller threshold keeps more; with exact thresholds the finer grid of the tighter run passes through every coarser start. Refute it for binary64 thresholds, where it does not, and prove it there for runs from the same start |
| C100 | The species kept at each threshold are characterised by membership only (C11, C16); two settings with the same candidates at every threshold have the same outcome after the same number of iterations (`run_same_kept`) |
| C101 | Monotonicity of the species kept at one threshold, from the membership characterisations; refute it for whole runs, where a retained species can lower the error of candidates and so allow a larger threshold |
| C102 | Prove the converse of C32 (the specified course is followed, `C32_followed`); a course on which one species is clearly nearest at every step is followed from every order. Refute it with ties |
| C103 | Two runs are compared step by step (`Lemmas/OrderStep`): same files, same model, or exceptions on both sides. The error is a maximum, so it depends on which pairs of metrics are compared only (`Lemmas/CondOrder`). False when samples of an earlier run are in place: refuted by a run whose repetition with exchanged conditions returns the unreduced model with an error of 100 percent. |
| C104 | reader of the columns (`Spec.readThermo`), NASA polynomials over ℝ with `Real.log`; error bound term by term (`_partial`: two ranges of seven coefficients, fields that fit); other parametrizations and more than four elements are written without complaint (`_refuted`). |
| C105 | the curve tracer of C60-C63 with the default arguments feeds the simulation class of C47 and the error of C40; the metrics, rows and error are characterised for every gas |
| C106 | Two models whose lists are permutations of each other are compared. `Spec.SameChem` matches coefficients and rates by name. The closed forms of the three matrices (C06 to C08) are reindexed along the two bijections. Reachability and best path products depend only on coefficients by name, so the same species are kept at each threshold, candidates are permutations of each other, and the characterisation of the search (C19, C26) gives the same threshold. Two refutations compute binary64 runs. |
| C107 | `Model/MatrixRound` evaluates the matrices with a rounding after each operation. `Spec.Rounds rnd u` says that a rounding has relative error at most `u`; binary64 has it with `u = 1/2^53`. The error is carried through the sums, products and quotients of the three matrices (relative for DRG and PFA, whose sums have no cancellation beyond the net rates already given, absolute for DRGEP, whose sums have signs). `Spec.KeptPublished` selects species with the published coefficients; paths without repetition have at most `n` edges, which gives the slack for path products. A refutation computes two DRGEP matrices in which an edge is lost and one is invented. |
| C108 | The characterisation of the threshold search (C19) names the threshold whose candidate is returned. The candidate holds the species reachable in the matrices of the end-to-end context (C89), which are the binary64 matrices of the sampled states; C107 compares them with the published coefficients. The command adds the reading of the input file (C97). |
| C109 | `Spec.Table` describes metrics and states directly from the cases of the input file, with `Spec.Means` for the number a YAML value stands for, `Spec.Trajectory` for the recorded part of a simulation and `Spec.Sampled` for the twenty states. The parser results of C48, the loop invariants of C43 to C45 and a rounding analysis of the levels give the table; C108 gives the species. |
| C110 | `Spec.PublishedSearch` and `Spec.ClearSearch` speak of the published coefficients and of exact thresholds only. The rounding bounds of C107 are joined with bounds on the accumulated thresholds (each addition costs one rounding) and on the final one (C26), which gives equal candidates at every threshold of the search; C19 and C89 do the rest. |
| C111 | `rnd754` rounds to 53 bits or to a multiple of 2^-1074, whichever is coarser. Multiples of 2^-1074 are closed under addition and multiplication by integers, and the two roundings agree on them, so all sums of rates agree with those of `rnd64`; quotients and products differ below 2^-1022 only, where no threshold lies. Values are compared by `Same` (equal, or both below 2^-1022). Refutations for fractional coefficients. |
| C112 | Iterations are the fuel of `modDijkstra`. Upper bound: the termination measure of C12 is bounded by the number of values of walks with at most N+1 edges. Lower bound: `Spec.isoChem n` is a ladder in which the detour over `Uk` is slightly better than the direct step to `Vk+1`; the direct step has the smaller value, so everything behind `Vk+1` is explored before the detour is, and then again. Induction over the levels with an invariant on `dist`, `seen` and the queue (`Lemmas/Cost`); entries of the matrix and adjacency lists are computed from the rates (`Lemmas/CostChem`, `CostLadder`); rounding errors stay below the advantage of the detours (`CostRun`). |
| C113 | `NoGain` and `AwayWalk` (Spec/Away) speak about walks only. Termination: values pushed belong to simple paths, because a path that meets a node again has gone round a cycle that does not gain; so the measure of C12 still decreases (`Lemmas/CycleGain`). Conversely a weak invariant without any assumption on the weights shows that the values are closed under the edges when the heap is empty (`Lemmas/Fixpoint`), which a gaining cycle contradicts. |
| C114 | `Model/MatrixOrder` has the three matrix functions with arbitrary summation routines for totals and parts, and numpy's two routines (`seqSum`, `pairSum`). `Spec.Sums` is the inductive relation of all orders of addition; both routines satisfy it. Error bounds by induction over `Sums` (`Lemmas/Summation`), then as in C107 (`Lemmas/MatrixOrder`). Non-termination from the fixpoint property of C113, which needs no bound on weights and holds for rounded products. |
| C115 | `Model/MatrixFloat` and `Model/RunFloat`: matrix functions, graph searches and run functions on floating-point numbers with infinities and NaN, rounding `R : ℚ → PyF` and `heappop` as parameters (`TakesOne`: takes out some entry; `TakesLeast`: on finite entries the least). One bad rate makes every row total NaN or infinite (`Lemmas/MatrixFloat`); the searches on such a matrix end and contribute nothing (`Lemmas/SearchFloat`); simulation of the rational run with zero matrices (`Lemmas/RunFloat`), then `run_same_kept`. |
| C116 | `Model/Convert`: the end `converted` of `program` (C97) followed by `convertAction` (C54), reading with Cantera as an oracle and `writeCk`, or `ck2yaml` as an oracle on the files. Names compared by their last component; a text that breaks off ends with a line end because every reaction's text does (`Lemmas/Convert`). |
| C117 | `Model/ErrorRound`: `calculate_error` with rounding after subtraction, division and multiplication (infinities included), and whole runs with it. Error bound through the maximum (`NearDev`), then two runs in lockstep: every comparison with the limit comes out the same (`Lemmas/ErrorStep`). The guarantee follows from C19 applied to the computed errors. |
| C118 | `Model/Repr`: Python's `repr` of a float, defined as the first number of digits for which one of the two neighbouring decimals rounds to the float (checked against CPython on 77711 floats outside the proofs). Seventeen digits are enough: the error is below a quarter of the last bit (`rnd754_near`), and a number that close rounds to the float. Shortest and closest by monotonicity of rounding. `C118_reaction_partial` carries this through the lines of a reaction; C80 now uses this function instead of an arbitrary injective one. |
| C119 | `Model/CkRound`: the functions of `Model/Ck` with a rounding after each operation and `1e3**x` as a parameter. What is written with rounded conversions is what exact conversions write for slightly different data (`adjRxn`, `rxn_adj`), so the lines are those of C59 and C79; the accuracy then follows from that of rounding and of the power function, in the real numbers (`rate_reads`). `ckAccurate_754`: binary64 has the accuracy assumed. |
| C120 | `Model/SARound`: the analysis of `Model/SA` with the rounded errors of C117 and a rounding after the subtraction of errors; all theorems of C29–C34, C70, C71 and C102 hold for it too, as they do not depend on the arithmetic. The course followed with rounding is turned into one that is right up to rounding (`NearCourse`, `course_near`); with clear choices the two runs go in lockstep, files included (`saLoop_rounded`). |
| C121 | `Model/MainRound`: `main` of C93 with the rounded errors of C117 in the method stage and those of C120 in the sensitivity stage. The stages are composed by C88, whose arithmetic is a parameter; the computed error of the returned model against the starting metrics then bounds the exact one. The lockstep statement starts the sensitivity stage from two errors that agree up to rounding (`runSA_same`). |
| C122 | `Model/SaveText`: `np.savetxt` with its default format `%.18e` and `np.genfromtxt` with a comma as delimiter, as functions between tables and lists of characters (sign, digits, point, exponent, blank lines, fields that are no number). 19 significant digits put the decimal within less than half a gap of the float (C76), so rounding returns it; `view_save` carries this to directories, C35 and C69 give the rest. |
| C123 | `Model/SaveText`: a save is a list of characters appended one by one to an emptied file; `diedAfter k` applies the first `k` of them. `view_take`: such a directory reads as one with whole files plus at most one file whose last line is cut. A cut data file, or a metrics file with fewer lines, has the wrong shape and is sampled again (C37); a metrics file cut in its last line has the right one. Refutations cut behind the `e` (no number: NaN) and before it (mantissa alone). Buffering makes such a cut rarer, but does not exclude it: nothing in the code writes to a temporary file and renames it. |
| C124 | `afterStart`, `afterGrid`: the file map after each iteration as a function of the candidates, by induction along `whileLoop` (`files_end`), for a start whose model file may be overwritten by its own full-size candidate; `redFile_inj`: different sizes have different names. |
| C125 | From the file maps of C124: a size met at a tried threshold ends as deleted or as that candidate (`afterGrid_at`, `afterStart_at`); other sizes are untouched. |
| C126 | `StillThere`: along the loop the model file holds the starting model, possibly rewritten under another phase name by the full-size candidate (trimming nothing from a closed model changes nothing else); `files_lost`: the iteration that deletes it, and the next one that fails to load it. |
| C127 | `Rewritten`: a map from the reactions of one description to those of the other with non-negative parts adding up to one. Sums of a positively homogeneous function of the rates agree (`Rewritten.sum`), hence P, C, the DRG and DRGEP formulas and both PFA orders. `asPair`: the sums gain the smaller of the two rates on both sides. For the species kept, a path from a target must leave the reaction over a small coefficient (DRG, PFA), or begin with one (DRGEP). |
| C128 | By induction along the course of C32: a greedy course ends because all re-evaluated errors exceed the limit, or because the nearest one does; in the second case any other error is at least as far from e, so it is above L or below 2e - L. The refutations follow the course for a start in which the nearest candidate exceeds the limit. |
| C129 | The run is written out as the list of its calls; that the list is complete is itself proved (C129_calls: a run is unaffected by the error of any model that no recorded call simulates). A call simulates a model if its outcome changes with the error of that model alone. The sizes of the candidates decrease along the thresholds and an equal size is taken from the previous model, so each simulation after the rejected ones removes a species. |
| C130 | Equivariance: every function of the model commutes with a bijection of names (membership, filters, graph searches and trimming), hence so do the loops of a run and the whole of main. For sensitivity analysis the file names inside the temporary directory contain species names, so the theorem goes through the course of the analysis (the sequence of removals) and gives the returned model up to the name of its phase, which pyMARS sets to a text with the last species tried. Directories are not modelled here; for names with a slash see C148. `C130_main_rounded` is the same for `fullMainR`, where data, thresholds and errors are rounded. |
| C131 | yaml.safe_load is modelled from the tree of nodes on: the implicit resolvers (regular expressions for bool, null, int, float and timestamp as recognisers over characters), the constructors (bases 2, 8, 10, 16 and 60, decimal floats by correct rounding, duplicate keys) and mappings; the scanner, anchors, tags and merge keys are not. parse_inputs and the parsers of the conditions are modelled again over values of any python type (Model/ParseDyn.lean), with TypeError from comparisons, iteration and the concatenation of messages. The value of a heading in an accepted document is followed through construction and checks. |
| C132 | Same model as C131. The dictionaries of the two documents differ in one entry; the checks see a dictionary only through its headings, so results are compared heading by heading. |
| C133 | Model/SACalls.lean writes the functions of Model/SA again, recording the models handed to sample_metrics in order. That the record is complete is the second half of the property (C133_calls): changing the metrics of any other model does not change the run. Bounds by induction on the passes through the loop, attained ones from the invariant of Lemmas/SA. |
| C134 | The record of C133. Models of different stages have different numbers of species, models of one evaluation lack different species. |
| C135 | Model of C131. The checks see a dictionary through the entries under thirteen headings, and a condition through eleven (Lemmas/ParseAlike.lean). |
| C136 | Model of C131. Permuted mappings give dictionaries with the same entries, and the checks see no more. The order of species in a composition, which is that of the retained species added for it, is left as it is. |
| C137 | Spec/Kinetics.lean defines rates of progress and production for an arbitrary law, with [M] the sum of efficiency times concentration over the species of the model. C137_rates and C137_production for any law, C137_leaks and C137_exact for mass action, C137_trajectories for solutions of the rate equations (HasDerivAt). |
| C138 | Model/Concurrent.lean: the functions of Model/Reduce written out as programs of file operations; run alone they do the same (C138_alone). Model/ConcurrentMain.lean: likewise `run_sa` and `main` (C138_main_alone), which also use temporary directories. A program touches only the model file and reduced_N.yaml in its directory, and these are disjoint for different directories. For one directory the interleavings are given for all cases. |
| C139 | Spec/Provenance.lean: `PartOf`, `OnlyWrites`, `Conserves`. An invariant of files that trimming preserves holds of everything a run writes (Lemmas/Provenance.lean); being a part is one. Conservation by the sum over species of the rates of C137. |
| C140 | Model/WrongType.lean: main up to the first comparison with a limit that is no number; wherever it ends otherwise, it agrees with the main of Model/FullMain (C140_same_partial). Documents as in C131 and C135, one entry replaced. |
| C141 | Model/ProgramDoc.lean: `programDoc`, the command of C97 with the document of the input file instead of a dictionary of typed values. Spec/ProgramDoc.lean: `Says`, `AsksFor`. Agreement with `program` by C98 on files, then C97 and C131. |
| C142 | Model/DataFiles.lean: `ignition_sample_worker` as a program of file operations, any number of programs under a schedule. Programs that work on one file each, all different, evolve as they do alone. The locks of HDF5, held while a file is open, are not modelled. |
| C143 | Model/Phases.lean: a second meaning of the programs of Model/ConcurrentMain, on files with any number of phases. A program that loads only the model file and files it has written itself, and writes only models with the name of the phase, does the same in both (`Safe`, `aloneIn_safe`). Cantera's choice of the phase (the first of that name) is an assumption. |
| C144 | `Mech.thermo` is an opaque label, set to that of an ideal gas by `trim`; invariants of the runs (`ideal_method`, `good_main`). `run_untouched` (Lemmas/FullStart) follows the loop while all species are kept. The hypotheses of C19, C89 and C93 that the full model behaves as itself when trimmed of nothing are discharged for ideal gases (C144_same_partial). |
| C145 | `fullMain_stages` splits a whole run into its stages (C88, C19); the limbo lists are those of C27 and C28; `stage_kept` passes to the published coefficients, with the bounds of C107 in binary64. |
| C146 | Model/TrimSoln.lean: `trimSoln`, trimming of solutions with all attributes that the converter reads, and `Soln.toMech`, which turns them into the models of Model/Trim with codes for data. Spec/ReducedChemkin.lean: `Remains`, `efficiencies`, `efficiencyText`. The writer visits entries one after the other, and the text of a reaction depends on the rest of the model only through the filter of efficiencies. |
| C147 | The programs of C138 are given a second meaning in which files below one directory cannot be written (`aloneGone`); a program that writes nothing there behaves as before (`gone_same`). Methods: induction over the threshold loop, whose candidates are never found again. Sensitivity analysis: all but the last write are in temporary directories. |
| C148 | `aloneGone` (C147) with the files deeper than the temporary directories missing. `evalLoopP` visits every candidate before anything is removed, and the one with a slash can never be loaded (`slash_evalLoopP`). Without slashes all writes are in directories that exist (`Writes`, `writes_same`). |
| C149 | `fullMainAmid` is `fullMain` with the saved samples changed before sensitivity analysis reads them. C36_stale_refuted and C88_two_stages lifted to whole runs; a run reads and writes only files of the phenomena it is asked for (`sample_asked`, `sample_files`). |
| C150 | Spec/Defaults.lean: `Restates` relates a document with one more entry to the one without it. Defaults are filled in by the parser, so that the inputs are the same, except for the least flame speed, which the parser leaves out and the simulation fills in: there the inputs differ and the simulations agree. The literals 0.1 and 0.05 are binary64 numbers, like the numbers read from the file. `C150_values` gives the default numbers as fractions, so that the constants of the model cannot be others. |
| C151 | `LibraryCall` has the arguments of `main` with its defaults, `SaysSame` relates it to an input file and options. `same_args` computes what the command passes on; the runs then differ in an empty method name only (`fullMain_noMethod`). The refutation takes C31_greedy_refuted and C31_initial_all to `fullMain` and `program`. For a species of a mixture that is not kept (`C151_mixture_refuted`) the command has it in its list of species to retain (`same_args_mixture`), whereas the first evaluation of the call tries to remove it. `C151_threshold_refuted` exhibits a request without an upper threshold. |

Nothing in the list is considered inexpressible.  What no model here can express:
physical correctness of Cantera, wall-clock behaviour and memory use.  The order in which
numpy adds is not fixed by its documentation; C114 ranges over all orders.

## 4. What is modelled, function by function

| function | model | not modelled |
|---|---|---|
| `reduce_model.trim` | `trim` | building the Cantera phase; source files |
| `create_drg_matrix`, `create_drgep_matrix`, `create_pfa_matrix` | `drgMatrix`, `drgepMatrix`, `pfaMatrix` with every in-place update; `drgMatrixR` … with rounding, also with gradual underflow; `matrixF` with infinities, NaN and overflow | infinite stoichiometric coefficients |
| `graph_search`, `trim_drg`, `trim_pfa` | `graphSearch`, `trimDrg`, `trimPfa` | |
| `mod_dijkstra`, `ss_dijkstra_path_length_modified`, `graph_search_drgep`, `get_importance_coeffs` | same names in camel case; with `paths` and `pred`: `modDijkstraX` in `Model/DijkstraPaths` | — |
| `reduce_drg/pfa/drgep`, `run_drg/pfa/drgep` | `reduceDrg` … `runMethod`, in exact arithmetic and binary64 with and without underflow | logging |
| `evaluate_species_errors`, `run_sa` | `Model/SA` | logging |
| `_run_workers`, `_run_sampling_jobs`, `_run_metric_jobs`, `calculate_error`, `read_metrics`, `sample_metrics`, `sample` | `Model/Sampling`, including crashes between file operations and any completion order of jobs; `calculate_error` with rounding and overflow: `Model/ErrorRound` | pickling of jobs |
| workers of `sampling.py` | `Model/Sampling` with the simulation as a parameter | |
| `parse_ignition_inputs`, `parse_psr_inputs`, `parse_flame_inputs`, `parse_inputs` | `Model/Parse` | keys of other types than text |
| `BaseSimulation._setup_gas`, `_sample_profile`, `IgnitionSimulation.run_case/calculate/process_results/clean`, flame and PSR detection | `Model/Simulation` over arbitrary trajectories | Cantera integration; HDF5 files hold the points written to them (`Model/DataFiles`), their format is not modelled |
| `psr_solver._damped_newton`, `_core_residual`, `_core_jacobian`, `trace_extinction_curve` | `Model/Psr` over an abstract gas and linear solver | floating-point rounding |
| `main`, `pymars`, `__main__.main` | `Model/Main`, `Model/Argparse` | messages |
| `compare_models`, `convert` | `Model/Tools`; from the command line to the files: `Model/Convert` | Cantera's Chemkin reader |
| `soln2ck.*`, `soln2yaml.write` | `Model/Ck`, `Model/Format` (number formatting), `Model/Repr` (`repr` of floats; a parameter where the theorem holds for every one), `Model/CkRound` (unit conversions with rounding), `textwrap.fill` | `1e3**x` is a parameter with a bound on its error |

## 5. Findings

Properties that the code does not have in full. Each is refuted by a theorem about the model
(`_refuted`), and the part that holds is proved beside it.

| id | property | finding |
|---|---|---|
| C05 | Trimming species one at a time equals trimming them together | False of the code (C05_staged_trim_refuted): a reaction with zero default efficiency and two colliders survives a joint trim but not a staged one. The partial theorem gives the exact condition under which it holds. |
| C101 | Asking for more never keeps less | Proved for a reduction at a given threshold (C101_threshold_partial). Refuted for whole runs of each method in both arithmetics: retaining a species may raise the accepted threshold, and another species is lost. |
| C102 | Sensitivity analysis does not depend on the order of the limbo species | Proved for analyses in which, at every step, one species is clearly nearest (C102_untied_partial). Refuted with ties, for both algorithms and every context: of two species at the same distance that cannot both be removed, the first one listed is removed (C102_ties_refuted). |
| C103 | The order in which conditions are listed does not matter to a reduction | False in a directory with the samples of an earlier run: with the conditions exchanged the saved metrics are compared with those of other conditions, and the run returns the unreduced model with an error of 100 percent (C103_rerun_refuted). Proved for every request for which no saved samples are usable (C103_request_partial). |
| C104 | Thermodynamic data survives conversion to Chemkin | False: parametrizations other than the two-range seven-coefficient NASA form, and species with more than four elements, are written without complaint but cannot be read back. Proved for all species whose data fits the columns. |
| C106 | The order in which a model file lists species and reactions does not matter | False in floating point: sums are rounded, so their order matters. Proved for exact arithmetic, and for DRG and DRGEP under any rounding if reactions keep their order. |
| C107 | Binary64 matrices are within a computable distance of the published coefficients | Binary64 without overflow and underflow. The claim about edges is false of DRGEP (refuted); the distances are proved for all three methods. |
| C111 | Rates below the normal range do not change a reduction, unless coefficients are fractions | False without the conditions (refuted: rates that round to zero). |
| C112 | The path search of DRGEP ends after a number of steps that grows moderately with the model | False as a polynomial bound (refuted for exact and binary64 arithmetic); an exponential bound is proved. |
| C114 | The order in which rates are added affects results by no more than rounding | The full claim is false for DRGEP with blockwise addition (C114_drgep_refuted); for DRG and PFA it is proved away from ties, for DRGEP away from ties as long as no computed coefficient exceeds one, and for the coefficients of all three methods without restriction. |
| C115 | A sampled state with infinite or undefined rates does not pass unnoticed | The claim is false: such states are ignored (C115_ignored_refuted, C115_no_overflow_refuted, C115_only_bad_refuted). C115_finite_partial proves the part that finite rates are treated as the rest of the model says. |
| C116 | The conversion command, from its arguments to the files it leaves | The last part of the claim is false (C116_failed_refuted, C116_replaced_refuted). Proved: the files written in both directions, nothing else changes, and no file with the name of the model file changes, whatever the outcome. |
| C117 | Rounding in the error measure does not change the outcome, unless an error is within rounding of the limit | The exact claim is false when an error is within rounding of the limit (C117_tie_refuted). Proved: the bound on the computed error, identical outcomes away from the limit, and the guarantee up to rounding. |
| C118 | Numbers written to Chemkin files without a format read back bit for bit | False of P-log pressures and Chebyshev pressure ranges (C118_pressure_refuted): the division by 101325 loses a bit. Proved of efficiencies, falloff parameters and temperatures; pressures to within two roundings. |
| C120 | Rounding does not change the outcome of sensitivity analysis, unless a choice is within rounding of a tie | The exact claim is false at ties (C120_tie_refuted). Proved: each step is right up to rounding, the limit holds up to rounding, and identical outcomes when choices are clear. |
| C123 | A process that dies while it saves samples does not corrupt later runs | Missing: the statement is false when the process dies inside the last metric's text (C123_undefined_refuted, C123_magnitude_refuted, for every set of ignition conditions; C123_analysis_refuted for the sensitivity analysis that follows; C123_method_refuted for the reductions that follow). Proved for every number of characters: otherwise a later call returns the undisturbed result, and at most one metric is replaced by what is left of its text. |
| C124 | A finished run leaves no other candidate in the output directory | Missing: the statement is false (C124_rejected_refuted, C124_exit_refuted, C124_retained_refuted, for every run of that kind). Proved: what each numbered file holds after a run, if the species to keep are all reached from the targets; nothing is left behind if the first start is also accepted. |
| C125 | A later reduction leaves the results of earlier ones in the directory alone | Missing: the statement is false (C125_lost_refuted, for every tried threshold of every run). Proved: a file whose size no tried threshold gives and that is not the size of the result is unchanged. |
| C126 | A reduced model can be reduced again in place | Missing: the statement is false if the file name carries another number (C126_misnumbered_refuted, for every such run). Proved (result, progress, starting model still there) whenever the number is the number of species. |
| C127 | How the reactions of a mechanism are written down does not matter | Missing: the statement is false when a reversible reaction is written as two irreversible ones (C127_pair_drg_refuted, C127_pair_vanishes_refuted, C127_pair_drgep_refuted, C127_pair_pfa_refuted for every such pair; C127_pair_kept_refuted, C127_pair_kept_pfa_refuted, C127_pair_kept_drgep_refuted and C127_pair_left_drgep_refuted for the species kept). Proved for parts in the same direction (exact arithmetic) and reversed reactions (every odd rounding). |
| C128 | Nothing is left that sensitivity analysis could remove | Missing: the statement is false (C128_nearest_refuted for both algorithms, C128_initial_refuted for `initial` from any starting error). Proved for greedy: exactly which species can be left over, and minimality when the error is at most half the limit. |
| C129 | The simulations of a reduction are bounded by the number of species | Missing: for DRG and PFA with a kept species that is not linked to a target the bound is false (C129_repeats_refuted: exactly one simulation for each threshold and one more). Proved otherwise, for DRGEP always. |
| C13 | A cutoff only drops paths below the cutoff | False of the code: the comparison with the cutoff is the wrong way round, so with any cutoff on any graph the search returns only the source (C13_cutoff_source_only_partial), and reachable nodes above the cutoff are missing (C13_cutoff_refuted). |
| C131 | An input file means what it says | Missing: the statement is false for the words and spellings named in it (C131_words_refuted, C131_composition_refuted, C131_exponent_refuted, C131_limit_refuted, C131_octal_refuted). Proved for quoted texts and for plain ones beginning with a letter that are no such word, for decimals with a point and a sign in the exponent, and for integers without leading zero. |
| C132 | A heading without entries counts as absent | Missing: false for the headings named in the statement (C132_blank_refuted, C132_mixture_refuted, C132_type_refuted). Proved for upper-threshold, min-flame-speed, method and sensitivity-analysis. |
| C134 | A sensitivity analysis simulates no model twice | Missing: false for the first removal (C134_first_refuted) and, with the greedy algorithm, for every removal (C134_greedy_refuted). Proved: evaluations do not repeat each other, removals do not repeat each other, and with the algorithm initial the first removal is the only repetition. |
| C135 | An entry that the program does not know is refused | Missing: false for headings of the document (C135_heading_refuted), of conditions (C135_condition_refuted) and for repeated ones (C135_repeated_refuted). Proved for methods, kinds of autoignition, types of composition and species in compositions; the type of sensitivity analysis is not checked either (C98). |
| C138 | Reductions at the same time do not disturb each other | Missing: false in one directory (C138_same_refuted, C138_mixed_refuted). Not modelled here: the files of samples (see C149); for the data files of simulations see C142. |
| C14 | A target only stops the search early, it does not change the target's value | False of the code (C14_target_refuted): the search stops when the target is first popped, and the heap pops the smallest value. Proved: with a target the search terminates, every value is that of a walk, a reachable target gets a value. |
| C140 | A value of the wrong type is refused when the input file is read | Missing: false for the options named (C140_option_refuted, C140_quoted_refuted, C140_entry_refuted, C140_late_refuted, C140_analysis_refuted). |
| C142 | Simulations that run at the same time do not mix up their data files | Missing: false of two runs in one directory, of a file of the user with such a name, and of stop_at_ignition (C142_same_refuted, C142_user_refuted, C142_stop_refuted). Opening, writing and closing a file counts as one operation. |
| C143 | Of a model file with several phases, the named one is reduced, and it keeps its name | Missing: false when no phase is named (C143_unnamed_refuted). |
| C144 | A reduced model has the equation of state of the starting model | Missing: false for every model that is not an ideal gas (C144_ideal_refuted, C144_sampled_refuted, C144_files_refuted, C144_fewer_refuted, C144_limit_refuted). Proved for ideal gases. |
| C145 | Sensitivity analysis after a method removes only species between the two thresholds | Missing: false for DRG, for PFA, and for DRGEP with no species between the thresholds (C145_drg_refuted, C145_pfa_refuted, C145_none_between_refuted, C145_empty_refuted). Proved for DRGEP in a fresh process when some species lies between them (C145_drgep_partial, for the command C145_program_partial). |
| C147 | A run whose directory for results does not exist returns no model | Missing: false for sensitivity analysis without a method where Cantera does not report that a file could not be opened (C147_analysis_refuted). Proved for every run with a method (C147_method_partial) and for every run where Cantera reports it (C147_reported_partial). |
| C148 | Sensitivity analysis works whatever species are called | Missing: false if a candidate has a slash in its name (C148_slash_refuted, C148_main_refuted). Proved without slashes in candidates (C148_plain_partial) and for methods alone (C148_method_partial). |
| C149 | Reductions with different directories for results do not share samples | Missing: false when the runs have a kind of simulation in common (C149_samples_refuted, C149_baseline_refuted, C149_twice_refuted). Proved for runs without one (C149_apart_partial) and, for writes after sampling, without sensitivity analysis (C149_method_partial). |
| C151 | Calling the reduction from a program does what the command does with an input file saying the same | Missing: false when the type of sensitivity analysis is left out (C151_type_refuted), a species of a mixture is not kept (C151_mixture_refuted) or the upper threshold is left out (C151_threshold_refuted, one request). Proved if type and threshold are given with sensitivity analysis and the species of the mixtures are kept (C151_agree_partial). |
| C19 | A graph-based reduction returns a model within the error limit | Proved in exact arithmetic. In binary64 the back-step may land below or above the last accepted threshold (C26), so a model above the limit can be returned (C19_binary64_refuted, for each method); C19_binary64_partial gives the condition under which the claim holds, C19_returned what is returned in either arithmetic. |
| C25 | An undefined error never yields a model | Proved in exact arithmetic, and for the run that reaches a NaN candidate in both arithmetics; the rounded back-step can reach a never evaluated candidate with NaN error (C25_binary64_refuted). |
| C26 | The back-step returns to the last accepted threshold | Proved in exact arithmetic; false in binary64 (0.01+0.01+0.01-2*0.01 < 0.01), where the difference is bounded by C26_binary64_close_partial. |
| C27 | DRG limbo species are those between the two thresholds | False of the code, for every run with a sampled state and a non-zero upper threshold: limbo species are those reached at the upper threshold instead of those not reached. Proved: they belong to the reduced model. |
| C28 | DRGEP limbo species depend only on the current run | False of the code: the limbo list is a mutable default argument shared by all runs of a process. Proved for a process in which it is still empty. |
| C31 | Greedy sensitivity analysis returns when every candidate can be removed | False of the code: after the last candidate is accepted the greedy algorithm takes the minimum of an empty array and raises ValueError. C31_returns_partial: this is the only way not to return. |
| C33 | Sensitivity analysis measures error against the metrics of a real simulation | False of the code: with reuse_saved and a missing output file the baseline is a vector of zeros. C33_source_partial covers present files; C33_sa_stuck gives the consequence for sensitivity analysis. |
| C34 | The file name returned by sensitivity analysis locates the model | False of the code with a non-empty output path: the path is not part of the returned name. Proved: the model is written under the path to that name. |
| C36 | Returned samples belong to the requested model and conditions | False of the code: saved files are accepted by shape only. C36_clean_partial: true when the files are not both present. |
| C37 | A crash while sampling never corrupts a later run | False in three ways (crash after opening, between the two files, inside a line) when a metrics file is left from another run or a line can be torn. C37_crash_partial: true for every crash point when no metrics file is present. |
| C42 | Profile sampling picks, in order, points above each temperature fraction | Proved for every profile in exact arithmetic and, for the 20 points in use, in binary64; false for other point counts in binary64 (49 points give 50 rows). |
| C45 | Convergence within the step limit is accepted | False on the last permitted step (C45_last_step_refuted); proved for every earlier step. |
| C48 | Condition parsing accepts exactly the documented inputs | Acceptance and the accepted records are characterised exactly for all three kinds. The claim that rejection raises AssertionError is false for values of another type (C48_type_refuted: TypeError) and proved for values of the documented types. |
| C51 | Target and retained species survive the whole pipeline | False for DRG followed by sensitivity analysis (limbo species are not checked against the protected ones, see C27) and for DRGEP followed by it in a process that ran DRGEP before (C28). Proved for each method alone, sensitivity analysis alone, PFA with it, and DRGEP with it in a fresh process. |
| C52 | Model comparison is reflexive and ignores species and reaction order | False when two different reactions with the same equation are exchanged; proved for every reordering that keeps such reactions in order, in particular for distinct equations. |
| C53 | Model comparison is symmetric | False in two ways: transport data are compared only if the first model has them, and isclose is relative to the second argument. Proved outside these two cases. |
| C55 | Chemkin pre-exponential factors are converted by the reaction order | The conversion factors are proved for all orders and rate types, on the text written. Exact recovery is false since six digits are written (C55_exact_refuted); recovery to five digits is proved. |
| C58 | A reaction line keeps the equation separate from its rate parameters | False for equations longer than 50 characters; proved for the others. |
| C59 | Auxiliary reaction data is complete | Proved for reactions that can be written, with the exact list of those that cannot. False for Troe rates with three parameters, which raise IndexError. |
| C62 | The extinction point is the smallest residence time reached, and the sampled points lie on the burning branch | Proved except for two false parts: the branch ends one point past the extinction point, and seeds in the wrong order give a two-point branch. |
| C63 | Continuation is bounded and its step size is controlled | Proved except that the first step is not bounded by ds_max when ds0 is larger (C63_first_refuted). |
| C66 | The command line converts Chemkin models before reducing them | False of the code: assigning a field of a NamedTuple raises AttributeError, so a Chemkin model is never reduced. Proved for YAML models. |
| C68 | An impossible error limit never yields a model | False for DRG with a negative limit: the back-step branch runs and returns a model. Proved for NaN limits and, for PFA and DRGEP, negative limits. |
| C71 | Sensitivity analysis never accepts a model whose error is not a number | False of the code: NaN is not greater than the limit and is accepted. Proved when no evaluation gives NaN. |
| C72 | The final state of a profile is sampled | Proved in exact arithmetic; false in binary64, where the level of the last row can be rounded above the final temperature. |
| C74 | Sampling leaves no intermediate data file | False for a reactor that settles without igniting, whose file is left behind; proved for success and for failing steps. |
| C76 | The targets used are the names the user wrote | False for a target given as plain text, which is taken apart into characters. Proved for a list of names. |
| C77 | The command line function acts on the arguments it is given | False of the code: only the emptiness of argv matters, the arguments are read from the process. Proved for every list of settings when both agree. |
| C78 | Models judged equal have the same chemistry | False: reversibility and orders are not compared. Proved: everything else corresponds. |
| C80 | The Chemkin file determines the rate law of each reaction | False: orders and the default efficiency are not written, and numbers are rounded. Proved: reactions written alike agree in the data that are written, up to the digits printed. |
| C81 | Chebyshev rates are converted to Chemkin units | False: the first Chebyshev coefficient is written unchanged. Proved for reactions of order one, and for all other coefficients. |
| C83 | The entry point acts on the arguments it is given | False for arguments given in the call, which are ignored. Proved for main() on the arguments of the process. |
| C87 | Path and predecessor outputs cover the source and all graphs | False of the code. C87_source_path_refuted: whenever a reachable node has an edge of positive value back to the source, the path of the source is a closed walk with at least one edge; otherwise it is [source] (both for every graph without an edge from the source to itself). C87_pred_repeated_refuted: a closed walk of value one makes the search treat the source twice and list it twice as predecessor. C87_self_edge_refuted: with an edge from the source to itself another node's path can run through it and its product is not the value. C87_empty_paths_refuted, C87_empty_pred_refuted: KeyError with empty dictionaries. The positive part is C86. |
| C95 | A candidate that cannot be simulated does not end the reduction | False of the code: nothing catches an exception raised while a candidate is simulated, so the run ends with it although earlier candidates were within the limit. Proved: a returned model was simulated without raising, and files other than the numbered reduced models are untouched. |
| C96 | A trimmed model can be loaded again | False of the code: trim reads neither reaction orders nor the duplicate flag. Proved: exactly which trimmed models load; without orders and declared duplicates all do. |
| C97 | What the command promises, from the command line to the files it leaves | A method alone: all promises proved. With sensitivity analysis: files and limit proved (exact arithmetic, simulations that give numbers), protection proved for PFA and DRGEP and refuted for DRG. |
| C98 | An input file is accepted exactly when it is as documented, and its values are passed on | Acceptance and the values passed on are characterised exactly. Refuted: a key without a value beside the other form of a mixture raises TypeError; the type of sensitivity analysis is not checked and anything but `greedy` runs as `initial`. |
| C99 | A looser error limit never keeps more species | Proved with exact thresholds (C99_exact_partial) and, in either arithmetic, for runs that start from the same threshold (C99_same_start_partial). Refuted for each method with binary64 thresholds: summing 0.001 misses 0.01, so the tighter run can pass over the model at which the looser one starts and end with fewer species. |
