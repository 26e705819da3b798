{"id": "C01", "title": "Trimming keeps exactly the species that were not excluded", "statement": "trim(file, exclusion_list, ...) returns a model whose species are exactly the species of the input model whose name is not in exclusion_list, each with its data unchanged, in the original order and multiplicity.", "quantifier": "every input model and every exclusion list (including names that are not in the model and repeated names)", "why_tests_cant": "tests remove a handful of species from three mechanisms; the claim is about every mechanism and every exclusion list", "anchors": ["src/pymars/reduce_model.py:trim"]}
{"id": "C02", "title": "Trimming keeps exactly the reactions that do not need a removed species", "statement": "A reaction of the input model survives trim exactly when every reactant and product is still present and it is not a reaction whose explicit sole collider (zero default efficiency, one efficiency entry) was excluded; survivors keep order, multiplicity and everything except that efficiencies of removed species are dropped from their third body.", "quantifier": "every input model, every exclusion list, every reaction", "why_tests_cant": "needs all combinations of reactants, products, third bodies and exclusion lists", "anchors": ["src/pymars/reduce_model.py:trim"]}
{"id": "C03", "title": "A trimmed model is closed", "statement": "In the model returned by trim, every reactant, product and third-body efficiency name of every reaction is the name of a species of that model, and no name in exclusion_list occurs anywhere in it.", "quantifier": "every input model whose third-body efficiencies, reactants and products are arbitrary, every exclusion list", "why_tests_cant": "a single dangling name in one mechanism out of all is a counterexample", "anchors": ["src/pymars/reduce_model.py:trim"]}
{"id": "C04", "title": "Trimming is idempotent and ignores irrelevant names", "statement": "Trimming a closed model by names that do not occur in it returns the same species and reactions; trimming twice with the same exclusion list gives the same species and reactions as once; the result depends only on the set of excluded names, not their order or repetition.", "quantifier": "every model and every pair of exclusion lists with the same members", "why_tests_cant": "algebraic law over all models", "anchors": ["src/pymars/reduce_model.py:trim"]}
{"id": "C05", "title": "Trimming species one at a time equals trimming them together", "statement": "trim by A followed by trim by B yields the same species and reactions as one trim by A+B, as the sensitivity-analysis stage relies on when it removes species one by one.", "quantifier": "every model and every pair of exclusion lists", "why_tests_cant": "order-independence law over all models; it fails only for reactions with zero default efficiency and two or more collider entries", "anchors": ["src/pymars/reduce_model.py:trim", "src/pymars/sensitivity_analysis.py:run_sa"]}
{"id": "C06", "title": "DRG direct interaction coefficients are the published formula, in [0,1]", "statement": "create_drg_matrix returns, for A != B, r_AB = (sum over reactions involving B of |nu_A w|)/(sum over all reactions of |nu_A w|), or 0 when the denominator is 0 (inert species); the diagonal is 0; every entry lies in [0,1]; r_AB = 0 when no reaction with a non-zero net rate involves both.", "quantifier": "every stoichiometry (product and reactant coefficient matrices) and every vector of net rates of progress, any numbers of species and reactions (exact arithmetic)", "why_tests_cant": "ranges over all matrices of all sizes, including zero rates, inert species and no active reaction", "anchors": ["src/pymars/drg.py:create_drg_matrix"]}
{"id": "C07", "title": "DRGEP direct interaction coefficients are the published formula, in [0,1]", "statement": "create_drgep_matrix returns, for A != B, |sum over reactions involving B of nu_A w| / max(P_A, C_A) with P_A and C_A the total production and consumption of A, 0 when max(P_A,C_A)=0; diagonal 0; every entry lies in [0,1].", "quantifier": "every stoichiometry and rate vector of any size (exact arithmetic)", "why_tests_cant": "same as DRG; the [0,1] bound is what makes the path search terminate", "anchors": ["src/pymars/drgep.py:create_drgep_matrix"]}
{"id": "C08", "title": "PFA coefficients are the published first- plus second-generation formula", "statement": "create_pfa_matrix returns, for A != B, r1pro + r1con + sum over M not in {A,B} of (r1pro_AM r1pro_MB + r1con_AM r1con_MB), and 0 on the diagonal, even though the code zeroes diagonal entries of the first-generation arrays in place through numpy views while it accumulates; entries are non-negative.", "quantifier": "every stoichiometry and rate vector of any size (exact arithmetic), every intermediate species", "why_tests_cant": "in-place aliasing over all sizes; three small mechanisms are tested", "anchors": ["src/pymars/pfa.py:create_pfa_matrix"]}
{"id": "C09", "title": "Interaction coefficients do not depend on the scale or sign of the rates", "statement": "Multiplying every net rate of progress by the same non-zero constant leaves the DRG, DRGEP and PFA matrices unchanged.", "quantifier": "every stoichiometry, rate vector and non-zero factor", "why_tests_cant": "metamorphic law over all inputs", "anchors": ["src/pymars/drg.py:create_drg_matrix", "src/pymars/drgep.py:create_drgep_matrix", "src/pymars/pfa.py:create_pfa_matrix"]}
{"id": "C10", "title": "Graph search returns exactly the reachable species", "statement": "graph_search(graph, targets) terminates on every finite directed graph, returns each species at most once, and returns exactly the nodes reachable from at least one target (every target included).", "quantifier": "every finite directed graph (cycles, self loops, disconnected parts) and every list of targets in the graph (empty, repeated)", "why_tests_cant": "reachability over all graphs", "anchors": ["src/pymars/drg.py:graph_search", "src/pymars/pfa.py:graph_search"]}
{"id": "C11", "title": "Threshold trimming keeps the species linked to a target by strong edges, monotonically", "statement": "trim_drg and trim_pfa return exactly the species joined to some target by a path all of whose coefficients are non-zero and >= threshold; hence all targets are kept, raising the threshold never adds a species, adding a target never removes one, and a target that is not in the model raises an error.", "quantifier": "every matrix, every list of distinct species names, every list of targets, every threshold (zero and negative included)", "why_tests_cant": "reachability and monotonicity over all matrices and thresholds", "anchors": ["src/pymars/drg.py:trim_drg", "src/pymars/pfa.py:trim_pfa"]}
{"id": "C12", "title": "The modified Dijkstra search terminates and finds the best path product", "statement": "For edge weights in (0,1], mod_dijkstra (no cutoff, no target) terminates and returns a value for exactly the nodes reachable from the source: 1 for the source, and for any other node the greatest product of weights over all paths from the source. This also holds when each multiplication is rounded, provided rounding is monotone and never exceeds the left factor.", "quantifier": "every finite weighted directed graph with weights in (0,1], every source, every rounding of multiplication that is monotone and non-increasing", "why_tests_cant": "optimality against all paths and termination over all graphs; the heap pops the smallest value first so the usual Dijkstra argument does not apply", "anchors": ["src/pymars/drgep.py:mod_dijkstra", "src/pymars/drgep.py:ss_dijkstra_path_length_modified"]}
{"id": "C13", "title": "A cutoff only drops paths below the cutoff", "statement": "ss_dijkstra_path_length_modified(G, source, cutoff=c) returns the best path product of every node whose best path product is at least c, as its docstring describes.", "quantifier": "every graph, source and cutoff", "why_tests_cant": "all cutoffs; in fact any cutoff makes the search return the source only", "anchors": ["src/pymars/drgep.py:mod_dijkstra", "src/pymars/drgep.py:ss_dijkstra_path_length_modified"]}
{"id": "C14", "title": "A target only stops the search early, it does not change the target's value", "statement": "mod_dijkstra(..., target=t) returns for t the same greatest path product as the search without target.", "quantifier": "every graph, source and target", "why_tests_cant": "needs all graphs: the value depends on heap order", "anchors": ["src/pymars/drgep.py:mod_dijkstra"]}
{"id": "C15", "title": "The weights-at-most-one precondition of the path search is necessary", "statement": "If edge weights may exceed one, mod_dijkstra need not terminate: when the source reaches a two-node cycle (not through the source) whose weight product is above one, the search never finishes, for any number of steps. A two-node cycle through the source itself is harmless: the search stops with the one-step values.", "quantifier": "every number of loop iterations and all positive weights of the cycle with product > 1", "why_tests_cant": "non-termination is about all step counts", "anchors": ["src/pymars/drgep.py:mod_dijkstra"]}
{"id": "C16", "title": "Importance coefficients are the best over targets, states and paths", "statement": "get_importance_coeffs returns a value for every species name: the maximum over sampled states and targets of the greatest path product (0 if unreachable in every state); targets have 1 when at least one state is given; all values are in [0,1]; the result does not depend on the order or repetition of targets or states.", "quantifier": "every list of matrices with entries in [0,1], every list of targets in the model, every permutation of either list", "why_tests_cant": "maximum over unboundedly many paths and states", "anchors": ["src/pymars/drgep.py:get_importance_coeffs", "src/pymars/drgep.py:graph_search_drgep"]}
{"id": "C17", "title": "DRGEP removes exactly the unimportant, unprotected species", "statement": "At a given threshold reduce_drgep removes exactly the species whose importance coefficient is below the threshold and that are not in the retained list, so raising the threshold never brings a species back.", "quantifier": "every model, importance assignment, threshold and retained list", "why_tests_cant": "all thresholds and assignments", "anchors": ["src/pymars/drgep.py:reduce_drgep"]}
{"id": "C18", "title": "Reusing the previous model is sound", "statement": "When reduce_drg, reduce_drgep or reduce_pfa return the previous model instead of building a new one, the species of that model are exactly the species a fresh reduction at the current threshold would keep, provided the previous model was produced at a threshold not above the current one (or is the starting model).", "quantifier": "every model, matrices / importance coefficients, retained list and pair of thresholds", "why_tests_cant": "the code compares only counts; equality of sets follows from monotonicity over all inputs", "anchors": ["src/pymars/drg.py:reduce_drg", "src/pymars/drgep.py:reduce_drgep", "src/pymars/pfa.py:reduce_pfa"]}
{"id": "C19", "title": "A graph-based reduction returns a model within the error limit", "statement": "When run_drg, run_drgep or run_pfa return normally, the reported error of the returned model does not exceed error_limit, and the model is the one for the last threshold on the grid before the first violation; this assumes a positive limit, that simulating the same model twice gives the same metrics, and that the full model's own error is within the limit (as it is for ideal gases; see C144).", "quantifier": "every model, every matrices/importance assignment, every error function of the candidate model (including infinite values), every positive error limit, every number of loop iterations", "why_tests_cant": "the loop runs an input-dependent number of times and back-steps by two increments", "anchors": ["src/pymars/drg.py:run_drg", "src/pymars/drgep.py:run_drgep", "src/pymars/pfa.py:run_pfa"]}
{"id": "C20", "title": "Target and retained species are never removed by a graph-based reduction", "statement": "Every target species and every retained species of the starting model is in the model returned by run_drg, run_drgep and run_pfa, whenever at least one state was sampled.", "quantifier": "every model, matrices, targets, retained list, error function and limit for which the run returns", "why_tests_cant": "must hold at whatever threshold the loop stops", "anchors": ["src/pymars/drg.py:run_drg", "src/pymars/drgep.py:run_drgep", "src/pymars/pfa.py:run_pfa", "src/pymars/reduce_model.py:trim"]}
{"id": "C21", "title": "A reduction never deletes or overwrites the user's model file", "statement": "No run of run_drg, run_drgep or run_pfa (whether it returns, raises or exits) removes or changes the starting model file, unless that file is itself called reduced_<n>.yaml in the output directory.", "quantifier": "every starting file name and file system content, every run including failing ones", "why_tests_cant": "file effects over all loop histories", "anchors": ["src/pymars/drg.py:run_drg", "src/pymars/drgep.py:run_drgep", "src/pymars/pfa.py:run_pfa", "src/pymars/soln2yaml.py:write"]}
{"id": "C22", "title": "The returned file name holds the returned model", "statement": "When run_drg, run_drgep or run_pfa return, a file exists under the returned filename and contains exactly the returned model; the clean-up of candidate files inside the loop never fails on a missing file.", "quantifier": "every run history and initial file system", "why_tests_cant": "candidate files are written and deleted under reused names across an unbounded loop", "anchors": ["src/pymars/drg.py:run_drg", "src/pymars/drgep.py:run_drgep", "src/pymars/pfa.py:run_pfa"]}
{"id": "C23", "title": "The threshold loop terminates exactly when some threshold on the grid violates the limit", "statement": "If the model that keeps only the reachable-at-any-threshold core (targets and retained species) violates the error limit, run_drg, run_drgep and run_pfa stop after a bounded number of iterations; if every candidate on the threshold grid meets the limit, they never stop.", "quantifier": "every model, matrices, error function and limit", "why_tests_cant": "termination and non-termination are about all iteration counts", "anchors": ["src/pymars/drg.py:run_drg", "src/pymars/drgep.py:run_drgep", "src/pymars/pfa.py:run_pfa"]}
{"id": "C24", "title": "A hopeless first threshold exits after a fixed number of reductions", "statement": "If the candidate violates the error limit at every starting threshold, run_drg and run_pfa exit with SystemExit after exactly three candidates (0.01, 0.001, 0.0001), and run_drgep after exactly five candidates in binary64 arithmetic (0.01 ... 1e-6), although its message and constant say 1e-6 in exact arithmetic four.", "quantifier": "every model and error function violating the limit on those thresholds", "why_tests_cant": "exact and floating-point boundary of a loop counter", "anchors": ["src/pymars/drg.py:run_drg", "src/pymars/drgep.py:run_drgep", "src/pymars/pfa.py:run_pfa"]}
{"id": "C25", "title": "An undefined error never yields a model", "statement": "If a candidate's error is NaN (undefined metrics), run_drg, run_drgep and run_pfa do not return a model for it.", "quantifier": "every run in which some candidate on the grid has a NaN error", "why_tests_cant": "comparison semantics of NaN in loop guards, over all histories", "anchors": ["src/pymars/drg.py:run_drg", "src/pymars/drgep.py:run_drgep", "src/pymars/pfa.py:run_pfa"]}
{"id": "C26", "title": "The back-step returns to the last accepted threshold", "statement": "After the first violation the final reduction is made at exactly the last threshold that met the limit.", "quantifier": "every number of loop iterations, in exact arithmetic and in binary64 arithmetic", "why_tests_cant": "accumulated rounding depends on the iteration count", "anchors": ["src/pymars/drg.py:run_drg", "src/pymars/drgep.py:run_drgep", "src/pymars/pfa.py:run_pfa"]}
{"id": "C27", "title": "DRG limbo species are those between the two thresholds", "statement": "With an upper threshold, the limbo species handed to sensitivity analysis after DRG are species of the reduced model that would be removed at the upper threshold, and never target or retained species (theory documentation, DRGASA).", "quantifier": "every model, matrices, targets, retained list and pair of thresholds", "why_tests_cant": "set-level contract over all inputs", "anchors": ["src/pymars/drg.py:reduce_drg"]}
{"id": "C28", "title": "DRGEP limbo species depend only on the current run", "statement": "The limbo list returned by run_drgep contains exactly the species of the reduced model below the upper threshold and not retained, whatever was run before in the same process.", "quantifier": "every sequence of earlier run_drgep / run_sa calls in the process", "why_tests_cant": "history dependence through a shared mutable default argument", "anchors": ["src/pymars/drgep.py:run_drgep", "src/pymars/reduce_model.py:ReducedModel", "src/pymars/sensitivity_analysis.py:run_sa"]}
{"id": "C29", "title": "Sensitivity analysis never worsens the model beyond the limit", "statement": "When run_sa returns, the returned model's error is the starting error (nothing removed) or an evaluated error that is not above error_limit.", "quantifier": "every starting model, limbo list, error function, limit and algorithm type", "why_tests_cant": "unbounded sequence of removals", "anchors": ["src/pymars/sensitivity_analysis.py:run_sa"]}
{"id": "C30", "title": "Sensitivity analysis only removes species it was allowed to", "statement": "The species of the model returned by run_sa are those of the starting model minus a set of limbo species; when no limbo list is given no species in species_safe is removed; the number of removals equals the number of accepted steps; the loop always ends.", "quantifier": "every starting model, limbo list, retained list, error function and algorithm type", "why_tests_cant": "unbounded sequence of removals", "anchors": ["src/pymars/sensitivity_analysis.py:run_sa"]}
{"id": "C31", "title": "Greedy sensitivity analysis returns when every candidate can be removed", "statement": "run_sa with algorithm_type='greedy' returns a model whenever every removal stays within the limit.", "quantifier": "every model and limbo list", "why_tests_cant": "boundary case of an unbounded loop: the list runs empty", "anchors": ["src/pymars/sensitivity_analysis.py:run_sa", "src/pymars/sensitivity_analysis.py:evaluate_species_errors"]}
{"id": "C32", "title": "Sensitivity analysis tries the species whose induced error is nearest the current error", "statement": "At each step run_sa tries to remove a limbo species minimising |induced error - current error|, the first one in list order on ties, where induced errors are those of the starting model ('initial') or of the current model ('greedy').", "quantifier": "every limbo list, error assignment and step", "why_tests_cant": "index bookkeeping between two parallel lists over an unbounded loop", "anchors": ["src/pymars/sensitivity_analysis.py:run_sa"]}
{"id": "C33", "title": "Sensitivity analysis measures error against the metrics of a real simulation", "statement": "The baseline metrics used by run_sa are metrics computed by simulating the starting model or read from a previously saved output file.", "quantifier": "every combination of ignition, PSR and flame conditions and of saved files", "why_tests_cant": "depends on which files exist; zero-initialised arrays are mistaken for saved results", "anchors": ["src/pymars/sampling.py:sample_metrics", "src/pymars/sensitivity_analysis.py:run_sa"]}
{"id": "C34", "title": "The file name returned by sensitivity analysis locates the model", "statement": "The filename in the ReducedModel returned by run_sa names the file that was written.", "quantifier": "every output path", "why_tests_cant": "needs all paths", "anchors": ["src/pymars/sensitivity_analysis.py:run_sa", "src/pymars/soln2yaml.py:write"]}
{"id": "C35", "title": "Saved samples are reused faithfully", "statement": "If sample succeeds and is called again with the same conditions and model in the same directory, it runs no simulation and returns the same metrics and data.", "quantifier": "every number and mix of conditions, every number of species, every simulation result", "why_tests_cant": "round-trip through files for all shapes", "anchors": ["src/pymars/sampling.py:sample"]}
{"id": "C36", "title": "Returned samples belong to the requested model and conditions", "statement": "The metrics and data returned by sample are those of the model and conditions it was called with.", "quantifier": "every content of the working directory", "why_tests_cant": "depends on arbitrary history of the directory; only counts and widths are checked", "anchors": ["src/pymars/sampling.py:sample", "src/pymars/sampling.py:sample_metrics"]}
{"id": "C37", "title": "A crash while sampling never corrupts a later run", "statement": "If the process dies at any point while sample writes its files, a later call of sample with the same inputs returns the same result as an undisturbed one.", "quantifier": "every crash point (between any two row writes) and every earlier directory content", "why_tests_cant": "all crash points", "anchors": ["src/pymars/sampling.py:sample"]}
{"id": "C38", "title": "Results do not depend on the number of worker processes or their schedule", "statement": "_run_metric_jobs / _run_sampling_jobs return the per-case results concatenated in case order for every number of processes and every completion order of the workers.", "quantifier": "every list of cases, every worker function, every completion order", "why_tests_cant": "all schedules", "anchors": ["src/pymars/sampling.py:_run_workers", "src/pymars/sampling.py:_run_metric_jobs", "src/pymars/sampling.py:_run_sampling_jobs"]}
{"id": "C39", "title": "The metric vector has a fixed layout", "statement": "sample_metrics (without reuse) returns ignition delays, then three PSR metrics per PSR case, then flame speeds, in case order, so the length is n_ign + 3 n_psr + n_flame and the vectors of original and candidate models are comparable entry by entry.", "quantifier": "every mix of conditions and every simulation outcome", "why_tests_cant": "all combinations of condition lists", "anchors": ["src/pymars/sampling.py:sample_metrics", "src/pymars/sampling.py:sample"]}
{"id": "C40", "title": "The reported error is the worst relative deviation in percent", "statement": "calculate_error returns 100 times the largest |original - test|/original for positive originals and non-zero tests of equal length; it is at most L exactly when every metric is within L percent; it is zero exactly when the metrics agree; it is infinite if a metric of the candidate is infinite, and not a number if one of the starting model is infinite or undefined.", "quantifier": "every pair of metric vectors of equal positive length", "why_tests_cant": "all vectors", "anchors": ["src/pymars/sampling.py:calculate_error"]}
{"id": "C41", "title": "A candidate with a zero metric is rejected", "statement": "If any metric of the candidate is zero (no ignition, no flame, no PSR), calculate_error returns exactly 100, so the candidate violates every limit below 100 (and is accepted by every limit of at least 100).", "quantifier": "every pair of metric vectors and every limit", "why_tests_cant": "all vectors, including other metrics with larger errors", "anchors": ["src/pymars/sampling.py:calculate_error"]}
{"id": "C42", "title": "Profile sampling picks, in order, points above each temperature fraction", "statement": "_sample_profile returns num_sample_points rows; the filled rows are a prefix; row k is taken from one profile point (temperature, pressure and composition together), strictly after the point of row k-1, and is the first such point with temperature at least T0 + (k+1)/n (Tend - T0); a row stays zero exactly when no such point is left.", "quantifier": "every temperature profile (non-monotone included), every number of points and species", "why_tests_cant": "all profiles; tests use one fine monotone ramp", "anchors": ["src/pymars/simulation.py:BaseSimulation._sample_profile"]}
{"id": "C43", "title": "The two ignition-delay computations agree", "statement": "If the sampling path (run_case then process_results) returns an ignition delay, the metric-only path (calculate) returns the same delay on the same reactor trajectory: the first time the temperature is 400 K above its initial value.", "quantifier": "every reactor trajectory, end time and step limit", "why_tests_cant": "all trajectories", "anchors": ["src/pymars/simulation.py:IgnitionSimulation.run_case", "src/pymars/simulation.py:IgnitionSimulation.calculate", "src/pymars/simulation.py:IgnitionSimulation.process_results"]}
{"id": "C44", "title": "A failing candidate yields zero, a failing baseline raises", "statement": "calculate never raises because of an integrator failure or missing ignition: it returns 0 in those cases; run_case on the same trajectory raises RuntimeError when integration fails, when no ignition is seen or when the step limit is reached.", "quantifier": "every trajectory and every step at which the integrator fails", "why_tests_cant": "all failure points", "anchors": ["src/pymars/simulation.py:IgnitionSimulation.calculate", "src/pymars/simulation.py:IgnitionSimulation.run_case"]}
{"id": "C45", "title": "Convergence within the step limit is accepted", "statement": "run_case returns the ignition delay when the reactor reaches steady state within max_steps steps and has ignited.", "quantifier": "every trajectory and step limit, including convergence on the last permitted step", "why_tests_cant": "boundary of an unbounded family", "anchors": ["src/pymars/simulation.py:IgnitionSimulation.run_case"]}
{"id": "C46", "title": "Flame detection is a strict floor, applied identically to baseline and candidate", "statement": "FlameSimulation.run_case raises exactly when calculate returns 0 for lack of a flame: when the solver fails or the speed is at most the floor (0.05 or the given minimum); otherwise both return the solved speed.", "quantifier": "every solver outcome and every floor, including NaN speeds", "why_tests_cant": "all outcomes", "anchors": ["src/pymars/simulation.py:FlameSimulation"]}
{"id": "C47", "title": "PSR metrics and rows correspond to the three sampled points", "statement": "PSRSimulation metrics are [tau at extinction, T at the log midpoint, T nearest 0.1 s], rows are in the order extinction, midpoint, 0.1 s with the inlet pressure; calculate returns three zeros exactly when run_case raises.", "quantifier": "every traced curve and every failure", "why_tests_cant": "all outcomes", "anchors": ["src/pymars/simulation.py:PSRSimulation"]}
{"id": "C48", "title": "Condition parsing accepts exactly the documented inputs", "statement": "parse_ignition_inputs, parse_psr_inputs and parse_flame_inputs return one record per case with the given values when every case is well formed (positive temperature, pressure (and width), exactly one of equivalence-ratio/fuel/oxidizer or reactants, positive amounts, species in the model, mole or mass, no mass with equivalence ratio), and raise AssertionError otherwise.", "quantifier": "every list of case dictionaries", "why_tests_cant": "all inputs and all ways of being malformed", "anchors": ["src/pymars/sampling.py:parse_ignition_inputs", "src/pymars/sampling.py:parse_psr_inputs", "src/pymars/sampling.py:parse_flame_inputs"]}
{"id": "C49", "title": "Every species needed to set up a simulation is protected", "statement": "After parse_inputs succeeds, every fuel, oxidizer and reactant species of every case is a target or a retained species, the given retained species are kept first and in order, nothing is added twice, every target and retained species is in the model, and parsing the same dictionary again gives the same result.", "quantifier": "every input dictionary that parses", "why_tests_cant": "all inputs, and repeated use of a mutated dictionary", "anchors": ["src/pymars/pymars.py:parse_inputs"]}
{"id": "C50", "title": "The driver runs the requested stages and rejects impossible requests", "statement": "main raises when a graph method has no target or when neither a method nor sensitivity analysis is requested; otherwise it runs the named method on the starting model and then, if requested, sensitivity analysis on that method's output file with its error and limbo species, and returns the last stage's model; an unknown method name without sensitivity analysis does not return a model.", "quantifier": "every combination of arguments", "why_tests_cant": "all combinations of stages", "anchors": ["src/pymars/pymars.py:main"]}
{"id": "C51", "title": "Target and retained species survive the whole pipeline", "statement": "Every target and retained species is in the model returned by main, with or without the sensitivity-analysis stage.", "quantifier": "every method, model, option and error function", "why_tests_cant": "composition of two unbounded stages", "anchors": ["src/pymars/pymars.py:main", "src/pymars/drg.py:reduce_drg", "src/pymars/sensitivity_analysis.py:run_sa"]}
{"id": "C52", "title": "Model comparison is reflexive and ignores species and reaction order", "statement": "compare_models(m, m') is True when m' has the same species and reactions as m in any order (no undefined numbers).", "quantifier": "every model and every reordering", "why_tests_cant": "all models and permutations, including duplicate reactions", "anchors": ["src/pymars/tools.py:compare_models"]}
{"id": "C53", "title": "Model comparison is symmetric", "statement": "compare_models(a, b) == compare_models(b, a).", "quantifier": "every pair of models", "why_tests_cant": "all pairs; numpy.isclose is not symmetric", "anchors": ["src/pymars/tools.py:compare_models"]}
{"id": "C54", "title": "Conversion chooses direction and file names from the model file name", "statement": "convert turns a file with extension .yaml, .yml or .cti into <path>/<base>.inp plus _thermo.dat (and _transport.dat when all species have transport data), and any other file into <path>/<base>.yaml, passing thermo and transport files on; the directory of the input never leaks into the output name. soln2ck.write leaves out the thermo or transport file when told to, uses the name of the model when no file name is given, and returns exactly the names of the files it wrote.", "quantifier": "every file name, path and option", "why_tests_cant": "all strings", "anchors": ["src/pymars/tools.py:convert", "src/pymars/soln2ck.py:write"]}
{"id": "C55", "title": "Chemkin pre-exponential factors are converted by the reaction order", "statement": "The pre-exponential factor written for a reaction of order n is the SI factor times 1000^(n-1) for elementary and P-log rates, 1000^n for three-body, 1000^n (low) and 1000^(n-1) (high) for falloff, 1000^(n-1) (low) and 1000^(n-2) (high) for chemically activated; other types raise; dividing back recovers the rate exactly.", "quantifier": "every rate, order and reaction type string", "why_tests_cant": "all types and orders", "anchors": ["src/pymars/soln2ck.py:build_arrhenius", "src/pymars/soln2ck.py:build_falloff_arrhenius"]}
{"id": "C56", "title": "Thermo entries obey the 80-column Chemkin layout", "statement": "Each species written by write_thermo_data occupies four lines of exactly 80 characters ending in 1, 2, 3, 4, with the 14 coefficients in 15-character fields in order. The file consists of the keyword line, the temperature line, these four lines per species in the order of the model, and END; if a species has no coefficients the call raises and the file stops before it without END.", "quantifier": "every species with a name of at most 18 characters, at most four elements, and numbers that fit their fields", "why_tests_cant": "fixed-column layout over all species", "anchors": ["src/pymars/soln2ck.py:write_thermo_data"]}
{"id": "C57", "title": "The species block lists every species exactly once, unbroken", "statement": "Splitting the wrapped SPECIES block on white space gives back the list of species names in order, and no line is longer than 60 characters unless it holds a single longer name.", "quantifier": "every list of white-space-free non-empty names", "why_tests_cant": "all lists of names and lengths", "anchors": ["src/pymars/soln2ck.py:write"]}
{"id": "C58", "title": "A reaction line keeps the equation separate from its rate parameters", "statement": "On each main reaction line the equation and the pre-exponential factor are separated by white space, so the line can be read back.", "quantifier": "every equation string", "why_tests_cant": "all equation lengths; padding to 51 columns adds nothing for longer equations", "anchors": ["src/pymars/soln2ck.py:write"]}
{"id": "C59", "title": "Auxiliary reaction data is complete", "statement": "soln2ck.write emits for each reaction, in order, one main line, the third-body efficiencies of species in the model only, LOW for falloff and HIGH for chemically activated with falloff parameters if any, one PLOG line per pressure, and DUPLICATE exactly for duplicates; an unsupported reaction type raises NotImplementedError and leaves a truncated file.", "quantifier": "every model", "why_tests_cant": "all reaction types and combinations", "anchors": ["src/pymars/soln2ck.py:write"]}
{"id": "C60", "title": "The damped Newton solver only reports convergence near a root", "statement": "If _damped_newton returns (x, True) then the residual norm at x is below 100*tol; the residual norm never increases along its iterates; it evaluates at most maxit iterations; a singular Jacobian or a failed line search yields False.", "quantifier": "every residual function, starting point, tolerance and iteration limit", "why_tests_cant": "all functions", "anchors": ["src/pymars/psr_solver.py:_damped_newton"]}
{"id": "C61", "title": "Every point of a traced PSR curve solves the steady equations", "statement": "Every point returned by trace_extinction_curve has a steady-state residual norm below 1e-7 and a positive temperature, whatever the inner solver returns.", "quantifier": "every gas model, inner solver behaviour and number of continuation steps", "why_tests_cant": "all solver behaviours", "anchors": ["src/pymars/psr_solver.py:trace_extinction_curve", "src/pymars/psr_solver.py:_core_residual"]}
{"id": "C62", "title": "The extinction point is the smallest residence time reached, and the sampled points lie on the burning branch", "statement": "With stop_at_extinction the returned extinction point has the smallest residence time of the whole branch, the near-0.1 s and midpoint samples have indices not after it and minimise the stated distances among the upper branch, and the branch ends at the extinction turning point.", "quantifier": "every corrector behaviour and number of steps", "why_tests_cant": "all continuation histories", "anchors": ["src/pymars/psr_solver.py:trace_extinction_curve"]}
{"id": "C63", "title": "Continuation is bounded and its step size is controlled", "statement": "The continuation makes at most max_steps corrector calls, the arclength step never exceeds ds_max (0.05 after the extinction fold) and never drops below ds_min/2 while in use, and the call either returns or raises RuntimeError.", "quantifier": "every corrector behaviour", "why_tests_cant": "all histories", "anchors": ["src/pymars/psr_solver.py:trace_extinction_curve"]}
{"id": "C64", "title": "The analytic PSR Jacobian is the derivative of the residual", "statement": "_core_jacobian returns the partial derivatives of _core_residual with respect to mass fractions, temperature and residence time for an ideal gas, given exact kinetics and enthalpy derivatives.", "quantifier": "every state with positive temperature and density, every differentiable kinetics", "why_tests_cant": "calculus identity over all states", "anchors": ["src/pymars/psr_solver.py:_core_jacobian", "src/pymars/psr_solver.py:_core_residual"]}
{"id": "C65", "title": "Writing a model replaces the file of that name and returns its location", "statement": "soln2yaml.write returns path joined with the given name (or <solution.name>.yaml when empty), that file then holds the model, and no other file is touched.", "quantifier": "every path, name, solution and file system", "why_tests_cant": "all strings and file systems", "anchors": ["src/pymars/soln2yaml.py:write"]}
{"id": "C66", "title": "The command line converts Chemkin models before reducing them", "statement": "Running pymars with an input file whose model is not .yaml/.yml converts it and reduces the converted model.", "quantifier": "every input file naming a Chemkin model", "why_tests_cant": "control flow over all inputs; assigning to a NamedTuple field always raises", "anchors": ["src/pymars/pymars.py:pymars"]}
{"id": "C67", "title": "PFA hands no limbo species over, and an upper threshold with no sampled state makes it fail", "statement": "reduce_pfa returns a model whose limbo list is empty whatever threshold_upper; when no state was sampled and threshold_upper is non-zero it raises UnboundLocalError.", "quantifier": "every model, threshold, upper threshold and sampled data", "why_tests_cant": "ranges over all models and thresholds", "anchors": ["src/pymars/pfa.py:reduce_pfa"]}
{"id": "C68", "title": "An impossible error limit never yields a model", "statement": "run_drg, run_drgep and run_pfa return no model when the error limit is negative or NaN (refuted: run_drg with a negative limit returns the reduction at a negative threshold whatever its error).", "quantifier": "every negative or NaN limit, every model and every error function", "why_tests_cant": "ranges over all limits, models and error functions", "anchors": ["src/pymars/drg.py:run_drg", "src/pymars/drgep.py:run_drgep", "src/pymars/pfa.py:run_pfa"]}
{"id": "C69", "title": "Metrics can be read back where samples were taken", "statement": "After sample succeeds in a directory, read_metrics and sample_metrics(reuse_saved=True) with the same conditions return the metrics sample returned; read_metrics raises SystemError when a requested output file is missing.", "quantifier": "every number and mix of conditions, every simulation result, every previous directory content", "why_tests_cant": "all numbers of cases including the single-number files that numpy squeezes to zero dimensions", "anchors": ["src/pymars/sampling.py:read_metrics", "src/pymars/sampling.py:sample_metrics", "src/pymars/sampling.py:sample"]}
{"id": "C70", "title": "Sensitivity analysis touches no file but its final model", "statement": "Whether run_sa returns or raises, every file other than the final reduced model is as it was before: the starting model is unchanged and no candidate model is left behind.", "quantifier": "every file system, model, limbo list, algorithm type, limit and outcome of the simulations", "why_tests_cant": "unbounded sequence of temporary files, including every point at which a simulation may fail", "anchors": ["src/pymars/sensitivity_analysis.py:run_sa", "src/pymars/sensitivity_analysis.py:evaluate_species_errors"]}
{"id": "C71", "title": "Sensitivity analysis never accepts a model whose error is not a number", "statement": "The error of a model returned by run_sa is a number, and it is at most the limit unless nothing was removed.", "quantifier": "every model, limbo list and error function, including ones giving NaN", "why_tests_cant": "NaN compares false with everything, so guards written with > let it through at any step", "anchors": ["src/pymars/sensitivity_analysis.py:run_sa", "src/pymars/sampling.py:calculate_error"]}
{"id": "C72", "title": "The final state of a profile is sampled", "statement": "On a profile that ends at its highest temperature, a row of the sampled data stays zero only when there were too few points for the other rows: the final state always qualifies for the last row.", "quantifier": "every profile, in exact and in binary64 arithmetic", "why_tests_cant": "depends on the rounding of first and last temperature; tests use temperatures for which T0 + 1.0 (Tend - T0) is Tend", "anchors": ["src/pymars/simulation.py:BaseSimulation._sample_profile"]}
{"id": "C73", "title": "The starting model reproduces its own metrics", "statement": "For each kind of case, when sampling with data succeeds, the metric-only simulation of the same model on the same solver outcome returns the same metrics, so the error of the unreduced model is zero.", "quantifier": "every reactor trajectory, flame solution and response curve", "why_tests_cant": "two separate implementations of the metric have to agree on all outcomes", "anchors": ["src/pymars/sampling.py:ignition_sample_worker", "src/pymars/sampling.py:ignition_worker", "src/pymars/sampling.py:calculate_error"]}
{"id": "C74", "title": "Sampling leaves no intermediate data file", "statement": "After an ignition case has been sampled, successfully or not, the intermediate HDF5 file is gone.", "quantifier": "every trajectory, failures included", "why_tests_cant": "all failure points", "anchors": ["src/pymars/sampling.py:ignition_sample_worker", "src/pymars/simulation.py:BaseSimulation.clean"]}
{"id": "C75", "title": "A simulation starts from the mixture the user described", "statement": "For every accepted condition, the simulation's gas is set to the given equivalence ratio of the given fuel and oxidizer, or to the given reactants as mole or mass fractions according to composition-type; never to a mixture that was not given.", "quantifier": "every model and every case dictionary of the three kinds that parses", "why_tests_cant": "all combinations of keys, and the agreement of two functions in different modules", "anchors": ["src/pymars/simulation.py:_setup_gas", "src/pymars/sampling.py:parse_ignition_inputs", "src/pymars/sampling.py:parse_psr_inputs", "src/pymars/sampling.py:parse_flame_inputs"]}
{"id": "C76", "title": "The targets used are the names the user wrote", "statement": "Every target species used after parse_inputs is a name written under targets in the input file, and a fuel, oxidizer or reactant species that is not a target is retained.", "quantifier": "every input dictionary that parses, with targets given as a list or as a single name", "why_tests_cant": "depends on which characters happen to be species of the model", "anchors": ["src/pymars/pymars.py:parse_inputs"]}
{"id": "C77", "title": "The command line function acts on the arguments it is given", "statement": "pymars(argv) does what the arguments in argv ask for.", "quantifier": "every argument list and every argument list of the process", "why_tests_cant": "tests run with one particular sys.argv", "anchors": ["src/pymars/pymars.py:pymars", "src/pymars/__main__.py:main"]}
{"id": "C78", "title": "Models judged equal have the same chemistry", "statement": "If compare_models(a, b) is True then species correspond one to one with equal names and compositions and thermodynamic values within tolerance, and reactions correspond with the same type, reactants, products, reversibility, orders, duplicate flag, third body and rate parameters within tolerance.", "quantifier": "every pair of models", "why_tests_cant": "ranges over all models; a test compares a few pairs", "anchors": ["src/pymars/tools.py:compare_models"]}
{"id": "C79", "title": "Transport lines split into seven fields that read back", "statement": "Each line written by write_transport_data splits on white space into the species name, the geometry index (0, 1, 2), the well depth in K, the collision diameter in Angstrom, the dipole moment in Debye, the polarizability in cubic Angstrom and the rotational relaxation number, the numbers being right to three decimals. The file has one such line per species in the order of the model; an unknown geometry raises KeyError and the file stops before that species.", "quantifier": "every species with a white-space-free name (of any length) and transport values between 0 and 10000 in those units", "why_tests_cant": "all species and values; fields are written without separators", "anchors": ["src/pymars/soln2ck.py:write_transport_data"]}
{"id": "C80", "title": "The Chemkin file determines the rate law of each reaction", "statement": "Two models with the same Chemkin files have the same rate laws; in particular explicit reaction orders and a default third-body efficiency other than one are written.", "quantifier": "every pair of models", "why_tests_cant": "compares all pairs of models; data is dropped silently", "anchors": ["src/pymars/soln2ck.py:write"]}
{"id": "C81", "title": "Chebyshev rates are converted to Chemkin units", "statement": "The Chebyshev coefficients written describe the same rate as those of the model: for a reaction of order n the first one is larger by 3(n-1) in the units mol, cm, s.", "quantifier": "every Chebyshev reaction", "why_tests_cant": "needs the meaning of the coefficients; the error shows only when the file is used", "anchors": ["src/pymars/soln2ck.py:write"]}
{"id": "C82", "title": "Options mean the same in every spelling and order", "statement": "Every list of settings is understood, whether options are named in full or by an unambiguous beginning, with the value after the name, after = or attached to a short name; the last setting of an option counts, settings of different options may be given in any order, --num_threads without a number means all processors but one and at least one, and a text that begins no option, an ambiguous beginning, a value given to a flag, a missing value and a stray argument end the program.", "quantifier": "every list of settings, every spelling of each and every order", "why_tests_cant": "the combinations of spellings, orders and values are unbounded", "anchors": ["src/pymars/pymars.py:pymars", "src/pymars/sampling.py:sample_metrics"]}
{"id": "C83", "title": "The entry point acts on the arguments it is given", "statement": "main(args) does what the command does with the arguments args, and main() acts on those of the process.", "quantifier": "every argument list", "why_tests_cant": "tests of the entry point use one particular argument list", "anchors": ["src/pymars/__main__.py:main", "src/pymars/pymars.py:pymars"]}
{"id": "C84", "title": "Rounding cannot push an interaction coefficient out of its range", "statement": "In floating-point arithmetic, and not only in exact arithmetic, every DRG and DRGEP direct interaction coefficient lies between 0 and 1, and every PFA coefficient between 0 and 2n+2 for n species. Hence the DRGEP path search, which never ends when weights above one form a cycle, always ends on computed matrices; its coefficients lie in [0,1] and targets get exactly 1.", "quantifier": "every stoichiometry, every rates of progress, every number of species and reactions, every monotone sign-symmetric rounding that fixes 0 and 1 (binary64 in particular)", "why_tests_cant": "the ratio of two separately rounded sums can exceed one by an ulp for some inputs only if the summation orders disagree; no finite set of models shows that it never does", "anchors": ["src/pymars/drg.py:create_drg_matrix", "src/pymars/drgep.py:create_drgep_matrix", "src/pymars/drgep.py:mod_dijkstra", "src/pymars/pfa.py:create_pfa_matrix"]}
{"id": "C85", "title": "Computed DRG coefficients are accurate and keep every edge", "statement": "With m reactions and unit roundoff u, the DRG coefficient computed in floating point agrees with the published formula up to the factor ((1+u)/(1-u))^(m+2) and one more rounding; an entry is zero exactly when the formula is zero, so no edge of the graph is lost or invented; and scaling all rates by a power of two leaves the DRG, DRGEP and PFA matrices bit for bit the same.", "quantifier": "every stoichiometry, rates and sizes, every rounding with relative error at most u (binary64 in particular); no overflow or underflow", "why_tests_cant": "tests compare a few matrices within a tolerance; the bound and the absence of lost edges concern every model and state", "anchors": ["src/pymars/drg.py:create_drg_matrix", "src/pymars/drgep.py:create_drgep_matrix", "src/pymars/pfa.py:create_pfa_matrix"]}
{"id": "C86", "title": "Optional path and predecessor outputs agree with the values", "statement": "On a graph whose source has no edge to itself, calling the modified Dijkstra search with paths={source: [source]} returns, for every other reached node, a path from the source along edges of the graph that visits no node twice and whose product is exactly the value returned for that node; nodes without a value have no path. Calling it with pred={source: []} returns for every other reached node exactly the nodes from which an edge attains its value. In both cases the values are those returned without the options and no exception is raised.", "quantifier": "every finite graph with weights in [0,1] and no edge from the source to itself, every source, exact or rounded multiplication", "why_tests_cant": "the search pops the smallest value first and revisits nodes, so a path may be recorded from a node whose own value is later improved; tests on small graphs do not show that path and value agree in the end", "anchors": ["src/pymars/drgep.py:mod_dijkstra"]}
{"id": "C87", "title": "Path and predecessor outputs cover the source and all graphs", "statement": "The path returned for the source is [source], predecessor lists contain no node twice, an edge from the source to itself does not disturb the paths of other nodes, and empty dictionaries may be passed for paths and pred.", "quantifier": "every finite graph with weights in [0,1], every source", "why_tests_cant": "the failures need an edge back to the source, which no test graph has", "anchors": ["src/pymars/drgep.py:mod_dijkstra"]}
{"id": "C88", "title": "A method followed by sensitivity analysis returns a trimmed candidate of the method", "statement": "When main runs DRG, DRGEP or PFA and then sensitivity analysis and returns, the model returned is the method's model with some of its limbo species removed one by one, stored under the reported file name. If no species was removed its model and error are the method's; otherwise its reported error is the worst deviation of its own metrics from those of the method's model and is not above the limit. With exactly computed thresholds the reported error is never above the limit.", "quantifier": "every model, matrices, error and metric functions, limit, retained species, upper threshold, and number of iterations of both stages", "why_tests_cant": "two input-dependent loops are composed, and the second one starts from the files of the first", "anchors": ["src/pymars/pymars.py:main", "src/pymars/sensitivity_analysis.py:run_sa"]}
{"id": "C89", "title": "A returned model reproduces the starting model under every requested condition", "statement": "When a whole run of DRG, DRGEP or PFA (sampling the starting model, building the matrices, the threshold loop, simulating the candidates) returns a model and reports an error below 100 percent, then under every requested condition the returned model ignites, burns in the stirred reactor and carries a flame as the starting model does, and every ignition delay, extinction residence time, reactor temperature and flame speed agrees with that of the starting model within the reported percentage. With exactly computed thresholds and a limit below 100 percent they agree within the limit.", "quantifier": "every model, every behaviour of the simulations (reactor trajectories, flame solutions, response curves, rates at the sampled states), every set of conditions, number of processes and completion order, limit, targets, retained species; data and matrices in exact or binary64 arithmetic; no saved samples present", "why_tests_cant": "the promise composes sampling, job order, metrics, error, matrices, graph search and the loop, for all inputs of each", "anchors": ["src/pymars/drg.py:run_drg", "src/pymars/drgep.py:run_drgep", "src/pymars/pfa.py:run_pfa", "src/pymars/sampling.py:sample", "src/pymars/sampling.py:sample_metrics", "src/pymars/sampling.py:calculate_error"]}
{"id": "C90", "title": "The outcome of a whole run does not depend on the number of processes or their timing", "statement": "When a whole run returns with some number of processes and some order in which the simulations finish, it returns with every other number and order the identical model, error, file name, files and saved samples. When it raises with one, it raises with every other and leaves the same files (only which exception may differ).", "quantifier": "every model, condition set, behaviour of the simulations, saved samples, arithmetic, file system, and every two pairs of process count (at least one) and completion order", "why_tests_cant": "the completion order is chosen by the operating system and cannot be enumerated", "anchors": ["src/pymars/drg.py:run_drg", "src/pymars/drgep.py:run_drgep", "src/pymars/pfa.py:run_pfa", "src/pymars/sampling.py:sample", "src/pymars/sampling.py:sample_metrics", "src/pymars/sampling.py:_run_sampling_jobs", "src/pymars/sampling.py:_run_metric_jobs"]}
{"id": "C91", "title": "Repeating a reduction in the directory it left returns the same model", "statement": "Running the same reduction again after it returned, with the saved samples and files of the first run still in place and any number of processes, returns the same model, with the same error and file name, and neither simulates the starting model again nor rewrites the saved samples.", "quantifier": "every run that returned (all methods, models, conditions, behaviours of the simulations, limits at least zero, exact or binary64 arithmetic), every process count and order of the second run", "why_tests_cant": "depends on the state left by an arbitrary first run: saved arrays, reduced model files and the order of jobs", "anchors": ["src/pymars/drg.py:run_drg", "src/pymars/drgep.py:run_drgep", "src/pymars/pfa.py:run_pfa", "src/pymars/sampling.py:sample", "src/pymars/sampling.py:sample_metrics"]}
{"id": "C92", "title": "A whole run protects targets, retained species and all other files", "statement": "A model returned by a whole run contains every target and every retained species of the starting model, is stored under the returned file name, and every file other than the numbered reduced_<n>.yaml files of the output directory is unchanged.", "quantifier": "every method, model, condition set with at least one condition, behaviour of the simulations, arithmetic, targets, retained species, limit and file system", "why_tests_cant": "holds for arbitrary sampled states and hence arbitrary interaction matrices", "anchors": ["src/pymars/drg.py:run_drg", "src/pymars/drgep.py:run_drgep", "src/pymars/pfa.py:run_pfa", "src/pymars/sampling.py:sample", "src/pymars/sampling.py:sample_metrics"]}
{"id": "C93", "title": "The two-stage pipeline, from input conditions to the returned model", "statement": "Reduce with a graph-based method and continue with sensitivity analysis, in a fresh directory. If the pipeline returns a model with a reported error that is a number, that model simulated again under every given condition deviates from the starting model by at most the reported error, and at most the error limit (limits below 100 percent), in every ignition delay, stirred-reactor quantity and flame speed; otherwise the reported error is undefined (NaN).", "quantifier": "every model, condition set, behaviour of the simulations with positive finite results for the starting model, every method, limit, arithmetic, process count and order", "why_tests_cant": "two reductions, an evaluation cache, temporary files and the simulations of arbitrarily many candidate models are composed", "anchors": ["src/pymars/pymars.py:main", "src/pymars/sensitivity_analysis.py:run_sa", "src/pymars/sampling.py:sample_metrics", "src/pymars/drg.py:run_drg", "src/pymars/drgep.py:run_drgep", "src/pymars/pfa.py:run_pfa"]}
{"id": "C94", "title": "Sensitivity analysis alone in a directory without saved metrics", "statement": "Started without a graph-based method and without saved metrics, sensitivity analysis with a limit below 100 percent compares every candidate against zeros for the ignition and flame conditions. With at least one such condition and simulations that yield numbers it returns the starting model with error 0, whatever could have been removed. Only when all conditions are stirred reactors may it return a smaller model, and that model reproduces the starting model within the limit (or the error is NaN). In floating-point arithmetic, with at least one ignition or flame condition, it likewise returns the starting model or reports NaN whatever the rounding, and always returns the starting model with error 0 if the metrics are numbers of that arithmetic.", "quantifier": "every model, condition set, behaviour of the simulations, limit below 100, kind of sensitivity analysis, process count and order; every rounding of the computed errors", "why_tests_cant": "says that no candidate of any model under any condition is ever accepted", "anchors": ["src/pymars/pymars.py:main", "src/pymars/sensitivity_analysis.py:run_sa", "src/pymars/sampling.py:sample_metrics", "src/pymars/sampling.py:calculate_error"]}
{"id": "C95", "title": "A candidate that cannot be simulated does not end the reduction", "statement": "If simulating some candidate model raises an exception (for instance because an initial mixture names a species that was removed), the graph-based reduction still returns a model within the limit that was found before.", "quantifier": "every method, model, setting, number of accepted candidates before the raising one, limit, rounded or exact arithmetic", "why_tests_cant": "which candidate raises depends on the sampled rates; a test sees one model and one order of candidates", "anchors": ["src/pymars/reduce_model.py:reduce", "src/pymars/drg.py:run_drg", "src/pymars/drgep.py:run_drgep", "src/pymars/pfa.py:run_pfa", "src/pymars/sampling.py:sample_metrics"]}
{"id": "C96", "title": "A trimmed model can be loaded again", "statement": "If a model loads in Cantera, the model that remains after removing any species loads as well: no reaction refers to a species that is gone (as reactant, product, collider or by a reaction order), no two reactions clash without being declared duplicates, and every declared duplicate has a partner.", "quantifier": "every loadable model, every set of removed species", "why_tests_cant": "the failing models need orders in non-reactants or duplicates that differ by an explicit collider; the test mechanisms have neither removed", "anchors": ["src/pymars/reduce_model.py:trim"]}
{"id": "C97", "title": "What the command promises, from the command line to the files it leaves", "statement": "When `pymars` is started with options (in any spelling and order) that ask for a reduction with an input file, and ends normally, the output directory holds a model reduced_<n>.yaml with n species that contains every target, every retained species and every species of the initial mixtures, reproduces the model of the input file within its error limit under every one of its conditions, and every other file outside the temporary directories is as before. A command line that asks for a conversion, in whatever spelling and order of options, hands the given model, thermodynamic and transport files and the given directory to the converter.", "quantifier": "every command line, input file, model, set of files, simulation results, number of processes and order of completion", "why_tests_cant": "the claim composes the command line, the input file, sampling, the graph methods, sensitivity analysis and file handling; a test runs one command on one model", "anchors": ["src/pymars/__main__.py:main", "src/pymars/pymars.py:pymars", "src/pymars/pymars.py:parse_inputs", "src/pymars/pymars.py:main", "src/pymars/drg.py:run_drg", "src/pymars/sensitivity_analysis.py:run_sa"]}
{"id": "C98", "title": "An input file is accepted exactly when it is as documented, and its values are passed on", "statement": "An input file is accepted exactly when it names a model that can be loaded, a nonzero error limit, a known method with at least one target or sensitivity analysis alone, a documented type of sensitivity analysis, only species of the model, and at least one condition, all well formed; anything else raises AssertionError or what loading the model raises. Every value of an accepted file reaches the reduction unchanged, with the upper threshold 0.1 when sensitivity analysis is asked for without one.", "quantifier": "every input file whose targets and retained species are lists, every model, every way loading can fail", "why_tests_cant": "the claim is an equivalence over all input files and all conditions in them; tests try a few good and bad files", "anchors": ["src/pymars/pymars.py:parse_inputs", "src/pymars/sampling.py:parse_ignition_inputs", "src/pymars/sampling.py:parse_psr_inputs", "src/pymars/sampling.py:parse_flame_inputs", "docs/usage.rst"]}
{"id": "C99", "title": "A looser error limit never keeps more species", "statement": "When a reduction that ends normally is repeated with a larger error limit and nothing else changed, it does not give up, and the model it returns has no species that the first one did not have.", "quantifier": "every method, model, set of matrices, error function, targets, retained species and pair of error limits", "why_tests_cant": "the claim relates two runs for all models and limits; with binary64 thresholds it fails only for particular strengths of interaction near a threshold, which no example is likely to hit", "anchors": ["src/pymars/drg.py:run_drg", "src/pymars/drgep.py:run_drgep", "src/pymars/pfa.py:run_pfa"]}
{"id": "C100", "title": "The order in which targets, retained species and states are listed does not matter", "statement": "A graph-based reduction returns the same model with the same file name and error, or fails in the same way, when targets, retained species or sampled states are listed in another order or repeated. The limbo species found by DRG are then the same up to order.", "quantifier": "every method, model, set of matrices, error function, error limit, and every reordering or repetition", "why_tests_cant": "the claim relates all reorderings of all requests; the search order, the order of path searches and the merging of coefficients all change", "anchors": ["src/pymars/drg.py:run_drg", "src/pymars/drgep.py:run_drgep", "src/pymars/drgep.py:get_importance_coeffs", "src/pymars/pfa.py:run_pfa", "src/pymars/drg.py:graph_search"]}
{"id": "C101", "title": "Asking for more never keeps less", "statement": "With more targets, retained species or sampled states, a reduction keeps every species it kept before.", "quantifier": "every method, model, set of matrices, threshold and larger request", "why_tests_cant": "the claim is about all pairs of requests; the counterexample for whole runs needs an error that depends on the kept species in a particular way", "anchors": ["src/pymars/drg.py:reduce_drg", "src/pymars/drgep.py:reduce_drgep", "src/pymars/pfa.py:reduce_pfa", "src/pymars/drg.py:run_drg"]}
{"id": "C102", "title": "Sensitivity analysis does not depend on the order of the limbo species", "statement": "The model returned by sensitivity analysis does not depend on the order of the limbo species it is given. DRG lists them in the order of a Python set, which changes from one start of the interpreter to the next.", "quantifier": "every model, metrics, error limit, algorithm and reordering of the limbo species", "why_tests_cant": "a test sees one order per interpreter start; the claim relates all orders", "anchors": ["src/pymars/sensitivity_analysis.py:run_sa", "src/pymars/drg.py:reduce_drg"]}
{"id": "C103", "title": "The order in which conditions are listed does not matter to a reduction", "statement": "Listing the ignition, reactor and flame conditions, the targets and the retained species in another order, or repeating some of them, and using another number of processes, does not change what a reduction returns: the same model, file name and error, or an exception both times, and the same model files are left.", "quantifier": "every model, method, list of conditions of the three kinds and behaviour of the simulations (also raising), every order and repetition, every number of processes and completion order, any rounding of thresholds, exact or binary64 data and matrices, any number of iterations", "why_tests_cant": "the number of orders is factorial, and which condition decides the error, or raises first, depends on the simulations; the effect of saved samples depends on the history of the directory", "anchors": ["src/pymars/sampling.py:sample", "src/pymars/sampling.py:sample_metrics", "src/pymars/sampling.py:calculate_error", "src/pymars/drg.py:run_drg", "src/pymars/drgep.py:run_drgep", "src/pymars/pfa.py:run_pfa"]}
{"id": "C104", "title": "Thermodynamic data survives conversion to Chemkin", "statement": "Reading the thermo entry that soln2ck writes for a species back from its columns gives heat capacity, enthalpy and entropy at every temperature to within 5e-9 of the sum of the sizes of their polynomial terms (so compare_models finds them close), or the conversion fails.", "quantifier": "every species and every temperature", "why_tests_cant": "all species, numbers and temperatures; a test converts a few models and compares at three temperatures", "anchors": ["src/pymars/soln2ck.py:write_thermo_data", "src/pymars/tools.py:compare_models"]}
{"id": "C105", "title": "Stirred-reactor metrics come from steady states, and failures cost exactly 100 percent", "statement": "For a stirred-reactor condition, the metric vector [extinction time, middle temperature, temperature near 0.1 s] and the three sampled states belong to three states that satisfy the reactor's species and energy balances to 1e-7; the extinction time is the least residence time reached by the trace, is positive and at most 0.5 s. A candidate model never makes the simulation raise: it gets three zeros exactly when its curve cannot be traced, and three positive numbers otherwise. Against a starting model whose curve was traced, an untraceable candidate has an error of exactly 100 percent and any other candidate the worst relative deviation of the three metrics, which is finite.", "quantifier": "all gases (any number of species, any kinetics), inlet and equilibrium states, all library solvers that are honest about residuals and raise only what their callbacks raise", "why_tests_cant": "The solver uses thousands of Newton corrections on stiff kinetics; a test sees one gas and one inlet and cannot tell that every returned triple is a steady state, nor that the failure value can never be confused with a real metric.", "anchors": ["src/pymars/simulation.py:PSRSimulation", "src/pymars/psr_solver.py:trace_extinction_curve", "src/pymars/sampling.py:calculate_error"]}
{"id": "C106", "title": "The order in which a model file lists species and reactions does not matter", "statement": "If a model file is rewritten with its species and its reactions in another order, and simulations of reordered models give the same error, then DRG, DRGEP and PFA return the same reduced model up to order, under the same file name and with the same error, or fail in the same way. In exact arithmetic this holds for every order. In floating point it holds for DRG and DRGEP if the reactions keep their order; it fails if reactions move, and for PFA if species move, because sums are rounded in another order.", "quantifier": "all models, all permutations of species and reactions, all lists of sampled states, all targets, retained species, error limits, three methods, exact and binary64 thresholds, any rounding of matrix arithmetic where stated", "why_tests_cant": "A test compares a few orders of one mechanism; the claim ranges over all permutations of all mechanisms, and the failing cases need sums of rates that differ in the last bit at a threshold of the search grid.", "anchors": ["src/pymars/drg.py:create_drg_matrix", "src/pymars/drgep.py:create_drgep_matrix", "src/pymars/pfa.py:create_pfa_matrix", "src/pymars/drg.py:run_drg", "src/pymars/drgep.py:run_drgep", "src/pymars/pfa.py:run_pfa", "src/pymars/reduce_model.py:trim"]}
{"id": "C107", "title": "Binary64 matrices are within a computable distance of the published coefficients", "statement": "The direct interaction coefficients that DRG, DRGEP and PFA compute in binary64 arithmetic differ from the coefficients defined in the literature by at most a bound that depends only on the number of species and reactions: for DRG by a factor of at most 1 plus or minus (2m+5)/2^52, for PFA by a factor of at most 1 plus or minus (4m+n+14)/2^52, for DRGEP by at most (m+2)/2^49. DRG and PFA have an edge in binary64 exactly where the published coefficient is not zero. So at a given threshold a method keeps every species that the published coefficients keep at a threshold above it by that amount, keeps no species that they do not keep at a threshold below it by that amount, and keeps exactly the published ones if no coefficient (DRG, PFA) or path product (DRGEP) lies in between. For DRGEP edges can disappear and appear by rounding.", "quantifier": "all models with fewer than about 2^49 reactions and species, all rates of progress, stoichiometric coefficients, targets, retained species, thresholds, and all lists of sampled states", "why_tests_cant": "Rounding errors of sums over thousands of reactions depend on every bit of the rates; tests compare with a tolerance on a few matrices and cannot bound the error over all rates, nor say what it does to the set of kept species.", "anchors": ["src/pymars/drg.py:create_drg_matrix", "src/pymars/drgep.py:create_drgep_matrix", "src/pymars/pfa.py:create_pfa_matrix", "src/pymars/drg.py:trim_drg", "src/pymars/drgep.py:ss_dijkstra_shortest_paths"]}
{"id": "C108", "title": "A run keeps the species that the published coefficients of the simulated states select", "statement": "When a whole reduction with DRG, DRGEP or PFA ends normally, the species of the model it writes are those that the method's published direct interaction coefficients, evaluated at the states sampled from simulations of the starting model under the requested conditions, select at some threshold of the search, together with the retained species. In exact arithmetic this holds exactly; in binary64 the model lies between the selections at two thresholds that differ from the one used by the bound of C107. The same holds for the command: the model file in the output directory holds such a model for the conditions, targets and retained species of the input file. If sensitivity analysis follows, the species of the model it returns are among these.", "quantifier": "all models, all behaviours of Cantera on them that meet the stated physical assumptions, all requests with any number of conditions, targets, retained species and processes, all error limits of at least zero, three methods, exact and binary64 arithmetic", "why_tests_cant": "The claim links the input file, the simulations, the sampled table, the matrices, the graph search, the threshold search and the file written; unit tests check each part on fixtures and cannot show that what one part hands on is what the next one needs for every model.", "anchors": ["src/pymars/pymars.py:main", "src/pymars/drg.py:run_drg", "src/pymars/drgep.py:run_drgep", "src/pymars/pfa.py:run_pfa", "src/pymars/sampling.py:sample"]}
{"id": "C109", "title": "The command reduces with the states that its input file describes", "statement": "When the command ends normally with one of the three methods, the species of the model in the output directory are the targets, the retained species, the species of the initial mixtures and those that the method's published coefficients select, at some threshold of the search, at the states that the input file describes (between two thresholds that differ by the rounding bound of C107). These states are: for each autoignition case twenty states of the trajectory of the reactor up to the given end time or, if none is given, up to steady state within the given number of steps or 10000, the k-th state being the first one after the one before at or above the k-th twentieth of the temperature rise (up to a relative error of 1e-14 of the level, temperatures being at least one kelvin); for each stirred reactor the three points of its curve at the given pressure times 101325 Pa; for each flame twenty states of its profile. The metrics are the delays to 400 K above the given temperature, the extinction time and two temperatures, and the speeds, which are above the given or default floor. With sensitivity analysis after the method, the species of the model are among these.", "quantifier": "all models, all behaviours of Cantera that meet the stated physical assumptions, all input files with any number and mixture of conditions whose end times are numbers or left out and whose step limits are integers or left out, all spellings of the command line, three methods, binary64 arithmetic", "why_tests_cant": "Each value passes through YAML types (numbers and booleans), defaults, unit conversions and index arithmetic before it reaches a simulation; tests use one input file per feature and compare numbers with tolerance.", "anchors": ["src/pymars/pymars.py:parse_inputs", "src/pymars/pymars.py:main", "src/pymars/sampling.py:sample", "src/pymars/simulation.py:AutoignitionSimulation", "src/pymars/simulation.py:PSRSimulation", "src/pymars/simulation.py:FlameSimulation"]}
{"id": "C110", "title": "Away from ties, binary64 runs return what exact arithmetic would", "statement": "Suppose the search for a threshold with the published coefficients of the sampled states and exact thresholds 0.01, 0.001, ... and their multiples rejects the starting thresholds before the j-th, accepts k increments and rejects the next, and suppose no published coefficient (for DRGEP: no published importance of a species) comes within the rounding error of one of these thresholds (a relative distance of about (k+4m+n)/2^50 for n species and m reactions, for DRGEP plus n(m+3)/2^49). Then the whole run in binary64 returns the model of the last accepted threshold, although the code recomputes that threshold from later ones with rounding, and this model reproduces the starting model within the limit under every condition. Conversely, a run that returned did so at some place of the search, and if no published coefficient is close to a threshold up to there, exact arithmetic stops at the same place with the same model. With sensitivity analysis after it, the returned model has the species that the published coefficients select at that exact threshold, without some of the candidates the method hands over, and reproduces the starting model within the limit, unless its reported error is NaN. The same holds of the command without sensitivity analysis: with the states that its input file describes, the model in the output directory then consists of the targets, the retained species, the species of the mixtures and what the published coefficients select at that exact threshold, and reproduces the starting model under the conditions of the file within the limit of the file.", "quantifier": "all models, all behaviours of Cantera that meet the stated physical assumptions, all conditions, all limits from 0 to below 100, all targets and retained species, three methods", "why_tests_cant": "C19 and C26 show that the returned model can violate the limit in binary64; whether it does for a given model depends on the distance of thousands of coefficients from the thresholds, which a test that compares species lists does not look at.", "anchors": ["src/pymars/drg.py:run_drg", "src/pymars/drgep.py:run_drgep", "src/pymars/pfa.py:run_pfa", "src/pymars/drg.py:create_drg_matrix", "src/pymars/drgep.py:create_drgep_matrix", "src/pymars/pfa.py:create_pfa_matrix"]}
{"id": "C111", "title": "Rates below the normal range do not change a reduction, unless coefficients are fractions", "statement": "Binary64 numbers below about 2.2e-308 lose digits and half of 4.9e-324 or less becomes zero. However small rates are, coefficients computed with this gradual underflow stay in their ranges. Where net stoichiometric coefficients are whole numbers, DRG and DRGEP keep the same species at every threshold of the search as without underflow, for rates of progress as small as binary64 can hold; for fractional coefficients this needs rates in the normal range, and for PFA shares of production and consumption of at least 2^-500. A whole run on such states keeps what the published coefficients select, within the bounds of C107. Without these conditions it fails: if all rates of change of a species round to zero, its coefficients are zero whatever the published ones are, and with half a molecule formed at the smallest rate a published coefficient of 1 is computed as 0 by all three methods.", "quantifier": "all stoichiometries, all rates of progress, all numbers of species and reactions, all thresholds above the smallest normal number, three methods; whole runs for all behaviours of Cantera that meet the stated physical assumptions", "why_tests_cant": "Rates of progress at the cold start of an ignition are often below 1e-300; a test compares one mechanism's species lists and does not show which of them passed through subnormal numbers.", "anchors": ["src/pymars/drg.py:create_drg_matrix", "src/pymars/drgep.py:create_drgep_matrix", "src/pymars/pfa.py:create_pfa_matrix", "src/pymars/drgep.py:mod_dijkstra", "src/pymars/drg.py:run_drg", "src/pymars/drgep.py:run_drgep", "src/pymars/pfa.py:run_pfa"]}
{"id": "C112", "title": "The path search of DRGEP ends after a number of steps that grows moderately with the model", "statement": "Dijkstra's algorithm enters each node once. The modified search of DRGEP ends on every matrix of coefficients in [0,1], with the greatest path products, after at most 2(N+1)^(N+1)+3N+2 iterations for N species. No polynomial bound holds: since the search takes the smallest value from its queue first, there is for every n a model with 2n+2 species and 3n+1 isomerisations, at steady rates, on which a reduction by DRGEP is still searching for paths after 2^n iterations; with binary64 arithmetic this holds up to n=46, i.e. for a model of 94 species.", "quantifier": "all matrices, numbers of species, targets and sampled states, all ways of rounding products (upper bound); all n (lower bound, exact arithmetic), n up to 46 in binary64; whole calls of run_drgep", "why_tests_cant": "A test runs the search on small graphs or on one mechanism, where it ends quickly; that the number of steps is exponential on a family of models follows only from an argument about all of them.", "anchors": ["src/pymars/drgep.py:mod_dijkstra", "src/pymars/drgep.py:ss_dijkstra_path_length_modified", "src/pymars/drgep.py:graph_search_drgep", "src/pymars/drgep.py:get_importance_coeffs", "src/pymars/drgep.py:run_drgep"]}
{"id": "C113", "title": "The path search ends exactly when no cycle away from the source gains, and then returns the greatest products", "statement": "mod_dijkstra, called with positive edge weights of any size, ends if and only if no closed walk that can be reached from the source and does not pass through the source has a product of weights above one. Whenever it ends, every node it names carries the greatest product over the walks from the source that do not come back to it, and exactly the nodes such walks reach are named. One gaining cycle of any length keeps it running for ever.", "quantifier": "all finite graphs with positive weights (not only weights up to one), all sources, all cycles, every number of loop iterations", "why_tests_cant": "Non-termination is about all step counts and termination about all graphs; tests run the search on a few graphs whose weights are at most one.", "anchors": ["src/pymars/drgep.py:mod_dijkstra"]}
{"id": "C114", "title": "The order in which rates are added affects results by no more than rounding", "statement": "np.sum promises no order of additions. For every order (any tree of additions of the same terms, each rounded once) the coefficients of DRG, DRGEP and PFA stay within the rounding bounds of the published coefficients that hold for adding column after column, two orders differ by at most twice that, and away from ties DRG and PFA keep the same species. For DRGEP the order does matter for more than accuracy: with the blockwise addition numpy uses on contiguous rows a coefficient can exceed one, and a reduction by DRGEP then searches for paths for ever, on a model of three species, while it ends when rates are added one after the other. As long as no computed coefficient exceeds one (in particular when the published ones stay clear of one) the search ends and DRGEP, too, keeps the same species away from ties.", "quantifier": "all models, rates, numbers of reactions up to 2^48, all orders of additions (all binary trees over all permutations of the terms); all step counts for the search that does not end", "why_tests_cant": "A test runs one build of numpy, which fixes one order for one memory layout; it cannot range over orders, and non-termination is about all step counts.", "anchors": ["src/pymars/drg.py:create_drg_matrix", "src/pymars/drgep.py:create_drgep_matrix", "src/pymars/pfa.py:create_pfa_matrix", "src/pymars/drgep.py:mod_dijkstra", "src/pymars/drgep.py:run_drgep"]}
{"id": "C115", "title": "A sampled state with infinite or undefined rates does not pass unnoticed", "statement": "If a net rate of some reaction is infinite or NaN in a sampled state (a broken line of a saved sample file, a failed simulation, an overflow), the user must be told, or at least the state must influence the reduction. The code does neither: one such rate makes every interaction coefficient of that state zero or NaN, for each of DRG, DRGEP and PFA, comparisons with NaN are false, so the run returns exactly what it returns without that state. If all sampled states are like that, DRG and PFA never return a model, and DRGEP returns the targets and retained species only, whatever the chemistry is. With finite rates and no overflow, runs on floating-point numbers are the runs the other properties describe.", "quantifier": "all models, methods, lists of sampled states, positions and numbers of undefined states, rounding operators (with and without overflow), ways of ordering a heap that holds NaN, error limits, arithmetics of the thresholds", "why_tests_cant": "A test samples states from simulations that work; the claim ranges over all states with undefined rates and over the behaviour of a heap whose entries cannot be compared.", "anchors": ["src/pymars/drg.py:create_drg_matrix", "src/pymars/drg.py:trim_drg", "src/pymars/drgep.py:create_drgep_matrix", "src/pymars/drgep.py:mod_dijkstra", "src/pymars/drgep.py:get_importance_coeffs", "src/pymars/pfa.py:create_pfa_matrix", "src/pymars/drg.py:run_drg", "src/pymars/drgep.py:run_drgep", "src/pymars/pfa.py:run_pfa"]}
{"id": "C116", "title": "The conversion command, from its arguments to the files it leaves", "statement": "`pymars --convert` with a model file (options in any spelling and order) writes the counterpart of the model to the output directory, under the name of the model, changes no other file and never the model file itself; and if the conversion fails the files are as they were before. The first part holds in both directions. The second does not: the Chemkin file is opened for writing before it is known whether every reaction can be written, so a conversion that fails replaces an existing file of that name by a text that breaks off; and every conversion of base.yaml replaces base.inp in the output directory, even if that is the file base.yaml was made from.", "quantifier": "all spellings and orders of the options, model file names and directories, output directories, contents of all files, models read by Cantera, behaviours of ck2yaml that write one output", "why_tests_cant": "A test converts one model in an empty directory; the claim ranges over all names (also aliases of the model file in other directories), file systems and models, including those that cannot be converted.", "anchors": ["src/pymars/pymars.py:pymars", "src/pymars/tools.py:convert", "src/pymars/soln2ck.py:write"]}
{"id": "C117", "title": "Rounding in the error measure does not change the outcome, unless an error is within rounding of the limit", "statement": "The error reported for a candidate, computed in floating point, is the greatest percentage by which one of its metrics deviates, up to the last digits; a reduction accepts and rejects the same candidates, returns the same model, leaves the same files and raises the same exceptions as with exact errors; and a returned model whose computed error is within the limit deviates by no more than the limit. The first part holds. The second holds if no candidate's exact error is within rounding of the limit. The third holds up to a few units in the last place of the limit, and not exactly: a candidate whose delay changes by 100/3 percent passes a limit just below 100/3, because the computed error is rounded down to it.", "quantifier": "all roundings with relative error 2^(-53), tiny absolute error in underflow and overflow only for huge results (binary64 is one), metrics of the starting model between about 10^(-30) and 10^30, arbitrary metrics of candidates (also infinite or undefined), all three methods, models, conditions, states, limits and numbers of iterations", "why_tests_cant": "A test compares one run with recorded numbers; that rounding cannot change any decision needs a bound over all metrics and an argument about the whole search.", "anchors": ["src/pymars/sampling.py:calculate_error", "src/pymars/drg.py:run_drg", "src/pymars/drgep.py:run_drgep", "src/pymars/pfa.py:run_pfa"]}
{"id": "C118", "title": "Numbers written to Chemkin files without a format read back bit for bit", "statement": "Third-body efficiencies, falloff parameters, P-log pressures and Chebyshev ranges in a Chemkin file read back as exactly the floating-point numbers of the model, with no more digits than needed. This holds of efficiencies, falloff parameters and temperature ranges: each is written with the fewest digits (at most seventeen) that read back as it, and as the closest such number. It does not hold of pressures, which are divided by the standard atmosphere first: neighbouring pressures are written alike, and a pressure of 15000 Pa is read as the next number; they are recovered to within one part in 2^51.", "quantifier": "every binary64 number (subnormal numbers included), every reaction that can be written with such data and an integer order", "why_tests_cant": "There are 2^64 floats; shortest printing is the kind of algorithm whose bugs sit at powers of two and subnormal numbers.", "anchors": ["src/pymars/soln2ck.py:write", "src/pymars/soln2ck.py:build_falloff"]}
{"id": "C119", "title": "Unit conversions in Chemkin files survive floating-point arithmetic and fractional orders", "statement": "The rates and transport data of a Chemkin file are those of the model in the units of the file also when the conversions are done in floating-point arithmetic, and for reactions with fractional coefficients: pre-exponential factors times 1000 to the power of the order (less one or two where the kind of rate says so) to almost five digits, exponents to three decimals, activation energies in calories to two decimals or four digits, and well depths, diameters, dipole moments and polarizabilities to three decimals, up to a few units in the last place.", "quantifier": "every reaction that can be written with order between 0 and 18 (integer or not), every species with transport data in range, every arithmetic with relative error 2^-53 and powers accurate to 2^-50", "why_tests_cant": "Tests compare files of a few mechanisms with integer orders; a conversion that loses digits only for large exponents or fractional orders does not show.", "anchors": ["src/pymars/soln2ck.py:build_arrhenius", "src/pymars/soln2ck.py:build_falloff_arrhenius", "src/pymars/soln2ck.py:write_transport_data", "src/pymars/soln2ck.py:write"]}
{"id": "C120", "title": "Rounding does not change the outcome of sensitivity analysis, unless a choice is within rounding of a tie", "statement": "Sensitivity analysis in floating-point arithmetic tries the candidates in the order of exact arithmetic, accepts and rejects the same ones, returns the same model, leaves the same files and species, and raises the same exceptions. This holds when at each step the candidate tried is nearest to the current error by more than rounding, apart from later candidates that simulate exactly alike, and no error compared with the limit is within rounding of it. Without these conditions each step still tries a candidate that is nearest up to rounding, decides rightly up to rounding, and the returned model exceeds the limit by at most rounding; but another species may be removed: with metrics that are all binary64 numbers two removals can tie exactly while their computed errors differ.", "quantifier": "every model, candidate list, limit, simulation result with baseline metrics between 2^-100 and 2^100 and errors below 2^100, both algorithms, every arithmetic with relative error 2^-53", "why_tests_cant": "Whether rounding changes a choice depends on the last digits of simulated metrics; tests run a few mechanisms and see one outcome.", "anchors": ["src/pymars/sensitivity_analysis.py:run_sa", "src/pymars/sensitivity_analysis.py:evaluate_species_errors", "src/pymars/sampling.py:calculate_error"]}
{"id": "C121", "title": "The main command keeps its accuracy promise in floating-point arithmetic", "statement": "When the main command, with a graph-based method and with or without sensitivity analysis after it, computes its errors in floating-point arithmetic and returns a model with a reported error below 99 percent, that model reproduces the starting model under every condition within the reported error and a few units in its last place. With exact thresholds and a limit below 99 percent it reproduces it within the limit and a few units in its last place, unless its reported error is undefined, which needs an undefined simulation result. When no candidate's error is within rounding of the limit and the choices of the sensitivity stage are clear, rounding of errors changes nothing but the last digits of the reported error: same model, same files, same exceptions; likewise for sensitivity analysis alone.", "quantifier": "every starting model, method, set of conditions, limit, retained species, algorithm and simulator with positive baseline metrics between 2^-100 and 2^100, every arithmetic with relative error 2^-53", "why_tests_cant": "Tests compare a few runs with stored results; they cannot bound what rounding does to a comparison with the limit or to the choice among candidates in either stage.", "anchors": ["src/pymars/pymars.py:main", "src/pymars/drg.py:run_drg", "src/pymars/drgep.py:run_drgep", "src/pymars/pfa.py:run_pfa", "src/pymars/sensitivity_analysis.py:run_sa", "src/pymars/sampling.py:calculate_error"]}
{"id": "C122", "title": "Saved samples hold exactly the numbers computed, as text", "statement": "The text files in which sampled metrics and states are saved lose nothing: every float, infinities and NaN included, is read back from its text as the same float, and a table of any size as the same table. So in the directory that a call of `sample` leaves, a later call reads the same numbers bit for bit and writes nothing, and so do `read_metrics` and `sample_metrics`.", "quantifier": "every binary64 number, every table, every set of conditions, every simulator that returns floats, every directory found at the start", "why_tests_cant": "Tests save a few numbers; that the number of digits written suffices for every one of the 2^64 floats has to be proved.", "anchors": ["src/pymars/sampling.py:sample", "src/pymars/sampling.py:sample_metrics", "src/pymars/sampling.py:read_metrics"]}
{"id": "C123", "title": "A process that dies while it saves samples does not corrupt later runs", "statement": "When the process dies (or the disk fills up) after any number of characters while `sample` saves its results, a later call in the same directory returns what the undisturbed call returned. FALSE as stated: if it dies inside the text of the last metric, the file has all its lines and the rest of that number is taken for the metric. Proved: in every other case the later call returns the undisturbed result, and in this one only that metric differs and is what a reader makes of the characters written. For every set of ignition conditions there is a character at which to die after which every later call returns NaN for the last ignition delay, and another after which it returns a number between one and ten instead, whatever the delay was. A sensitivity analysis ('initial') that follows such a death then removes every species it may remove, whatever the limit, as long as the models it tries ignite, and returns a model with error NaN. A reduction with DRG, DRGEP or PFA and a limit that is not negative then returns no model at all, unless simulating some reduced model gives a metric of zero, and in that case it reports an error of NaN or 100 percent.", "quantifier": "every number of characters written, every set of conditions, every simulator that returns floats, every directory that has no stale data file", "why_tests_cant": "Tests do not kill the process at every character; the files they find are complete.", "anchors": ["src/pymars/sampling.py:sample", "src/pymars/sampling.py:read_metrics"]}
{"id": "C124", "title": "A finished run leaves no other candidate in the output directory", "statement": "After a DRG, DRGEP or PFA run every file `reduced_<n>.yaml` in its directory is the returned model's or was there before, unchanged. FALSE as stated, in three ways: candidates of rejected starting thresholds stay; when no start is accepted and the run exits, all of them stay; and for DRG and PFA, when a species the user asked to keep is not reached from the targets, two accepted thresholds in a row with the same candidate leave that candidate. Proved: the content of every numbered file after a run (returned model written, sizes met above the accepted start deleted, rejected starts left, the rest untouched) when species to keep do not matter, and the full claim if moreover the first start is accepted.", "quantifier": "every model, method, matrices, targets, limit, arithmetic, number of rejected and accepted thresholds, content of the directory before; the model file itself may be one of the numbered files", "why_tests_cant": "Which candidate files a run leaves depends on the whole sequence of candidate sizes; tests run in a fresh temporary directory and look at one file.", "anchors": ["src/pymars/drg.py:run_drg", "src/pymars/drgep.py:run_drgep", "src/pymars/pfa.py:run_pfa", "src/pymars/soln2yaml.py:write"]}
{"id": "C125", "title": "A later reduction leaves the results of earlier ones in the directory alone", "statement": "Reducing again in the same directory, with another limit, method or set of targets, does not lose a model that an earlier run returned in `reduced_<n>.yaml` unless the later run returns a model of the same size. FALSE as stated: the file is overwritten or deleted whenever any threshold the later run tries gives a candidate with n species, whatever is returned in the end. Proved: files of sizes that are neither tried nor returned are unchanged.", "quantifier": "every model, method, matrices, targets, limit, arithmetic, run that returns a model, content of the directory before, threshold tried", "why_tests_cant": "The loss depends on the sizes of intermediate candidates, which no test controls.", "anchors": ["src/pymars/drg.py:run_drg", "src/pymars/drgep.py:run_drgep", "src/pymars/pfa.py:run_pfa", "src/pymars/soln2yaml.py:write"]}
{"id": "C126", "title": "A reduced model can be reduced again in place", "statement": "Starting a reduction from a file `reduced_<n>.yaml` in the output directory itself gives what it gives from any other file: the same sequence of candidates, the same returned model and error, and the starting model is still in its file at the end (as an ideal gas, if all species were kept at some threshold). FALSE when the number in the name is not the number of species of the model in it: as soon as an accepted threshold gives a candidate with that many species, the run has deleted the model it is reducing and stops with an error. Proved for every file whose number is right, as it is for every file a reduction wrote.", "quantifier": "every closed model, method, matrices, targets, limit, arithmetic, number of rejected and accepted thresholds, content of the directory", "why_tests_cant": "Tests never reduce a file of the output directory; whether the model read in each iteration is still the starting model depends on what all the earlier iterations wrote.", "anchors": ["src/pymars/drg.py:run_drg", "src/pymars/drgep.py:run_drgep", "src/pymars/pfa.py:run_pfa", "src/pymars/soln2yaml.py:write"]}
{"id": "C127", "title": "How the reactions of a mechanism are written down does not matter", "statement": "Two files that describe the same chemistry, with the same production and consumption of every species by every process, give the same interaction coefficients in DRG, DRGEP and PFA. Proved for reactions listed in another order, multiplied by a number, split into or merged from duplicates that proceed in the same direction, and reactions that do not proceed; and for reactions written from right to left, where not a bit of the computed matrix changes. FALSE when a reversible reaction is written as two irreversible ones: DRG then lowers the coefficient of every species not in the reaction, below any positive number as both directions get faster; DRGEP lowers every coefficient of every species the reaction changes; in PFA, if the reaction changes all its species, their coefficients on every species not in it fall below any positive number as well. As a consequence, if all targets are in such a reaction and it is fast enough in both directions in every sampled state, DRG and PFA at any positive threshold keep no species outside that reaction, however much the targets need it; and in DRGEP, if it changes all targets, the importance of every species that is not a target falls below any positive threshold, so that all of them but the species to keep are removed.", "quantifier": "every state of every mechanism; every way of cutting reactions into parts; every set of reactions turned round; every odd rounding; every reversible reaction and pair of rates with the same net rate", "why_tests_cant": "The claim relates two mechanism files; tests compare one file with stored numbers.", "anchors": ["src/pymars/drg.py:create_drg_matrix", "src/pymars/drgep.py:create_drgep_matrix", "src/pymars/pfa.py:create_pfa_matrix", "src/pymars/drg.py:reduce_drg", "src/pymars/pfa.py:reduce_pfa", "src/pymars/drgep.py:get_importance_coeffs", "src/pymars/drgep.py:reduce_drgep"]}
{"id": "C128", "title": "Nothing is left that sensitivity analysis could remove", "statement": "In a model returned by sensitivity analysis, removing any one further candidate species would exceed the error limit. FALSE as stated: the analysis ends at the first candidate that exceeds the limit, and that candidate is the one whose induced error is nearest to the current error, not the smallest; `initial` moreover goes by the errors of the starting model. Proved for `greedy`: a candidate that could still be removed within the limit L would bring the error e of the returned model below 2e - L; hence a returned model with an error of at most half the limit is minimal.", "quantifier": "every model, list of candidates, metrics of every sub-model, limit, starting error; removal of one candidate at a time; errors in exact arithmetic", "why_tests_cant": "Whether another species could be removed is a statement about models the analysis never built; a test of the returned model cannot see it.", "anchors": ["src/pymars/sensitivity_analysis.py:run_sa", "src/pymars/sensitivity_analysis.py:evaluate_species_errors"]}
{"id": "C129", "title": "The simulations of a reduction are bounded by the number of species", "statement": "However many thresholds a reduction with DRG, DRGEP or PFA tries, the number of candidates it simulates is at most the number of rejected starting thresholds, plus one for each species removed on the way to the candidate that ends the search, plus one to build the returned model again; and the result depends on the simulation of no other model. FALSE for DRG and PFA if a species to be kept is not linked to a target: the previous model is recognised by its number of species, which the kept species change, so that every threshold tried costs a simulation.", "quantifier": "every model, matrices, targets, species to keep, errors of all sub-models, limit, number of rejected and accepted thresholds, rounding of the thresholds; runs that return a model", "why_tests_cant": "The cost of a run is a count over its whole course; a test sees the returned model, which is the same with and without the repeated simulations.", "anchors": ["src/pymars/drg.py:reduce_drg", "src/pymars/drgep.py:reduce_drgep", "src/pymars/pfa.py:reduce_pfa", "src/pymars/drg.py:run_drg"]}
{"id": "C130", "title": "What species are called does not matter", "statement": "Renaming the species consistently in the model files, the targets, the species to keep and the conditions renames them in the reduced model and in the files left behind, and changes nothing else: the same file names, errors, exceptions and saved samples, for DRG, DRGEP and PFA; and the same species removed in the same order, the same error and file name when sensitivity analysis returns a model, alone or after a method; also when the data, the matrices, the path products, the thresholds and the errors are each rounded in any way.", "quantifier": "every one-to-one renaming of all texts, every model, targets, kept species, conditions, saved samples, rounding of data, thresholds and errors, error limit and behaviour of Cantera that does not depend on names", "why_tests_cant": "Names enter through dictionaries, membership tests, substring tests, graph nodes and file names; a test uses a few mechanisms with the usual names and cannot show that no comparison treats H and H2, or upper and lower case, as alike.", "anchors": ["src/pymars/reduce_model.py:trim", "src/pymars/drg.py:trim_drg", "src/pymars/drg.py:run_drg", "src/pymars/drgep.py:mod_dijkstra", "src/pymars/pfa.py:run_pfa", "src/pymars/sensitivity_analysis.py:run_sa", "src/pymars/pymars.py:main"]}
{"id": "C131", "title": "An input file means what it says", "statement": "A species name written in an input file is taken as this name, and a number as this number (rounded to the nearest double): whoever lists a species of the model is not told that it is missing, and a temperature of 1e3 is a temperature of 1000. FALSE: a name that is also a YAML word for true, false or nothing (NO, N, Y, ON, OFF, YES, NULL ...) and not in quotes makes every document that lists it among the targets, the retained species or in a composition fail, whatever the model; a number with an exponent but no point (1e3, 1e-3), or with an exponent without sign (1.5e3), is a text, which is refused as temperature, pressure or equivalence ratio but accepted as error limit; and digits after a leading zero are read to base eight, or as a text if there is an eight or nine among them.", "quantifier": "every document (tree of mappings, sequences and scalars), every placement of the name or number in it, every set of species of the model, every length of the numbers", "why_tests_cant": "There are infinitely many spellings; tests of the parser start from dictionaries with values of the right type and never see the file.", "anchors": ["src/pymars/pymars.py:pymars", "src/pymars/pymars.py:parse_inputs", "src/pymars/sampling.py:parse_ignition_inputs", "src/pymars/sampling.py:parse_psr_inputs", "src/pymars/sampling.py:parse_flame_inputs"]}
{"id": "C132", "title": "A heading without entries counts as absent", "statement": "Whoever leaves a heading of the input file without entries (deleting the last of a list, say) gets the run they would get without the heading. FALSE: with nothing after targets, retained-species or one of the three headings for conditions, or after fuel, oxidizer or reactants of a condition, a document is never accepted; with nothing after sensitivity-type the greedy algorithm runs, while without the heading it is the one with the initial errors.", "quantifier": "every document, every place of the heading in it, every set of species of the model", "why_tests_cant": "Tests use complete dictionaries; null values come about only from reading a file.", "anchors": ["src/pymars/pymars.py:parse_inputs", "src/pymars/pymars.py:main", "src/pymars/sampling.py:parse_ignition_inputs", "src/pymars/sampling.py:parse_psr_inputs", "src/pymars/sampling.py:parse_flame_inputs"]}
{"id": "C133", "title": "The simulations of a sensitivity analysis are bounded by the number of candidates", "statement": "A sensitivity analysis with k candidate species simulates, after the starting model, at most 2k models, and at most k + k(k+1)/2 with the greedy algorithm; both numbers are reached whenever every removal stays within the error limit. Its result and the files it leaves depend on the simulator through the models it simulates only: two simulators that agree on these give the same run.", "quantifier": "every model, list of candidates, set of retained species, error limit, simulator (also failing) and both algorithms", "why_tests_cant": "The bound ranges over all outcomes of all simulations; a test sees one course of one analysis.", "anchors": ["src/pymars/sensitivity_analysis.py:run_sa", "src/pymars/sensitivity_analysis.py:evaluate_species_errors"]}
{"id": "C134", "title": "A sensitivity analysis simulates no model twice", "statement": "The simulations dominate the cost of a reduction, so that none is done twice in one analysis. FALSE: with at least one candidate, the first removal simulates again the model whose error the evaluation has just computed; with the greedy algorithm every removal does.", "quantifier": "every model with at least one candidate whose evaluation succeeds, every error limit and simulator, both algorithms", "why_tests_cant": "Tests compare the result, in which a second simulation of the same model cannot be seen.", "anchors": ["src/pymars/sensitivity_analysis.py:run_sa", "src/pymars/sensitivity_analysis.py:evaluate_species_errors"]}
{"id": "C135", "title": "An entry that the program does not know is refused", "statement": "A misspelt heading of the input file (retained_species for retained-species, say), a misspelt entry of a condition, or a heading given twice is reported, as are misspelt values. FALSE for headings: a document with an entry under a heading that does not exist gives the same inputs, or the same exception, as without it, wherever the entry stands and whatever it says; so does one with an entry of a condition under such a heading, and one with an earlier entry under a heading that is given again.", "quantifier": "every document, every heading, every place and content of the entry, every model", "why_tests_cant": "Tests give complete and correct dictionaries; that something is silently left out for every misspelling cannot be seen from examples.", "anchors": ["src/pymars/pymars.py:parse_inputs", "src/pymars/sampling.py:parse_ignition_inputs", "src/pymars/sampling.py:parse_psr_inputs", "src/pymars/sampling.py:parse_flame_inputs"]}
{"id": "C136", "title": "The order of headings does not matter", "statement": "Two input files that differ only in the order of their headings, or in the order of the entries of a condition, give the same inputs or the same exception.", "quantifier": "every document whose headings are distinct texts, every reordering of its headings and of the entries of any of its conditions, every model", "why_tests_cant": "There are 13 factorial orders of the headings alone, and defaults of one heading may depend on another.", "anchors": ["src/pymars/pymars.py:parse_inputs", "src/pymars/sampling.py:parse_ignition_inputs", "src/pymars/sampling.py:parse_psr_inputs", "src/pymars/sampling.py:parse_flame_inputs"]}
{"id": "C137", "title": "A reduced model is the full one without the removed species", "statement": "For an ideal gas, at any concentrations at which the removed species are absent, every reaction of the reduced model runs at the rate it has in the full model, whatever the rate law: its participants, their data and its third-body concentration are the same. The rate equations of the two models differ exactly by the reactions that need a removed species; under irreversible mass action only by those that make a removed species out of remaining ones; and if there are none of these (a diluent, say), the two have the same trajectories.", "quantifier": "every model, every list of removed species, every rate law (also changing with time, as it does with temperature), all concentrations at which the removed species are absent", "why_tests_cant": "Concentrations are real numbers and rate laws functions; tests compare numbers of species and reactions of three methane models.", "anchors": ["src/pymars/reduce_model.py:trim"]}
{"id": "C138", "title": "Reductions at the same time do not disturb each other", "statement": "Two reductions may run at the same time, in two processes: each returns what it returns by itself and leaves the files it leaves by itself. This holds in different directories, with or without sensitivity analysis, however the operations of the two are interleaved, and each of them ends. FALSE in one directory: whenever two runs, of the same or different methods and models, accept first candidates with equally many species, there is an interleaving in which one ends with FileNotFoundError; and whenever two reduction steps make models with equally many species, there is one in which a step reports the error of the other model for its own.", "quantifier": "every pair of methods, settings, models and simulations; every interleaving of the file operations; any number of steps", "why_tests_cant": "Races show up in few of the interleavings, whose number grows exponentially; a test runs one process.", "anchors": ["src/pymars/drg.py:run_drg", "src/pymars/drgep.py:run_drgep", "src/pymars/pfa.py:run_pfa", "src/pymars/drg.py:reduce_drg", "src/pymars/soln2yaml.py:write", "src/pymars/sensitivity_analysis.py:run_sa", "src/pymars/pymars.py:main"]}
{"id": "C139", "title": "Every model a run writes is part of the one it started from", "statement": "Whatever the method, the arguments and the outcomes of simulations, and however the run ends, each model file afterwards is one that was there before or holds a part of the starting model: some of its species with their data, some of its reactions with their coefficients and rate data, among them every reaction without a third body whose species are there, and third bodies that lack efficiencies of removed species at most. So does the returned model. Hence what all reactions of the starting model conserve (atoms of an element, charge, mass) is conserved by every reaction of the result, and the amount of it in a mixture that follows the rate equations of the result does not change with time.", "quantifier": "every model, arguments, files, samples, simulation results and arithmetic; every outcome, exceptions included; every conserved quantity, law of rates and trajectory", "why_tests_cant": "A reduction goes through many intermediate files that are read back and trimmed again; tests look at the last one for a few mechanisms.", "anchors": ["src/pymars/pymars.py:main", "src/pymars/reduce_model.py:trim", "src/pymars/drg.py:run_drg", "src/pymars/drgep.py:run_drgep", "src/pymars/pfa.py:run_pfa", "src/pymars/sensitivity_analysis.py:run_sa"]}
{"id": "C140", "title": "A value of the wrong type is refused when the input file is read", "statement": "A text, list or mapping where a number or truth value belongs is reported when the input file is read, before anything is simulated. Holds for temperatures, pressures, amounts and flame widths (where, however, the word yes counts as the number 1). FALSE for the error limit, the upper threshold, the flame speed limit, the choice and the type of sensitivity analysis, and the end time and step limit of an ignition: whatever else is written there is accepted. A word in quotes, \"no\" included, asks for sensitivity analysis. With an error limit that is no number a run of a method that would return a model ends with TypeError after sampling, with all samples written and no model; so does sensitivity analysis after simulating the model without each candidate, leaving no file behind.", "quantifier": "every document, every place of the option in it, every value, every model, all conditions, simulations and limits", "why_tests_cant": "A test passes a few wrong values; it does not show that every other one is let through, nor how late the run fails whatever the model.", "anchors": ["src/pymars/pymars.py:parse_inputs", "src/pymars/pymars.py:main", "src/pymars/sampling.py:parse_ignition_inputs", "src/pymars/drg.py:run_drg", "src/pymars/sensitivity_analysis.py:run_sa"]}
{"id": "C141", "title": "What the input file asks to keep is in the model the command leaves", "statement": "Run with an input file that names species as targets, as species to retain, or in the fuel, oxidizer or reactants of a condition, the command that ends in a model leaves one with each of these species. This holds with a method alone, which writes no other model files than reduced_<number>.yaml in the output directory, and with PFA or DRGEP followed by sensitivity analysis. A species asked for by a word that YAML takes for true, false or nothing, such as NO without quotes, makes the command fail before anything is done. With the documented types of values the command does exactly what it does with the dictionary of the file.", "quantifier": "every document with values of the documented types (any document for the refusal), command line, spelling of options, model, output directory, simulation results and arithmetic, every amount of steps from some number on", "why_tests_cant": "The text of the file passes through the YAML reader, the checks of the input, the method and the writer; tests hand over Python lists and look at one of these steps.", "anchors": ["src/pymars/pymars.py:pymars", "src/pymars/pymars.py:parse_inputs", "src/pymars/pymars.py:main", "src/pymars/__main__.py:main"]}
{"id": "C142", "title": "Simulations that run at the same time do not mix up their data files", "statement": "While ignition cases are sampled, in any number of processes, each writes its trajectory to a data file named after its number in the output directory, reads it back and removes it. However these operations interleave, each case returns what it returns by itself, each ends, no other file changes, and no data file is left by a case that succeeded. The cases of a run, and those of runs in different directories, have different files. FALSE of two runs in one directory: for every two cases with the same number there is an interleaving in which one returns the delay and the states of the other, and one in which it ends with FileNotFoundError. FALSE of files of the user: one with the name of a data file is gone when the case has succeeded. FALSE of run_case with stop_at_ignition, which is documented not to save data: it always does when it returns.", "quantifier": "every number of cases, every trajectory, every interleaving of the file operations, every directory and its contents", "why_tests_cant": "The outcome depends on the timing of processes; tests run one case at a time in an empty directory.", "anchors": ["src/pymars/sampling.py:ignition_sample_worker", "src/pymars/sampling.py:_run_workers", "src/pymars/simulation.py:IgnitionSimulation.run_case", "src/pymars/simulation.py:IgnitionSimulation.process_results", "src/pymars/simulation.py:BaseSimulation.clean"]}
{"id": "C143", "title": "Of a model file with several phases, the named one is reduced, and it keeps its name", "statement": "When the model file holds several phases, a reduction with a phase name loads that phase wherever it loads a model: the result and every file written are those of the reduction of a file with just this phase (the first one when no name is given), whatever the other phases are, and files not written keep all their phases. The reduced model has the given name, so the same input can be used to load it. If the file has no such phase, the run ends with Cantera's error before anything is written. FALSE when no phase is named: for every model whose name does not begin with reduced_, the reduced model cannot be loaded under the name of the phase it was made from.", "quantifier": "every model file with any number of phases, every phase name, every method with or without sensitivity analysis, all contents of the directories", "why_tests_cant": "Tests use files with one phase; the result depends on every one of many places at which a file is loaded.", "anchors": ["src/pymars/pymars.py:main", "src/pymars/drg.py:run_drg", "src/pymars/drgep.py:run_drgep", "src/pymars/pfa.py:run_pfa", "src/pymars/sensitivity_analysis.py:run_sa", "src/pymars/reduce_model.py:trim", "src/pymars/soln2yaml.py:write"]}
{"id": "C144", "title": "A reduced model has the equation of state of the starting model", "statement": "The model a reduction returns, and every model it writes, has the thermodynamic model of the starting model. FALSE: whatever the starting model is, a reduction method returns an ideal gas, and so does sensitivity analysis as soon as it has removed a species; the error is computed against the starting model as it was. The loop does not look at this difference: if all species are kept at the first thresholds and the next candidate exceeds the limit, the run returns the starting model as an ideal gas whatever its error, also above the limit. True for ideal gases: all that is written or returned is an ideal gas, and with all species kept it behaves like the starting model.", "quantifier": "every model with every equation of state, method with or without sensitivity analysis, exact or rounded arithmetic, error function, limit, content of the directories", "why_tests_cant": "Tests reduce ideal gases only; that no path through the loop returns the model with its own equation of state is a claim about all runs.", "anchors": ["src/pymars/reduce_model.py:trim", "src/pymars/drg.py:run_drg", "src/pymars/drgep.py:run_drgep", "src/pymars/pfa.py:run_pfa", "src/pymars/sensitivity_analysis.py:run_sa", "src/pymars/pymars.py:main"]}
{"id": "C145", "title": "Sensitivity analysis after a method removes only species between the two thresholds", "statement": "When a method with an upper threshold is followed by sensitivity analysis, the species it removes are those between the thresholds: every species that the published coefficients of the simulated states select at the upper threshold is in the model returned. FALSE for all three methods. DRG: every species removed is one that the upper threshold selects, and none between the thresholds is tried. PFA: the upper threshold has no effect at all. DRGEP: if no species lies between the thresholds, the run is exactly the one without an upper threshold, and every species that is not protected may be removed, however large its coefficient. True for DRGEP in a process that has not run it before, when some species lies between the thresholds: all species that the upper threshold selects remain (in binary64, a shade above it). The same holds of the command, whose upper threshold is 0.1 if none is given, at the states that the input file describes.", "quantifier": "all models, all behaviours of Cantera on them that meet the stated physical assumptions, all requests with both stages, all upper thresholds other than zero, all error limits of at least zero, both algorithms of sensitivity analysis, exact and binary64 arithmetic", "why_tests_cant": "What the second stage may remove depends on the coefficients at all sampled states, on the threshold the first stage ended with and on what was left by earlier runs; tests of sensitivity analysis pass a list by hand.", "anchors": ["src/pymars/drg.py:run_drg", "src/pymars/drgep.py:run_drgep", "src/pymars/pfa.py:run_pfa", "src/pymars/sensitivity_analysis.py:run_sa", "src/pymars/pymars.py:main"]}
{"id": "C146", "title": "Converting a reduced model to Chemkin says about what is left what converting the starting model says", "statement": "If the starting model can be converted to Chemkin files, so can every model reduced from it. The model file of the reduced model has, in the same order, the text of every reaction that remains, which differs from its text in the file of the starting model only by the efficiencies of removed species; the thermodynamic and transport files have the entries of the remaining species, unchanged. There is a transport file if the starting model has one. A model with all its data is reduced as one in which data of species and rates are codes.", "quantifier": "every model and list of species to remove, every way numbers are written, every file names and previous contents of files; geometries of species with transport data are the three that cantera knows", "why_tests_cant": "Reduction and conversion are tested separately, on one mechanism each; that they commute is a statement about every mechanism, list of species and kind of reaction.", "anchors": ["src/pymars/reduce_model.py:trim", "src/pymars/soln2ck.py:write", "src/pymars/soln2ck.py:write_thermo_data", "src/pymars/soln2ck.py:write_transport_data"]}
{"id": "C147", "title": "A run whose directory for results does not exist returns no model", "statement": "pyMARS creates no directories. If the directory for results does not exist, a reduction must not return a model, since it cannot be saved. FALSE: sensitivity analysis without a method notices only when it writes the final model; where Cantera does not report that a file could not be opened, the run returns exactly the model it would return in an existing directory, and no file is in that directory. True with DRG, DRGEP or PFA, whether or not Cantera reports it: no model is returned and no file is changed, since the first candidate cannot be loaded again. True of every run where Cantera reports it; files outside the temporary directories are then as before.", "quantifier": "all requests, all models, all behaviours of the simulations, all error limits, thresholds and coefficients, both behaviours of Cantera when a file cannot be opened, all contents of the other files", "why_tests_cant": "A missing directory is a state of the machine that tests set up right; what is lost depends on which stage writes first, and after a long analysis the loss is only seen by looking for the file.", "anchors": ["src/pymars/soln2yaml.py:write", "src/pymars/pymars.py:main", "src/pymars/sensitivity_analysis.py:run_sa", "src/pymars/drg.py:reduce_drg", "src/pymars/drgep.py:reduce_drgep", "src/pymars/pfa.py:reduce_pfa"]}
{"id": "C148", "title": "Sensitivity analysis works whatever species are called", "statement": "Cantera does not restrict the characters in the names of species. Sensitivity analysis returns a model also if some of them contain a slash. FALSE: if one candidate has a slash in its name, the analysis returns no model, whatever the model, the limit and the simulations, because the file for the model without that species would be in a directory that does not exist; so main without a method fails on every model file with such a species that is neither a target nor retained. True if no candidate has a slash in its name, also if other species do; and true of DRG, DRGEP and PFA without sensitivity analysis.", "quantifier": "all models, all candidate lists, all limits, all behaviours of the simulations, both algorithms, both behaviours of Cantera when a file cannot be opened", "why_tests_cant": "Test mechanisms have names of letters, digits and brackets; the failure depends on a name and on the state of temporary directories.", "anchors": ["src/pymars/sensitivity_analysis.py:evaluate_species_errors", "src/pymars/sensitivity_analysis.py:run_sa", "src/pymars/soln2yaml.py:write", "src/pymars/pymars.py:main"]}
{"id": "C149", "title": "Reductions with different directories for results do not share samples", "statement": "A user who gives two reductions different directories for their results expects each to return what it returns alone, also when they run from one working directory, one after the other or at the same time. FALSE: the saved samples lie in the working directory. A run that starts when another has sampled takes over its samples whenever its model has as many species and its conditions have as many cases of each kind; it never simulates its own starting model. If another run samples while a method is at work, the sensitivity analysis that follows compares with the metrics of the other model (as many cases), or with the model that the method has already reduced instead of the starting model (other numbers of cases), so that the error limit is granted twice and the reported error is not that of the returned model. True if the two runs have no kind of simulation in common, wherever the writes of one fall in the course of the other; and what is written after sampling does not matter to a run without sensitivity analysis.", "quantifier": "all pairs of requests, models and simulations; all numbers of processes; exact and binary64 thresholds; any number of iterations; every prefix of the writes of the other run", "why_tests_cant": "The effect depends on what another process writes between two reads; a test runs one reduction in a fresh directory and does not compare with a second one.", "anchors": ["src/pymars/sampling.py:sample", "src/pymars/sampling.py:sample_metrics", "src/pymars/sensitivity_analysis.py:run_sa", "src/pymars/pymars.py:main"]}
{"id": "C150", "title": "Stating a default changes nothing", "statement": "An input file that states, in one more entry, the value that an option or an entry of a condition has when it is left out (10000 steps, a width of 0.1, composition by moles, no retained species, no sensitivity analysis, an upper threshold of 0.1 for sensitivity analysis, a least flame speed of 0.05) gives the same run as the file without the entry: the same exception, or the same model, files and saved samples.", "quantifier": "every document, accepted or not, every option or entry with a default and place where it may stand, every spelling of the value, every behaviour of Cantera, every command line, file system and saved samples", "why_tests_cant": "Tests compare a few fields of a few parsed files; that a default in the parser, the one of a constructor and the one in the documentation agree in all runs is a statement about pairs of runs, whatever the other entries are.", "anchors": ["src/pymars/pymars.py:parse_inputs", "src/pymars/sampling.py:parse_ignition_inputs", "src/pymars/sampling.py:parse_flame_inputs", "src/pymars/simulation.py:FlameSimulation"]}
{"id": "C151", "title": "Calling the reduction from a program does what the command does with an input file saying the same", "statement": "A user who moves from the command to a program of their own passes to the function `main` what the input file said (model, limit, conditions, method, species, threshold, type of sensitivity analysis, directory, processes, least flame speed), leaves out what the file left out, and expects the same outcome and the same files. FALSE: the type of sensitivity analysis left out means 'initial' in an input file and 'greedy' in a call. Whenever sensitivity analysis is asked for alone, some species need not be kept and removing any of them stays within the limit, the command returns a reduced model and the call ends in a ValueError. FALSE also when a species of a mixture is neither a target nor retained, whatever else is stated: if no model without it can be simulated and all that is in no mixture and need not be kept can be removed, the command, which retains the species by itself, returns a reduced model and the call ends in an exception. FALSE also when the upper threshold is left out, which an input file with sensitivity analysis takes as 0.1 and a call as no threshold: a request exists for which the command returns a model without the target and the call one with it. True if the type and a nonzero upper threshold are given together with sensitivity analysis and every species of the mixtures is a target or retained (the command retains the others by itself, the call does not).", "quantifier": "all requests, models, simulations, files present, numbers of processes, arithmetics and numbers of iterations; every spelling and order of the command-line options", "why_tests_cant": "A test calls one of the two with the arguments it has in mind; that the two agree for every request, and what each does with an argument left out, is not visible from either alone.", "anchors": ["src/pymars/pymars.py:main", "src/pymars/pymars.py:parse_inputs", "src/pymars/pymars.py:pymars", "src/pymars/sensitivity_analysis.py:run_sa"]}
