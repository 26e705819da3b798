{
 "C05": {
  "note": "False of the code (C05_staged_trim_refuted): a reaction with zero default efficiency and two colliders survives a joint trim but not a staged one. The partial theorem gives the exact condition under which it holds."
 },
 "C13": {
  "note": "False of the code: the comparison with the cutoff is the wrong way round, so with any cutoff on any graph the search returns only the source (C13_cutoff_source_only_partial), and reachable nodes above the cutoff are missing (C13_cutoff_refuted)."
 },
 "C14": {
  "note": "False of the code (C14_target_refuted): the search stops when the target is first popped, and the heap pops the smallest value. Proved: with a target the search terminates, every value is that of a walk, a reachable target gets a value."
 },
 "C19": {
  "note": "Proved in exact arithmetic. In binary64 the back-step may land below or above the last accepted threshold (C26), so a model above the limit can be returned (C19_binary64_refuted, for each method); C19_binary64_partial gives the condition under which the claim holds, C19_returned what is returned in either arithmetic."
 },
 "C25": {
  "note": "Proved in exact arithmetic, and for the run that reaches a NaN candidate in both arithmetics; the rounded back-step can reach a never evaluated candidate with NaN error (C25_binary64_refuted)."
 },
 "C26": {
  "note": "Proved in exact arithmetic; false in binary64 (0.01+0.01+0.01-2*0.01 < 0.01), where the difference is bounded by C26_binary64_close_partial."
 },
 "C27": {
  "note": "False of the code, for every run with a sampled state and a non-zero upper threshold: limbo species are those reached at the upper threshold instead of those not reached. Proved: they belong to the reduced model."
 },
 "C28": {
  "note": "False of the code: the limbo list is a mutable default argument shared by all runs of a process. Proved for a process in which it is still empty."
 },
 "C31": {
  "note": "False of the code: after the last candidate is accepted the greedy algorithm takes the minimum of an empty array and raises ValueError. C31_returns_partial: this is the only way not to return."
 },
 "C33": {
  "note": "False of the code: with reuse_saved and a missing output file the baseline is a vector of zeros. C33_source_partial covers present files; C33_sa_stuck gives the consequence for sensitivity analysis."
 },
 "C34": {
  "note": "False of the code with a non-empty output path: the path is not part of the returned name. Proved: the model is written under the path to that name."
 },
 "C36": {
  "note": "False of the code: saved files are accepted by shape only. C36_clean_partial: true when the files are not both present."
 },
 "C37": {
  "note": "False in three ways (crash after opening, between the two files, inside a line) when a metrics file is left from another run or a line can be torn. C37_crash_partial: true for every crash point when no metrics file is present."
 },
 "C42": {
  "note": "Proved for every profile in exact arithmetic and, for the 20 points in use, in binary64; false for other point counts in binary64 (49 points give 50 rows)."
 },
 "C45": {
  "note": "False on the last permitted step (C45_last_step_refuted); proved for every earlier step."
 },
 "C48": {
  "note": "Acceptance and the accepted records are characterised exactly for all three kinds. The claim that rejection raises AssertionError is false for values of another type (C48_type_refuted: TypeError) and proved for values of the documented types."
 },
 "C51": {
  "note": "False for DRG followed by sensitivity analysis (limbo species are not checked against the protected ones, see C27) and for DRGEP followed by it in a process that ran DRGEP before (C28). Proved for each method alone, sensitivity analysis alone, PFA with it, and DRGEP with it in a fresh process."
 },
 "C52": {
  "note": "False when two different reactions with the same equation are exchanged; proved for every reordering that keeps such reactions in order, in particular for distinct equations."
 },
 "C53": {
  "note": "False in two ways: transport data are compared only if the first model has them, and isclose is relative to the second argument. Proved outside these two cases."
 },
 "C55": {
  "note": "The conversion factors are proved for all orders and rate types, on the text written. Exact recovery is false since six digits are written (C55_exact_refuted); recovery to five digits is proved."
 },
 "C58": {
  "note": "False for equations longer than 50 characters; proved for the others."
 },
 "C59": {
  "note": "Proved for reactions that can be written, with the exact list of those that cannot. False for Troe rates with three parameters, which raise IndexError."
 },
 "C62": {
  "note": "Proved except for two false parts: the branch ends one point past the extinction point, and seeds in the wrong order give a two-point branch."
 },
 "C63": {
  "note": "Proved except that the first step is not bounded by ds_max when ds0 is larger (C63_first_refuted)."
 },
 "C66": {
  "note": "False of the code: assigning a field of a NamedTuple raises AttributeError, so a Chemkin model is never reduced. Proved for YAML models."
 },
 "C68": {
  "note": "False for DRG with a negative limit: the back-step branch runs and returns a model. Proved for NaN limits and, for PFA and DRGEP, negative limits."
 },
 "C71": {
  "note": "False of the code: NaN is not greater than the limit and is accepted. Proved when no evaluation gives NaN."
 },
 "C72": {
  "note": "Proved in exact arithmetic; false in binary64, where the level of the last row can be rounded above the final temperature."
 },
 "C74": {
  "note": "False for a reactor that settles without igniting, whose file is left behind; proved for success and for failing steps."
 },
 "C76": {
  "note": "False for a target given as plain text, which is taken apart into characters. Proved for a list of names."
 },
 "C77": {
  "note": "False of the code: only the emptiness of argv matters, the arguments are read from the process. Proved for every list of settings when both agree."
 },
 "C78": {
  "note": "False: reversibility and orders are not compared. Proved: everything else corresponds."
 },
 "C80": {
  "note": "False: orders and the default efficiency are not written, and numbers are rounded. Proved: reactions written alike agree in the data that are written, up to the digits printed."
 },
 "C81": {
  "note": "False: the first Chebyshev coefficient is written unchanged. Proved for reactions of order one, and for all other coefficients."
 },
 "C83": {
  "note": "False for arguments given in the call, which are ignored. Proved for main() on the arguments of the process."
 },
 "C87": {
  "note": "False of the code. C87_source_path_refuted: whenever a reachable node has an edge of positive value back to the source, the path of the source is a closed walk with at least one edge; otherwise it is [source] (both for every graph without an edge from the source to itself). C87_pred_repeated_refuted: a closed walk of value one makes the search treat the source twice and list it twice as predecessor. C87_self_edge_refuted: with an edge from the source to itself another node's path can run through it and its product is not the value. C87_empty_paths_refuted, C87_empty_pred_refuted: KeyError with empty dictionaries. The positive part is C86."
 },
 "C95": {
  "note": "False of the code: nothing catches an exception raised while a candidate is simulated, so the run ends with it although earlier candidates were within the limit. Proved: a returned model was simulated without raising, and files other than the numbered reduced models are untouched."
 },
 "C96": {
  "note": "False of the code: trim reads neither reaction orders nor the duplicate flag. Proved: exactly which trimmed models load; without orders and declared duplicates all do."
 },
 "C97": {
  "note": "A method alone: all promises proved. With sensitivity analysis: files and limit proved (exact arithmetic, simulations that give numbers), protection proved for PFA and DRGEP and refuted for DRG."
 },
 "C98": {
  "note": "Acceptance and the values passed on are characterised exactly. Refuted: a key without a value beside the other form of a mixture raises TypeError; the type of sensitivity analysis is not checked and anything but `greedy` runs as `initial`."
 },
 "C99": {
  "note": "Proved with exact thresholds (C99_exact_partial) and, in either arithmetic, for runs that start from the same threshold (C99_same_start_partial). Refuted for each method with binary64 thresholds: summing 0.001 misses 0.01, so the tighter run can pass over the model at which the looser one starts and end with fewer species."
 },
 "C101": {
  "note": "Proved for a reduction at a given threshold (C101_threshold_partial). Refuted for whole runs of each method in both arithmetics: retaining a species may raise the accepted threshold, and another species is lost."
 },
 "C102": {
  "note": "Proved for analyses in which, at every step, one species is clearly nearest (C102_untied_partial). Refuted with ties, for both algorithms and every context: of two species at the same distance that cannot both be removed, the first one listed is removed (C102_ties_refuted)."
 },
 "C103": {
  "note": "False in a directory with the samples of an earlier run: with the conditions exchanged the saved metrics are compared with those of other conditions, and the run returns the unreduced model with an error of 100 percent (C103_rerun_refuted). Proved for every request for which no saved samples are usable (C103_request_partial)."
 },
 "C104": {
  "note": "False: parametrizations other than the two-range seven-coefficient NASA form, and species with more than four elements, are written without complaint but cannot be read back. Proved for all species whose data fits the columns."
 },
 "C106": {
  "note": "False in floating point: sums are rounded, so their order matters. Proved for exact arithmetic, and for DRG and DRGEP under any rounding if reactions keep their order."
 },
 "C107": {
  "note": "Binary64 without overflow and underflow. The claim about edges is false of DRGEP (refuted); the distances are proved for all three methods."
 },
 "C108": {
  "note": "Cantera's results are parameters. It is assumed that the full model trimmed of nothing behaves as the model read."
 },
 "C109": {
  "note": "Cantera's results are parameters; the product of pressure and 101325 and the sum of temperature and 400 are not rounded."
 },
 "C110": {
  "note": "Errors of candidates are those the code computes; ties are excluded by hypothesis (C19_binary64_refuted shows what can happen with them)."
 },
 "C111": {
  "note": "False without the conditions (refuted: rates that round to zero)."
 },
 "C112": {
  "note": "False as a polynomial bound (refuted for exact and binary64 arithmetic); an exponential bound is proved."
 },
 "C114": {
  "note": "The full claim is false for DRGEP with blockwise addition (C114_drgep_refuted); for DRG and PFA it is proved away from ties, for DRGEP away from ties as long as no computed coefficient exceeds one, and for the coefficients of all three methods without restriction."
 },
 "C115": {
  "note": "The claim is false: such states are ignored (C115_ignored_refuted, C115_no_overflow_refuted, C115_only_bad_refuted). C115_finite_partial proves the part that finite rates are treated as the rest of the model says."
 },
 "C116": {
  "note": "The last part of the claim is false (C116_failed_refuted, C116_replaced_refuted). Proved: the files written in both directions, nothing else changes, and no file with the name of the model file changes, whatever the outcome."
 },
 "C117": {
  "note": "The exact claim is false when an error is within rounding of the limit (C117_tie_refuted). Proved: the bound on the computed error, identical outcomes away from the limit, and the guarantee up to rounding."
 },
 "C118": {
  "note": "False of P-log pressures and Chebyshev pressure ranges (C118_pressure_refuted): the division by 101325 loses a bit. Proved of efficiencies, falloff parameters and temperatures; pressures to within two roundings."
 },
 "C119": {
  "note": "The accuracy of `**` is a hypothesis (a few units in the last place)."
 },
 "C120": {
  "note": "The exact claim is false at ties (C120_tie_refuted). Proved: each step is right up to rounding, the limit holds up to rounding, and identical outcomes when choices are clear."
 },
 "C123": {
  "note": "Missing: the statement is false when the process dies inside the last metric's text (C123_undefined_refuted, C123_magnitude_refuted, for every set of ignition conditions; C123_analysis_refuted for the sensitivity analysis that follows; C123_method_refuted for the reductions that follow). Proved for every number of characters: otherwise a later call returns the undisturbed result, and at most one metric is replaced by what is left of its text."
 },
 "C124": {
  "note": "Missing: the statement is false (C124_rejected_refuted, C124_exit_refuted, C124_retained_refuted, for every run of that kind). Proved: what each numbered file holds after a run, if the species to keep are all reached from the targets; nothing is left behind if the first start is also accepted."
 },
 "C125": {
  "note": "Missing: the statement is false (C125_lost_refuted, for every tried threshold of every run). Proved: a file whose size no tried threshold gives and that is not the size of the result is unchanged."
 },
 "C126": {
  "note": "Missing: the statement is false if the file name carries another number (C126_misnumbered_refuted, for every such run). Proved (result, progress, starting model still there) whenever the number is the number of species."
 },
 "C127": {
  "note": "Missing: the statement is false when a reversible reaction is written as two irreversible ones (C127_pair_drg_refuted, C127_pair_vanishes_refuted, C127_pair_drgep_refuted, C127_pair_pfa_refuted for every such pair; C127_pair_kept_refuted, C127_pair_kept_pfa_refuted, C127_pair_kept_drgep_refuted and C127_pair_left_drgep_refuted for the species kept). Proved for parts in the same direction (exact arithmetic) and reversed reactions (every odd rounding)."
 },
 "C128": {
  "note": "Missing: the statement is false (C128_nearest_refuted for both algorithms, C128_initial_refuted for `initial` from any starting error). Proved for greedy: exactly which species can be left over, and minimality when the error is at most half the limit."
 },
 "C129": {
  "note": "Missing: for DRG and PFA with a kept species that is not linked to a target the bound is false (C129_repeats_refuted: exactly one simulation for each threshold and one more). Proved otherwise, for DRGEP always."
 },
 "C131": {
  "note": "Missing: the statement is false for the words and spellings named in it (C131_words_refuted, C131_composition_refuted, C131_exponent_refuted, C131_limit_refuted, C131_octal_refuted). Proved for quoted texts and for plain ones beginning with a letter that are no such word, for decimals with a point and a sign in the exponent, and for integers without leading zero."
 },
 "C132": {
  "note": "Missing: false for the headings named in the statement (C132_blank_refuted, C132_mixture_refuted, C132_type_refuted). Proved for upper-threshold, min-flame-speed, method and sensitivity-analysis."
 },
 "C134": {
  "note": "Missing: false for the first removal (C134_first_refuted) and, with the greedy algorithm, for every removal (C134_greedy_refuted). Proved: evaluations do not repeat each other, removals do not repeat each other, and with the algorithm initial the first removal is the only repetition."
 },
 "C135": {
  "note": "Missing: false for headings of the document (C135_heading_refuted), of conditions (C135_condition_refuted) and for repeated ones (C135_repeated_refuted). Proved for methods, kinds of autoignition, types of composition and species in compositions; the type of sensitivity analysis is not checked either (C98)."
 },
 "C138": {
  "note": "Missing: false in one directory (C138_same_refuted, C138_mixed_refuted). Not modelled here: the files of samples (see C149); for the data files of simulations see C142."
 },
 "C140": {
  "note": "Missing: false for the options named (C140_option_refuted, C140_quoted_refuted, C140_entry_refuted, C140_late_refuted, C140_analysis_refuted)."
 },
 "C142": {
  "note": "Missing: false of two runs in one directory, of a file of the user with such a name, and of stop_at_ignition (C142_same_refuted, C142_user_refuted, C142_stop_refuted). Opening, writing and closing a file counts as one operation."
 },
 "C143": {
  "note": "Missing: false when no phase is named (C143_unnamed_refuted)."
 },
 "C144": {
  "note": "Missing: false for every model that is not an ideal gas (C144_ideal_refuted, C144_sampled_refuted, C144_files_refuted, C144_fewer_refuted, C144_limit_refuted). Proved for ideal gases."
 },
 "C145": {
  "note": "Missing: false for DRG, for PFA, and for DRGEP with no species between the thresholds (C145_drg_refuted, C145_pfa_refuted, C145_none_between_refuted, C145_empty_refuted). Proved for DRGEP in a fresh process when some species lies between them (C145_drgep_partial, for the command C145_program_partial)."
 },
 "C147": {
  "note": "Missing: false for sensitivity analysis without a method where Cantera does not report that a file could not be opened (C147_analysis_refuted). Proved for every run with a method (C147_method_partial) and for every run where Cantera reports it (C147_reported_partial)."
 },
 "C148": {
  "note": "Missing: false if a candidate has a slash in its name (C148_slash_refuted, C148_main_refuted). Proved without slashes in candidates (C148_plain_partial) and for methods alone (C148_method_partial)."
 },
 "C149": {
  "note": "Missing: false when the runs have a kind of simulation in common (C149_samples_refuted, C149_baseline_refuted, C149_twice_refuted). Proved for runs without one (C149_apart_partial) and, for writes after sampling, without sensitivity analysis (C149_method_partial)."
 },
 "C151": {
  "note": "Missing: false when the type of sensitivity analysis is left out (C151_type_refuted), a species of a mixture is not kept (C151_mixture_refuted) or the upper threshold is left out (C151_threshold_refuted, one request). Proved if type and threshold are given with sensitivity analysis and the species of the mixtures are kept (C151_agree_partial)."
 }
}
