{
 "claims": [
  {
   "property": "C01",
   "status": "proved",
   "theorems": [
    "Verif.C01_species",
    "Verif.C01_metadata"
   ],
   "note": ""
  },
  {
   "property": "C02",
   "status": "proved",
   "theorems": [
    "Verif.C02_reactions"
   ],
   "note": ""
  },
  {
   "property": "C03",
   "status": "proved",
   "theorems": [
    "Verif.C03_closed"
   ],
   "note": ""
  },
  {
   "property": "C04",
   "status": "proved",
   "theorems": [
    "Verif.C04_irrelevant_names",
    "Verif.C04_idempotent",
    "Verif.C04_set_only"
   ],
   "note": ""
  },
  {
   "property": "C05",
   "status": "partial",
   "theorems": [
    "Verif.C05_staged_trim_refuted",
    "Verif.C05_staged_trim_partial",
    "Verif.C05_staged_trim_simple_partial"
   ],
   "note": "False of the code (C05_staged_trim_refuted): a reaction with zero default efficiency and two colliders survives a joint trim but not a staged one. The partial theorem gives the exact condition under which it holds."
  },
  {
   "property": "C06",
   "status": "proved",
   "theorems": [
    "Verif.C06_drg_formula",
    "Verif.C06_drg_range",
    "Verif.C06_drg_edge_iff"
   ],
   "note": ""
  },
  {
   "property": "C07",
   "status": "proved",
   "theorems": [
    "Verif.C07_drgep_formula",
    "Verif.C07_drgep_range"
   ],
   "note": ""
  },
  {
   "property": "C08",
   "status": "proved",
   "theorems": [
    "Verif.C08_pfa_formula",
    "Verif.C08_pfa_range"
   ],
   "note": ""
  },
  {
   "property": "C09",
   "status": "proved",
   "theorems": [
    "Verif.C09_scale_invariant"
   ],
   "note": ""
  },
  {
   "property": "C10",
   "status": "proved",
   "theorems": [
    "Verif.C10_graph_search",
    "Verif.C10_graph_search_missing"
   ],
   "note": ""
  },
  {
   "property": "C11",
   "status": "proved",
   "theorems": [
    "Verif.C11_trim_paths",
    "Verif.C11_trim_missing_target",
    "Verif.C11_targets_kept",
    "Verif.C11_trim_monotone"
   ],
   "note": ""
  },
  {
   "property": "C12",
   "status": "proved",
   "theorems": [
    "Verif.C12_dijkstra_optimal",
    "Verif.C12_dijkstra_max_product",
    "Verif.C12_dijkstra_rounded"
   ],
   "note": ""
  },
  {
   "property": "C13",
   "status": "partial",
   "theorems": [
    "Verif.C13_cutoff_source_only_partial",
    "Verif.C13_cutoff_refuted"
   ],
   "note": "False of the code: the comparison with the cutoff is the wrong way round, so with any cutoff on any graph the search returns only the source (C13_cutoff_source_only_partial), and reachable nodes above the cutoff are missing (C13_cutoff_refuted)."
  },
  {
   "property": "C14",
   "status": "partial",
   "theorems": [
    "Verif.C14_target_refuted",
    "Verif.C14_target_partial"
   ],
   "note": "False of the code (C14_target_refuted): the search stops when the target is first popped, and the heap pops the smallest value. Proved: with a target the search terminates, every value is that of a walk, a reachable target gets a value."
  },
  {
   "property": "C15",
   "status": "proved",
   "theorems": [
    "Verif.C15_diverges",
    "Verif.C15_cycle_through_source"
   ],
   "note": ""
  },
  {
   "property": "C16",
   "status": "proved",
   "theorems": [
    "Verif.C16_importance",
    "Verif.C16_range_and_targets",
    "Verif.C16_order_irrelevant",
    "Verif.C16_monotone",
    "Verif.C16_missing_target"
   ],
   "note": ""
  },
  {
   "property": "C17",
   "status": "proved",
   "theorems": [
    "Verif.C17_removes_exactly",
    "Verif.C17_monotone",
    "Verif.C17_missing"
   ],
   "note": ""
  },
  {
   "property": "C18",
   "status": "proved",
   "theorems": [
    "Verif.C18_drg",
    "Verif.C18_pfa",
    "Verif.C18_drgep",
    "Verif.C18_start"
   ],
   "note": ""
  },
  {
   "property": "C19",
   "status": "partial",
   "theorems": [
    "Verif.C19_returned",
    "Verif.C19_within_limit_partial",
    "Verif.C19_returns",
    "Verif.C19_binary64_partial",
    "Verif.C19_binary64_refuted"
   ],
   "note": "Proved in exact arithmetic. In binary64 the back-step may land below or above the last accepted threshold (C26), so a model above the limit can be returned (C19_binary64_refuted, for each method); C19_binary64_partial gives the condition under which the claim holds, C19_returned what is returned in either arithmetic."
  },
  {
   "property": "C20",
   "status": "proved",
   "theorems": [
    "Verif.C20_drg_pfa",
    "Verif.C20_drgep_safe",
    "Verif.C20_drgep_targets"
   ],
   "note": ""
  },
  {
   "property": "C21",
   "status": "proved",
   "theorems": [
    "Verif.C21_other_files_untouched"
   ],
   "note": ""
  },
  {
   "property": "C22",
   "status": "proved",
   "theorems": [
    "Verif.C22_file_holds_model",
    "Verif.C22_cleanup_never_fails"
   ],
   "note": ""
  },
  {
   "property": "C23",
   "status": "proved",
   "theorems": [
    "Verif.C23_never_stops",
    "Verif.C23_stops_iff",
    "Verif.C23_core_stops"
   ],
   "note": ""
  },
  {
   "property": "C24",
   "status": "proved",
   "theorems": [
    "Verif.C24_exit",
    "Verif.C24_exit_only"
   ],
   "note": ""
  },
  {
   "property": "C25",
   "status": "partial",
   "theorems": [
    "Verif.C25_nan_raises",
    "Verif.C25_never_returned_partial",
    "Verif.C25_binary64_refuted"
   ],
   "note": "Proved in exact arithmetic, and for the run that reaches a NaN candidate in both arithmetics; the rounded back-step can reach a never evaluated candidate with NaN error (C25_binary64_refuted)."
  },
  {
   "property": "C26",
   "status": "partial",
   "theorems": [
    "Verif.C26_exact_partial",
    "Verif.C26_binary64_refuted",
    "Verif.C26_binary64_close_partial"
   ],
   "note": "Proved in exact arithmetic; false in binary64 (0.01+0.01+0.01-2*0.01 < 0.01), where the difference is bounded by C26_binary64_close_partial."
  },
  {
   "property": "C27",
   "status": "partial",
   "theorems": [
    "Verif.C27_limbo_refuted",
    "Verif.C27_limbo_in_model_partial"
   ],
   "note": "False of the code, for every run with a sampled state and a non-zero upper threshold: limbo species are those reached at the upper threshold instead of those not reached. Proved: they belong to the reduced model."
  },
  {
   "property": "C28",
   "status": "partial",
   "theorems": [
    "Verif.C28_after_sa",
    "Verif.C28_first_run_partial",
    "Verif.C28_history_refuted"
   ],
   "note": "False of the code: the limbo list is a mutable default argument shared by all runs of a process. Proved for a process in which it is still empty."
  },
  {
   "property": "C29",
   "status": "proved",
   "theorems": [
    "Verif.C29_within_limit"
   ],
   "note": ""
  },
  {
   "property": "C30",
   "status": "proved",
   "theorems": [
    "Verif.C30_only_candidates",
    "Verif.C30_safe_kept",
    "Verif.C30_given_list_ignores_safe",
    "Verif.C30_count",
    "Verif.C30_terminates"
   ],
   "note": ""
  },
  {
   "property": "C31",
   "status": "partial",
   "theorems": [
    "Verif.C31_greedy_refuted",
    "Verif.C31_returns_partial",
    "Verif.C31_initial_all"
   ],
   "note": "False of the code: after the last candidate is accepted the greedy algorithm takes the minimum of an empty array and raises ValueError. C31_returns_partial: this is the only way not to return."
  },
  {
   "property": "C32",
   "status": "proved",
   "theorems": [
    "Verif.C32_course",
    "Verif.C32_determined",
    "Verif.C32_followed"
   ],
   "note": ""
  },
  {
   "property": "C33",
   "status": "partial",
   "theorems": [
    "Verif.C33_sa_stuck",
    "Verif.C33_zero_baseline_refuted",
    "Verif.C33_zero_flame_refuted",
    "Verif.C33_source_partial"
   ],
   "note": "False of the code: with reuse_saved and a missing output file the baseline is a vector of zeros. C33_source_partial covers present files; C33_sa_stuck gives the consequence for sensitivity analysis."
  },
  {
   "property": "C34",
   "status": "partial",
   "theorems": [
    "Verif.C34_written_partial",
    "Verif.C34_path_refuted"
   ],
   "note": "False of the code with a non-empty output path: the path is not part of the returned name. Proved: the model is written under the path to that name."
  },
  {
   "property": "C35",
   "status": "proved",
   "theorems": [
    "Verif.C35_reuse"
   ],
   "note": ""
  },
  {
   "property": "C36",
   "status": "partial",
   "theorems": [
    "Verif.C36_stale_refuted",
    "Verif.C36_unusable_partial",
    "Verif.C36_clean_partial"
   ],
   "note": "False of the code: saved files are accepted by shape only. C36_clean_partial: true when the files are not both present."
  },
  {
   "property": "C37",
   "status": "partial",
   "theorems": [
    "Verif.C37_crash_partial",
    "Verif.C37_crash_open_refuted",
    "Verif.C37_crash_between_refuted",
    "Verif.C37_torn_refuted"
   ],
   "note": "False in three ways (crash after opening, between the two files, inside a line) when a metrics file is left from another run or a line can be torn. C37_crash_partial: true for every crash point when no metrics file is present."
  },
  {
   "property": "C38",
   "status": "proved",
   "theorems": [
    "Verif.C38_metric_jobs",
    "Verif.C38_sampling_jobs",
    "Verif.C38_failure",
    "Verif.C38_serial_first",
    "Verif.C38_negative"
   ],
   "note": ""
  },
  {
   "property": "C39",
   "status": "proved",
   "theorems": [
    "Verif.C39_layout",
    "Verif.C39_length",
    "Verif.C39_failure"
   ],
   "note": ""
  },
  {
   "property": "C40",
   "status": "proved",
   "theorems": [
    "Verif.C40_undefined",
    "Verif.C40_infinite",
    "Verif.C40_worst",
    "Verif.C40_limit",
    "Verif.C40_nan",
    "Verif.C40_zero_baseline",
    "Verif.C40_incomparable"
   ],
   "note": ""
  },
  {
   "property": "C41",
   "status": "proved",
   "theorems": [
    "Verif.C41_zero",
    "Verif.C41_limit"
   ],
   "note": ""
  },
  {
   "property": "C42",
   "status": "partial",
   "theorems": [
    "Verif.C42_rows",
    "Verif.C42_exact",
    "Verif.C42_order",
    "Verif.C42_determined",
    "Verif.C42_binary64",
    "Verif.C42_ieee",
    "Verif.C42_count_refuted"
   ],
   "note": "Proved for every profile in exact arithmetic and, for the 20 points in use, in binary64; false for other point counts in binary64 (49 points give 50 rows)."
  },
  {
   "property": "C43",
   "status": "proved",
   "theorems": [
    "Verif.C43_agree"
   ],
   "note": ""
  },
  {
   "property": "C44",
   "status": "proved",
   "theorems": [
    "Verif.C44_calculate_steps",
    "Verif.C44_calculate_timed",
    "Verif.C44_run_timed",
    "Verif.C44_run_steady",
    "Verif.C44_negative_steps",
    "Verif.C44_terminates"
   ],
   "note": ""
  },
  {
   "property": "C45",
   "status": "partial",
   "theorems": [
    "Verif.C45_last_step_refuted",
    "Verif.C45_converged_partial"
   ],
   "note": "False on the last permitted step (C45_last_step_refuted); proved for every earlier step."
  },
  {
   "property": "C46",
   "status": "proved",
   "theorems": [
    "Verif.C46_floor",
    "Verif.C46_nan"
   ],
   "note": ""
  },
  {
   "property": "C47",
   "status": "proved",
   "theorems": [
    "Verif.C47_points",
    "Verif.C47_failure"
   ],
   "note": ""
  },
  {
   "property": "C48",
   "status": "partial",
   "theorems": [
    "Verif.C48_ignition",
    "Verif.C48_psr",
    "Verif.C48_flame",
    "Verif.C48_assertion_partial",
    "Verif.C48_type_refuted"
   ],
   "note": "Acceptance and the accepted records are characterised exactly for all three kinds. The claim that rejection raises AssertionError is false for values of another type (C48_type_refuted: TypeError) and proved for values of the documented types."
  },
  {
   "property": "C49",
   "status": "proved",
   "theorems": [
    "Verif.C49_protected",
    "Verif.C49_again"
   ],
   "note": ""
  },
  {
   "property": "C50",
   "status": "proved",
   "theorems": [
    "Verif.C50_rejects",
    "Verif.C50_stages"
   ],
   "note": ""
  },
  {
   "property": "C51",
   "status": "partial",
   "theorems": [
    "Verif.C51_sa_only_partial",
    "Verif.C51_method_only_partial",
    "Verif.C51_pfa_sa_partial",
    "Verif.C51_drgep_sa_partial",
    "Verif.C51_drg_sa_refuted",
    "Verif.C51_drgep_history_refuted"
   ],
   "note": "False for DRG followed by sensitivity analysis (limbo species are not checked against the protected ones, see C27) and for DRGEP followed by it in a process that ran DRGEP before (C28). Proved for each method alone, sensitivity analysis alone, PFA with it, and DRGEP with it in a fresh process."
  },
  {
   "property": "C52",
   "status": "partial",
   "theorems": [
    "Verif.C52_reorder_partial",
    "Verif.C52_distinct_partial",
    "Verif.C52_duplicates_refuted"
   ],
   "note": "False when two different reactions with the same equation are exchanged; proved for every reordering that keeps such reactions in order, in particular for distinct equations."
  },
  {
   "property": "C53",
   "status": "partial",
   "theorems": [
    "Verif.C53_symmetric_partial",
    "Verif.C53_transport_refuted",
    "Verif.C53_tolerance_refuted"
   ],
   "note": "False in two ways: transport data are compared only if the first model has them, and isclose is relative to the second argument. Proved outside these two cases."
  },
  {
   "property": "C54",
   "status": "proved",
   "theorems": [
    "Verif.C54_files",
    "Verif.C54_options",
    "Verif.C54_to_chemkin",
    "Verif.C54_to_yaml",
    "Verif.C54_hidden",
    "Verif.C54_no_leak"
   ],
   "note": ""
  },
  {
   "property": "C55",
   "status": "partial",
   "theorems": [
    "Verif.C55_arrhenius",
    "Verif.C55_falloff",
    "Verif.C55_rejects",
    "Verif.C55_recover_partial",
    "Verif.C55_exact_refuted"
   ],
   "note": "The conversion factors are proved for all orders and rate types, on the text written. Exact recovery is false since six digits are written (C55_exact_refuted); recovery to five digits is proved."
  },
  {
   "property": "C56",
   "status": "proved",
   "theorems": [
    "Verif.C56_layout",
    "Verif.C56_file"
   ],
   "note": ""
  },
  {
   "property": "C57",
   "status": "proved",
   "theorems": [
    "Verif.C57_species"
   ],
   "note": ""
  },
  {
   "property": "C58",
   "status": "partial",
   "theorems": [
    "Verif.C58_separated_partial",
    "Verif.C58_long_refuted"
   ],
   "note": "False for equations longer than 50 characters; proved for the others."
  },
  {
   "property": "C59",
   "status": "partial",
   "theorems": [
    "Verif.C59_reaction_partial",
    "Verif.C59_unsupported",
    "Verif.C59_troe_refuted",
    "Verif.C59_file",
    "Verif.C59_head"
   ],
   "note": "Proved for reactions that can be written, with the exact list of those that cannot. False for Troe rates with three parameters, which raise IndexError."
  },
  {
   "property": "C60",
   "status": "proved",
   "theorems": [
    "Verif.C60_converged",
    "Verif.C60_iterates",
    "Verif.C60_failed",
    "Verif.C60_stuck",
    "Verif.C60_affine"
   ],
   "note": ""
  },
  {
   "property": "C61",
   "status": "proved",
   "theorems": [
    "Verif.C61_points"
   ],
   "note": ""
  },
  {
   "property": "C62",
   "status": "partial",
   "theorems": [
    "Verif.C62_extinction",
    "Verif.C62_end_refuted",
    "Verif.C62_samples",
    "Verif.C62_order",
    "Verif.C62_seeds_refuted"
   ],
   "note": "Proved except for two false parts: the branch ends one point past the extinction point, and seeds in the wrong order give a two-point branch."
  },
  {
   "property": "C63",
   "status": "partial",
   "theorems": [
    "Verif.C63_bounded",
    "Verif.C63_steps_partial",
    "Verif.C63_first",
    "Verif.C63_first_refuted",
    "Verif.C63_outcome",
    "Verif.C63_distinct"
   ],
   "note": "Proved except that the first step is not bounded by ds_max when ds0 is larger (C63_first_refuted)."
  },
  {
   "property": "C64",
   "status": "proved",
   "theorems": [
    "Verif.C64_jacobian",
    "Verif.C64_partials",
    "Verif.C64_fixed",
    "Verif.C64_scaled"
   ],
   "note": ""
  },
  {
   "property": "C65",
   "status": "proved",
   "theorems": [
    "Verif.C65_write"
   ],
   "note": ""
  },
  {
   "property": "C66",
   "status": "partial",
   "theorems": [
    "Verif.C66_chemkin_refuted",
    "Verif.C66_yaml_partial"
   ],
   "note": "False of the code: assigning a field of a NamedTuple raises AttributeError, so a Chemkin model is never reduced. Proved for YAML models."
  },
  {
   "property": "C67",
   "status": "proved",
   "theorems": [
    "Verif.C67_pfa_no_limbo",
    "Verif.C67_pfa_unbound"
   ],
   "note": ""
  },
  {
   "property": "C68",
   "status": "partial",
   "theorems": [
    "Verif.C68_nan_limit",
    "Verif.C68_negative_limit_partial",
    "Verif.C68_negative_limit_refuted"
   ],
   "note": "False for DRG with a negative limit: the back-step branch runs and returns a model. Proved for NaN limits and, for PFA and DRGEP, negative limits."
  },
  {
   "property": "C69",
   "status": "proved",
   "theorems": [
    "Verif.C69_metrics_after_sample",
    "Verif.C69_missing"
   ],
   "note": ""
  },
  {
   "property": "C70",
   "status": "proved",
   "theorems": [
    "Verif.C70_files"
   ],
   "note": ""
  },
  {
   "property": "C71",
   "status": "partial",
   "theorems": [
    "Verif.C71_nan_accepted_refuted",
    "Verif.C71_no_nan_partial"
   ],
   "note": "False of the code: NaN is not greater than the limit and is accepted. Proved when no evaluation gives NaN."
  },
  {
   "property": "C72",
   "status": "partial",
   "theorems": [
    "Verif.C72_exact",
    "Verif.C72_last_row_refuted"
   ],
   "note": "Proved in exact arithmetic; false in binary64, where the level of the last row can be rounded above the final temperature."
  },
  {
   "property": "C73",
   "status": "proved",
   "theorems": [
    "Verif.C73_same_metrics",
    "Verif.C73_zero_error"
   ],
   "note": ""
  },
  {
   "property": "C74",
   "status": "partial",
   "theorems": [
    "Verif.C74_clean_partial",
    "Verif.C74_left_file_refuted"
   ],
   "note": "False for a reactor that settles without igniting, whose file is left behind; proved for success and for failing steps."
  },
  {
   "property": "C75",
   "status": "proved",
   "theorems": [
    "Verif.C75_setup"
   ],
   "note": ""
  },
  {
   "property": "C76",
   "status": "partial",
   "theorems": [
    "Verif.C76_list_partial",
    "Verif.C76_text_refuted"
   ],
   "note": "False for a target given as plain text, which is taken apart into characters. Proved for a list of names."
  },
  {
   "property": "C77",
   "status": "partial",
   "theorems": [
    "Verif.C77_process_refuted",
    "Verif.C77_same_partial",
    "Verif.C77_argv_refuted"
   ],
   "note": "False of the code: only the emptiness of argv matters, the arguments are read from the process. Proved for every list of settings when both agree."
  },
  {
   "property": "C78",
   "status": "partial",
   "theorems": [
    "Verif.C78_agree_partial",
    "Verif.C78_transport_partial",
    "Verif.C78_reversible_refuted"
   ],
   "note": "False: reversibility and orders are not compared. Proved: everything else corresponds."
  },
  {
   "property": "C79",
   "status": "proved",
   "theorems": [
    "Verif.C79_transport",
    "Verif.C79_file"
   ],
   "note": ""
  },
  {
   "property": "C80",
   "status": "partial",
   "theorems": [
    "Verif.C80_written_partial",
    "Verif.C80_orders_refuted",
    "Verif.C80_models_refuted"
   ],
   "note": "False: orders and the default efficiency are not written, and numbers are rounded. Proved: reactions written alike agree in the data that are written, up to the digits printed."
  },
  {
   "property": "C81",
   "status": "partial",
   "theorems": [
    "Verif.C81_others_partial",
    "Verif.C81_units_refuted"
   ],
   "note": "False: the first Chebyshev coefficient is written unchanged. Proved for reactions of order one, and for all other coefficients."
  },
  {
   "property": "C82",
   "status": "proved",
   "theorems": [
    "Verif.C82_options",
    "Verif.C82_order",
    "Verif.C82_all_cores",
    "Verif.C82_unknown",
    "Verif.C82_flag_value",
    "Verif.C82_negative",
    "Verif.C82_ambiguous",
    "Verif.C82_missing",
    "Verif.C82_stray"
   ],
   "note": ""
  },
  {
   "property": "C83",
   "status": "partial",
   "theorems": [
    "Verif.C83_ignored_refuted",
    "Verif.C83_process_partial"
   ],
   "note": "False for arguments given in the call, which are ignored. Proved for main() on the arguments of the process."
  },
  {
   "property": "C84",
   "status": "proved",
   "theorems": [
    "Verif.C84_drg_range",
    "Verif.C84_drgep_range",
    "Verif.C84_pfa_range",
    "Verif.C84_importance"
   ],
   "note": ""
  },
  {
   "property": "C85",
   "status": "proved",
   "theorems": [
    "Verif.C85_drg_accuracy",
    "Verif.C85_drg_edges",
    "Verif.C85_scale",
    "Verif.C85_binary64"
   ],
   "note": ""
  },
  {
   "property": "C86",
   "status": "proved",
   "theorems": [
    "Verif.C86_paths",
    "Verif.C86_pred"
   ],
   "note": ""
  },
  {
   "property": "C87",
   "status": "partial",
   "theorems": [
    "Verif.C87_source_path_refuted",
    "Verif.C87_pred_repeated_refuted",
    "Verif.C87_self_edge_refuted",
    "Verif.C87_empty_paths_refuted",
    "Verif.C87_empty_pred_refuted"
   ],
   "note": "False of the code. C87_source_path_refuted: whenever a reachable node has an edge of positive value back to the source, the path of the source is a closed walk with at least one edge; otherwise it is [source] (both for every graph without an edge from the source to itself). C87_pred_repeated_refuted: a closed walk of value one makes the search treat the source twice and list it twice as predecessor. C87_self_edge_refuted: with an edge from the source to itself another node's path can run through it and its product is not the value. C87_empty_paths_refuted, C87_empty_pred_refuted: KeyError with empty dictionaries. The positive part is C86."
  },
  {
   "property": "C88",
   "status": "proved",
   "theorems": [
    "Verif.C88_two_stages",
    "Verif.C88_within_limit"
   ],
   "note": ""
  },
  {
   "property": "C89",
   "status": "proved",
   "theorems": [
    "Verif.C89_reported",
    "Verif.C89_within_limit"
   ],
   "note": ""
  },
  {
   "property": "C90",
   "status": "proved",
   "theorems": [
    "Verif.C90_processes",
    "Verif.C90_raises"
   ],
   "note": ""
  },
  {
   "property": "C91",
   "status": "proved",
   "theorems": [
    "Verif.C91_repeat"
   ],
   "note": ""
  },
  {
   "property": "C92",
   "status": "proved",
   "theorems": [
    "Verif.C92_protected"
   ],
   "note": ""
  },
  {
   "property": "C93",
   "status": "proved",
   "theorems": [
    "Verif.C93_reported",
    "Verif.C93_within_limit",
    "Verif.C93_numeric"
   ],
   "note": ""
  },
  {
   "property": "C94",
   "status": "proved",
   "theorems": [
    "Verif.C94_rounded",
    "Verif.C94_rounded_stuck",
    "Verif.C94_alone",
    "Verif.C94_stuck"
   ],
   "note": ""
  },
  {
   "property": "C95",
   "status": "partial",
   "theorems": [
    "Verif.C95_survives_refuted",
    "Verif.C95_whole_refuted",
    "Verif.C95_returned_partial",
    "Verif.C95_files_partial"
   ],
   "note": "False of the code: nothing catches an exception raised while a candidate is simulated, so the run ends with it although earlier candidates were within the limit. Proved: a returned model was simulated without raising, and files other than the numbered reduced models are untouched."
  },
  {
   "property": "C96",
   "status": "partial",
   "theorems": [
    "Verif.C96_loadable_partial",
    "Verif.C96_plain_partial",
    "Verif.C96_orders_refuted",
    "Verif.C96_duplicate_refuted"
   ],
   "note": "False of the code: trim reads neither reaction orders nor the duplicate flag. Proved: exactly which trimmed models load; without orders and declared duplicates all do."
  },
  {
   "property": "C97",
   "status": "partial",
   "theorems": [
    "Verif.C97_files",
    "Verif.C97_within_limit",
    "Verif.C97_both_files",
    "Verif.C97_both_within_limit",
    "Verif.C97_both_protected_partial",
    "Verif.C97_drg_refuted",
    "Verif.C97_convert"
   ],
   "note": "A method alone: all promises proved. With sensitivity analysis: files and limit proved (exact arithmetic, simulations that give numbers), protection proved for PFA and DRGEP and refuted for DRG."
  },
  {
   "property": "C98",
   "status": "partial",
   "theorems": [
    "Verif.C98_accepted_partial",
    "Verif.C98_passed_on",
    "Verif.C98_rejected_partial",
    "Verif.C98_bare_key_refuted",
    "Verif.C98_type_refuted",
    "Verif.C98_file",
    "Verif.C98_file_accepted_partial",
    "Verif.C98_file_rejected_partial"
   ],
   "note": "Acceptance and the values passed on are characterised exactly. Refuted: a key without a value beside the other form of a mixture raises TypeError; the type of sensitivity analysis is not checked and anything but `greedy` runs as `initial`."
  },
  {
   "property": "C99",
   "status": "partial",
   "theorems": [
    "Verif.C99_exact_partial",
    "Verif.C99_same_start_partial",
    "Verif.C99_binary64_refuted"
   ],
   "note": "Proved with exact thresholds (C99_exact_partial) and, in either arithmetic, for runs that start from the same threshold (C99_same_start_partial). Refuted for each method with binary64 thresholds: summing 0.001 misses 0.01, so the tighter run can pass over the model at which the looser one starts and end with fewer species."
  },
  {
   "property": "C100",
   "status": "proved",
   "theorems": [
    "Verif.C100_files",
    "Verif.C100_order",
    "Verif.C100_limbo"
   ],
   "note": ""
  },
  {
   "property": "C101",
   "status": "partial",
   "theorems": [
    "Verif.C101_threshold_partial",
    "Verif.C101_run_refuted"
   ],
   "note": "Proved for a reduction at a given threshold (C101_threshold_partial). Refuted for whole runs of each method in both arithmetics: retaining a species may raise the accepted threshold, and another species is lost."
  },
  {
   "property": "C102",
   "status": "partial",
   "theorems": [
    "Verif.C102_untied_partial",
    "Verif.C102_ties_refuted"
   ],
   "note": "Proved for analyses in which, at every step, one species is clearly nearest (C102_untied_partial). Refuted with ties, for both algorithms and every context: of two species at the same distance that cannot both be removed, the first one listed is removed (C102_ties_refuted)."
  },
  {
   "property": "C103",
   "status": "partial",
   "theorems": [
    "Verif.C103_request_partial",
    "Verif.C103_rerun_refuted"
   ],
   "note": "False in a directory with the samples of an earlier run: with the conditions exchanged the saved metrics are compared with those of other conditions, and the run returns the unreduced model with an error of 100 percent (C103_rerun_refuted). Proved for every request for which no saved samples are usable (C103_request_partial)."
  },
  {
   "property": "C104",
   "status": "partial",
   "theorems": [
    "Verif.C104_values_partial",
    "Verif.C104_compare_partial",
    "Verif.C104_other_refuted"
   ],
   "note": "False: parametrizations other than the two-range seven-coefficient NASA form, and species with more than four elements, are written without complaint but cannot be read back. Proved for all species whose data fits the columns."
  },
  {
   "property": "C105",
   "status": "proved",
   "theorems": [
    "Verif.C105_process",
    "Verif.C105_calculate",
    "Verif.C105_error"
   ],
   "note": ""
  },
  {
   "property": "C106",
   "status": "partial",
   "theorems": [
    "Verif.C106_names_partial",
    "Verif.C106_order_partial",
    "Verif.C106_reactions_refuted",
    "Verif.C106_pfa_species_refuted"
   ],
   "note": "False in floating point: sums are rounded, so their order matters. Proved for exact arithmetic, and for DRG and DRGEP under any rounding if reactions keep their order."
  },
  {
   "property": "C107",
   "status": "partial",
   "theorems": [
    "Verif.C107_pfa_accuracy",
    "Verif.C107_pfa_edges",
    "Verif.C107_drgep_accuracy",
    "Verif.C107_drg_binary64",
    "Verif.C107_pfa_binary64",
    "Verif.C107_drgep_binary64",
    "Verif.C107_drgep_edges_refuted",
    "Verif.C107_kept",
    "Verif.C107_unchanged",
    "Verif.C107_kept_drgep",
    "Verif.C107_unchanged_drgep"
   ],
   "note": "Binary64 without overflow and underflow. The claim about edges is false of DRGEP (refuted); the distances are proved for all three methods."
  },
  {
   "property": "C108",
   "status": "proved",
   "theorems": [
    "Verif.C108_exact",
    "Verif.C108_binary64",
    "Verif.C108_both"
   ],
   "note": "Cantera's results are parameters. It is assumed that the full model trimmed of nothing behaves as the model read."
  },
  {
   "property": "C109",
   "status": "proved",
   "theorems": [
    "Verif.C109_table",
    "Verif.C109_program",
    "Verif.C109_both"
   ],
   "note": "Cantera's results are parameters; the product of pressure and 101325 and the sum of temperature and 400 are not rounded."
  },
  {
   "property": "C110",
   "status": "proved",
   "theorems": [
    "Verif.C110_returns",
    "Verif.C110_returned",
    "Verif.C110_both",
    "Verif.C110_program"
   ],
   "note": "Errors of candidates are those the code computes; ties are excluded by hypothesis (C19_binary64_refuted shows what can happen with them)."
  },
  {
   "property": "C111",
   "status": "partial",
   "theorems": [
    "Verif.C111_ranges",
    "Verif.C111_kept",
    "Verif.C111_run",
    "Verif.C111_vanish_refuted",
    "Verif.C111_lost_refuted"
   ],
   "note": "False without the conditions (refuted: rates that round to zero)."
  },
  {
   "property": "C112",
   "status": "partial",
   "theorems": [
    "Verif.C112_bound_partial",
    "Verif.C112_exponential_refuted",
    "Verif.C112_binary64_refuted",
    "Verif.C112_polynomial_refuted"
   ],
   "note": "False as a polynomial bound (refuted for exact and binary64 arithmetic); an exponential bound is proved."
  },
  {
   "property": "C113",
   "status": "proved",
   "theorems": [
    "Verif.C113_ends_iff",
    "Verif.C113_values",
    "Verif.C113_never_ends"
   ],
   "note": ""
  },
  {
   "property": "C114",
   "status": "partial",
   "theorems": [
    "Verif.C114_routines",
    "Verif.C114_binary64",
    "Verif.C114_orders_agree",
    "Verif.C114_kept",
    "Verif.C114_kept_agree",
    "Verif.C114_drgep_refuted",
    "Verif.C114_drgep_kept_partial",
    "Verif.C114_drgep_agree_partial"
   ],
   "note": "The full claim is false for DRGEP with blockwise addition (C114_drgep_refuted); for DRG and PFA it is proved away from ties, for DRGEP away from ties as long as no computed coefficient exceeds one, and for the coefficients of all three methods without restriction."
  },
  {
   "property": "C115",
   "status": "partial",
   "theorems": [
    "Verif.C115_ignored_refuted",
    "Verif.C115_no_overflow_refuted",
    "Verif.C115_finite_partial",
    "Verif.C115_only_bad_refuted",
    "Verif.C115_idle_refuted",
    "Verif.C115_overflow_refuted"
   ],
   "note": "The claim is false: such states are ignored (C115_ignored_refuted, C115_no_overflow_refuted, C115_only_bad_refuted). C115_finite_partial proves the part that finite rates are treated as the rest of the model says."
  },
  {
   "property": "C116",
   "status": "partial",
   "theorems": [
    "Verif.C116_to_chemkin",
    "Verif.C116_model_kept",
    "Verif.C116_to_yaml",
    "Verif.C116_failed_refuted",
    "Verif.C116_replaced_refuted"
   ],
   "note": "The last part of the claim is false (C116_failed_refuted, C116_replaced_refuted). Proved: the files written in both directions, nothing else changes, and no file with the name of the model file changes, whatever the outcome."
  },
  {
   "property": "C117",
   "status": "partial",
   "theorems": [
    "Verif.C117_close",
    "Verif.C117_decisions",
    "Verif.C117_reported",
    "Verif.C117_within_limit",
    "Verif.C117_tie_refuted"
   ],
   "note": "The exact claim is false when an error is within rounding of the limit (C117_tie_refuted). Proved: the bound on the computed error, identical outcomes away from the limit, and the guarantee up to rounding."
  },
  {
   "property": "C118",
   "status": "partial",
   "theorems": [
    "Verif.C118_reads",
    "Verif.C118_shortest",
    "Verif.C118_reaction_partial",
    "Verif.C118_pressure_refuted",
    "Verif.C118_pressure_partial"
   ],
   "note": "False of P-log pressures and Chebyshev pressure ranges (C118_pressure_refuted): the division by 101325 loses a bit. Proved of efficiencies, falloff parameters and temperatures; pressures to within two roundings."
  },
  {
   "property": "C119",
   "status": "proved",
   "theorems": [
    "Verif.C119_reaction",
    "Verif.C119_transport"
   ],
   "note": "The accuracy of `**` is a hypothesis (a few units in the last place)."
  },
  {
   "property": "C120",
   "status": "partial",
   "theorems": [
    "Verif.C120_course",
    "Verif.C120_within_limit",
    "Verif.C120_same",
    "Verif.C120_tie_refuted"
   ],
   "note": "The exact claim is false at ties (C120_tie_refuted). Proved: each step is right up to rounding, the limit holds up to rounding, and identical outcomes when choices are clear."
  },
  {
   "property": "C121",
   "status": "proved",
   "theorems": [
    "Verif.C121_reported",
    "Verif.C121_within_limit",
    "Verif.C121_numeric",
    "Verif.C121_same",
    "Verif.C121_alone"
   ],
   "note": ""
  },
  {
   "property": "C122",
   "status": "proved",
   "theorems": [
    "Verif.C122_number",
    "Verif.C122_table",
    "Verif.C122_reuse"
   ],
   "note": ""
  },
  {
   "property": "C123",
   "status": "partial",
   "theorems": [
    "Verif.C123_died_partial",
    "Verif.C123_undefined_refuted",
    "Verif.C123_magnitude_refuted",
    "Verif.C123_analysis_refuted",
    "Verif.C123_method_refuted"
   ],
   "note": "Missing: the statement is false when the process dies inside the last metric's text (C123_undefined_refuted, C123_magnitude_refuted, for every set of ignition conditions; C123_analysis_refuted for the sensitivity analysis that follows; C123_method_refuted for the reductions that follow). Proved for every number of characters: otherwise a later call returns the undisturbed result, and at most one metric is replaced by what is left of its text."
  },
  {
   "property": "C124",
   "status": "partial",
   "theorems": [
    "Verif.C124_files_partial",
    "Verif.C124_clean_partial",
    "Verif.C124_rejected_refuted",
    "Verif.C124_exit_refuted",
    "Verif.C124_retained_refuted"
   ],
   "note": "Missing: the statement is false (C124_rejected_refuted, C124_exit_refuted, C124_retained_refuted, for every run of that kind). Proved: what each numbered file holds after a run, if the species to keep are all reached from the targets; nothing is left behind if the first start is also accepted."
  },
  {
   "property": "C125",
   "status": "partial",
   "theorems": [
    "Verif.C125_lost_refuted",
    "Verif.C125_kept_partial"
   ],
   "note": "Missing: the statement is false (C125_lost_refuted, for every tried threshold of every run). Proved: a file whose size no tried threshold gives and that is not the size of the result is unchanged."
  },
  {
   "property": "C126",
   "status": "partial",
   "theorems": [
    "Verif.C126_returned_partial",
    "Verif.C126_returns_partial",
    "Verif.C126_misnumbered_refuted"
   ],
   "note": "Missing: the statement is false if the file name carries another number (C126_misnumbered_refuted, for every such run). Proved (result, progress, starting model still there) whenever the number is the number of species."
  },
  {
   "property": "C127",
   "status": "partial",
   "theorems": [
    "Verif.C127_parts_partial",
    "Verif.C127_turned_partial",
    "Verif.C127_pair_drg_refuted",
    "Verif.C127_pair_vanishes_refuted",
    "Verif.C127_pair_drgep_refuted",
    "Verif.C127_pair_pfa_refuted",
    "Verif.C127_pair_kept_refuted",
    "Verif.C127_pair_kept_pfa_refuted",
    "Verif.C127_pair_kept_drgep_refuted",
    "Verif.C127_pair_left_drgep_refuted"
   ],
   "note": "Missing: the statement is false when a reversible reaction is written as two irreversible ones (C127_pair_drg_refuted, C127_pair_vanishes_refuted, C127_pair_drgep_refuted, C127_pair_pfa_refuted for every such pair; C127_pair_kept_refuted, C127_pair_kept_pfa_refuted, C127_pair_kept_drgep_refuted and C127_pair_left_drgep_refuted for the species kept). Proved for parts in the same direction (exact arithmetic) and reversed reactions (every odd rounding)."
  },
  {
   "property": "C128",
   "status": "partial",
   "theorems": [
    "Verif.C128_ends_partial",
    "Verif.C128_half_partial",
    "Verif.C128_nearest_refuted",
    "Verif.C128_initial_refuted"
   ],
   "note": "Missing: the statement is false (C128_nearest_refuted for both algorithms, C128_initial_refuted for `initial` from any starting error). Proved for greedy: exactly which species can be left over, and minimality when the error is at most half the limit."
  },
  {
   "property": "C129",
   "status": "partial",
   "theorems": [
    "Verif.C129_calls",
    "Verif.C129_bound_partial",
    "Verif.C129_repeats_refuted"
   ],
   "note": "Missing: for DRG and PFA with a kept species that is not linked to a target the bound is false (C129_repeats_refuted: exactly one simulation for each threshold and one more). Proved otherwise, for DRGEP always."
  },
  {
   "property": "C130",
   "status": "proved",
   "theorems": [
    "Verif.C130_reduction",
    "Verif.C130_run",
    "Verif.C130_analysis",
    "Verif.C130_main",
    "Verif.C130_main_rounded"
   ],
   "note": ""
  },
  {
   "property": "C131",
   "status": "partial",
   "theorems": [
    "Verif.C131_names_partial",
    "Verif.C131_targets_partial",
    "Verif.C131_words_refuted",
    "Verif.C131_composition_refuted",
    "Verif.C131_key_refuted",
    "Verif.C131_numbers_partial",
    "Verif.C131_exponent_refuted",
    "Verif.C131_limit_refuted",
    "Verif.C131_octal_refuted"
   ],
   "note": "Missing: the statement is false for the words and spellings named in it (C131_words_refuted, C131_composition_refuted, C131_exponent_refuted, C131_limit_refuted, C131_octal_refuted). Proved for quoted texts and for plain ones beginning with a letter that are no such word, for decimals with a point and a sign in the exponent, and for integers without leading zero."
  },
  {
   "property": "C132",
   "status": "partial",
   "theorems": [
    "Verif.C132_blank_refuted",
    "Verif.C132_mixture_refuted",
    "Verif.C132_blank_partial",
    "Verif.C132_choice_partial",
    "Verif.C132_type_refuted"
   ],
   "note": "Missing: false for the headings named in the statement (C132_blank_refuted, C132_mixture_refuted, C132_type_refuted). Proved for upper-threshold, min-flame-speed, method and sensitivity-analysis."
  },
  {
   "property": "C133",
   "status": "proved",
   "theorems": [
    "Verif.C133_calls",
    "Verif.C133_bound",
    "Verif.C133_attained"
   ],
   "note": ""
  },
  {
   "property": "C134",
   "status": "partial",
   "theorems": [
    "Verif.C134_first_refuted",
    "Verif.C134_greedy_refuted",
    "Verif.C134_once_partial"
   ],
   "note": "Missing: false for the first removal (C134_first_refuted) and, with the greedy algorithm, for every removal (C134_greedy_refuted). Proved: evaluations do not repeat each other, removals do not repeat each other, and with the algorithm initial the first removal is the only repetition."
  },
  {
   "property": "C135",
   "status": "partial",
   "theorems": [
    "Verif.C135_heading_refuted",
    "Verif.C135_repeated_refuted",
    "Verif.C135_condition_refuted",
    "Verif.C135_values_partial"
   ],
   "note": "Missing: false for headings of the document (C135_heading_refuted), of conditions (C135_condition_refuted) and for repeated ones (C135_repeated_refuted). Proved for methods, kinds of autoignition, types of composition and species in compositions; the type of sensitivity analysis is not checked either (C98)."
  },
  {
   "property": "C136",
   "status": "proved",
   "theorems": [
    "Verif.C136_order"
   ],
   "note": ""
  },
  {
   "property": "C137",
   "status": "proved",
   "theorems": [
    "Verif.C137_rates",
    "Verif.C137_production",
    "Verif.C137_trajectories",
    "Verif.C137_leaks",
    "Verif.C137_exact"
   ],
   "note": ""
  },
  {
   "property": "C138",
   "status": "partial",
   "theorems": [
    "Verif.C138_alone",
    "Verif.C138_apart_partial",
    "Verif.C138_ends_partial",
    "Verif.C138_same_refuted",
    "Verif.C138_mixed_refuted",
    "Verif.C138_main_alone",
    "Verif.C138_main_partial",
    "Verif.C138_main_ends_partial"
   ],
   "note": "Missing: false in one directory (C138_same_refuted, C138_mixed_refuted). Not modelled here: the files of samples (see C149); for the data files of simulations see C142."
  },
  {
   "property": "C139",
   "status": "proved",
   "theorems": [
    "Verif.C139_main",
    "Verif.C139_sampled",
    "Verif.C139_rounded",
    "Verif.C139_command",
    "Verif.C139_conserved"
   ],
   "note": ""
  },
  {
   "property": "C140",
   "status": "partial",
   "theorems": [
    "Verif.C140_option_refuted",
    "Verif.C140_quoted_refuted",
    "Verif.C140_checked_partial",
    "Verif.C140_entry_refuted",
    "Verif.C140_late_refuted",
    "Verif.C140_same_partial",
    "Verif.C140_analysis_refuted",
    "Verif.C140_files_partial"
   ],
   "note": "Missing: false for the options named (C140_option_refuted, C140_quoted_refuted, C140_entry_refuted, C140_late_refuted, C140_analysis_refuted)."
  },
  {
   "property": "C141",
   "status": "proved",
   "theorems": [
    "Verif.C141_same",
    "Verif.C141_kept",
    "Verif.C141_both_kept",
    "Verif.C141_refused"
   ],
   "note": ""
  },
  {
   "property": "C142",
   "status": "partial",
   "theorems": [
    "Verif.C142_parallel_partial",
    "Verif.C142_names",
    "Verif.C142_same_refuted",
    "Verif.C142_user_refuted",
    "Verif.C142_stop_refuted"
   ],
   "note": "Missing: false of two runs in one directory, of a file of the user with such a name, and of stop_at_ignition (C142_same_refuted, C142_user_refuted, C142_stop_refuted). Opening, writing and closing a file counts as one operation."
  },
  {
   "property": "C143",
   "status": "partial",
   "theorems": [
    "Verif.C143_phase_partial",
    "Verif.C143_others_partial",
    "Verif.C143_named_partial",
    "Verif.C143_missing_partial",
    "Verif.C143_unnamed_refuted"
   ],
   "note": "Missing: false when no phase is named (C143_unnamed_refuted)."
  },
  {
   "property": "C144",
   "status": "partial",
   "theorems": [
    "Verif.C144_ideal_refuted",
    "Verif.C144_sampled_refuted",
    "Verif.C144_files_refuted",
    "Verif.C144_fewer_refuted",
    "Verif.C144_kept_partial",
    "Verif.C144_same_partial",
    "Verif.C144_limit_refuted"
   ],
   "note": "Missing: false for every model that is not an ideal gas (C144_ideal_refuted, C144_sampled_refuted, C144_files_refuted, C144_fewer_refuted, C144_limit_refuted). Proved for ideal gases."
  },
  {
   "property": "C145",
   "status": "partial",
   "theorems": [
    "Verif.C145_drgep_partial",
    "Verif.C145_drg_refuted",
    "Verif.C145_pfa_refuted",
    "Verif.C145_none_between_refuted",
    "Verif.C145_empty_refuted",
    "Verif.C145_program_partial"
   ],
   "note": "Missing: false for DRG, for PFA, and for DRGEP with no species between the thresholds (C145_drg_refuted, C145_pfa_refuted, C145_none_between_refuted, C145_empty_refuted). Proved for DRGEP in a fresh process when some species lies between them (C145_drgep_partial, for the command C145_program_partial)."
  },
  {
   "property": "C146",
   "status": "proved",
   "theorems": [
    "Verif.C146_data",
    "Verif.C146_reactions",
    "Verif.C146_species",
    "Verif.C146_converts"
   ],
   "note": ""
  },
  {
   "property": "C147",
   "status": "partial",
   "theorems": [
    "Verif.C147_method_partial",
    "Verif.C147_reported_partial",
    "Verif.C147_analysis_refuted"
   ],
   "note": "Missing: false for sensitivity analysis without a method where Cantera does not report that a file could not be opened (C147_analysis_refuted). Proved for every run with a method (C147_method_partial) and for every run where Cantera reports it (C147_reported_partial)."
  },
  {
   "property": "C148",
   "status": "partial",
   "theorems": [
    "Verif.C148_slash_refuted",
    "Verif.C148_main_refuted",
    "Verif.C148_plain_partial",
    "Verif.C148_method_partial"
   ],
   "note": "Missing: false if a candidate has a slash in its name (C148_slash_refuted, C148_main_refuted). Proved without slashes in candidates (C148_plain_partial) and for methods alone (C148_method_partial)."
  },
  {
   "property": "C149",
   "status": "partial",
   "theorems": [
    "Verif.C149_apart_partial",
    "Verif.C149_method_partial",
    "Verif.C149_samples_refuted",
    "Verif.C149_baseline_refuted",
    "Verif.C149_twice_refuted"
   ],
   "note": "Missing: false when the runs have a kind of simulation in common (C149_samples_refuted, C149_baseline_refuted, C149_twice_refuted). Proved for runs without one (C149_apart_partial) and, for writes after sampling, without sensitivity analysis (C149_method_partial)."
  },
  {
   "property": "C150",
   "status": "proved",
   "theorems": [
    "Verif.C150_inputs",
    "Verif.C150_command",
    "Verif.C150_values"
   ],
   "note": ""
  },
  {
   "property": "C151",
   "status": "partial",
   "theorems": [
    "Verif.C151_agree_partial",
    "Verif.C151_type_refuted",
    "Verif.C151_mixture_refuted",
    "Verif.C151_threshold_refuted"
   ],
   "note": "Missing: false when the type of sensitivity analysis is left out (C151_type_refuted), a species of a mixture is not kept (C151_mixture_refuted) or the upper threshold is left out (C151_threshold_refuted, one request). Proved if type and threshold are given with sensitivity analysis and the species of the mixtures are kept (C151_agree_partial)."
  }
 ]
}
