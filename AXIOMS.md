# Axioms of each property theorem

As reported by `collectAxioms` (`#print axioms`) on the built project.

## propext

* `C38_serial_first`

## Quot.sound, propext

* `C01_metadata`
* `C01_species`
* `C04_set_only`
* `C131_key_refuted`
* `C13_cutoff_source_only_partial`
* `C33_zero_baseline_refuted`
* `C33_zero_flame_refuted`
* `C38_failure`
* `C39_failure`
* `C42_determined`
* `C42_order`
* `C47_failure`
* `C47_points`
* `C69_missing`
* `C87_empty_paths_refuted`

## Classical.choice, Quot.sound, propext

* `C02_reactions`
* `C03_closed`
* `C04_idempotent`
* `C04_irrelevant_names`
* `C05_staged_trim_partial`
* `C05_staged_trim_refuted`
* `C05_staged_trim_simple_partial`
* `C06_drg_edge_iff`
* `C06_drg_formula`
* `C06_drg_range`
* `C07_drgep_formula`
* `C07_drgep_range`
* `C08_pfa_formula`
* `C08_pfa_range`
* `C09_scale_invariant`
* `C100_files`
* `C100_limbo`
* `C100_order`
* `C101_run_refuted`
* `C101_threshold_partial`
* `C102_ties_refuted`
* `C102_untied_partial`
* `C103_request_partial`
* `C103_rerun_refuted`
* `C104_compare_partial`
* `C104_other_refuted`
* `C104_values_partial`
* `C105_calculate`
* `C105_error`
* `C105_process`
* `C106_names_partial`
* `C106_order_partial`
* `C106_pfa_species_refuted`
* `C106_reactions_refuted`
* `C107_drg_binary64`
* `C107_drgep_accuracy`
* `C107_drgep_binary64`
* `C107_drgep_edges_refuted`
* `C107_kept`
* `C107_kept_drgep`
* `C107_pfa_accuracy`
* `C107_pfa_binary64`
* `C107_pfa_edges`
* `C107_unchanged`
* `C107_unchanged_drgep`
* `C108_binary64`
* `C108_both`
* `C108_exact`
* `C109_both`
* `C109_program`
* `C109_table`
* `C10_graph_search`
* `C10_graph_search_missing`
* `C110_both`
* `C110_program`
* `C110_returned`
* `C110_returns`
* `C111_kept`
* `C111_lost_refuted`
* `C111_ranges`
* `C111_run`
* `C111_vanish_refuted`
* `C112_binary64_refuted`
* `C112_bound_partial`
* `C112_exponential_refuted`
* `C112_polynomial_refuted`
* `C113_ends_iff`
* `C113_never_ends`
* `C113_values`
* `C114_binary64`
* `C114_drgep_agree_partial`
* `C114_drgep_kept_partial`
* `C114_drgep_refuted`
* `C114_kept`
* `C114_kept_agree`
* `C114_orders_agree`
* `C114_routines`
* `C115_finite_partial`
* `C115_idle_refuted`
* `C115_ignored_refuted`
* `C115_no_overflow_refuted`
* `C115_only_bad_refuted`
* `C115_overflow_refuted`
* `C116_failed_refuted`
* `C116_model_kept`
* `C116_replaced_refuted`
* `C116_to_chemkin`
* `C116_to_yaml`
* `C117_close`
* `C117_decisions`
* `C117_reported`
* `C117_tie_refuted`
* `C117_within_limit`
* `C118_pressure_partial`
* `C118_pressure_refuted`
* `C118_reaction_partial`
* `C118_reads`
* `C118_shortest`
* `C119_reaction`
* `C119_transport`
* `C11_targets_kept`
* `C11_trim_missing_target`
* `C11_trim_monotone`
* `C11_trim_paths`
* `C120_course`
* `C120_same`
* `C120_tie_refuted`
* `C120_within_limit`
* `C121_alone`
* `C121_numeric`
* `C121_reported`
* `C121_same`
* `C121_within_limit`
* `C122_number`
* `C122_reuse`
* `C122_table`
* `C123_analysis_refuted`
* `C123_died_partial`
* `C123_magnitude_refuted`
* `C123_method_refuted`
* `C123_undefined_refuted`
* `C124_clean_partial`
* `C124_exit_refuted`
* `C124_files_partial`
* `C124_rejected_refuted`
* `C124_retained_refuted`
* `C125_kept_partial`
* `C125_lost_refuted`
* `C126_misnumbered_refuted`
* `C126_returned_partial`
* `C126_returns_partial`
* `C127_pair_drg_refuted`
* `C127_pair_drgep_refuted`
* `C127_pair_kept_drgep_refuted`
* `C127_pair_kept_pfa_refuted`
* `C127_pair_kept_refuted`
* `C127_pair_left_drgep_refuted`
* `C127_pair_pfa_refuted`
* `C127_pair_vanishes_refuted`
* `C127_parts_partial`
* `C127_turned_partial`
* `C128_ends_partial`
* `C128_half_partial`
* `C128_initial_refuted`
* `C128_nearest_refuted`
* `C129_bound_partial`
* `C129_calls`
* `C129_repeats_refuted`
* `C12_dijkstra_max_product`
* `C12_dijkstra_optimal`
* `C12_dijkstra_rounded`
* `C130_analysis`
* `C130_main`
* `C130_main_rounded`
* `C130_reduction`
* `C130_run`
* `C131_composition_refuted`
* `C131_exponent_refuted`
* `C131_limit_refuted`
* `C131_names_partial`
* `C131_numbers_partial`
* `C131_octal_refuted`
* `C131_targets_partial`
* `C131_words_refuted`
* `C132_blank_partial`
* `C132_blank_refuted`
* `C132_choice_partial`
* `C132_mixture_refuted`
* `C132_type_refuted`
* `C133_attained`
* `C133_bound`
* `C133_calls`
* `C134_first_refuted`
* `C134_greedy_refuted`
* `C134_once_partial`
* `C135_condition_refuted`
* `C135_heading_refuted`
* `C135_repeated_refuted`
* `C135_values_partial`
* `C136_order`
* `C137_exact`
* `C137_leaks`
* `C137_production`
* `C137_rates`
* `C137_trajectories`
* `C138_alone`
* `C138_apart_partial`
* `C138_ends_partial`
* `C138_main_alone`
* `C138_main_ends_partial`
* `C138_main_partial`
* `C138_mixed_refuted`
* `C138_same_refuted`
* `C139_command`
* `C139_conserved`
* `C139_main`
* `C139_rounded`
* `C139_sampled`
* `C13_cutoff_refuted`
* `C140_analysis_refuted`
* `C140_checked_partial`
* `C140_entry_refuted`
* `C140_files_partial`
* `C140_late_refuted`
* `C140_option_refuted`
* `C140_quoted_refuted`
* `C140_same_partial`
* `C141_both_kept`
* `C141_kept`
* `C141_refused`
* `C141_same`
* `C142_names`
* `C142_parallel_partial`
* `C142_same_refuted`
* `C142_stop_refuted`
* `C142_user_refuted`
* `C143_missing_partial`
* `C143_named_partial`
* `C143_others_partial`
* `C143_phase_partial`
* `C143_unnamed_refuted`
* `C144_fewer_refuted`
* `C144_files_refuted`
* `C144_ideal_refuted`
* `C144_kept_partial`
* `C144_limit_refuted`
* `C144_same_partial`
* `C144_sampled_refuted`
* `C145_drg_refuted`
* `C145_drgep_partial`
* `C145_empty_refuted`
* `C145_none_between_refuted`
* `C145_pfa_refuted`
* `C145_program_partial`
* `C146_converts`
* `C146_data`
* `C146_reactions`
* `C146_species`
* `C147_analysis_refuted`
* `C147_method_partial`
* `C147_reported_partial`
* `C148_main_refuted`
* `C148_method_partial`
* `C148_plain_partial`
* `C148_slash_refuted`
* `C149_apart_partial`
* `C149_baseline_refuted`
* `C149_method_partial`
* `C149_samples_refuted`
* `C149_twice_refuted`
* `C14_target_partial`
* `C14_target_refuted`
* `C150_command`
* `C150_inputs`
* `C150_values`
* `C151_agree_partial`
* `C151_mixture_refuted`
* `C151_threshold_refuted`
* `C151_type_refuted`
* `C15_cycle_through_source`
* `C15_diverges`
* `C16_importance`
* `C16_missing_target`
* `C16_monotone`
* `C16_order_irrelevant`
* `C16_range_and_targets`
* `C17_missing`
* `C17_monotone`
* `C17_removes_exactly`
* `C18_drg`
* `C18_drgep`
* `C18_pfa`
* `C18_start`
* `C19_binary64_partial`
* `C19_binary64_refuted`
* `C19_returned`
* `C19_returns`
* `C19_within_limit_partial`
* `C20_drg_pfa`
* `C20_drgep_safe`
* `C20_drgep_targets`
* `C21_other_files_untouched`
* `C22_cleanup_never_fails`
* `C22_file_holds_model`
* `C23_core_stops`
* `C23_never_stops`
* `C23_stops_iff`
* `C24_exit`
* `C24_exit_only`
* `C25_binary64_refuted`
* `C25_nan_raises`
* `C25_never_returned_partial`
* `C26_binary64_close_partial`
* `C26_binary64_refuted`
* `C26_exact_partial`
* `C27_limbo_in_model_partial`
* `C27_limbo_refuted`
* `C28_after_sa`
* `C28_first_run_partial`
* `C28_history_refuted`
* `C29_within_limit`
* `C30_count`
* `C30_given_list_ignores_safe`
* `C30_only_candidates`
* `C30_safe_kept`
* `C30_terminates`
* `C31_greedy_refuted`
* `C31_initial_all`
* `C31_returns_partial`
* `C32_course`
* `C32_determined`
* `C32_followed`
* `C33_sa_stuck`
* `C33_source_partial`
* `C34_path_refuted`
* `C34_written_partial`
* `C35_reuse`
* `C36_clean_partial`
* `C36_stale_refuted`
* `C36_unusable_partial`
* `C37_crash_between_refuted`
* `C37_crash_open_refuted`
* `C37_crash_partial`
* `C37_torn_refuted`
* `C38_metric_jobs`
* `C38_negative`
* `C38_sampling_jobs`
* `C39_layout`
* `C39_length`
* `C40_incomparable`
* `C40_infinite`
* `C40_limit`
* `C40_nan`
* `C40_undefined`
* `C40_worst`
* `C40_zero_baseline`
* `C41_limit`
* `C41_zero`
* `C42_binary64`
* `C42_count_refuted`
* `C42_exact`
* `C42_ieee`
* `C42_rows`
* `C43_agree`
* `C44_calculate_steps`
* `C44_calculate_timed`
* `C44_negative_steps`
* `C44_run_steady`
* `C44_run_timed`
* `C44_terminates`
* `C45_converged_partial`
* `C45_last_step_refuted`
* `C46_floor`
* `C46_nan`
* `C48_assertion_partial`
* `C48_flame`
* `C48_ignition`
* `C48_psr`
* `C48_type_refuted`
* `C49_again`
* `C49_protected`
* `C50_rejects`
* `C50_stages`
* `C51_drg_sa_refuted`
* `C51_drgep_history_refuted`
* `C51_drgep_sa_partial`
* `C51_method_only_partial`
* `C51_pfa_sa_partial`
* `C51_sa_only_partial`
* `C52_distinct_partial`
* `C52_duplicates_refuted`
* `C52_reorder_partial`
* `C53_symmetric_partial`
* `C53_tolerance_refuted`
* `C53_transport_refuted`
* `C54_files`
* `C54_hidden`
* `C54_no_leak`
* `C54_options`
* `C54_to_chemkin`
* `C54_to_yaml`
* `C55_arrhenius`
* `C55_exact_refuted`
* `C55_falloff`
* `C55_recover_partial`
* `C55_rejects`
* `C56_file`
* `C56_layout`
* `C57_species`
* `C58_long_refuted`
* `C58_separated_partial`
* `C59_file`
* `C59_head`
* `C59_reaction_partial`
* `C59_troe_refuted`
* `C59_unsupported`
* `C60_affine`
* `C60_converged`
* `C60_failed`
* `C60_iterates`
* `C60_stuck`
* `C61_points`
* `C62_end_refuted`
* `C62_extinction`
* `C62_order`
* `C62_samples`
* `C62_seeds_refuted`
* `C63_bounded`
* `C63_distinct`
* `C63_first`
* `C63_first_refuted`
* `C63_outcome`
* `C63_steps_partial`
* `C64_fixed`
* `C64_jacobian`
* `C64_partials`
* `C64_scaled`
* `C65_write`
* `C66_chemkin_refuted`
* `C66_yaml_partial`
* `C67_pfa_no_limbo`
* `C67_pfa_unbound`
* `C68_nan_limit`
* `C68_negative_limit_partial`
* `C68_negative_limit_refuted`
* `C69_metrics_after_sample`
* `C70_files`
* `C71_nan_accepted_refuted`
* `C71_no_nan_partial`
* `C72_exact`
* `C72_last_row_refuted`
* `C73_same_metrics`
* `C73_zero_error`
* `C74_clean_partial`
* `C74_left_file_refuted`
* `C75_setup`
* `C76_list_partial`
* `C76_text_refuted`
* `C77_argv_refuted`
* `C77_process_refuted`
* `C77_same_partial`
* `C78_agree_partial`
* `C78_reversible_refuted`
* `C78_transport_partial`
* `C79_file`
* `C79_transport`
* `C80_models_refuted`
* `C80_orders_refuted`
* `C80_written_partial`
* `C81_others_partial`
* `C81_units_refuted`
* `C82_all_cores`
* `C82_ambiguous`
* `C82_flag_value`
* `C82_missing`
* `C82_negative`
* `C82_options`
* `C82_order`
* `C82_stray`
* `C82_unknown`
* `C83_ignored_refuted`
* `C83_process_partial`
* `C84_drg_range`
* `C84_drgep_range`
* `C84_importance`
* `C84_pfa_range`
* `C85_binary64`
* `C85_drg_accuracy`
* `C85_drg_edges`
* `C85_scale`
* `C86_paths`
* `C86_pred`
* `C87_empty_pred_refuted`
* `C87_pred_repeated_refuted`
* `C87_self_edge_refuted`
* `C87_source_path_refuted`
* `C88_two_stages`
* `C88_within_limit`
* `C89_reported`
* `C89_within_limit`
* `C90_processes`
* `C90_raises`
* `C91_repeat`
* `C92_protected`
* `C93_numeric`
* `C93_reported`
* `C93_within_limit`
* `C94_alone`
* `C94_rounded`
* `C94_rounded_stuck`
* `C94_stuck`
* `C95_files_partial`
* `C95_returned_partial`
* `C95_survives_refuted`
* `C95_whole_refuted`
* `C96_duplicate_refuted`
* `C96_loadable_partial`
* `C96_orders_refuted`
* `C96_plain_partial`
* `C97_both_files`
* `C97_both_protected_partial`
* `C97_both_within_limit`
* `C97_convert`
* `C97_drg_refuted`
* `C97_files`
* `C97_within_limit`
* `C98_accepted_partial`
* `C98_bare_key_refuted`
* `C98_file`
* `C98_file_accepted_partial`
* `C98_file_rejected_partial`
* `C98_passed_on`
* `C98_rejected_partial`
* `C98_type_refuted`
* `C99_binary64_refuted`
* `C99_exact_partial`
* `C99_same_start_partial`
