# Axioms of each theorem of MANIFEST.json

Written by `tools/axioms.py` from `#print axioms`.

## Classical.choice, Quot.sound, propext

* `Bx.Benchmark.C119_best_is_blue`
* `Bx.Benchmark.C119_colours`
* `Bx.Benchmark.C119_green_is_best_partial`
* `Bx.Benchmark.C85_blank_cell_is_zero`
* `Bx.Benchmark.C85_empty_cells_move_the_values`
* `Bx.Benchmark.C85_errors_keep_the_file`
* `Bx.Benchmark.C85_one_letter_name_breaks_the_file`
* `Bx.Benchmark.C85_run_adds_a_column_partial`
* `Bx.Benchmark.C85_table_is_read`
* `Bx.Benchmark.C85_unended_line_is_lost`
* `Bx.Benchmark.C85_unreadable_model_is_an_error`
* `Bx.Benchmark.C86_minus_infinity_splits_a_rank`
* `Bx.Benchmark.C86_ranks_partial`
* `Bx.Benchmark.C87_failures_are_counted`
* `Bx.Benchmark.C87_found_partial`
* `Bx.Benchmark.C87_unsolved_is_found`
* `Bx.Benchmark.C88_distance_is_scaled`
* `Bx.Benchmark.C88_distance_partial`
* `Bx.Benchmark.C88_optimum_is_the_first_model`
* `Bx.Benchmark.C88_unsolved_halves_the_distance`
* `Bx.Benchmark.C89_first_run_is_undefined`
* `Bx.Benchmark.C89_full_array_is_undefined`
* `Bx.Benchmark.C89_no_model_is_undefined`
* `Bx.Benchmark.C89_null_value_is_undefined`
* `Bx.Benchmark.C89_run_ends_partial`
* `Bx.BitArray.C18_out_of_range_aborts`
* `Bx.BitArray.C18_refines_plain_array`
* `Bx.BitArray.C19_set_true_clears`
* `Bx.BitArray.C19_set_value_partial`
* `Bx.BitArray.C20_agreeing_arrays_equal_partial`
* `Bx.BitArray.C21_assign_aligned_partial`
* `Bx.BitArray.C22_child_mixes_parents`
* `Bx.Bounds.C142_check`
* `Bx.Bounds.C142_file`
* `Bx.Bounds.C142_file_fixed_optimize`
* `Bx.Bounds.C142_file_fixed_solve`
* `Bx.Bounds.C142_file_fixed_workers`
* `Bx.Bounds.C142_file_optimize`
* `Bx.Bounds.C142_file_solve`
* `Bx.Bounds.C142_fixed_at_seven_is_one`
* `Bx.Bounds.C142_fixed_optimize`
* `Bx.Bounds.C142_fixed_solve`
* `Bx.Bounds.C142_fixed_variables_move`
* `Bx.Bounds.C142_fixed_workers`
* `Bx.Bounds.C142_optimize`
* `Bx.Bounds.C142_solve`
* `Bx.Bounds.C142_workers`
* `Bx.Branch.C49_ends_with_an_error_partial`
* `Bx.Branch.C49_never_returns`
* `Bx.Branch.C49_turn_explores_both_values`
* `Bx.C33_exhaustive_as_computed`
* `Bx.C33_exhaustive_optimal`
* `Bx.C33_prepared_iff_satisfiable`
* `Bx.C34_as_computed_partial`
* `Bx.C34_branch_and_bound_partial`
* `Bx.C34_negative_factors_not_optimal`
* `Bx.C34_not_optimal`
* `Bx.Checked.C108_accepted_problem_overflows`
* `Bx.Checked.C108_check_is_exact`
* `Bx.Checked.C108_initialization_is_exact`
* `Bx.Checked.C108_initialization_overflows`
* `Bx.Checked.C108_integer_rows_are_exact_partial`
* `Bx.Checked.C108_next_cell_overflows`
* `Bx.Checked.C108_preprocess_is_exact`
* `Bx.Checked.C108_reading_overflows`
* `Bx.Checked.C108_rows_are_exact`
* `Bx.Checked.C108_split_is_exact`
* `Bx.CommandLine.C126_listed_but_refused`
* `Bx.CommandLine.C126_listed_values_are_accepted_partial`
* `Bx.CommandLine.C126_refused_values_are_listed`
* `Bx.CommandLine.C61_accepted_partial`
* `Bx.CommandLine.C61_command_line_in_range_partial`
* `Bx.CommandLine.C61_kappa_one`
* `Bx.CommandLine.C61_nan_time_limit`
* `Bx.CommandLine.C61_refused`
* `Bx.CommandLine.C61_rejected_unchanged`
* `Bx.CommandLine.C61_two_letter_name`
* `Bx.CommandLine.C65_check_has_no_effect`
* `Bx.CommandLine.C65_no_error_partial`
* `Bx.CommandLine.C65_options_take_effect_partial`
* `Bx.CommandLine.C65_verbose_becomes_a_file`
* `Bx.CommandLine.C66_seed_message_aborts`
* `Bx.CommandLine.C66_status_of_the_parameter_partial`
* `Bx.CommandLine.C66_wrong_name_in_every_message`
* `Bx.Compare.C58_calculator_sort`
* `Bx.Compare.C58_is_better_solution`
* `Bx.Compare.C58_node_result_compare`
* `Bx.Compare.C58_raw_result_compare`
* `Bx.Compare.C58_solution_less`
* `Bx.Compare.C58_storage_sort`
* `Bx.Constant.C139_check`
* `Bx.Constant.C139_optimize_partial`
* `Bx.Constant.C139_preprocess`
* `Bx.Constant.C139_rounded_value_partial`
* `Bx.Constant.C139_rounding_changes_the_order`
* `Bx.Constant.C139_search_integer_partial`
* `Bx.Constant.C139_search_partial`
* `Bx.Constant.C139_solve_partial`
* `Bx.Constant.C139_value`
* `Bx.Constant.C139_workers_partial`
* `Bx.CoreOut.C104_computed_delta_refused`
* `Bx.CoreOut.C104_line_gives_back_partial`
* `Bx.CoreOut.C104_lines_refused`
* `Bx.CoreOut.C104_message_gives_back_partial`
* `Bx.CoreOut.C104_mode_is_lost`
* `Bx.CoreOut.C104_words_give_back_partial`
* `Bx.CoreOut.C61_blank_is_zero`
* `Bx.Costs.C56_infinity_norm_empty`
* `Bx.Costs.C56_infinity_norm_reverses`
* `Bx.Costs.C56_normalised_costs_partial`
* `Bx.Costs.C57_linear_cost_is_marginal`
* `Bx.Costs.C57_quadratic_cost_is_marginal_partial`
* `Bx.Costs.C57_quadratic_index_all_ones`
* `Bx.Costs.C57_square_is_missed`
* `Bx.Costs.C67_random_draws_between`
* `Bx.Costs.C67_random_norm_keeps_order_partial`
* `Bx.Costs.C67_random_norm_reverses`
* `Bx.Dispatch.C50_manual_mode_partial`
* `Bx.Dispatch.C50_one_call_per_combination`
* `Bx.Dispatch.C75_buffered_aborts`
* `Bx.Dispatch.C75_first_mode_wins`
* `Bx.Dispatch.C75_no_context_no_success`
* `Bx.Dispatch.C75_random_accepts_partial`
* `Bx.Dispatch.C75_random_ignores_the_request`
* `Bx.Dispatch.C75_random_refuses_integers`
* `Bx.Dispatch.C75_solver_accepts_partial`
* `Bx.Dispatch.C75_success_solves_the_raw_problem_partial`
* `Bx.Dispatch.C75_tuned_success_solves_the_raw_problem_partial`
* `Bx.Dispatch.C76_library_without_nlopt_partial`
* `Bx.Dispatch.C76_without_nlopt_is_manual_partial`
* `Bx.Equal.C103_equal_problems_partial`
* `Bx.Equal.C103_quadratic_part_ignored`
* `Bx.Init.C77_bastert_is_optimal_partial`
* `Bx.Init.C77_quadratic_is_not_optimal`
* `Bx.Init.C78_float_costs_tie`
* `Bx.Init.C78_initial_is_feasible_partial`
* `Bx.Init.C78_negative_coefficient`
* `Bx.Init.C78_optimistic_is_nearly_optimal_partial`
* `Bx.Init.C78_optimistic_is_optimal_partial`
* `Bx.Init.C78_turn_partial`
* `Bx.Init.C79_feasible_start_is_the_answer_partial`
* `Bx.Init.C79_optimistic_solve_is_optimal_partial`
* `Bx.Init.C79_optimize_feasible_bastert_partial`
* `Bx.Init.C79_pessimistic_is_not_improved`
* `Bx.Init.C79_workers_feasible_bastert_partial`
* `Bx.Init.C80_delta_partial`
* `Bx.Init.C80_null_objective`
* `Bx.Init.C80_rounded_delta_partial`
* `Bx.Init.C80_theta_converted`
* `Bx.Itm.C129_no_loop_no_vector`
* `Bx.Itm.C129_the_fewest_unsatisfied`
* `Bx.Itm.C23_equality_update`
* `Bx.Itm.C23_unsatisfiable_row_aborts`
* `Bx.Itm.C24_inequality_update_partial`
* `Bx.Itm.C24_one_more_cell`
* `Bx.Itm.C25_reads_in_bounds_partial`
* `Bx.Itm.C26_frame`
* `Bx.Itm.C27_count_is_exact`
* `Bx.Itm.C28_success_is_feasible`
* `Bx.Itm.C29_best_of_the_run`
* `Bx.Itm.C30_passes_are_bounded`
* `Bx.Itm.C31_status_hides_the_reason`
* `Bx.Itm.C31_status_partial`
* `Bx.Itm.C32_infeasible_reported_solved`
* `Bx.Itm.C32_quadratic_value_differs`
* `Bx.Itm.C32_success_solves_the_raw_problem`
* `Bx.Itm.C32_unconstrained_aborts`
* `Bx.Itm.C32_without_preprocessing_partial`
* `Bx.Itm.C62_push_phase_does_nothing`
* `Bx.Itm.C63_pass_visits_the_violated_partial`
* `Bx.Itm.C63_pi_sign_change_never_returns`
* `Bx.Itm.C79_cycle_keeps_a_feasible_start_partial`
* `Bx.Life.C125_names_live_with_their_object_partial`
* `Bx.Life.C125_reading_twice`
* `Bx.Log.C116_printed_iff_level`
* `Bx.Log.C116_quiet_is_not_silent`
* `Bx.Log.C116_quiet_partial`
* `Bx.Log.C116_stream`
* `Bx.Log.C116_tuners_print_warnings`
* `Bx.Looser.C138_file`
* `Bx.Looser.C138_file_optimize`
* `Bx.Looser.C138_file_solve`
* `Bx.Looser.C140_file`
* `Bx.Looser.C140_file_solve_partial`
* `Bx.Looser.C140_file_workers_partial`
* `Bx.Looser.C140_merge`
* `Bx.Looser.C140_optimize_partial`
* `Bx.Looser.C140_preprocessing_keeps_the_copy`
* `Bx.Looser.C140_solve_partial`
* `Bx.Looser.C140_value`
* `Bx.Looser.C140_workers_partial`
* `Bx.MainProgram.C93_failed_run_reads_as_success`
* `Bx.MainProgram.C93_from_problem_to_solution_partial`
* `Bx.MainProgram.C93_names_of_the_files`
* `Bx.MainProgram.C93_quadratic_file_unreadable`
* `Bx.MainProgram.C93_read_problem_partial`
* `Bx.MainProgram.C93_solution_file_reads_back`
* `Bx.MainProgram.C93_unwritable_is_silent`
* `Bx.MainProgram.C94_each_failure_is_reported`
* `Bx.MainProgram.C94_exit_status`
* `Bx.MainProgram.C94_failures_exit_zero`
* `Bx.MainProgram.C94_silence_means_done`
* `Bx.MainProgram.C95_exception_joins_lines`
* `Bx.MainProgram.C95_killed_keeps_the_lines_before`
* `Bx.MainProgram.C95_one_line_per_problem`
* `Bx.Manual.C113_in_range_partial`
* `Bx.Manual.C113_large_kappa_max_partial`
* `Bx.Manual.C113_last_run_above_kappa_max`
* `Bx.Manual.C113_out_of_range`
* `Bx.Manual.C113_values`
* `Bx.Manual.C50_every_combination_once_partial`
* `Bx.Manual.C50_first_combination`
* `Bx.Manual.C50_last_combination`
* `Bx.Manual.C50_least_value_is_recorded_partial`
* `Bx.Manual.C50_maximization_keeps_the_least`
* `Bx.Manual.C50_one_index_per_parameter`
* `Bx.Manual.C50_returns_the_last_combination`
* `Bx.Manual.C50_solution_is_lost`
* `Bx.Memory.C122_at_least_one_block`
* `Bx.Memory.C122_finish_repeats_the_size`
* `Bx.Memory.C122_one_reading`
* `Bx.Memory.C122_preprocess_with_strings_partial`
* `Bx.Memory.C122_size_is_close`
* `Bx.Memory.C122_sizes_keep_their_order`
* `Bx.Memory.C122_small_sizes_are_exact`
* `Bx.Memory.C122_without_strings_undefined`
* `Bx.Merge.C112_one_merged_constraint_a_side`
* `Bx.Merge.C124_a_repeated_side_moves`
* `Bx.Merge.C124_file_order_partial`
* `Bx.Merge.C124_memory_sorts_the_terms`
* `Bx.Merge.C124_order_of_the_file`
* `Bx.Merge.C124_order_of_the_types`
* `Bx.Merge.C124_special_is_not_sorted`
* `Bx.Merge.C124_special_order`
* `Bx.Merge.C124_three_names_for_one_order`
* `Bx.Merge.C12_classification`
* `Bx.Merge.C13_merge_preserves_solutions`
* `Bx.Merge.C14_merge_never_grows`
* `Bx.Merge.C14_no_constraint_lost`
* `Bx.Merge.C14_order_independent`
* `Bx.Merge.C15_conflict_means_infeasible`
* `Bx.Merge.C15_contradiction_not_reported`
* `Bx.Merge.C15_contradictions_reported_partial`
* `Bx.Merge.C16_infeasible_row_aborts`
* `Bx.Merge.C16_null_coefficient_aborts`
* `Bx.Merge.C16_solver_contract_partial`
* `Bx.Messages.C115_five_prints_the_worst`
* `Bx.Messages.C115_optimize_failed_partial`
* `Bx.Messages.C115_optimize_found_partial`
* `Bx.Messages.C115_preprocessor_named_without_it`
* `Bx.Messages.C115_solve_failure_is_not_told`
* `Bx.Messages.C115_solve_found_partial`
* `Bx.Messages.C115_updates_are_true`
* `Bx.Mult.C69_calculator_sort_is_any_order`
* `Bx.Mult.C69_calculator_sort_sorts`
* `Bx.Mult.C69_cheapest_row`
* `Bx.Mult.C69_oracle_is_the_code`
* `Bx.Mult.C69_update_returns`
* `Bx.Mult.C70_push_negative_coefficient`
* `Bx.Mult.C70_push_partial`
* `Bx.Mult.C70_push_reads_other_costs`
* `Bx.Mult.C71_multiplier_kept`
* `Bx.Mult.C71_multiplier_separates`
* `Bx.Mult.C72_extreme_row`
* `Bx.Mult.C72_extreme_rows_reinforce_partial`
* `Bx.Mult.C72_maximise`
* `Bx.Mult.C72_negative_coefficient`
* `Bx.Mult.C72_preferences_reinforce_partial`
* `Bx.NQueens.C111_success_places_the_queens_partial`
* `Bx.NQueens.C111_text_is_n_queens`
* `Bx.NQueens.C59_n_queens`
* `Bx.Num.C128_at_least_as_good_partial`
* `Bx.Num.C128_more_time_can_be_worse`
* `Bx.Num.C128_no_more_unsatisfied`
* `Bx.Num.C128_passes_in_time_are_shared`
* `Bx.Num.C128_same_solution`
* `Bx.Num.C128_success_is_kept`
* `Bx.Num.C130_larger_limits_are_not_worse`
* `Bx.Num.C130_larger_limits_leave_no_more`
* `Bx.Num.C131_at_least_as_good_partial`
* `Bx.Num.C131_larger_kappa_max_can_be_worse`
* `Bx.Num.C131_no_more_unsatisfied`
* `Bx.Num.C131_same_solution`
* `Bx.Num.C131_success_is_kept`
* `Bx.Num.C79_sign_change_loses_a_feasible_start`
* `Bx.Num.C81_push_weight_beyond_the_maximum`
* `Bx.Num.C81_weight_one`
* `Bx.Num.C81_weights_partial`
* `Bx.Num.C82_lost_step_never_ends`
* `Bx.Num.C82_main_loop_ends_exact_partial`
* `Bx.Num.C82_main_loop_ends_partial`
* `Bx.Num.C82_main_loop_ends_rounded_partial`
* `Bx.Num.C82_small_step_never_ends`
* `Bx.Num.C82_zero_step_never_ends`
* `Bx.Num.C83_cycle_repeats_the_first_row`
* `Bx.Num.C83_log_is_the_run`
* `Bx.Num.C83_order_is_followed_partial`
* `Bx.Num.C84_solve_returns_partial`
* `Bx.Observer.C97_colour_of_a_number`
* `Bx.Observer.C97_colour_tells_the_number`
* `Bx.Observer.C97_nan`
* `Bx.Observer.C98_cannot_open`
* `Bx.Observer.C98_image_partial`
* `Bx.Observer.C98_no_limit`
* `Bx.Observer.C98_one_constraint`
* `Bx.Observer.C98_other_multipliers_not_shown`
* `Bx.Observer.C99_file_undefined`
* `Bx.Observer.C99_images`
* `Bx.Observer.C99_large_images`
* `Bx.Observer.C99_tables_partial`
* `Bx.Optimizer.C100_number_of_another_vector`
* `Bx.Optimizer.C100_optimize_tells_the_least_partial`
* `Bx.Optimizer.C100_solve_never_tells`
* `Bx.Optimizer.C100_trivial_problem`
* `Bx.Optimizer.C100_workers_tell_the_least_partial`
* `Bx.Optimizer.C105_five_are_different_partial`
* `Bx.Optimizer.C105_initial_vectors_are_not_compared`
* `Bx.Optimizer.C105_no_entry_twice_partial`
* `Bx.Optimizer.C105_stored_without_a_pass`
* `Bx.Optimizer.C105_two_workers_store_it_twice`
* `Bx.Optimizer.C106_calls_in_order_partial`
* `Bx.Optimizer.C106_messages_are_true`
* `Bx.Optimizer.C106_no_finish_after_preprocessing`
* `Bx.Optimizer.C106_no_finish_without_constraint`
* `Bx.Optimizer.C106_progress_never_gets_worse`
* `Bx.Optimizer.C106_update_without_improvement`
* `Bx.Optimizer.C106_watching_changes_nothing`
* `Bx.Optimizer.C107_default_has_no_limit`
* `Bx.Optimizer.C107_ends_after_the_limit`
* `Bx.Optimizer.C107_no_limit_never_returns`
* `Bx.Optimizer.C107_not_before_the_limit`
* `Bx.Optimizer.C109_a_turn_starts_partial`
* `Bx.Optimizer.C109_documented_no_mutation_never_starts`
* `Bx.Optimizer.C109_draw_of_one_is_undefined`
* `Bx.Optimizer.C109_improve`
* `Bx.Optimizer.C109_insertion`
* `Bx.Optimizer.C109_is_a_start_of_the_optimizer`
* `Bx.Optimizer.C109_mean_one_is_undefined`
* `Bx.Optimizer.C109_no_deviation_never_returns`
* `Bx.Optimizer.C109_no_mutation`
* `Bx.Optimizer.C109_two_different_members`
* `Bx.Optimizer.C109_values_all_one`
* `Bx.Optimizer.C110_above_max`
* `Bx.Optimizer.C110_after_a_crossover`
* `Bx.Optimizer.C110_at_least_min`
* `Bx.Optimizer.C110_at_most_max_partial`
* `Bx.Optimizer.C110_bound_partial`
* `Bx.Optimizer.C110_first_crossover`
* `Bx.Optimizer.C110_first_turns`
* `Bx.Optimizer.C110_no_increase_never_crosses`
* `Bx.Optimizer.C112_optimize_counts_partial`
* `Bx.Optimizer.C112_optimize_forgets_the_variables`
* `Bx.Optimizer.C112_solve_counts`
* `Bx.Optimizer.C112_workers_counts_partial`
* `Bx.Optimizer.C134_no_more_unsatisfied_partial`
* `Bx.Optimizer.C134_not_worse_partial`
* `Bx.Optimizer.C134_passes_are_kept`
* `Bx.Optimizer.C45_best_is_kept`
* `Bx.Optimizer.C45_four_entries_lose_the_best`
* `Bx.Optimizer.C47_overwritten_success_is_infeasible`
* `Bx.Optimizer.C47_success_is_feasible_partial`
* `Bx.Optimizer.C47_success_solves_the_raw_problem_partial`
* `Bx.Optimizer.C47_workers_solve_the_raw_problem_partial`
* `Bx.Optimizer.C47_workers_success_is_feasible_partial`
* `Bx.Optimizer.C48_best_value_partial`
* `Bx.Optimizer.C48_bound_uses_an_infeasible_vector`
* `Bx.Optimizer.C48_five_uses_the_worst`
* `Bx.Optimizer.C48_one_thread_is_a_crew`
* `Bx.Optimizer.C48_one_worker_is_a_crew`
* `Bx.Optimizer.C48_reported_is_best_partial`
* `Bx.Optimizer.C48_workers_best_value_partial`
* `Bx.Optimizer.C48_workers_reported_is_best_partial`
* `Bx.Params.C43_invalid_values_are_ignored`
* `Bx.Params.C43_nan_improve_start_stored`
* `Bx.Params.C43_nan_time_limit_stored`
* `Bx.Params.C43_stored_in_range_partial`
* `Bx.Params.C43_valid_parameters_are_stored`
* `Bx.Params.C44_default_changes`
* `Bx.Params.C44_set_back_changes_w`
* `Bx.Params.C44_set_back_partial`
* `Bx.Parser.C36_aborts`
* `Bx.Parser.C36_loops`
* `Bx.Parser.C36_terminates_partial`
* `Bx.Parser.C36_undefined`
* `Bx.Parser.C37_parsed_ok`
* `Bx.Parser.C37_well_formed_raw`
* `Bx.Parser.C38_final_comment`
* `Bx.Parser.C38_keyword_case_partial`
* `Bx.Parser.C38_layout_partial`
* `Bx.Parser.C38_quadratic_layout`
* `Bx.Parser.C38_s_t_is_a_variable`
* `Bx.Parser.C38_words_partial`
* `Bx.Parser.C39_bounds_as_written_partial`
* `Bx.Parser.C39_decreasing_is_refused`
* `Bx.Parser.C39_decreasing_refused`
* `Bx.Parser.C39_equal_is_upper`
* `Bx.Parser.C39_every_line_as_read`
* `Bx.Parser.C39_fraction_truncated`
* `Bx.Parser.C39_greater_is_upper`
* `Bx.Parser.C39_lower_alone`
* `Bx.Parser.C39_name_alone`
* `Bx.Parser.C39_name_with_e`
* `Bx.Parser.C39_operators_do_not_matter`
* `Bx.Parser.C39_unknown_variable_partial`
* `Bx.Parser.C39_unreadable_partial`
* `Bx.Parser.C40_fractions`
* `Bx.Parser.C40_merge_partial`
* `Bx.Parser.C40_sums_partial`
* `Bx.Parser.C41_exact_partial`
* `Bx.Parser.C41_exponent`
* `Bx.Parser.C41_fixed_binary`
* `Bx.Parser.C41_lower_bound`
* `Bx.Parser.C41_name_with_e`
* `Bx.Parser.C41_no_terms`
* `Bx.Parser.C41_no_variables`
* `Bx.Parser.C41_quadratic`
* `Bx.Parser.C41_round_trip_partial`
* `Bx.Parser.C41_same_solutions_partial`
* `Bx.Parser.C41_unused`
* `Bx.Parser.C68_constant`
* `Bx.Parser.C68_read_as_written_partial`
* `Bx.Parser.C68_text_after_end`
* `Bx.Parser.C68_value`
* `Bx.Parser.C96_cube`
* `Bx.Parser.C96_linear_in_brackets`
* `Bx.Parser.C96_objective_value_partial`
* `Bx.Parser.C96_products_partial`
* `Bx.Population.C46_best_is_lost`
* `Bx.Population.C46_data_race`
* `Bx.Population.C46_safe_partial`
* `Bx.Population.C46_torn_entry_is_reported`
* `Bx.Preprocess.C04_kept_variables_are_used`
* `Bx.Preprocess.C04_variables_partitioned`
* `Bx.Preprocess.C05_completion_exists`
* `Bx.Preprocess.C05_reduced_solution_valid`
* `Bx.Preprocess.C06_completion_at_least_as_good`
* `Bx.Preprocess.C06_no_solution_lost`
* `Bx.Preprocess.C06_optimum_lost_for_quadratic_objective`
* `Bx.Preprocess.C06_optimum_preserved_partial`
* `Bx.Preprocess.C07_fails_for_quadratic_objective`
* `Bx.Preprocess.C07_objective_preserved_partial`
* `Bx.Preprocess.C08_infeasibility_hidden`
* `Bx.Preprocess.C08_infeasibility_partial`
* `Bx.Preprocess.C09_quadratic_undefined_behaviour`
* `Bx.Preprocess.C09_returns_on_feasible_partial`
* `Bx.Preprocess.C09_terminates`
* `Bx.Preprocess.C10_affect_complete_partial`
* `Bx.Preprocess.C10_affect_drops_single_element_constraint`
* `Bx.Preprocess.C10_affect_ends_partial`
* `Bx.Preprocess.C10_affect_sound_partial`
* `Bx.Preprocess.C10_preprocessed_is_well_formed`
* `Bx.Preprocess.C10_split_aborts_on_infeasible_half`
* `Bx.Preprocess.C10_split_covers_partial`
* `Bx.Preprocess.C10_split_returns_partial`
* `Bx.Preprocess.C123_file_is_the_reduced_problem_partial`
* `Bx.Preprocess.C123_nothing_left`
* `Bx.Preprocess.C123_overwrites`
* `Bx.Preprocess.C123_split_keeps_the_last`
* `Bx.Preprocess.C123_writing_changes_nothing`
* `Bx.Preprocess.C12_class_of_the_solved_problem`
* `Bx.Props.C01_is_valid_solution_exact`
* `Bx.Props.C01_no_variable_terminates`
* `Bx.Props.C02_compute_solution_exact`
* `Bx.Props.C03_order_independent`
* `Bx.Props.C114_compute_solution_partial`
* `Bx.Props.C114_order_is_lost`
* `Bx.Props.C114_reported_value_partial`
* `Bx.Props.C114_same_order`
* `Bx.Props.C114_value_partial`
* `Bx.Props.C114_values_are_close`
* `Bx.Props.C114_values_differ`
* `Bx.RInterface.C101_default_seed`
* `Bx.RInterface.C101_default_storage`
* `Bx.RInterface.C101_documented_codes`
* `Bx.RInterface.C101_invalid_arguments`
* `Bx.RInterface.C101_optimize_arguments`
* `Bx.RInterface.C101_solve_arguments`
* `Bx.RInterface.C102_counts_are_reduced`
* `Bx.RInterface.C102_default_value_is_not_reached`
* `Bx.RInterface.C102_list_tells_the_run_partial`
* `Bx.RInterface.C102_minimize_of_a_failure`
* `Bx.RInterface.C102_remaining_constraints`
* `Bx.RInterface.C102_unreadable_file`
* `Bx.RInterface.C102_value_of_a_solution_partial`
* `Bx.Races.C127_races_are_confined_partial`
* `Bx.Rand.C73_mixed_row_aborts`
* `Bx.Rand.C73_negative_bound_aborts`
* `Bx.Rand.C73_update_is_sound`
* `Bx.Rand.C73_update_returns_partial`
* `Bx.Rand.C74_costly_variables_are_set`
* `Bx.Rand.C74_no_improving_variable_is_set`
* `Bx.Rand.C74_preferences_follow_the_values`
* `Bx.Rename.C137_file`
* `Bx.Rename.C137_optimize`
* `Bx.Rename.C137_preprocess`
* `Bx.Rename.C137_solve`
* `Bx.Rename.C137_value`
* `Bx.Rename.C137_workers`
* `Bx.Reorder.C141_class`
* `Bx.Reorder.C141_default_order_changes_the_search`
* `Bx.Reorder.C141_file_partial`
* `Bx.Reorder.C141_file_solve_partial`
* `Bx.Reorder.C141_linear_optimize`
* `Bx.Reorder.C141_linear_preprocess`
* `Bx.Reorder.C141_linear_solve`
* `Bx.Reorder.C141_linear_workers`
* `Bx.Reorder.C141_merge_partial`
* `Bx.Reorder.C141_objective_optimize_partial`
* `Bx.Reorder.C141_objective_rounded_costs`
* `Bx.Reorder.C141_objective_search_integer_partial`
* `Bx.Reorder.C141_objective_search_partial`
* `Bx.Reorder.C141_objective_solve_partial`
* `Bx.Reorder.C141_objective_value_partial`
* `Bx.Reorder.C141_objective_workers_partial`
* `Bx.Reorder.C141_optimize_partial`
* `Bx.Reorder.C141_order_hides_a_conflict`
* `Bx.Reorder.C141_other_variables_are_renumbered`
* `Bx.Reorder.C141_products_order_changes_the_preprocessing`
* `Bx.Reorder.C141_repeated_terms_change_the_preprocessing`
* `Bx.Reorder.C141_rounding_changes_the_value`
* `Bx.Reorder.C141_solve_partial`
* `Bx.Reorder.C141_value`
* `Bx.Reorder.C141_workers_partial`
* `Bx.ResultFile.C42_backslash_in_name`
* `Bx.ResultFile.C42_blank_line`
* `Bx.ResultFile.C42_check`
* `Bx.ResultFile.C42_equal_in_name`
* `Bx.ResultFile.C42_failure_read_as_success`
* `Bx.ResultFile.C42_no_number`
* `Bx.ResultFile.C42_round_trip`
* `Bx.ResultFile.C90_file_is_read`
* `Bx.ResultFile.C90_line_without_value_is_refused`
* `Bx.ResultFile.C90_value_without_number_is_refused`
* `Bx.Rounded.C114_without_rounding`
* `Bx.Rounded.C54_rounded_between`
* `Bx.Rounded.C54_rounded_compute_solution`
* `Bx.Rounded.C54_without_rounding`
* `Bx.Rounded.C56_rounded_costs_partial`
* `Bx.Rounded.C56_rounding_makes_ties`
* `Bx.Rounded.C56_without_rounding`
* `Bx.Rounded.C57_rounded_cost_exact_partial`
* `Bx.Rounded.C57_rounded_cost_is_wrong`
* `Bx.Rounded.C57_rounded_cost_partial`
* `Bx.Rounded.C57_rounded_linear_cost_partial`
* `Bx.Rounded.C57_without_rounding`
* `Bx.Rounded.C67_rounded_norm_stops`
* `Bx.Rounded.C67_rounded_random_norm_partial`
* `Bx.Rounded.C67_without_rounding`
* `Bx.Rounded.C97_colour_tells_the_number_rounded`
* `Bx.Rounded.C97_without_rounding`
* `Bx.RoundedRows.C117_cheapest_as_computed`
* `Bx.RoundedRows.C117_cheapest_on_a_grid`
* `Bx.RoundedRows.C117_dearer_row`
* `Bx.RoundedRows.C117_nearly_cheapest`
* `Bx.RoundedRows.C117_nearly_cheapest_binary`
* `Bx.RoundedRows.C117_update_returns`
* `Bx.RoundedRows.C117_update_without_rounding`
* `Bx.RoundedRows.C117_without_rounding`
* `Bx.RoundedRows.C118_multiplier_kept`
* `Bx.RoundedRows.C118_nearly_separates_partial`
* `Bx.RoundedRows.C118_preferences_reinforce_partial`
* `Bx.RoundedRows.C118_separation_lost`
* `Bx.RoundedRun.C120_best_of_the_run`
* `Bx.RoundedRun.C120_last_row_holds`
* `Bx.RoundedRun.C120_rounding_changes_the_answer`
* `Bx.RoundedRun.C120_rows_of_the_run`
* `Bx.RoundedRun.C120_solve_returns_partial`
* `Bx.RoundedRun.C70_push_rounded_partial`
* `Bx.RoundedZ.C121_best_of_the_run`
* `Bx.RoundedZ.C121_dearer_row`
* `Bx.RoundedZ.C121_long_row_as_computed_partial`
* `Bx.RoundedZ.C121_long_row_nearly_cheapest_partial`
* `Bx.RoundedZ.C121_respects_and_keeps`
* `Bx.RoundedZ.C121_rows_of_the_run`
* `Bx.RoundedZ.C121_short_row_as_computed`
* `Bx.RoundedZ.C121_short_row_nearly_cheapest_partial`
* `Bx.RoundedZ.C121_short_row_on_a_grid_partial`
* `Bx.RoundedZ.C121_solve_returns_partial`
* `Bx.RoundedZ.C121_update_returns`
* `Bx.RoundedZ.C121_variable_at_zero_partial`
* `Bx.RoundedZ.C121_without_rounding`
* `Bx.Scaling.C135_computed_delta_partial`
* `Bx.Scaling.C135_fixed_delta_changes_the_search`
* `Bx.Scaling.C135_norm_l2_changes_the_search`
* `Bx.Scaling.C135_same_search_integer_partial`
* `Bx.Scaling.C135_same_search_partial`
* `Bx.Scaling.C135_scaled_delta_partial`
* `Bx.Scaling.C136_delta_changes_the_search`
* `Bx.Scaling.C136_lagrangian_order_changes_the_search`
* `Bx.Scaling.C136_norm_loo_changes_the_search`
* `Bx.Scaling.C136_same_search_partial`
* `Bx.Seed.C132_different_seeds_partial`
* `Bx.Seed.C132_numbers_of_a_run`
* `Bx.Seed.C132_one_sequence`
* `Bx.Seed.C132_seeds_that_agree`
* `Bx.Seed.C132_when_seeds_agree`
* `Bx.Sparse.C17_matrix_is_exact`
* `Bx.Stored.C133_columns_are_the_constraints`
* `Bx.Stored.C133_rows_are_the_constraints`
* `Bx.Stored.C133_violated_constraints`
* `Bx.Subvector.C35_calls_succeed`
* `Bx.Subvector.C35_live_blocks_are_disjoint`
* `Bx.Twice.C138_merge`
* `Bx.Twice.C138_optimize`
* `Bx.Twice.C138_other_order_counts_twice`
* `Bx.Twice.C138_preprocess`
* `Bx.Twice.C138_solve`
* `Bx.Twice.C138_value`
* `Bx.Twice.C138_workers`
* `Bx.Utils.C52_numeric_cast_exact`
* `Bx.Utils.C53_right_trim`
* `Bx.Utils.C53_trim`
* `Bx.Utils.C53_trim_idempotent`
* `Bx.Utils.C53_trim_longest`
* `Bx.Utils.C54_linear_bounds_reached`
* `Bx.Utils.C54_objective_between`
* `Bx.Utils.C55_views_stay_valid_partial`
* `Bx.ZNum.C84_integer_solve_returns_partial`
* `Bx.ZNum.C91_absolute_values`
* `Bx.ZNum.C91_long_row_not_optimal`
* `Bx.ZNum.C91_long_row_partial`
* `Bx.ZNum.C91_negative_coefficient`
* `Bx.ZNum.C91_one_sided_row_not_optimal`
* `Bx.ZNum.C91_short_row_partial`
* `Bx.ZNum.C91_update_returns`
* `Bx.ZNum.C92_maximise`
* `Bx.ZNum.C92_multiplier_does_not_separate`
* `Bx.ZNum.C92_multiplier_is_a_mean_partial`
* `Bx.ZNum.C92_multiplier_of_a_full_row`
* `Bx.ZNum.C92_preferences_reinforce_partial`
* `Bx.ZNum.C92_rest_is_kept`
* `Bx.ZNum.C92_variable_at_one_pushed_away`
* `Bx.ZSolver.C64_integer_update_partial`
* `Bx.ZSolver.C64_linear_row_aborts`
* `Bx.ZSolver.C64_one_sided_row_aborts`
* `Bx.ZSolver.C64_prefix_update_partial`
* `Bx.ZSolver.C64_reads_past_the_end`
* `Bx.ZSolver.C64_returned_row_is_satisfied`

## Quot.sound, propext

* `Bx.Benchmark.C85_next_run_reads_it_partial`
* `Bx.BitArray.C20_equal_arrays_agree`
* `Bx.BitArray.C20_ones_breaks_equality`
* `Bx.BitArray.C21_assign_copies_the_wrong_bits`
* `Bx.C33_one_element_aborts`
* `Bx.Compare.C58_element_less`
* `Bx.Compare.C58_nan_is_not_ordered`
* `Bx.Costs.C51_distinct_draws_partial`
* `Bx.Costs.C51_last_seed_partial`
* `Bx.Equal.C103_equivalence`
* `Bx.Equal.C103_what_is_compared`
* `Bx.Log.C116_verbosity_is_clamped`
* `Bx.Looser.C140_check`
* `Bx.Optimizer.C109_numbers_of_the_parameters`
* `Bx.Optimizer.C22_crossover_of_the_population`
* `Bx.Optimizer.C48_reported_entries`
* `Bx.Optimizer.C48_worker_count`
* `Bx.Races.C127_a_crossover_writes_what_another_reads`
* `Bx.Races.C127_calls_read_during_a_run`
* `Bx.Races.C127_indices_read_during_a_sort`
* `Bx.Races.C127_one_worker_without_update`
* `Bx.Races.C127_two_crossovers_write_the_random_vector`
* `Bx.Races.C127_two_workers_write_one_solution`
* `Bx.Rename.C137_check`
* `Bx.Rename.C137_equal_names_break_the_check`
* `Bx.Reorder.C141_check`
* `Bx.ResultFile.C42_no_file`
* `Bx.Sparse.C17_empty_matrix_is_undefined`
* `Bx.Twice.C138_check`
* `Bx.Utils.C53_left_trim`
* `Bx.Utils.C55_long_string_overflows`
* `Bx.Utils.C60_cells`
* `Bx.Utils.C60_copy_partial`
* `Bx.Utils.C60_new_array`

## none

* `Bx.NQueens.C59_small_sizes`
* `Bx.Preprocess.C11_unpreprocess_identity`
* `Bx.Seed.C132_workers_may_agree`
* `Bx.Utils.C60_copy_overflows`

## propext

* `Bx.BitArray.C20_ne_is_not_eq`
* `Bx.Checked.C108_row_overflows`
* `Bx.Compare.C58_better_value`
* `Bx.Compare.C58_storage_order`
* `Bx.CoreOut.C104_not_in_the_message`
* `Bx.Costs.C51_equal_seeds`
* `Bx.Costs.C51_redrawn_seed_not_compared`
* `Bx.Dispatch.C76_failed_search_is_manual_partial`
* `Bx.Dispatch.C76_nlopt_reads_out_of_bounds`
* `Bx.Itm.C25_read_past_the_buffer`
* `Bx.Log.C116_build_without_log`
* `Bx.Log.C116_tuners_are_silent`
* `Bx.Memory.C122_size_counts_every_part`
* `Bx.Memory.C122_size_counts_the_affected`
* `Bx.Props.C01_no_solution`
* `Bx.Seed.C132_same_seed_same_numbers`
* `Bx.ZSolver.C64_one_variable_row_aborts`
