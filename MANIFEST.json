{"claims": [
{"property": "C01", "status": "proved", "theorems": ["Bx.Props.C01_is_valid_solution_exact", "Bx.Props.C01_no_solution", "Bx.Props.C01_no_variable_terminates"], "note": "is_valid_solution is exact on well formed problems and results naming each variable once; the no-solution case and the abort on an empty result are separate theorems."},
{"property": "C02", "status": "proved", "theorems": ["Bx.Props.C02_compute_solution_exact"], "note": "compute_solution is exact under the same hypotheses."},
{"property": "C03", "status": "proved", "theorems": ["Bx.Props.C03_order_independent"], "note": "The answer depends on the (name, value) pairs only, not on their order."},
{"property": "C04", "status": "proved", "theorems": ["Bx.Preprocess.C04_variables_partitioned", "Bx.Preprocess.C04_kept_variables_are_used"], "note": "Any well formed raw problem for which preprocess returns, any objective."},
{"property": "C05", "status": "proved", "theorems": ["Bx.Preprocess.C05_reduced_solution_valid", "Bx.Preprocess.C05_completion_exists"], "note": "Any objective; the raw problem must have a solution (see C08 for why)."},
{"property": "C06", "status": "partial", "theorems": ["Bx.Preprocess.C06_no_solution_lost", "Bx.Preprocess.C06_completion_at_least_as_good", "Bx.Preprocess.C06_optimum_preserved_partial", "Bx.Preprocess.C06_optimum_lost_for_quadratic_objective"], "note": "Every solution survives for any objective. The optimum is preserved for linear objectives; it is lost for quadratic ones (C06_optimum_lost_for_quadratic_objective)."},
{"property": "C07", "status": "partial", "theorems": ["Bx.Preprocess.C07_objective_preserved_partial", "Bx.Preprocess.C07_fails_for_quadratic_objective"], "note": "Holds for linear objectives; false for quadratic ones (C07_fails_for_quadratic_objective)."},
{"property": "C08", "status": "partial", "theorems": ["Bx.Preprocess.C08_infeasibility_partial", "Bx.Preprocess.C08_infeasibility_hidden"], "note": "Abort or infeasible reduced problem implies raw infeasible. The converse is false of the code (C08_infeasibility_hidden)."},
{"property": "C09", "status": "partial", "theorems": ["Bx.Preprocess.C09_returns_on_feasible_partial", "Bx.Preprocess.C09_terminates", "Bx.Preprocess.C09_quadratic_undefined_behaviour"], "note": "Termination for every well formed problem; no abort for feasible problems with a linear objective. With quadratic terms there is undefined behaviour (C09_quadratic_undefined_behaviour)."},
{"property": "C10", "status": "partial", "theorems": ["Bx.Preprocess.C10_affect_sound_partial", "Bx.Preprocess.C10_affect_complete_partial", "Bx.Preprocess.C10_split_covers_partial", "Bx.Preprocess.C10_affect_ends_partial", "Bx.Preprocess.C10_split_returns_partial", "Bx.Preprocess.C10_preprocessed_is_well_formed", "Bx.Preprocess.C10_affect_drops_single_element_constraint", "Bx.Preprocess.C10_split_aborts_on_infeasible_half"], "note": "Exact when no constraint has one element, which preprocess guarantees. Two refutations of the unrestricted claim. `affect` returns, or aborts only when no solution has the value (C10_affect_ends_partial); split returns when both values have a solution (C10_split_returns_partial)."},
{"property": "C11", "status": "proved", "theorems": ["Bx.Preprocess.C11_unpreprocess_identity"], "note": "Field by field identity."},
{"property": "C12", "status": "proved", "theorems": ["Bx.Merge.C12_classification", "Bx.Preprocess.C12_class_of_the_solved_problem"], "note": "Exact characterisation for all problems; a null coefficient counts as a 0/1 one."},
{"property": "C13", "status": "proved", "theorems": ["Bx.Merge.C13_merge_preserves_solutions"], "note": "Every order option, every implementation of the sorts, int sums."},
{"property": "C14", "status": "proved", "theorems": ["Bx.Merge.C14_merge_never_grows", "Bx.Merge.C14_no_constraint_lost", "Bx.Merge.C14_order_independent"], "note": "Length bound, elements come from a constraint, and order independence of the solutions."},
{"property": "C15", "status": "partial", "theorems": ["Bx.Merge.C15_conflict_means_infeasible", "Bx.Merge.C15_contradictions_reported_partial", "Bx.Merge.C15_contradiction_not_reported"], "note": "Exception implies infeasible, and no other failure. The converse holds for equalities; it is false for two inequalities (C15_contradiction_not_reported)."},
{"property": "C16", "status": "partial", "theorems": ["Bx.Merge.C16_solver_contract_partial", "Bx.Merge.C16_null_coefficient_aborts", "Bx.Merge.C16_infeasible_row_aborts"], "note": "Feasible problems without null coefficients. Two refutations of the unrestricted claim."},
{"property": "C17", "status": "proved", "theorems": ["Bx.Sparse.C17_matrix_is_exact", "Bx.Sparse.C17_empty_matrix_is_undefined"], "note": "Rows, columns, and uniqueness of slots; the empty matrix is undefined behaviour (separate theorem)."},
{"property": "C18", "status": "proved", "theorems": ["Bx.BitArray.C18_refines_plain_array", "Bx.BitArray.C18_out_of_range_aborts"], "note": "Every size, every history; out-of-range calls abort."},
{"property": "C19", "status": "partial", "theorems": ["Bx.BitArray.C19_set_value_partial", "Bx.BitArray.C19_set_true_clears"], "note": "Exact for v = false or index multiple of 64. Refuted for every other index (C19_set_true_clears)."},
{"property": "C20", "status": "partial", "theorems": ["Bx.BitArray.C20_equal_arrays_agree", "Bx.BitArray.C20_ne_is_not_eq", "Bx.BitArray.C20_agreeing_arrays_equal_partial", "Bx.BitArray.C20_ones_breaks_equality"], "note": "Equal implies agreeing; the converse for histories without ones(). Refuted with ones()."},
{"property": "C21", "status": "partial", "theorems": ["Bx.BitArray.C21_assign_aligned_partial", "Bx.BitArray.C21_assign_copies_the_wrong_bits"], "note": "Ranges aligned on 64 bits. Refuted in general."},
{"property": "C22", "status": "proved", "theorems": ["Bx.BitArray.C22_child_mixes_parents", "Bx.Optimizer.C22_crossover_of_the_population"], "note": "All parents, all random words. The crossovers of the population too (C22_crossover_of_the_population)."},
{"property": "C23", "status": "proved", "theorems": ["Bx.Itm.C23_equality_update", "Bx.Itm.C23_unsatisfiable_row_aborts"], "note": "All rows, orders of the reduced costs and assignments; the unsatisfiable case is characterised too."},
{"property": "C24", "status": "partial", "theorems": ["Bx.Itm.C24_inequality_update_partial", "Bx.Itm.C24_one_more_cell"], "note": "Holds except when the selection reads one cell past the buffer, which only happens for a longest constraint."},
{"property": "C25", "status": "partial", "theorems": ["Bx.Itm.C25_reads_in_bounds_partial", "Bx.Itm.C25_read_past_the_buffer"], "note": "Equality solvers and rows shorter than the longest one. Refuted for the longest row of the inequality solvers."},
{"property": "C26", "status": "proved", "theorems": ["Bx.Itm.C26_frame"], "note": "All four 0/1 and -1/0/1 solvers, every assignment."},
{"property": "C27", "status": "proved", "theorems": ["Bx.Itm.C27_count_is_exact"], "note": "All solvers, all assignments."},
{"property": "C28", "status": "proved", "theorems": ["Bx.Itm.C28_success_is_feasible"], "note": "Every row update, random stream, clock and kappa; problems with a variable, a constraint and int sums. The solver Z is included."},
{"property": "C29", "status": "proved", "theorems": ["Bx.Itm.C29_best_of_the_run"], "note": "Stated on the list of the vectors at the end of every pass; exact arithmetic."},
{"property": "C30", "status": "proved", "theorems": ["Bx.Itm.C30_passes_are_bounded"], "note": "Every run."},
{"property": "C31", "status": "partial", "theorems": ["Bx.Itm.C31_status_partial", "Bx.Itm.C31_status_hides_the_reason"], "note": "Refuted: a run stopped by the clock or kappa reports the loop limit. The part that holds: success exactly when a solution was found, otherwise limit_reached."},
{"property": "C32", "status": "partial", "theorems": ["Bx.Itm.C32_success_solves_the_raw_problem", "Bx.Itm.C32_without_preprocessing_partial", "Bx.Itm.C32_unconstrained_aborts", "Bx.Itm.C32_quadratic_value_differs", "Bx.Itm.C32_infeasible_reported_solved"], "note": "Proved with preprocessing, for linear and quadratic objectives; the agreement of the reported value is for linear objectives, as in the claim, and fails for quadratic ones (C32_quadratic_value_differs). Without preprocessing, proved for problems with a constraint. Refuted without preprocessing for problems with no constraint; a witness shows why feasibility is assumed."},
{"property": "C33", "status": "proved", "theorems": ["Bx.C33_exhaustive_optimal", "Bx.C33_exhaustive_as_computed", "Bx.C33_prepared_iff_satisfiable", "Bx.C33_one_element_aborts"], "note": "All rows with at least two elements, all bounds and reduced costs; reduced costs are rational numbers. With rounded sums, the best as computed: C33_exhaustive_as_computed. Stored selections may be repeated. A row with one element misses the empty selection: C33_one_element_aborts."},
{"property": "C34", "status": "partial", "theorems": ["Bx.C34_branch_and_bound_partial", "Bx.C34_as_computed_partial", "Bx.C34_not_optimal", "Bx.C34_negative_factors_not_optimal"], "note": "Termination and feasibility for every satisfiable row; optimality for positive factors among the selections that use another item than the first. The full optimality claim is false of the code: C34_not_optimal, C34_negative_factors_not_optimal. With rounded sums: C34_as_computed_partial."},
{"property": "C35", "status": "proved", "theorems": ["Bx.Subvector.C35_live_blocks_are_disjoint", "Bx.Subvector.C35_calls_succeed"], "note": "Bytes of the vector and the free list inside the free blocks are modelled; the vector stays under 2^32 bytes. Alignment of the 32-bit accesses is not modelled."},
{"property": "C36", "status": "partial", "theorems": ["Bx.Parser.C36_terminates_partial", "Bx.Parser.C36_aborts", "Bx.Parser.C36_undefined", "Bx.Parser.C36_loops"], "note": "Reading ends for every readable text whose last token is the word end. For other texts the property is false: refutations with a text that ends the process, a text with undefined behaviour and a text on which the reader loops for ever."},
{"property": "C37", "status": "proved", "theorems": ["Bx.Parser.C37_parsed_ok", "Bx.Parser.C37_well_formed_raw"], "note": "Every text that the reader accepts, with every scan of numbers: names, values, indices, elements and identifiers."},
{"property": "C38", "status": "partial", "theorems": ["Bx.Parser.C38_layout_partial", "Bx.Parser.C38_words_partial", "Bx.Parser.C38_keyword_case_partial", "Bx.Parser.C38_final_comment", "Bx.Parser.C38_quadratic_layout", "Bx.Parser.C38_s_t_is_a_variable"], "note": "Two readable texts with the same words, or with the same tokens up to the case of the keywords, give the same result when they have no square bracket or keep their words in the window of the reader (`Compact`). False for a comment on the last line and for quadratic terms that are spread out: refutations."},
{"property": "C39", "status": "partial", "theorems": ["Bx.Parser.C39_every_line_as_read", "Bx.Parser.C39_operators_do_not_matter", "Bx.Parser.C39_decreasing_is_refused", "Bx.Parser.C39_bounds_as_written_partial", "Bx.Parser.C39_unreadable_partial", "Bx.Parser.C39_unknown_variable_partial", "Bx.Parser.C39_greater_is_upper", "Bx.Parser.C39_equal_is_upper", "Bx.Parser.C39_decreasing_refused", "Bx.Parser.C39_lower_alone", "Bx.Parser.C39_name_with_e", "Bx.Parser.C39_name_alone", "Bx.Parser.C39_fraction_truncated"], "note": "`x <= b` and `a <= x <= b` give the bounds of each variable as written in any correct file; a line that begins with neither a name nor a number, or about an unknown variable, is an error. False for `x >= a`, `x = v`, `a <= x` alone, decreasing chains, names that begin with e, fractions: refutations. A variable alone on its line loses its bounds (C39_name_alone). What every line does, for all numbers and any operators: the last line about a variable decides (C39_every_line_as_read), the operators are not looked at (C39_operators_do_not_matter), and decreasing numbers are refused (C39_decreasing_is_refused)."},
{"property": "C40", "status": "partial", "theorems": ["Bx.Parser.C40_sums_partial", "Bx.Parser.C40_merge_partial", "Bx.Parser.C40_fractions"], "note": "In any correct file each variable has one element with the sum of its factors, and grouping terms does not change the result. False for non-integer coefficients in constraints (refutation); the quadratic terms are in C96."},
{"property": "C41", "status": "partial", "theorems": ["Bx.Parser.C41_same_solutions_partial", "Bx.Parser.C41_round_trip_partial", "Bx.Parser.C41_exact_partial", "Bx.Parser.C41_lower_bound", "Bx.Parser.C41_fixed_binary", "Bx.Parser.C41_unused", "Bx.Parser.C41_quadratic", "Bx.Parser.C41_name_with_e", "Bx.Parser.C41_exponent", "Bx.Parser.C41_no_terms", "Bx.Parser.C41_no_variables"], "note": "Any well formed problem without quadratic terms, with readable names, used variables, lower bounds 0 and numbers printed without an exponent sign is written as a text that is read as the same problem up to numbering, and exactly when it is numbered in the order of the text. What is read has the same solutions with the same values by name (C41_same_solutions_partial). False for lower bounds, fixed binaries, unused variables, quadratic terms, names that begin with e, exponents, empty constraints or no variables: refutations."},
{"property": "C42", "status": "proved", "theorems": ["Bx.ResultFile.C42_round_trip", "Bx.ResultFile.C42_check", "Bx.ResultFile.C42_failure_read_as_success", "Bx.ResultFile.C42_no_file", "Bx.ResultFile.C42_equal_in_name", "Bx.ResultFile.C42_backslash_in_name", "Bx.ResultFile.C42_no_number", "Bx.ResultFile.C42_blank_line"], "note": "The text written for any successful result with a solution and a value for each name is read, and gives a successful result with the same assignment of affected and solved variables (C42_round_trip). For any problem, the validity check and the objective value of the result that is read equal those of the written one (C42_check). Names are readable: no newline, no '=', no leading backslash, at most 1 MiB. The texts of the comments are arbitrary one-line texts. Observations: a failed result and a missing file are read as a success without variables; names with '=' or a leading backslash are misread; an empty value is read as 0; a blank line is refused."},
{"property": "C43", "status": "partial", "theorems": ["Bx.Params.C43_stored_in_range_partial", "Bx.Params.C43_nan_time_limit_stored", "Bx.Params.C43_nan_improve_start_stored", "Bx.Params.C43_valid_parameters_are_stored", "Bx.Params.C43_invalid_values_are_ignored"], "note": "Every sequence of calls whose values stored without a test are not NaN; values in range are stored as given, values out of range are ignored or brought into range. False for NaN: two refutations."},
{"property": "C44", "status": "partial", "theorems": ["Bx.Params.C44_set_back_partial", "Bx.Params.C44_set_back_changes_w", "Bx.Params.C44_default_changes"], "note": "Every reachable context: setting back changes at most w, and nothing when w is 0 or between 1 and the limit. False for the other values of w: two refutations."},
{"property": "C45", "status": "proved", "theorems": ["Bx.Optimizer.C45_best_is_kept", "Bx.Optimizer.C45_four_entries_lose_the_best"], "note": "Model: storage, insert, can_be_inserted, crossover and sort of itm-optimizer-common.hpp. C45_best_is_kept: from any population of at least five vectors (context_set_solver_parameters refuses fewer), after any sequence of try_update, try_advance and crossover calls made one at a time, no call fails, the ranking is sorted and has each entry once, and the front is at least as good as the initial vectors and as everything offered; if no crossover overwrites an entry, every entry is an initial or offered one. C45_four_entries_lose_the_best shows that the bound of five is needed."},
{"property": "C46", "status": "partial", "theorems": ["Bx.Population.C46_safe_partial", "Bx.Population.C46_best_is_lost", "Bx.Population.C46_data_race", "Bx.Population.C46_torn_entry_is_reported"], "note": "False as stated: insert reads m_indices without lock and replace_result writes under the shared lock. C46_best_is_lost (two workers delete the same entry, the best solution is lost), C46_data_race, C46_torn_entry_is_reported (an entry with the vector of one offer and remaining_constraints = 0 of another is reported as a success). Proved for every schedule and any number of workers (C46_safe_partial): no access outside the population, the indices stay a permutation, sort excludes the writers, the ranking is sorted when no call is in progress, each field of each entry was offered."},
{"property": "C47", "status": "partial", "theorems": ["Bx.Optimizer.C47_success_is_feasible_partial", "Bx.Optimizer.C47_success_solves_the_raw_problem_partial", "Bx.Optimizer.C47_overwritten_success_is_infeasible", "Bx.Optimizer.C47_workers_success_is_feasible_partial", "Bx.Optimizer.C47_workers_solve_the_raw_problem_partial"], "note": "False as stated: crossover overwrites the vector of an entry without changing its value and its number of remaining constraints (C47_overwritten_success_is_infeasible, with the default init_crossover_bastert_insertion of 0.01). Proved for any number of workers, every order of their steps, the storage one and no overwriting (init_crossover_bastert_insertion = 0): the solution satisfies every constraint of the problem given to the solver and, through the preprocessor, of the raw problem. The test of can_be_inserted and the insertion are two steps; an insertion is one. Missing: overlapping insertions, for which it is false because the entries can be torn (C46_torn_entry_is_reported)."},
{"property": "C48", "status": "partial", "theorems": ["Bx.Optimizer.C48_best_value_partial", "Bx.Optimizer.C48_reported_is_best_partial", "Bx.Optimizer.C48_bound_uses_an_infeasible_vector", "Bx.Optimizer.C48_reported_entries", "Bx.Optimizer.C48_five_uses_the_worst", "Bx.Optimizer.C48_workers_best_value_partial", "Bx.Optimizer.C48_workers_reported_is_best_partial", "Bx.Optimizer.C48_worker_count", "Bx.Optimizer.C48_one_worker_is_a_crew", "Bx.Optimizer.C48_one_thread_is_a_crew"], "note": "False as stated for the storages bound and five: back(), used by is_valid_solution, compute_solution and the writer, is not the best (C48_bound_uses_an_infeasible_vector, C48_five_uses_the_worst). Proved for any number of workers and every order of their steps: optimize succeeds exactly when a vector of the run respects every constraint; the value of the first solution is the best of the run; with the storage one and no overwriting the only solution is the best vector. C48_one_worker_is_a_crew: the sequential model is a crew of one, and so is the whole of optimize with thread at 1 (C48_one_thread_is_a_crew). Missing: overlapping insertions, for which it is false (C46_best_is_lost, C46_torn_entry_is_reported). What each storage reports of a population is exact (C48_reported_entries)."},
{"property": "C49", "status": "partial", "theorems": ["Bx.Branch.C49_never_returns", "Bx.Branch.C49_ends_with_an_error_partial", "Bx.Branch.C49_turn_explores_both_values"], "note": "False as stated for every problem and every behaviour of the inner optimizer (C49_never_returns): each turn adds two jobs and removes one. Proved: the run ends after at most 3^n turns by an abort, an exception or a read outside a vector. A turn splits the best open problem, opens its two halves and keeps the best result (C49_turn_explores_both_values)."},
{"property": "C50", "status": "partial", "theorems": ["Bx.Manual.C50_every_combination_once_partial", "Bx.Manual.C50_returns_the_last_combination", "Bx.Manual.C50_last_combination", "Bx.Manual.C50_solution_is_lost", "Bx.Manual.C50_least_value_is_recorded_partial", "Bx.Manual.C50_one_index_per_parameter", "Bx.Manual.C50_first_combination", "Bx.Manual.C50_maximization_keeps_the_least", "Bx.Dispatch.C50_manual_mode_partial", "Bx.Dispatch.C50_one_call_per_combination"], "note": "Proved: the loop tries each of the 5^5 combinations exactly once and stops. False: the result is that of one more call with the last combination (C50_returns_the_last_combination, C50_solution_is_lost). The least value found and its parameters are recorded (C50_least_value_is_recorded_partial), whatever the direction (C50_maximization_keeps_the_least)."},
{"property": "C51", "status": "partial", "theorems": ["Bx.Costs.C51_last_seed_partial", "Bx.Costs.C51_distinct_draws_partial", "Bx.Costs.C51_equal_seeds", "Bx.Costs.C51_redrawn_seed_not_compared"], "note": "Refuted: the first seed is never compared, and a seed drawn again is not compared with those before it. Proved: the last seed differs from the others except the first, and distinct draws give distinct seeds."},
{"property": "C52", "status": "proved", "theorems": ["Bx.Utils.C52_numeric_cast_exact"], "note": "For every pair of integer types in two's complement, of any width."},
{"property": "C53", "status": "proved", "theorems": ["Bx.Utils.C53_left_trim", "Bx.Utils.C53_right_trim", "Bx.Utils.C53_trim", "Bx.Utils.C53_trim_longest", "Bx.Utils.C53_trim_idempotent"], "note": "The three functions, maximality of the trimmed part and idempotence."},
{"property": "C54", "status": "proved", "theorems": ["Bx.Rounded.C54_rounded_between", "Bx.Rounded.C54_rounded_compute_solution", "Bx.Rounded.C54_without_rounding", "Bx.Utils.C54_objective_between", "Bx.Utils.C54_linear_bounds_reached"], "note": "Exact numbers, and floating point with any rounding that keeps the order: the value of the search and that of compute_solution lie between the computed bounds without any margin (C54_rounded_between, C54_rounded_compute_solution). The bounds are reached for linear objectives that name each variable once."},
{"property": "C55", "status": "partial", "theorems": ["Bx.Utils.C55_views_stay_valid_partial", "Bx.Utils.C55_long_string_overflows"], "note": "Proved for strings of at most 1048576 characters. Refuted for longer ones: the copy writes past the node."},
{"property": "C56", "status": "partial", "theorems": ["Bx.Costs.C56_normalised_costs_partial", "Bx.Costs.C56_infinity_norm_reverses", "Bx.Costs.C56_infinity_norm_empty", "Bx.Rounded.C56_without_rounding", "Bx.Rounded.C56_rounded_costs_partial", "Bx.Rounded.C56_rounding_makes_ties"], "note": "Refuted for the infinity norm of negative costs (the order is reversed) and of no cost (undefined behaviour). Proved for the other norms and for the infinity norm with a cost that is not negative. In floating point (C56_rounded_costs_partial, for every rounding that keeps the order) the order is kept weakly; costs that differ can become equal (C56_rounding_makes_ties). When the rounding does nothing the rounded norms are the exact ones (C56_without_rounding)."},
{"property": "C57", "status": "partial", "theorems": ["Bx.Costs.C57_linear_cost_is_marginal", "Bx.Costs.C57_quadratic_cost_is_marginal_partial", "Bx.Costs.C57_quadratic_index_all_ones", "Bx.Costs.C57_square_is_missed", "Bx.Rounded.C57_without_rounding", "Bx.Rounded.C57_rounded_cost_partial", "Bx.Rounded.C57_rounded_cost_exact_partial", "Bx.Rounded.C57_rounded_linear_cost_partial", "Bx.Rounded.C57_rounded_cost_is_wrong"], "note": "Proved for linear objectives and for quadratic ones without a square of a variable at 0. Refuted for squares: the cost of x0 in x0^2 is 0 when x0 is 0. In floating point: within one unit of rounding per term and one for the conversions, exact on a grid of powers of two; equality refuted (16777217 x0 - 16777216 x0 costs 0 in float). When the rounding does nothing the rounded costs are the exact ones (C57_without_rounding)."},
{"property": "C58", "status": "proved", "theorems": ["Bx.Compare.C58_is_better_solution", "Bx.Compare.C58_calculator_sort", "Bx.Compare.C58_storage_sort", "Bx.Compare.C58_raw_result_compare", "Bx.Compare.C58_node_result_compare", "Bx.Compare.C58_solution_less", "Bx.Compare.C58_element_less", "Bx.Compare.C58_storage_order", "Bx.Compare.C58_better_value", "Bx.Compare.C58_nan_is_not_ordered"], "note": "Every comparison named by the property, on numbers and infinities. With NaN the claim is false, which is also proved."},
{"property": "C59", "status": "proved", "theorems": ["Bx.NQueens.C59_n_queens", "Bx.NQueens.C59_small_sizes"], "note": "All sizes from 3, all placements. C111 is about the text."},
{"property": "C60", "status": "partial", "theorems": ["Bx.Utils.C60_copy_partial", "Bx.Utils.C60_copy_overflows", "Bx.Utils.C60_new_array", "Bx.Utils.C60_cells"], "note": "Proved when rows <= columns, and for new arrays. Refuted for arrays with more rows than columns: the copy writes past its buffer."},
{"property": "C61", "status": "partial", "theorems": ["Bx.CommandLine.C61_rejected_unchanged", "Bx.CommandLine.C61_accepted_partial", "Bx.CommandLine.C61_refused", "Bx.CommandLine.C61_command_line_in_range_partial", "Bx.CommandLine.C61_two_letter_name", "Bx.CommandLine.C61_nan_time_limit", "Bx.CommandLine.C61_kappa_one", "Bx.CoreOut.C61_blank_is_zero"], "note": "Every name of other than two characters and every text that is not NaN: an accepted parameter is documented, holds the value of the text, in range, and changes nothing else; a refused one changes nothing; a valid one is accepted; the result of any command line is in range. False for names of two characters, NaN and the value 1 of kappa: three refutations. The conversions from texts to numbers are arbitrary functions. A value made of blanks is read as 0 (C61_blank_is_zero)."},
{"property": "C62", "status": "proved", "theorems": ["Bx.Itm.C62_push_phase_does_nothing"], "note": "Every order except pi_sign_change and cycle."},
{"property": "C63", "status": "partial", "theorems": ["Bx.Itm.C63_pass_visits_the_violated_partial", "Bx.Itm.C63_pi_sign_change_never_returns"], "note": "Holds for every order except pi_sign_change and cycle. Refuted for pi_sign_change with more variables than constraints."},
{"property": "C64", "status": "partial", "theorems": ["Bx.ZSolver.C64_integer_update_partial", "Bx.ZSolver.C64_prefix_update_partial", "Bx.ZSolver.C64_returned_row_is_satisfied", "Bx.ZSolver.C64_linear_row_aborts", "Bx.ZSolver.C64_one_sided_row_aborts", "Bx.ZSolver.C64_reads_past_the_end", "Bx.ZSolver.C64_one_variable_row_aborts"], "note": "Constraints with a coefficient other than 1 and -1 that are equalities, long or bounded on both sides; any other constraint when a prefix of the sorted row fits. Every update that returns satisfies its row and changes nothing else. The full claim is false of the code: four refutations."},
{"property": "C65", "status": "partial", "theorems": ["Bx.CommandLine.C65_options_take_effect_partial", "Bx.CommandLine.C65_no_error_partial", "Bx.CommandLine.C65_verbose_becomes_a_file", "Bx.CommandLine.C65_check_has_no_effect"], "note": "Every sequence of file names, flags, and options with values in the five ways to write them. False for --verbose and --check: two refutations."},
{"property": "C66", "status": "partial", "theorems": ["Bx.CommandLine.C66_status_of_the_parameter_partial", "Bx.CommandLine.C66_wrong_name_in_every_message", "Bx.CommandLine.C66_seed_message_aborts"], "note": "The status returned for a refused parameter is the status of this parameter. The text of the message is wrong for every parameter: two refutations."},
{"property": "C67", "status": "partial", "theorems": ["Bx.Costs.C67_random_norm_keeps_order_partial", "Bx.Costs.C67_random_draws_between", "Bx.Costs.C67_random_norm_reverses", "Bx.Rounded.C67_without_rounding", "Bx.Rounded.C67_rounded_random_norm_partial", "Bx.Rounded.C67_rounded_norm_stops"], "note": "Proved when a cost is not negative. Refuted for negative costs: the final division reverses the order. In floating point, for every rounding: the order is kept in the weak sense, or the largest cost is reached twice and the draw stops; refuted by two costs of 16777216 in float, on which the program stops. When the rounding does nothing the rounded norm, if it gives costs, gives those of the exact model (C67_without_rounding)."},
{"property": "C68", "status": "partial", "theorems": ["Bx.Parser.C68_read_as_written_partial", "Bx.Parser.C68_text_after_end", "Bx.Parser.C68_constant", "Bx.Parser.C68_value"], "note": "Proved for every correct file, with any number of groups of quadratic terms, with integer coefficients and values in constraints. False for constants in constraints and for non-integer values: refutations. A text that goes on after the word `end` is refused (C68_text_after_end)."},
{"property": "C69", "status": "proved", "theorems": ["Bx.Mult.C69_calculator_sort_sorts", "Bx.Mult.C69_calculator_sort_is_any_order", "Bx.Mult.C69_oracle_is_the_code", "Bx.Mult.C69_cheapest_row", "Bx.Mult.C69_update_returns"], "note": "The four solvers with coefficients 0/1 and -1/0/1, any tie breaking, both directions. C69_update_returns says when the update returns. Floating point numbers are rationals."},
{"property": "C70", "status": "partial", "theorems": ["Bx.Mult.C70_push_partial", "Bx.Mult.C70_push_reads_other_costs", "Bx.Mult.C70_push_negative_coefficient", "Bx.RoundedRun.C70_push_rounded_partial"], "note": "False as stated: the 0/1 solvers add the costs of other variables (C70_push_reads_other_costs) and the others add the cost after the change of sign of a negative coefficient (C70_push_negative_coefficient). Proved for rows with positive coefficients, on variables 0, 1, ... in order for the 0/1 solvers."},
{"property": "C71", "status": "proved", "theorems": ["Bx.Mult.C71_multiplier_separates", "Bx.Mult.C71_multiplier_kept"], "note": "The four solvers with coefficients 0/1 and -1/0/1, any tie breaking, both directions, without push. Floating point numbers are rationals."},
{"property": "C72", "status": "partial", "theorems": ["Bx.Mult.C72_preferences_reinforce_partial", "Bx.Mult.C72_extreme_rows_reinforce_partial", "Bx.Mult.C72_negative_coefficient", "Bx.Mult.C72_maximise", "Bx.Mult.C72_extreme_row"], "note": "False as stated for negative coefficients, for a positive delta when the problem maximises and for rows at an extreme value (C72_negative_coefficient, C72_maximise, C72_extreme_row). Proved in the other cases. C72_extreme_rows_reinforce_partial states what rows at an extreme value do instead."},
{"property": "C73", "status": "partial", "theorems": ["Bx.Rand.C73_update_is_sound", "Bx.Rand.C73_update_returns_partial", "Bx.Rand.C73_negative_bound_aborts", "Bx.Rand.C73_mixed_row_aborts"], "note": "What an update that returns guarantees is proved for every constraint. It returns for satisfiable constraints with positive coefficients and for constraints that accept the value 0. False otherwise: a constraint with a negative upper bound always stops the process (C73_negative_bound_aborts), and a satisfiable row with coefficients of both signs can stop it (C73_mixed_row_aborts)."},
{"property": "C74", "status": "partial", "theorems": ["Bx.Rand.C74_no_improving_variable_is_set", "Bx.Rand.C74_preferences_follow_the_values", "Bx.Rand.C74_costly_variables_are_set"], "note": "False of the code: the test that stops the loop is inverted and the cost of the first variable of the row is used for all. C74_no_improving_variable_is_set and C74_costly_variables_are_set state what the code does instead. C74_preferences_follow_the_values: the preferences of the row move towards the values chosen."},
{"property": "C75", "status": "partial", "theorems": ["Bx.Dispatch.C75_solver_accepts_partial", "Bx.Dispatch.C75_random_accepts_partial", "Bx.Dispatch.C75_success_solves_the_raw_problem_partial", "Bx.Dispatch.C75_random_ignores_the_request", "Bx.Dispatch.C75_random_refuses_integers", "Bx.Dispatch.C75_buffered_aborts", "Bx.Dispatch.C75_first_mode_wins", "Bx.Dispatch.C75_no_context_no_success", "Bx.Dispatch.C75_tuned_success_solves_the_raw_problem_partial"], "note": "Solver bastert and methods other than buffered: proved for feasible problems without null coefficient. Random solver: accepts the problems with coefficients -1 and 1, refuses the others and ignores the request. The method buffered stops the process on inequalities. The modes branch-manual and branch-nlopt are the mode branch. The result theorem covers every mode, and runs without preprocessing when the problem has a constraint and no variable fixed by its bounds; it needs the hypothesis of C47 on the crossover, and gives the reported value when the objective is linear or the preprocessor is not used. Without a context no problem is solved (C75_no_context_no_success)."},
{"property": "C76", "status": "partial", "theorems": ["Bx.Dispatch.C76_nlopt_reads_out_of_bounds", "Bx.Dispatch.C76_without_nlopt_is_manual_partial", "Bx.Dispatch.C76_failed_search_is_manual_partial", "Bx.Dispatch.C76_library_without_nlopt_partial"], "note": "False with nlopt: the first evaluation reads x[5] of a vector of five doubles, whatever nlopt does. Without nlopt the mode is the mode manual. A search that fails ends with the result of the mode manual (C76_failed_search_is_manual_partial)."},
{"property": "C77", "status": "partial", "theorems": ["Bx.Init.C77_bastert_is_optimal_partial", "Bx.Init.C77_quadratic_is_not_optimal"], "note": "Proved for linear objectives. False for quadratic ones (C77_quadratic_is_not_optimal)."},
{"property": "C78", "status": "partial", "theorems": ["Bx.Init.C78_turn_partial", "Bx.Init.C78_negative_coefficient", "Bx.Init.C78_initial_is_feasible_partial", "Bx.Init.C78_optimistic_is_optimal_partial", "Bx.Init.C78_optimistic_is_nearly_optimal_partial", "Bx.Init.C78_float_costs_tie"], "note": "Proved for the constraints with coefficients 1. False with a negative coefficient (C78_negative_coefficient). The pre-solve converts the costs to `float`: the best cost is that of the converted costs, exact when they are `float` numbers, and the general bound is C78_optimistic_is_nearly_optimal_partial; two costs that are equal in `float` may be swapped (C78_float_costs_tie)."},
{"property": "C79", "status": "partial", "theorems": ["Bx.Init.C79_feasible_start_is_the_answer_partial", "Bx.Init.C79_optimistic_solve_is_optimal_partial", "Bx.Init.C79_pessimistic_is_not_improved", "Bx.Init.C79_optimize_feasible_bastert_partial", "Bx.Itm.C79_cycle_keeps_a_feasible_start_partial", "Bx.Num.C79_sign_change_loses_a_feasible_start", "Bx.Init.C79_workers_feasible_bastert_partial"], "note": "solve: with every order except pi_sign_change and cycle the solution is the initial vector itself, which is not improved (C79_pessimistic_is_not_improved). With cycle, solve succeeds with a solution at least as good when it returns. With pi_sign_change the claim is false: the first pass updates every row and the initial vector is lost (C79_sign_change_loses_a_feasible_start). optimize: linear objectives and any number of workers, an insertion in the population being one step."},
{"property": "C80", "status": "partial", "theorems": ["Bx.Init.C80_delta_partial", "Bx.Init.C80_rounded_delta_partial", "Bx.Init.C80_theta_converted", "Bx.Init.C80_null_objective"], "note": "Proved when a cost is not null, with exact arithmetic and in floating point (C80_rounded_delta_partial). False for a null objective, whose step is the largest floating-point number times (1 - theta) (C80_null_objective), and for `float`, whose conversion of theta may give 1 and a null step (C80_theta_converted)."},
{"property": "C81", "status": "partial", "theorems": ["Bx.Num.C81_weights_partial", "Bx.Num.C81_weight_one", "Bx.Num.C81_push_weight_beyond_the_maximum"], "note": "Holds for every monotone rounding of the operations on kappa; the multipliers of the same run are exact. The two last clauses are false of the code: kappa-max = 1 lets a pass divide by zero (C81_weight_one), and with pi-sign-change the push phase goes beyond kappa-max (C81_push_weight_beyond_the_maximum), by at most one step."},
{"property": "C82", "status": "partial", "theorems": ["Bx.Num.C82_main_loop_ends_partial", "Bx.Num.C82_main_loop_ends_exact_partial", "Bx.Num.C82_main_loop_ends_rounded_partial", "Bx.Num.C82_lost_step_never_ends", "Bx.Num.C82_zero_step_never_ends", "Bx.Num.C82_small_step_never_ends"], "note": "Proved for the main loop: a bound when each growth of kappa is at least some d > 0, with exact operations and with p binary digits. False for kappa-step = 0, which the parameters accept (C82_zero_step_never_ends), and for the positive kappa-steps that the addition of doubles loses (C82_small_step_never_ends)."},
{"property": "C83", "status": "partial", "theorems": ["Bx.Num.C83_log_is_the_run", "Bx.Num.C83_order_is_followed_partial", "Bx.Num.C83_cycle_repeats_the_first_row"], "note": "Proved for seven orders in all passes and for cycle in the main loop. False for the push phase of cycle (C83_cycle_repeats_the_first_row). pi-sign-change visits the rows of indices below the number of variables whatever they are (C63)."},
{"property": "C84", "status": "partial", "theorems": ["Bx.Num.C84_solve_returns_partial", "Bx.ZNum.C84_integer_solve_returns_partial"], "note": "Proved for the 0/1 and -1/0/1 equality solvers. With the inequality and the integer solvers the only fault is the read beyond the reduced costs (C25, C64); for the integer solver each row has a coefficient other than 1 and -1 and is not one-sided."},
{"property": "C85", "status": "partial", "theorems": ["Bx.Benchmark.C85_run_adds_a_column_partial", "Bx.Benchmark.C85_table_is_read", "Bx.Benchmark.C85_next_run_reads_it_partial", "Bx.Benchmark.C85_errors_keep_the_file", "Bx.Benchmark.C85_unreadable_model_is_an_error", "Bx.Benchmark.C85_one_letter_name_breaks_the_file", "Bx.Benchmark.C85_unended_line_is_lost", "Bx.Benchmark.C85_empty_cells_move_the_values", "Bx.Benchmark.C85_blank_cell_is_zero"], "note": "Proved for the files whose cells are non-empty words that are read back as the same values: names without separators, numbers that the format of ten digits keeps. False of the code: a name of one letter before another name makes the file unreadable (C85_one_letter_name_breaks_the_file), empty cells move the values (C85_empty_cells_move_the_values), a cell of spaces becomes 0 (C85_blank_cell_is_zero), a last line without end is lost (C85_unended_line_is_lost)."},
{"property": "C86", "status": "partial", "theorems": ["Bx.Benchmark.C86_ranks_partial", "Bx.Benchmark.C86_minus_infinity_splits_a_rank"], "note": "Proved when the values are numbers or infinity. False with a minus infinity in the file (C86_minus_infinity_splits_a_rank); a NaN is an undefined behaviour of std::sort."},
{"property": "C87", "status": "partial", "theorems": ["Bx.Benchmark.C87_failures_are_counted", "Bx.Benchmark.C87_found_partial", "Bx.Benchmark.C87_unsolved_is_found"], "note": "False of the code: a model for which optimize returns without a solution is counted (C87_failures_are_counted, C87_unsolved_is_found). Proved when there is none."},
{"property": "C88", "status": "partial", "theorems": ["Bx.Benchmark.C88_distance_is_scaled", "Bx.Benchmark.C88_distance_partial", "Bx.Benchmark.C88_unsolved_halves_the_distance", "Bx.Benchmark.C88_optimum_is_the_first_model"], "note": "False of the code: the sum of the distances on the compared models is divided by the number of all the models (C88_distance_is_scaled, C88_unsolved_halves_the_distance), and the distance from the optimum compares the models of the run with its first model (C88_optimum_is_the_first_model). Proved when the solver and the run have solved all the models. Exact arithmetic."},
{"property": "C89", "status": "partial", "theorems": ["Bx.Benchmark.C89_run_ends_partial", "Bx.Benchmark.C89_first_run_is_undefined", "Bx.Benchmark.C89_full_array_is_undefined", "Bx.Benchmark.C89_no_model_is_undefined", "Bx.Benchmark.C89_null_value_is_undefined"], "note": "Proved with at least a solver and a model, no null value, and a number of models other than 512, 768, 1152 and so on. Undefined otherwise: C89_first_run_is_undefined (no solver), C89_full_array_is_undefined, C89_no_model_is_undefined, C89_null_value_is_undefined."},
{"property": "C90", "status": "proved", "theorems": ["Bx.ResultFile.C90_file_is_read", "Bx.ResultFile.C90_line_without_value_is_refused", "Bx.ResultFile.C90_value_without_number_is_refused"], "note": "Values of at most 511 characters, with at most nine digits: longer numbers can overflow an int."},
{"property": "C91", "status": "partial", "theorems": ["Bx.ZNum.C91_short_row_partial", "Bx.ZNum.C91_absolute_values", "Bx.ZNum.C91_long_row_partial", "Bx.ZNum.C91_update_returns", "Bx.ZNum.C91_negative_coefficient", "Bx.ZNum.C91_one_sided_row_not_optimal", "Bx.ZNum.C91_long_row_not_optimal"], "note": "Proved for two to nine variables with coefficients that are not negative, two-sided rows or equalities; for ten or more, against the assignments that set two variables or more. False with a negative coefficient (the absolute value is used), for one-sided rows and for ten variables or more: see the three refutations. The prices are rationals."},
{"property": "C92", "status": "partial", "theorems": ["Bx.ZNum.C92_rest_is_kept", "Bx.ZNum.C92_preferences_reinforce_partial", "Bx.ZNum.C92_multiplier_is_a_mean_partial", "Bx.ZNum.C92_variable_at_one_pushed_away", "Bx.ZNum.C92_maximise", "Bx.ZNum.C92_multiplier_does_not_separate", "Bx.ZNum.C92_multiplier_of_a_full_row"], "note": "What is kept is proved. The preferences are proved when minimising: for every variable at 0, and for a variable at 1 up to a price. False beyond this price, when maximising, and for the multipliers: see the refutations. The prices are rationals. The multiplier adds a mean of two prices (C92_multiplier_is_a_mean_partial)."},
{"property": "C93", "status": "partial", "theorems": ["Bx.MainProgram.C93_solution_file_reads_back", "Bx.MainProgram.C93_read_problem_partial", "Bx.MainProgram.C93_from_problem_to_solution_partial", "Bx.MainProgram.C93_failed_run_reads_as_success", "Bx.MainProgram.C93_names_of_the_files", "Bx.MainProgram.C93_unwritable_is_silent", "Bx.MainProgram.C93_quadratic_file_unreadable"], "note": "Proved for every success whose names can be written, and, without condition on the names, from the text of a linear problem to the text of the solution when the run is that of Model/Tuners, in any mode, with preprocessing when the problem has a solution, or without when it has a constraint and no variable fixed by its bounds. False of runs that are not a success (their file reads as a success without variable) and of quadratic problems (their names can hold `=`): see the refutations."},
{"property": "C94", "status": "proved", "theorems": ["Bx.MainProgram.C94_each_failure_is_reported", "Bx.MainProgram.C94_silence_means_done", "Bx.MainProgram.C94_exit_status", "Bx.MainProgram.C94_failures_exit_zero"], "note": "The exit status, the messages and what silence means. The exit status does not tell of the failures: C94_failures_exit_zero."},
{"property": "C95", "status": "partial", "theorems": ["Bx.MainProgram.C95_one_line_per_problem", "Bx.MainProgram.C95_killed_keeps_the_lines_before", "Bx.MainProgram.C95_exception_joins_lines"], "note": "Proved when no run raises an exception before the line; an exception joins two lines (C95_exception_joins_lines)."},
{"property": "C96", "status": "partial", "theorems": ["Bx.Parser.C96_objective_value_partial", "Bx.Parser.C96_products_partial", "Bx.Parser.C96_linear_in_brackets", "Bx.Parser.C96_cube"], "note": "Proved for every correct file, with any number of bracketed groups and with linear terms before, between and after them, whose text keeps each term close enough together that its words fit in the window of the reader (`Compact`). False for text spread over many lines: C38_quadratic_layout. A linear term inside the brackets is dropped and a cube is read as a square, without an error (C96_linear_in_brackets, C96_cube)."},
{"property": "C97", "status": "partial", "theorems": ["Bx.Observer.C97_colour_of_a_number", "Bx.Observer.C97_colour_tells_the_number", "Bx.Observer.C97_nan", "Bx.Rounded.C97_colour_tells_the_number_rounded", "Bx.Rounded.C97_without_rounding"], "note": "Proved for every number that is not NaN: to within 1/510 with exact arithmetic, and to within 1/509 with the rounding of float after each operation (C97_colour_tells_the_number_rounded; overflow and subnormal numbers are left out). NaN is undefined behaviour (C97_nan)."},
{"property": "C98", "status": "partial", "theorems": ["Bx.Observer.C98_image_partial", "Bx.Observer.C98_one_constraint", "Bx.Observer.C98_cannot_open", "Bx.Observer.C98_no_limit", "Bx.Observer.C98_other_multipliers_not_shown"], "note": "The size of the image and each of its pixels are proved; only the last multiplier is shown, in the first column (C98_other_multipliers_not_shown). With one constraint the claim holds. Without a limit, or when the file cannot be opened, the run stops (C98_no_limit, C98_cannot_open)."},
{"property": "C99", "status": "partial", "theorems": ["Bx.Observer.C99_images", "Bx.Observer.C99_large_images", "Bx.Observer.C99_tables_partial", "Bx.Observer.C99_file_undefined"], "note": "Proved for images of less than 2^32 bytes. False of larger ones (C99_large_images) and of the observer `file`, which reads a member that is never set (C99_file_undefined)."},
{"property": "C100", "status": "partial", "theorems": ["Bx.Optimizer.C100_optimize_tells_the_least_partial", "Bx.Optimizer.C100_solve_never_tells", "Bx.Optimizer.C100_trivial_problem", "Bx.Optimizer.C100_number_of_another_vector", "Bx.Optimizer.C100_workers_tell_the_least_partial"], "note": "For optimize with any number of workers and every order of their steps, the number reported is the least number of violated constraints of all the vectors of the run, zero exactly for a success, whatever the storage. It need not be that of the reported vector (C100_number_of_another_vector). solve and trivial problems always report 2147483647 (C100_solve_never_tells, C100_trivial_problem). Missing: overlapping insertions, for which the entries can be torn (C46_torn_entry_is_reported)."},
{"property": "C101", "status": "partial", "theorems": ["Bx.RInterface.C101_documented_codes", "Bx.RInterface.C101_solve_arguments", "Bx.RInterface.C101_optimize_arguments", "Bx.RInterface.C101_invalid_arguments", "Bx.RInterface.C101_default_storage", "Bx.RInterface.C101_default_seed"], "note": "Proved for the codes and the values of both functions. False of the default storage, which is documented to keep the best solution (C101_default_storage), and of the default seed (C101_default_seed)."},
{"property": "C102", "status": "partial", "theorems": ["Bx.RInterface.C102_list_tells_the_run_partial", "Bx.RInterface.C102_value_of_a_solution_partial", "Bx.RInterface.C102_unreadable_file", "Bx.RInterface.C102_remaining_constraints", "Bx.RInterface.C102_default_value_is_not_reached", "Bx.RInterface.C102_minimize_of_a_failure", "Bx.RInterface.C102_counts_are_reduced"], "note": "Proved: what the list tells of a problem that is read (C102_list_tells_the_run_partial) and that the value of a success is that of a solution of the problem in the file, for linear problems and the storage `one` (C102_value_of_a_solution_partial). False of an unreadable file, which is a success of value 0 (C102_unreadable_file); of the default storage, whose value is that of the worst vector (C102_default_value_is_not_reached); of the remaining constraints of `solve` (C102_remaining_constraints); of the numbers of variables and constraints (C102_counts_are_reduced)."},
{"property": "C103", "status": "partial", "theorems": ["Bx.Equal.C103_what_is_compared", "Bx.Equal.C103_equivalence", "Bx.Equal.C103_equal_problems_partial", "Bx.Equal.C103_quadratic_part_ignored"], "note": "What is compared is stated exactly. Proved for linear objectives; the quadratic part of the objective is not compared (C103_quadratic_part_ignored)."},
{"property": "C104", "status": "partial", "theorems": ["Bx.CoreOut.C104_line_gives_back_partial", "Bx.CoreOut.C104_message_gives_back_partial", "Bx.CoreOut.C104_lines_refused", "Bx.CoreOut.C104_words_give_back_partial", "Bx.CoreOut.C104_mode_is_lost", "Bx.CoreOut.C104_computed_delta_refused", "Bx.CoreOut.C104_not_in_the_message"], "note": "Proved for every line that has the name of a parameter, and for the whole message, when ten digits are enough for the real numbers. False of the lines `auto-tune`, `observation` and `kappa` (C104_lines_refused, C104_mode_is_lost) and of the computed step (C104_computed_delta_refused); the seed, the number of threads, the storage and the preprocessing are not told (C104_not_in_the_message). The word of `observation` given to `observer-type`, and the word of `auto-tune` of a single mode given to `--auto`, give the parameter back (C104_words_give_back_partial)."},
{"property": "C105", "status": "partial", "theorems": ["Bx.Optimizer.C105_no_entry_twice_partial", "Bx.Optimizer.C105_five_are_different_partial", "Bx.Optimizer.C105_two_workers_store_it_twice", "Bx.Optimizer.C105_initial_vectors_are_not_compared", "Bx.Optimizer.C105_stored_without_a_pass"], "note": "Proved for one worker, when the initial vectors have different hashes, of the solutions stored as such. False with two workers that test before either inserts (C105_two_workers_store_it_twice), when two initial vectors are equal (C105_initial_vectors_are_not_compared), and of a vector inserted when the time is up before a pass (C105_stored_without_a_pass)."},
{"property": "C106", "status": "partial", "theorems": ["Bx.Optimizer.C106_calls_in_order_partial", "Bx.Optimizer.C106_watching_changes_nothing", "Bx.Optimizer.C106_progress_never_gets_worse", "Bx.Optimizer.C106_messages_are_true", "Bx.Optimizer.C106_no_finish_without_constraint", "Bx.Optimizer.C106_update_without_improvement", "Bx.Optimizer.C106_no_finish_after_preprocessing"], "note": "Proved: the order of the calls when there is a constraint and a variable, that the messages are true and never get worse, and that the result is the one of C47, C48 and C100. False: `finish` is not called without constraint or variable, even when the preprocessing removes them (C106_no_finish_without_constraint, C106_no_finish_after_preprocessing); `update` is called each second, not for each improvement (C106_update_without_improvement). An insertion is one step, as in C47."},
{"property": "C107", "status": "proved", "theorems": ["Bx.Optimizer.C107_not_before_the_limit", "Bx.Optimizer.C107_ends_after_the_limit", "Bx.Optimizer.C107_no_limit_never_returns", "Bx.Optimizer.C107_default_has_no_limit"], "note": "The time that the workers take to see the flag is not measured: a worker looks at it before each pass."},
{"property": "C108", "status": "partial", "theorems": ["Bx.Checked.C108_check_is_exact", "Bx.Checked.C108_preprocess_is_exact", "Bx.Checked.C108_split_is_exact", "Bx.Checked.C108_rows_are_exact", "Bx.Checked.C108_integer_rows_are_exact_partial", "Bx.Checked.C108_initialization_is_exact", "Bx.Checked.C108_accepted_problem_overflows", "Bx.Checked.C108_reading_overflows", "Bx.Checked.C108_row_overflows", "Bx.Checked.C108_next_cell_overflows", "Bx.Checked.C108_initialization_overflows"], "note": "Proved for the check, the preprocessing, the branching and the rows with coefficients -1, 0, 1. With integer coefficients it needs a condition on the cell after the row, which select_variables adds to its sum (C108_next_cell_overflows shows why). Accepted problems with `int` numbers do overflow: C108_accepted_problem_overflows, C108_row_overflows; so does reading a variable twice: C108_reading_overflows. The initial vectors and population are exact on the same problems (C108_initialization_is_exact)."},
{"property": "C109", "status": "partial", "theorems": ["Bx.Optimizer.C109_is_a_start_of_the_optimizer", "Bx.Optimizer.C109_improve", "Bx.Optimizer.C109_two_different_members", "Bx.Optimizer.C109_insertion", "Bx.Optimizer.C109_no_mutation", "Bx.Optimizer.C109_values_all_one", "Bx.Optimizer.C109_a_turn_starts_partial", "Bx.Optimizer.C109_draw_of_one_is_undefined", "Bx.Optimizer.C109_mean_one_is_undefined", "Bx.Optimizer.C109_no_deviation_never_returns", "Bx.Optimizer.C109_documented_no_mutation_never_starts", "Bx.Optimizer.C109_numbers_of_the_parameters"], "note": "How a turn starts is proved (two different members, insertions, mutation); that it does is proved for usual draws. It is false of accepted parameters: a selection without deviation never ends (C109_no_deviation_never_returns), a mean of 1 reads out of the ranking (C109_mean_one_is_undefined), and the documented way not to mutate never starts a turn (C109_documented_no_mutation_never_starts). Numbers are exact."},
{"property": "C110", "status": "partial", "theorems": ["Bx.Optimizer.C110_first_turns", "Bx.Optimizer.C110_first_crossover", "Bx.Optimizer.C110_after_a_crossover", "Bx.Optimizer.C110_at_least_min", "Bx.Optimizer.C110_at_most_max_partial", "Bx.Optimizer.C110_bound_partial", "Bx.Optimizer.C110_above_max", "Bx.Optimizer.C110_no_increase_never_crosses"], "note": "The lower bound, the sequence of the turns and the crossovers are proved. The upper bound holds when stop and increase make at most 1, and is false otherwise (C110_above_max). The first turns start from 0 instead of init_kappa_improve_start (C110_first_turns), and an increase of 0 never gives a crossover (C110_no_increase_never_crosses). Numbers are exact."},
{"property": "C111", "status": "partial", "theorems": ["Bx.NQueens.C111_text_is_n_queens", "Bx.NQueens.C111_success_places_the_queens_partial"], "note": "The text and the problem are proved for every size. The result of a run is proved in every mode, with the hypothesis of C47 on the crossovers, without preprocessing for every board and with it when a placement exists (C32 tells why). How sscanf reads numbers is a parameter: it reads the integers, and nothing in a word that begins with x."},
{"property": "C112", "status": "partial", "theorems": ["Bx.Merge.C112_one_merged_constraint_a_side", "Bx.Optimizer.C112_solve_counts", "Bx.Optimizer.C112_optimize_counts_partial", "Bx.Optimizer.C112_optimize_forgets_the_variables", "Bx.Optimizer.C112_workers_counts_partial"], "note": "Proved for solve. For optimize it is proved when the result has constraints, for any number of workers, an insertion in the population being one step, and false otherwise: C112_optimize_forgets_the_variables is a problem with one variable and no constraint for which optimize tells no variable and solve tells one."},
{"property": "C113", "status": "partial", "theorems": ["Bx.Manual.C113_values", "Bx.Manual.C113_in_range_partial", "Bx.Manual.C113_large_kappa_max_partial", "Bx.Manual.C113_out_of_range", "Bx.Manual.C113_last_run_above_kappa_max"], "note": "The values are proved (C113_values). A combination is in range exactly when its kappa_min is below kappa_max, so all are when kappa_max is above 0.602. False otherwise (C113_out_of_range): the arrays of the parameters go on with the values of theta from the third one, and with the default kappa_max, 0.6, one combination in five has its kappa_min above it. The one that gives the result is among them, so that its turns start above kappa_max (C113_last_run_above_kappa_max)."},
{"property": "C114", "status": "partial", "theorems": ["Bx.Rounded.C114_without_rounding", "Bx.Props.C114_compute_solution_partial", "Bx.Props.C114_value_partial", "Bx.Props.C114_reported_value_partial", "Bx.Props.C114_same_order", "Bx.Props.C114_values_are_close", "Bx.Props.C114_values_differ", "Bx.Props.C114_order_is_lost"], "note": "Rounding to p binary digits, ties to even, without overflow. Proved for factors that are multiples of a power of 2, such as integers, with a bound on the sum of their absolute values (2^53 for integers), for a linear objective after the preprocessor (C07 is false for quadratic ones). Without the preprocessor the two values are equal for every rounding (C114_same_order). In general both are near the objective (C114_values_are_close). False in general: the preprocessor changes the order of the additions (C114_values_differ), and a better solution can have a worse value (C114_order_is_lost). When the rounding does nothing the rounded preprocessor and values are those of the other claims, also for quadratic objectives (C114_without_rounding)."},
{"property": "C115", "status": "partial", "theorems": ["Bx.Messages.C115_solve_found_partial", "Bx.Messages.C115_solve_failure_is_not_told", "Bx.Messages.C115_optimize_found_partial", "Bx.Messages.C115_optimize_failed_partial", "Bx.Messages.C115_updates_are_true", "Bx.Messages.C115_preprocessor_named_without_it", "Bx.Messages.C115_five_prints_the_worst"], "note": "Proved: the lines printed during optimize, the value after a success of solve and of optimize with the storage one, the number of constraints after a failure of optimize. False: a failure of solve always prints 2147483647 remaining constraints and the loop limit (C115_solve_failure_is_not_told); with the storage five the value printed as the best is the worst one (C115_five_prints_the_worst); the preprocessor is named without preprocessing (C115_preprocessor_named_without_it). Missing: the number of the loop and the duration of optimize, which are arguments of the model; the insertion of a vector is one step."},
{"property": "C116", "status": "partial", "theorems": ["Bx.Log.C116_printed_iff_level", "Bx.Log.C116_stream", "Bx.Log.C116_verbosity_is_clamped", "Bx.Log.C116_build_without_log", "Bx.Log.C116_quiet_partial", "Bx.Log.C116_quiet_is_not_silent", "Bx.Log.C116_tuners_are_silent", "Bx.Log.C116_tuners_print_warnings"], "note": "Proved for the messages of the library in a build with messages (BARYONYX_ENABLE_LOG), outside the tuners. False: with --quiet the program prints the start and the end of the run (C116_quiet_is_not_silent); the modes that tune or branch replace the verbosity, so that their own messages are never printed (C116_tuners_are_silent) and warnings are printed although the verbosity excludes them (C116_tuners_print_warnings)."},
{"property": "C117", "status": "proved", "theorems": ["Bx.RoundedRows.C117_update_without_rounding", "Bx.RoundedRows.C117_cheapest_as_computed", "Bx.RoundedRows.C117_update_returns", "Bx.RoundedRows.C117_nearly_cheapest", "Bx.RoundedRows.C117_nearly_cheapest_binary", "Bx.RoundedRows.C117_cheapest_on_a_grid", "Bx.RoundedRows.C117_without_rounding", "Bx.RoundedRows.C117_dearer_row"], "note": "For the solvers with 0/1 and -1/0/1 coefficients and the update without push. The loss is real: C117_dearer_row gives two updates from the start that end on a dearer assignment in double. Overflow, subnormal numbers, NaN and infinities are not modelled. When the rounding does nothing the rounded update is the exact one (C117_update_without_rounding)."},
{"property": "C118", "status": "partial", "theorems": ["Bx.RoundedRows.C118_preferences_reinforce_partial", "Bx.RoundedRows.C118_nearly_separates_partial", "Bx.RoundedRows.C118_multiplier_kept", "Bx.RoundedRows.C118_separation_lost"], "note": "Proved for the preferences, under the conditions of C72 (positive coefficients, a row value that is neither the least nor the greatest, delta of the sign of the direction). The multiplier separates only up to the rounding errors (C118_nearly_separates_partial); without this tolerance the claim is false (C118_separation_lost)."},
{"property": "C119", "status": "partial", "theorems": ["Bx.Benchmark.C119_colours", "Bx.Benchmark.C119_green_is_best_partial", "Bx.Benchmark.C119_best_is_blue"], "note": "Proved: the lowest numbers of each line are green and the highest ones blue, whatever the missing results and the NaN. So green is the best for minimizations; for maximizations the colours are the other way round (C119_best_is_blue)."},
{"property": "C120", "status": "partial", "theorems": ["Bx.RoundedRun.C120_solve_returns_partial", "Bx.RoundedRun.C120_rows_of_the_run", "Bx.RoundedRun.C120_last_row_holds", "Bx.RoundedRun.C120_best_of_the_run", "Bx.RoundedRun.C120_rounding_changes_the_answer"], "note": "Proved for the solvers with 0/1 and -1/0/1 coefficients, whatever the rounding: C120_rows_of_the_run, C120_last_row_holds and C120_best_of_the_run; that the run returns is proved with the exceptions of C84 (C120_solve_returns_partial). Overflow, subnormal numbers, NaN and infinities are not modelled, and the value of the objective is exact (its rounding is C114). The answer does depend on the type of the numbers: C120_rounding_changes_the_answer."},
{"property": "C121", "status": "partial", "theorems": ["Bx.RoundedZ.C121_without_rounding", "Bx.RoundedZ.C121_respects_and_keeps", "Bx.RoundedZ.C121_update_returns", "Bx.RoundedZ.C121_short_row_as_computed", "Bx.RoundedZ.C121_long_row_as_computed_partial", "Bx.RoundedZ.C121_short_row_nearly_cheapest_partial", "Bx.RoundedZ.C121_long_row_nearly_cheapest_partial", "Bx.RoundedZ.C121_short_row_on_a_grid_partial", "Bx.RoundedZ.C121_variable_at_zero_partial", "Bx.RoundedZ.C121_solve_returns_partial", "Bx.RoundedZ.C121_rows_of_the_run", "Bx.RoundedZ.C121_best_of_the_run", "Bx.RoundedZ.C121_dearer_row"], "note": "Whatever the rounding: C121_respects_and_keeps, C121_short_row_as_computed, C121_rows_of_the_run and C121_best_of_the_run; the rows of ten variables or more with positive coefficients among the assignments that set two variables (C121_long_row_as_computed_partial). With a relative error of each operation: C121_short_row_nearly_cheapest_partial and C121_long_row_nearly_cheapest_partial, for coefficients that are not negative; without error on a grid: C121_short_row_on_a_grid_partial. Partial because the exact claims C91 and C92 are, because the cheapest assignment may be missed by rounding (C121_dearer_row), and because overflow, subnormal numbers, NaN and infinities are not modelled. When the rounding does nothing the rounded update is the exact one (C121_without_rounding)."},
{"property": "C122", "status": "partial", "theorems": ["Bx.Memory.C122_one_reading", "Bx.Memory.C122_size_is_close", "Bx.Memory.C122_small_sizes_are_exact", "Bx.Memory.C122_sizes_keep_their_order", "Bx.Memory.C122_without_strings_undefined", "Bx.Memory.C122_preprocess_with_strings_partial", "Bx.Memory.C122_finish_repeats_the_size", "Bx.Memory.C122_size_counts_every_part", "Bx.Memory.C122_size_counts_the_affected", "Bx.Memory.C122_at_least_one_block"], "note": "Proved for every size: C122_size_is_close, C122_small_sizes_are_exact, C122_sizes_keep_their_order, C122_one_reading; what is counted: C122_size_counts_every_part, C122_size_counts_the_affected. The last part of the statement is false: a problem without a string buffer, as a program that fills a raw_problem by hand has it, is undefined behaviour in preprocess and unpreprocess (C122_without_strings_undefined), so C122_preprocess_with_strings_partial asks for a buffer; and the message 'Preprocessor finish' repeats the size of the raw problem (C122_finish_repeats_the_size). A problem that was read is never printed with less than 1 MB (C122_at_least_one_block). The bound of std::size_t is not modelled."},
{"property": "C123", "status": "partial", "theorems": ["Bx.Preprocess.C123_writing_changes_nothing", "Bx.Preprocess.C123_file_is_the_reduced_problem_partial", "Bx.Preprocess.C123_overwrites", "Bx.Preprocess.C123_nothing_left", "Bx.Preprocess.C123_split_keeps_the_last"], "note": "Proved for every problem that the writer can print and of which a variable is left: C123_file_is_the_reduced_problem_partial (reduction, text and reader together). C123_writing_changes_nothing: for every well formed problem the result of preprocess is the same with or without the file. Missing: what C41 excludes, constraints with a factor 0 or whose factors and value may leave the range of int, constants printed with an exponent. False parts: a file of that name is overwritten (C123_overwrites), when every variable has a value the file is empty and is not read (C123_nothing_left), split leaves only one of the two problems (C123_split_keeps_the_last), a file that cannot be opened is not told (second part of C123_writing_changes_nothing)."},
{"property": "C124", "status": "partial", "theorems": ["Bx.Merge.C124_order_of_the_file", "Bx.Merge.C124_memory_sorts_the_terms", "Bx.Merge.C124_file_order_partial", "Bx.Merge.C124_order_of_the_types", "Bx.Merge.C124_special_order", "Bx.Merge.C124_three_names_for_one_order", "Bx.Merge.C124_special_is_not_sorted", "Bx.Merge.C124_a_repeated_side_moves"], "note": "Proved for every problem: C124_order_of_the_types (the six options), C124_order_of_the_file and C124_memory_sorts_the_terms (none and memory; C124_file_order_partial when no left-hand side is repeated), C124_special_order (what p1 to p4 do). False parts: with none and memory a repeated left-hand side has the place of its first equality, else of its first <=, even if a >= is before them in the file (C124_a_repeated_side_moves); p1 to p4 apply the inverse of the sorted order, so that the constraints are not sorted (C124_special_is_not_sorted); p2, p3 and p4 are the same order (C124_three_names_for_one_order). The division of the shared cost is exact here."},
{"property": "C125", "status": "partial", "theorems": ["Bx.Life.C125_names_live_with_their_object_partial", "Bx.Life.C125_reading_twice"], "note": "Proved for every sequence of operations: C125_names_live_with_their_object_partial, by a refinement of objects that hold their texts themselves. False part: reading a result in an object that already shows names replaces its buffer and keeps the old views (C125_reading_twice). A string of more than 1 MiB overflows its buffer (C55_long_string_overflows)."},
{"property": "C126", "status": "partial", "theorems": ["Bx.CommandLine.C126_listed_values_are_accepted_partial", "Bx.CommandLine.C126_listed_but_refused", "Bx.CommandLine.C126_refused_values_are_listed"], "note": "Proved for all the lines of the help message: C126_listed_values_are_accepted_partial. False part, and only this one: loop limits under -1, the value 0 of delta, pushing-objective-amplifier and pushing-k-factor, and init-policy:cycle are listed and refused (C126_listed_but_refused, C126_refused_values_are_listed)."},
{"property": "C127", "status": "partial", "theorems": ["Bx.Races.C127_races_are_confined_partial", "Bx.Races.C127_one_worker_without_update", "Bx.Races.C127_two_workers_write_one_solution", "Bx.Races.C127_indices_read_during_a_sort", "Bx.Races.C127_two_crossovers_write_the_random_vector", "Bx.Races.C127_a_crossover_writes_what_another_reads", "Bx.Races.C127_calls_read_during_a_run"], "note": "The whole claim is false: two workers write one solution under reader locks (C127_two_workers_write_one_solution), a worker reads the indices without the mutex when another one sorts them (C127_indices_read_during_a_sort), two crossovers write the random vector (C127_two_crossovers_write_the_random_vector), a crossover resets a vector that another one reads (C127_a_crossover_writes_what_another_reads), and update is given a number of calls which the worker is writing (C127_calls_read_during_a_run). Proved under every schedule: these are the only kinds of races (C127_races_are_confined_partial), and there is none with one worker and without update (C127_one_worker_without_update)."},
{"property": "C128", "status": "partial", "theorems": ["Bx.Num.C128_success_is_kept", "Bx.Num.C128_passes_in_time_are_shared", "Bx.Num.C128_at_least_as_good_partial", "Bx.Num.C128_same_solution", "Bx.Num.C128_no_more_unsatisfied", "Bx.Num.C128_more_time_can_be_worse"], "note": "The whole claim is false: when the time is over in the loop that follows a push, only this loop ends, and a further push is made that the run with more time does not make; C128_more_time_can_be_worse is a run of the order pi-sign-change where it gives the value 4 instead of 5. Proved: a success is kept (C128_success_is_kept), the passes that begin in time are shared (C128_passes_in_time_are_shared), the solution is at least as good as all those reached in time (C128_at_least_as_good_partial), it is the same with the orders other than pi-sign-change and cycle (C128_same_solution), and a failure leaves no more constraints (C128_no_more_unsatisfied)."},
{"property": "C129", "status": "proved", "theorems": ["Bx.Itm.C129_the_fewest_unsatisfied", "Bx.Itm.C129_no_loop_no_vector"], "note": ""},
{"property": "C130", "status": "proved", "theorems": ["Bx.Num.C130_larger_limits_are_not_worse", "Bx.Num.C130_larger_limits_leave_no_more"], "note": ""},
{"property": "C131", "status": "partial", "theorems": ["Bx.Num.C131_success_is_kept", "Bx.Num.C131_at_least_as_good_partial", "Bx.Num.C131_same_solution", "Bx.Num.C131_no_more_unsatisfied", "Bx.Num.C131_larger_kappa_max_can_be_worse"], "note": "The whole claim is false with the order pi-sign-change: when kappa goes beyond kappa-max in the loop that follows a push, the next push is made at once, which the run with the larger kappa-max makes later from another vector; C131_larger_kappa_max_can_be_worse is a run where the value is 4 with a kappa-max of 1/4 and 5 with 7/20. Proved: a success is kept, after the same passes (C131_success_is_kept), the solution is at least as good as all those of the main loop (C131_at_least_as_good_partial), it is the same with the orders other than pi-sign-change and cycle (C131_same_solution), and a failure leaves no more constraints (C131_no_more_unsatisfied)."},
{"property": "C132", "status": "partial", "theorems": ["Bx.Seed.C132_same_seed_same_numbers", "Bx.Seed.C132_numbers_of_a_run", "Bx.Seed.C132_when_seeds_agree", "Bx.Seed.C132_different_seeds_partial", "Bx.Seed.C132_seeds_that_agree", "Bx.Seed.C132_one_sequence", "Bx.Seed.C132_workers_may_agree"], "note": "Proved for the engines minstd_rand0 and minstd_rand, which are std::default_random_engine in libstdc++ and libc++: the numbers do not depend on the clock (C132_same_seed_same_numbers), none comes twice in 2147483646 draws (C132_numbers_of_a_run), and which seeds agree (C132_when_seeds_agree); different seeds up to 2147483646 give different numbers at each draw (C132_different_seeds_partial). False of the other seeds: 1 and 2147483647, both accepted by the command line, give the same run (C132_seeds_that_agree). The engines of all the workers follow one sequence from different places (C132_one_sequence), and two different seeds of workers may give the same place (C132_workers_may_agree). The distributions of the standard library, which turn the numbers into values, are not modelled."},
{"property": "C133", "status": "proved", "theorems": ["Bx.Stored.C133_rows_are_the_constraints", "Bx.Stored.C133_violated_constraints", "Bx.Stored.C133_columns_are_the_constraints"], "note": "Proved on the matrix of Model/SparseMatrix and the arrays of Model/Coefficients, from an accepted list of constraints whose variables are those of the problem: rows (C133_rows_are_the_constraints), columns (C133_columns_are_the_constraints), violated constraints (C133_violated_constraints). It also justifies the rows of Model/Itm and the columns of Model/Multipliers, which the other claims use."},
{"property": "C134", "status": "partial", "theorems": ["Bx.Optimizer.C134_passes_are_kept", "Bx.Optimizer.C134_not_worse_partial", "Bx.Optimizer.C134_no_more_unsatisfied_partial"], "note": "Proved for any number of workers and every order of their steps, whatever the step at which each of them sees the flag: the passes are kept (C134_passes_are_kept), a success is kept with a value that is at least as good (C134_not_worse_partial), no more constraints remain (C134_no_more_unsatisfied_partial). Missing: overlapping insertions, for which the best solution can be lost (C46_best_is_lost)."},
{"property": "C135", "status": "partial", "theorems": ["Bx.Scaling.C135_same_search_partial", "Bx.Scaling.C135_same_search_integer_partial", "Bx.Scaling.C135_computed_delta_partial", "Bx.Scaling.C135_scaled_delta_partial", "Bx.Scaling.C135_fixed_delta_changes_the_search", "Bx.Scaling.C135_norm_l2_changes_the_search"], "note": "Proved for the norms l1 and infinity (C135_same_search_partial, and C135_same_search_integer_partial for the integer solver), and for every norm when delta is computed by the program (C135_computed_delta_partial) or multiplied too (C135_scaled_delta_partial). It does not hold with a delta given by the user without norm (C135_fixed_delta_changes_the_search) or with the norm l2, which divides by the sum of the squares without its square root (C135_norm_l2_changes_the_search). Missing: the policies that solve the constraints for the initial vector, whose costs are rounded to float, the random norm and the rounding of the operations."},
{"property": "C136", "status": "partial", "theorems": ["Bx.Scaling.C136_same_search_partial", "Bx.Scaling.C136_delta_changes_the_search", "Bx.Scaling.C136_norm_loo_changes_the_search", "Bx.Scaling.C136_lagrangian_order_changes_the_search"], "note": "Proved for the four solvers with coefficients -1, 0 and 1, with a null delta, the norms none, l1 and l2, the default initial policy and an order that does not follow the multipliers (C136_same_search_partial). It does not hold with a positive delta, which is added to the preferences in both directions (C136_delta_changes_the_search), with the norm infinity, which divides by a negative number when all costs are negative (C136_norm_loo_changes_the_search), or with the orders that follow the multipliers (C136_lagrangian_order_changes_the_search). Missing: the integer solver, the policies that solve the constraints for the initial vector, the random norm and the rounding of the operations."},
{"property": "C137", "status": "proved", "theorems": ["Bx.Rename.C137_workers", "Bx.Rename.C137_preprocess", "Bx.Rename.C137_solve", "Bx.Rename.C137_optimize", "Bx.Rename.C137_file", "Bx.Rename.C137_check", "Bx.Rename.C137_value", "Bx.Rename.C137_equal_names_break_the_check"], "note": "Preprocessing (C137_preprocess), solve and optimize (C137_solve, C137_optimize), optimize with any number of workers (C137_workers), check and value of a solution (C137_check, C137_value), reading of a file written in the grammar of C68 (C137_file). C137_equal_names_break_the_check shows why distinct names must stay distinct for the check."},
{"property": "C138", "status": "proved", "theorems": ["Bx.Twice.C138_workers", "Bx.Looser.C138_file", "Bx.Looser.C138_file_solve", "Bx.Looser.C138_file_optimize", "Bx.Twice.C138_preprocess", "Bx.Twice.C138_merge", "Bx.Twice.C138_solve", "Bx.Twice.C138_optimize", "Bx.Twice.C138_check", "Bx.Twice.C138_value", "Bx.Twice.C138_other_order_counts_twice"], "note": "Preprocessing (C138_preprocess), merge (C138_merge), solve and optimize (C138_solve, C138_optimize), optimize with any number of workers (C138_workers), check and value of a solution (C138_check, C138_value). The numbers of the constraints are distinct, as in a problem read from a file, and keep their order. C138_other_order_counts_twice shows why the terms must be in the same order. Files: a file where constraints are written again, with their terms grouped in any way that keeps the order of the variables, is read as such a problem (C138_file), from the text to the result of solve and optimize (C138_file_solve, C138_file_optimize)."},
{"property": "C139", "status": "partial", "theorems": ["Bx.Constant.C139_preprocess", "Bx.Constant.C139_search_partial", "Bx.Constant.C139_search_integer_partial", "Bx.Constant.C139_solve_partial", "Bx.Constant.C139_optimize_partial", "Bx.Constant.C139_check", "Bx.Constant.C139_value", "Bx.Constant.C139_rounded_value_partial", "Bx.Constant.C139_rounding_changes_the_order", "Bx.Constant.C139_workers_partial"], "note": "Exact arithmetic: preprocessing (C139_preprocess), the search with its multipliers and preferences for the three kinds and for the integer solver (C139_search_partial, C139_search_integer_partial), solve and optimize (C139_solve_partial, C139_optimize_partial), optimize with any number of workers (C139_workers_partial), check and value of a solution (C139_check, C139_value). A failed run carries no value. With double, the values when no operation rounds (C139_rounded_value_partial). Missing: the rounding in general, with which the claim is false (C139_rounding_changes_the_order), and the mode nlopt when the library is built with it."},
{"property": "C140", "status": "partial", "theorems": ["Bx.Looser.C140_merge", "Bx.Looser.C140_solve_partial", "Bx.Looser.C140_optimize_partial", "Bx.Looser.C140_workers_partial", "Bx.Looser.C140_check", "Bx.Looser.C140_value", "Bx.Looser.C140_preprocessing_keeps_the_copy", "Bx.Looser.C140_file", "Bx.Looser.C140_file_solve_partial", "Bx.Looser.C140_file_workers_partial"], "note": "Merge (C140_merge), solve and optimize without preprocessing and without the mode branch (C140_solve_partial, C140_optimize_partial), optimize with any number of workers (C140_workers_partial), check and value of a solution (C140_check, C140_value). Missing: the preprocessing, which sees the copies: C140_preprocessing_keeps_the_copy shows a problem where it finds the values of two variables, and none with the copy. Files with looser copies are read as such problems (C140_file), with the same results of solve and optimize without preprocessing (C140_file_solve_partial, C140_file_workers_partial)."},
{"property": "C141", "status": "partial", "theorems": ["Bx.Reorder.C141_class", "Bx.Reorder.C141_merge_partial", "Bx.Reorder.C141_solve_partial", "Bx.Reorder.C141_optimize_partial", "Bx.Reorder.C141_workers_partial", "Bx.Reorder.C141_check", "Bx.Reorder.C141_value", "Bx.Reorder.C141_objective_value_partial", "Bx.Reorder.C141_order_hides_a_conflict", "Bx.Reorder.C141_default_order_changes_the_search", "Bx.Reorder.C141_file_partial", "Bx.Reorder.C141_file_solve_partial", "Bx.Reorder.C141_other_variables_are_renumbered", "Bx.Reorder.C141_objective_search_partial", "Bx.Reorder.C141_objective_search_integer_partial", "Bx.Reorder.C141_objective_rounded_costs", "Bx.Reorder.C141_rounding_changes_the_value", "Bx.Reorder.C141_objective_solve_partial", "Bx.Reorder.C141_objective_optimize_partial", "Bx.Reorder.C141_objective_workers_partial", "Bx.Reorder.C141_linear_preprocess", "Bx.Reorder.C141_linear_solve", "Bx.Reorder.C141_linear_optimize", "Bx.Reorder.C141_linear_workers", "Bx.Reorder.C141_products_order_changes_the_preprocessing", "Bx.Reorder.C141_repeated_terms_change_the_preprocessing"], "note": "Class of the solver (C141_class), merge, solve and optimize without preprocessing, without the mode branch and with an order that sorts the terms (C141_merge_partial, C141_solve_partial, C141_optimize_partial), optimize with any number of workers (C141_workers_partial), check and value of a solution (C141_check, C141_value, C141_objective_value_partial in exact arithmetic). False: with the default order of the constraints the order of the terms changes the solution (C141_default_order_changes_the_search); constraints with the same terms in different orders are not merged and their conflict is not seen (C141_order_hides_a_conflict). Files (C141_file_partial, C141_file_solve_partial) when all the variables are in the objective; the others are numbered by the constraints (C141_other_variables_are_renumbered). The search of solve, with its costs and multipliers, when the linear terms of the objective are in another order (C141_objective_search_partial, C141_objective_search_integer_partial) in exact arithmetic; the costs of a linear objective whatever the rounding (C141_objective_rounded_costs). solve and optimize, with given random choices and costs, when all the terms of the objective are in another order (C141_objective_solve_partial, C141_objective_optimize_partial, C141_objective_workers_partial). With a linear objective also with preprocessing and in the mode branch (C141_linear_preprocess, C141_linear_solve, C141_linear_optimize, C141_linear_workers). False for the products of the objective and the preprocessing (C141_products_order_changes_the_preprocessing), for an objective where a variable is twice (C141_repeated_terms_change_the_preprocessing), and in floating point for the value (C141_rounding_changes_the_value). Missing: the preprocessing when the terms of the constraints are in another order, and the costs when the products of the objective are in another order."},
{"property": "C142", "status": "proved", "theorems": ["Bx.Bounds.C142_solve", "Bx.Bounds.C142_optimize", "Bx.Bounds.C142_workers", "Bx.Bounds.C142_fixed_solve", "Bx.Bounds.C142_fixed_optimize", "Bx.Bounds.C142_fixed_workers", "Bx.Bounds.C142_check", "Bx.Bounds.C142_fixed_variables_move", "Bx.Bounds.C142_fixed_at_seven_is_one", "Bx.Bounds.C142_file", "Bx.Bounds.C142_file_solve", "Bx.Bounds.C142_file_optimize", "Bx.Bounds.C142_file_fixed_solve", "Bx.Bounds.C142_file_fixed_optimize", "Bx.Bounds.C142_file_fixed_workers"], "note": "Without preprocessing: C142_solve, C142_optimize (all modes), C142_workers. With or without: C142_fixed_solve, C142_fixed_optimize, C142_fixed_workers. Check and value: C142_check. From the text of two files that differ only by the sections of bounds and kinds: C142_file, C142_file_solve, C142_file_optimize, C142_file_fixed_solve, C142_file_fixed_optimize, C142_file_fixed_workers. Consequences a user may not expect: without preprocessing a variable fixed at 0 by its bounds can be 1 in the solution of a success, and the check accepts it (C142_fixed_variables_move); with preprocessing a variable fixed at 7 gets the value 1 (C142_fixed_at_seven_is_one)."}
]}
