{
 "C01": [
  "proved",
  "is_valid_solution is exact on well formed problems and results naming each variable once; the no-solution case and the abort on an empty result are separate theorems."
 ],
 "C02": [
  "proved",
  "compute_solution is exact under the same hypotheses."
 ],
 "C03": [
  "proved",
  "The answer depends on the (name, value) pairs only, not on their order."
 ],
 "C04": [
  "proved",
  "Any well formed raw problem for which preprocess returns, any objective."
 ],
 "C05": [
  "proved",
  "Any objective; the raw problem must have a solution (see C08 for why)."
 ],
 "C06": [
  "partial",
  "Every solution survives for any objective. The optimum is preserved for linear objectives; it is lost for quadratic ones (C06_optimum_lost_for_quadratic_objective)."
 ],
 "C07": [
  "partial",
  "Holds for linear objectives; false for quadratic ones (C07_fails_for_quadratic_objective)."
 ],
 "C08": [
  "partial",
  "Abort or infeasible reduced problem implies raw infeasible. The converse is false of the code (C08_infeasibility_hidden)."
 ],
 "C09": [
  "partial",
  "Termination for every well formed problem; no abort for feasible problems with a linear objective. With quadratic terms there is undefined behaviour (C09_quadratic_undefined_behaviour)."
 ],
 "C10": [
  "partial",
  "Exact when no constraint has one element, which preprocess guarantees. Two refutations of the unrestricted claim. `affect` returns, or aborts only when no solution has the value (C10_affect_ends_partial); split returns when both values have a solution (C10_split_returns_partial)."
 ],
 "C100": [
  "partial",
  "For optimize with any number of workers and every order of their steps, the number reported is the least number of violated constraints of all the vectors of the run, zero exactly for a success, whatever the storage. It need not be that of the reported vector (C100_number_of_another_vector). solve and trivial problems always report 2147483647 (C100_solve_never_tells, C100_trivial_problem). Missing: overlapping insertions, for which the entries can be torn (C46_torn_entry_is_reported)."
 ],
 "C101": [
  "partial",
  "Proved for the codes and the values of both functions. False of the default storage, which is documented to keep the best solution (C101_default_storage), and of the default seed (C101_default_seed)."
 ],
 "C102": [
  "partial",
  "Proved: what the list tells of a problem that is read (C102_list_tells_the_run_partial) and that the value of a success is that of a solution of the problem in the file, for linear problems and the storage `one` (C102_value_of_a_solution_partial). False of an unreadable file, which is a success of value 0 (C102_unreadable_file); of the default storage, whose value is that of the worst vector (C102_default_value_is_not_reached); of the remaining constraints of `solve` (C102_remaining_constraints); of the numbers of variables and constraints (C102_counts_are_reduced)."
 ],
 "C103": [
  "partial",
  "What is compared is stated exactly. Proved for linear objectives; the quadratic part of the objective is not compared (C103_quadratic_part_ignored)."
 ],
 "C104": [
  "partial",
  "Proved for every line that has the name of a parameter, and for the whole message, when ten digits are enough for the real numbers. False of the lines `auto-tune`, `observation` and `kappa` (C104_lines_refused, C104_mode_is_lost) and of the computed step (C104_computed_delta_refused); the seed, the number of threads, the storage and the preprocessing are not told (C104_not_in_the_message). The word of `observation` given to `observer-type`, and the word of `auto-tune` of a single mode given to `--auto`, give the parameter back (C104_words_give_back_partial)."
 ],
 "C105": [
  "partial",
  "Proved for one worker, when the initial vectors have different hashes, of the solutions stored as such. False with two workers that test before either inserts (C105_two_workers_store_it_twice), when two initial vectors are equal (C105_initial_vectors_are_not_compared), and of a vector inserted when the time is up before a pass (C105_stored_without_a_pass)."
 ],
 "C106": [
  "partial",
  "Proved: the order of the calls when there is a constraint and a variable, that the messages are true and never get worse, and that the result is the one of C47, C48 and C100. False: `finish` is not called without constraint or variable, even when the preprocessing removes them (C106_no_finish_without_constraint, C106_no_finish_after_preprocessing); `update` is called each second, not for each improvement (C106_update_without_improvement). An insertion is one step, as in C47."
 ],
 "C107": [
  "proved",
  "The time that the workers take to see the flag is not measured: a worker looks at it before each pass."
 ],
 "C108": [
  "partial",
  "Proved for the check, the preprocessing, the branching and the rows with coefficients -1, 0, 1. With integer coefficients it needs a condition on the cell after the row, which select_variables adds to its sum (C108_next_cell_overflows shows why). Accepted problems with `int` numbers do overflow: C108_accepted_problem_overflows, C108_row_overflows; so does reading a variable twice: C108_reading_overflows. The initial vectors and population are exact on the same problems (C108_initialization_is_exact)."
 ],
 "C109": [
  "partial",
  "How a turn starts is proved (two different members, insertions, mutation); that it does is proved for usual draws. It is false of accepted parameters: a selection without deviation never ends (C109_no_deviation_never_returns), a mean of 1 reads out of the ranking (C109_mean_one_is_undefined), and the documented way not to mutate never starts a turn (C109_documented_no_mutation_never_starts). Numbers are exact."
 ],
 "C11": [
  "proved",
  "Field by field identity."
 ],
 "C110": [
  "partial",
  "The lower bound, the sequence of the turns and the crossovers are proved. The upper bound holds when stop and increase make at most 1, and is false otherwise (C110_above_max). The first turns start from 0 instead of init_kappa_improve_start (C110_first_turns), and an increase of 0 never gives a crossover (C110_no_increase_never_crosses). Numbers are exact."
 ],
 "C111": [
  "partial",
  "The text and the problem are proved for every size. The result of a run is proved in every mode, with the hypothesis of C47 on the crossovers, without preprocessing for every board and with it when a placement exists (C32 tells why). How sscanf reads numbers is a parameter: it reads the integers, and nothing in a word that begins with x."
 ],
 "C112": [
  "partial",
  "Proved for solve. For optimize it is proved when the result has constraints, for any number of workers, an insertion in the population being one step, and false otherwise: C112_optimize_forgets_the_variables is a problem with one variable and no constraint for which optimize tells no variable and solve tells one."
 ],
 "C113": [
  "partial",
  "The values are proved (C113_values). A combination is in range exactly when its kappa_min is below kappa_max, so all are when kappa_max is above 0.602. False otherwise (C113_out_of_range): the arrays of the parameters go on with the values of theta from the third one, and with the default kappa_max, 0.6, one combination in five has its kappa_min above it. The one that gives the result is among them, so that its turns start above kappa_max (C113_last_run_above_kappa_max)."
 ],
 "C114": [
  "partial",
  "Rounding to p binary digits, ties to even, without overflow. Proved for factors that are multiples of a power of 2, such as integers, with a bound on the sum of their absolute values (2^53 for integers), for a linear objective after the preprocessor (C07 is false for quadratic ones). Without the preprocessor the two values are equal for every rounding (C114_same_order). In general both are near the objective (C114_values_are_close). False in general: the preprocessor changes the order of the additions (C114_values_differ), and a better solution can have a worse value (C114_order_is_lost). When the rounding does nothing the rounded preprocessor and values are those of the other claims, also for quadratic objectives (C114_without_rounding)."
 ],
 "C115": [
  "partial",
  "Proved: the lines printed during optimize, the value after a success of solve and of optimize with the storage one, the number of constraints after a failure of optimize. False: a failure of solve always prints 2147483647 remaining constraints and the loop limit (C115_solve_failure_is_not_told); with the storage five the value printed as the best is the worst one (C115_five_prints_the_worst); the preprocessor is named without preprocessing (C115_preprocessor_named_without_it). Missing: the number of the loop and the duration of optimize, which are arguments of the model; the insertion of a vector is one step."
 ],
 "C116": [
  "partial",
  "Proved for the messages of the library in a build with messages (BARYONYX_ENABLE_LOG), outside the tuners. False: with --quiet the program prints the start and the end of the run (C116_quiet_is_not_silent); the modes that tune or branch replace the verbosity, so that their own messages are never printed (C116_tuners_are_silent) and warnings are printed although the verbosity excludes them (C116_tuners_print_warnings)."
 ],
 "C117": [
  "proved",
  "For the solvers with 0/1 and -1/0/1 coefficients and the update without push. The loss is real: C117_dearer_row gives two updates from the start that end on a dearer assignment in double. Overflow, subnormal numbers, NaN and infinities are not modelled. When the rounding does nothing the rounded update is the exact one (C117_update_without_rounding)."
 ],
 "C118": [
  "partial",
  "Proved for the preferences, under the conditions of C72 (positive coefficients, a row value that is neither the least nor the greatest, delta of the sign of the direction). The multiplier separates only up to the rounding errors (C118_nearly_separates_partial); without this tolerance the claim is false (C118_separation_lost)."
 ],
 "C119": [
  "partial",
  "Proved: the lowest numbers of each line are green and the highest ones blue, whatever the missing results and the NaN. So green is the best for minimizations; for maximizations the colours are the other way round (C119_best_is_blue)."
 ],
 "C12": [
  "proved",
  "Exact characterisation for all problems; a null coefficient counts as a 0/1 one."
 ],
 "C120": [
  "partial",
  "Proved for the solvers with 0/1 and -1/0/1 coefficients, whatever the rounding: C120_rows_of_the_run, C120_last_row_holds and C120_best_of_the_run; that the run returns is proved with the exceptions of C84 (C120_solve_returns_partial). Overflow, subnormal numbers, NaN and infinities are not modelled, and the value of the objective is exact (its rounding is C114). The answer does depend on the type of the numbers: C120_rounding_changes_the_answer."
 ],
 "C121": [
  "partial",
  "Whatever the rounding: C121_respects_and_keeps, C121_short_row_as_computed, C121_rows_of_the_run and C121_best_of_the_run; the rows of ten variables or more with positive coefficients among the assignments that set two variables (C121_long_row_as_computed_partial). With a relative error of each operation: C121_short_row_nearly_cheapest_partial and C121_long_row_nearly_cheapest_partial, for coefficients that are not negative; without error on a grid: C121_short_row_on_a_grid_partial. Partial because the exact claims C91 and C92 are, because the cheapest assignment may be missed by rounding (C121_dearer_row), and because overflow, subnormal numbers, NaN and infinities are not modelled. When the rounding does nothing the rounded update is the exact one (C121_without_rounding)."
 ],
 "C122": [
  "partial",
  "Proved for every size: C122_size_is_close, C122_small_sizes_are_exact, C122_sizes_keep_their_order, C122_one_reading; what is counted: C122_size_counts_every_part, C122_size_counts_the_affected. The last part of the statement is false: a problem without a string buffer, as a program that fills a raw_problem by hand has it, is undefined behaviour in preprocess and unpreprocess (C122_without_strings_undefined), so C122_preprocess_with_strings_partial asks for a buffer; and the message 'Preprocessor finish' repeats the size of the raw problem (C122_finish_repeats_the_size). A problem that was read is never printed with less than 1 MB (C122_at_least_one_block). The bound of std::size_t is not modelled."
 ],
 "C123": [
  "partial",
  "Proved for every problem that the writer can print and of which a variable is left: C123_file_is_the_reduced_problem_partial (reduction, text and reader together). C123_writing_changes_nothing: for every well formed problem the result of preprocess is the same with or without the file. Missing: what C41 excludes, constraints with a factor 0 or whose factors and value may leave the range of int, constants printed with an exponent. False parts: a file of that name is overwritten (C123_overwrites), when every variable has a value the file is empty and is not read (C123_nothing_left), split leaves only one of the two problems (C123_split_keeps_the_last), a file that cannot be opened is not told (second part of C123_writing_changes_nothing)."
 ],
 "C124": [
  "partial",
  "Proved for every problem: C124_order_of_the_types (the six options), C124_order_of_the_file and C124_memory_sorts_the_terms (none and memory; C124_file_order_partial when no left-hand side is repeated), C124_special_order (what p1 to p4 do). False parts: with none and memory a repeated left-hand side has the place of its first equality, else of its first <=, even if a >= is before them in the file (C124_a_repeated_side_moves); p1 to p4 apply the inverse of the sorted order, so that the constraints are not sorted (C124_special_is_not_sorted); p2, p3 and p4 are the same order (C124_three_names_for_one_order). The division of the shared cost is exact here."
 ],
 "C125": [
  "partial",
  "Proved for every sequence of operations: C125_names_live_with_their_object_partial, by a refinement of objects that hold their texts themselves. False part: reading a result in an object that already shows names replaces its buffer and keeps the old views (C125_reading_twice). A string of more than 1 MiB overflows its buffer (C55_long_string_overflows)."
 ],
 "C126": [
  "partial",
  "Proved for all the lines of the help message: C126_listed_values_are_accepted_partial. False part, and only this one: loop limits under -1, the value 0 of delta, pushing-objective-amplifier and pushing-k-factor, and init-policy:cycle are listed and refused (C126_listed_but_refused, C126_refused_values_are_listed)."
 ],
 "C127": [
  "partial",
  "The whole claim is false: two workers write one solution under reader locks (C127_two_workers_write_one_solution), a worker reads the indices without the mutex when another one sorts them (C127_indices_read_during_a_sort), two crossovers write the random vector (C127_two_crossovers_write_the_random_vector), a crossover resets a vector that another one reads (C127_a_crossover_writes_what_another_reads), and update is given a number of calls which the worker is writing (C127_calls_read_during_a_run). Proved under every schedule: these are the only kinds of races (C127_races_are_confined_partial), and there is none with one worker and without update (C127_one_worker_without_update)."
 ],
 "C128": [
  "partial",
  "The whole claim is false: when the time is over in the loop that follows a push, only this loop ends, and a further push is made that the run with more time does not make; C128_more_time_can_be_worse is a run of the order pi-sign-change where it gives the value 4 instead of 5. Proved: a success is kept (C128_success_is_kept), the passes that begin in time are shared (C128_passes_in_time_are_shared), the solution is at least as good as all those reached in time (C128_at_least_as_good_partial), it is the same with the orders other than pi-sign-change and cycle (C128_same_solution), and a failure leaves no more constraints (C128_no_more_unsatisfied)."
 ],
 "C129": [
  "proved",
  ""
 ],
 "C13": [
  "proved",
  "Every order option, every implementation of the sorts, int sums."
 ],
 "C130": [
  "proved",
  ""
 ],
 "C131": [
  "partial",
  "The whole claim is false with the order pi-sign-change: when kappa goes beyond kappa-max in the loop that follows a push, the next push is made at once, which the run with the larger kappa-max makes later from another vector; C131_larger_kappa_max_can_be_worse is a run where the value is 4 with a kappa-max of 1/4 and 5 with 7/20. Proved: a success is kept, after the same passes (C131_success_is_kept), the solution is at least as good as all those of the main loop (C131_at_least_as_good_partial), it is the same with the orders other than pi-sign-change and cycle (C131_same_solution), and a failure leaves no more constraints (C131_no_more_unsatisfied)."
 ],
 "C132": [
  "partial",
  "Proved for the engines minstd_rand0 and minstd_rand, which are std::default_random_engine in libstdc++ and libc++: the numbers do not depend on the clock (C132_same_seed_same_numbers), none comes twice in 2147483646 draws (C132_numbers_of_a_run), and which seeds agree (C132_when_seeds_agree); different seeds up to 2147483646 give different numbers at each draw (C132_different_seeds_partial). False of the other seeds: 1 and 2147483647, both accepted by the command line, give the same run (C132_seeds_that_agree). The engines of all the workers follow one sequence from different places (C132_one_sequence), and two different seeds of workers may give the same place (C132_workers_may_agree). The distributions of the standard library, which turn the numbers into values, are not modelled."
 ],
 "C133": [
  "proved",
  "Proved on the matrix of Model/SparseMatrix and the arrays of Model/Coefficients, from an accepted list of constraints whose variables are those of the problem: rows (C133_rows_are_the_constraints), columns (C133_columns_are_the_constraints), violated constraints (C133_violated_constraints). It also justifies the rows of Model/Itm and the columns of Model/Multipliers, which the other claims use."
 ],
 "C134": [
  "partial",
  "Proved for any number of workers and every order of their steps, whatever the step at which each of them sees the flag: the passes are kept (C134_passes_are_kept), a success is kept with a value that is at least as good (C134_not_worse_partial), no more constraints remain (C134_no_more_unsatisfied_partial). Missing: overlapping insertions, for which the best solution can be lost (C46_best_is_lost)."
 ],
 "C135": [
  "partial",
  "Proved for the norms l1 and infinity (C135_same_search_partial, and C135_same_search_integer_partial for the integer solver), and for every norm when delta is computed by the program (C135_computed_delta_partial) or multiplied too (C135_scaled_delta_partial). It does not hold with a delta given by the user without norm (C135_fixed_delta_changes_the_search) or with the norm l2, which divides by the sum of the squares without its square root (C135_norm_l2_changes_the_search). Missing: the policies that solve the constraints for the initial vector, whose costs are rounded to float, the random norm and the rounding of the operations."
 ],
 "C136": [
  "partial",
  "Proved for the four solvers with coefficients -1, 0 and 1, with a null delta, the norms none, l1 and l2, the default initial policy and an order that does not follow the multipliers (C136_same_search_partial). It does not hold with a positive delta, which is added to the preferences in both directions (C136_delta_changes_the_search), with the norm infinity, which divides by a negative number when all costs are negative (C136_norm_loo_changes_the_search), or with the orders that follow the multipliers (C136_lagrangian_order_changes_the_search). Missing: the integer solver, the policies that solve the constraints for the initial vector, the random norm and the rounding of the operations."
 ],
 "C137": [
  "proved",
  "Preprocessing (C137_preprocess), solve and optimize (C137_solve, C137_optimize), optimize with any number of workers (C137_workers), check and value of a solution (C137_check, C137_value), reading of a file written in the grammar of C68 (C137_file). C137_equal_names_break_the_check shows why distinct names must stay distinct for the check."
 ],
 "C138": [
  "proved",
  "Preprocessing (C138_preprocess), merge (C138_merge), solve and optimize (C138_solve, C138_optimize), optimize with any number of workers (C138_workers), check and value of a solution (C138_check, C138_value). The numbers of the constraints are distinct, as in a problem read from a file, and keep their order. C138_other_order_counts_twice shows why the terms must be in the same order. Files: a file where constraints are written again, with their terms grouped in any way that keeps the order of the variables, is read as such a problem (C138_file), from the text to the result of solve and optimize (C138_file_solve, C138_file_optimize)."
 ],
 "C139": [
  "partial",
  "Exact arithmetic: preprocessing (C139_preprocess), the search with its multipliers and preferences for the three kinds and for the integer solver (C139_search_partial, C139_search_integer_partial), solve and optimize (C139_solve_partial, C139_optimize_partial), optimize with any number of workers (C139_workers_partial), check and value of a solution (C139_check, C139_value). A failed run carries no value. With double, the values when no operation rounds (C139_rounded_value_partial). Missing: the rounding in general, with which the claim is false (C139_rounding_changes_the_order), and the mode nlopt when the library is built with it."
 ],
 "C14": [
  "proved",
  "Length bound, elements come from a constraint, and order independence of the solutions."
 ],
 "C140": [
  "partial",
  "Merge (C140_merge), solve and optimize without preprocessing and without the mode branch (C140_solve_partial, C140_optimize_partial), optimize with any number of workers (C140_workers_partial), check and value of a solution (C140_check, C140_value). Missing: the preprocessing, which sees the copies: C140_preprocessing_keeps_the_copy shows a problem where it finds the values of two variables, and none with the copy. Files with looser copies are read as such problems (C140_file), with the same results of solve and optimize without preprocessing (C140_file_solve_partial, C140_file_workers_partial)."
 ],
 "C141": [
  "partial",
  "Class of the solver (C141_class), merge, solve and optimize without preprocessing, without the mode branch and with an order that sorts the terms (C141_merge_partial, C141_solve_partial, C141_optimize_partial), optimize with any number of workers (C141_workers_partial), check and value of a solution (C141_check, C141_value, C141_objective_value_partial in exact arithmetic). False: with the default order of the constraints the order of the terms changes the solution (C141_default_order_changes_the_search); constraints with the same terms in different orders are not merged and their conflict is not seen (C141_order_hides_a_conflict). Files (C141_file_partial, C141_file_solve_partial) when all the variables are in the objective; the others are numbered by the constraints (C141_other_variables_are_renumbered). The search of solve, with its costs and multipliers, when the linear terms of the objective are in another order (C141_objective_search_partial, C141_objective_search_integer_partial) in exact arithmetic; the costs of a linear objective whatever the rounding (C141_objective_rounded_costs). solve and optimize, with given random choices and costs, when all the terms of the objective are in another order (C141_objective_solve_partial, C141_objective_optimize_partial, C141_objective_workers_partial). With a linear objective also with preprocessing and in the mode branch (C141_linear_preprocess, C141_linear_solve, C141_linear_optimize, C141_linear_workers). False for the products of the objective and the preprocessing (C141_products_order_changes_the_preprocessing), for an objective where a variable is twice (C141_repeated_terms_change_the_preprocessing), and in floating point for the value (C141_rounding_changes_the_value). Missing: the preprocessing when the terms of the constraints are in another order, and the costs when the products of the objective are in another order."
 ],
 "C142": [
  "proved",
  "Without preprocessing: C142_solve, C142_optimize (all modes), C142_workers. With or without: C142_fixed_solve, C142_fixed_optimize, C142_fixed_workers. Check and value: C142_check. From the text of two files that differ only by the sections of bounds and kinds: C142_file, C142_file_solve, C142_file_optimize, C142_file_fixed_solve, C142_file_fixed_optimize, C142_file_fixed_workers. Consequences a user may not expect: without preprocessing a variable fixed at 0 by its bounds can be 1 in the solution of a success, and the check accepts it (C142_fixed_variables_move); with preprocessing a variable fixed at 7 gets the value 1 (C142_fixed_at_seven_is_one)."
 ],
 "C15": [
  "partial",
  "Exception implies infeasible, and no other failure. The converse holds for equalities; it is false for two inequalities (C15_contradiction_not_reported)."
 ],
 "C16": [
  "partial",
  "Feasible problems without null coefficients. Two refutations of the unrestricted claim."
 ],
 "C17": [
  "proved",
  "Rows, columns, and uniqueness of slots; the empty matrix is undefined behaviour (separate theorem)."
 ],
 "C18": [
  "proved",
  "Every size, every history; out-of-range calls abort."
 ],
 "C19": [
  "partial",
  "Exact for v = false or index multiple of 64. Refuted for every other index (C19_set_true_clears)."
 ],
 "C20": [
  "partial",
  "Equal implies agreeing; the converse for histories without ones(). Refuted with ones()."
 ],
 "C21": [
  "partial",
  "Ranges aligned on 64 bits. Refuted in general."
 ],
 "C22": [
  "proved",
  "All parents, all random words. The crossovers of the population too (C22_crossover_of_the_population)."
 ],
 "C23": [
  "proved",
  "All rows, orders of the reduced costs and assignments; the unsatisfiable case is characterised too."
 ],
 "C24": [
  "partial",
  "Holds except when the selection reads one cell past the buffer, which only happens for a longest constraint."
 ],
 "C25": [
  "partial",
  "Equality solvers and rows shorter than the longest one. Refuted for the longest row of the inequality solvers."
 ],
 "C26": [
  "proved",
  "All four 0/1 and -1/0/1 solvers, every assignment."
 ],
 "C27": [
  "proved",
  "All solvers, all assignments."
 ],
 "C28": [
  "proved",
  "Every row update, random stream, clock and kappa; problems with a variable, a constraint and int sums. The solver Z is included."
 ],
 "C29": [
  "proved",
  "Stated on the list of the vectors at the end of every pass; exact arithmetic."
 ],
 "C30": [
  "proved",
  "Every run."
 ],
 "C31": [
  "partial",
  "Refuted: a run stopped by the clock or kappa reports the loop limit. The part that holds: success exactly when a solution was found, otherwise limit_reached."
 ],
 "C32": [
  "partial",
  "Proved with preprocessing, for linear and quadratic objectives; the agreement of the reported value is for linear objectives, as in the claim, and fails for quadratic ones (C32_quadratic_value_differs). Without preprocessing, proved for problems with a constraint. Refuted without preprocessing for problems with no constraint; a witness shows why feasibility is assumed."
 ],
 "C33": [
  "proved",
  "All rows with at least two elements, all bounds and reduced costs; reduced costs are rational numbers. With rounded sums, the best as computed: C33_exhaustive_as_computed. Stored selections may be repeated. A row with one element misses the empty selection: C33_one_element_aborts."
 ],
 "C34": [
  "partial",
  "Termination and feasibility for every satisfiable row; optimality for positive factors among the selections that use another item than the first. The full optimality claim is false of the code: C34_not_optimal, C34_negative_factors_not_optimal. With rounded sums: C34_as_computed_partial."
 ],
 "C35": [
  "proved",
  "Bytes of the vector and the free list inside the free blocks are modelled; the vector stays under 2^32 bytes. Alignment of the 32-bit accesses is not modelled."
 ],
 "C36": [
  "partial",
  "Reading ends for every readable text whose last token is the word end. For other texts the property is false: refutations with a text that ends the process, a text with undefined behaviour and a text on which the reader loops for ever."
 ],
 "C37": [
  "proved",
  "Every text that the reader accepts, with every scan of numbers: names, values, indices, elements and identifiers."
 ],
 "C38": [
  "partial",
  "Two readable texts with the same words, or with the same tokens up to the case of the keywords, give the same result when they have no square bracket or keep their words in the window of the reader (`Compact`). False for a comment on the last line and for quadratic terms that are spread out: refutations."
 ],
 "C39": [
  "partial",
  "`x <= b` and `a <= x <= b` give the bounds of each variable as written in any correct file; a line that begins with neither a name nor a number, or about an unknown variable, is an error. False for `x >= a`, `x = v`, `a <= x` alone, decreasing chains, names that begin with e, fractions: refutations. A variable alone on its line loses its bounds (C39_name_alone). What every line does, for all numbers and any operators: the last line about a variable decides (C39_every_line_as_read), the operators are not looked at (C39_operators_do_not_matter), and decreasing numbers are refused (C39_decreasing_is_refused)."
 ],
 "C40": [
  "partial",
  "In any correct file each variable has one element with the sum of its factors, and grouping terms does not change the result. False for non-integer coefficients in constraints (refutation); the quadratic terms are in C96."
 ],
 "C41": [
  "partial",
  "Any well formed problem without quadratic terms, with readable names, used variables, lower bounds 0 and numbers printed without an exponent sign is written as a text that is read as the same problem up to numbering, and exactly when it is numbered in the order of the text. What is read has the same solutions with the same values by name (C41_same_solutions_partial). False for lower bounds, fixed binaries, unused variables, quadratic terms, names that begin with e, exponents, empty constraints or no variables: refutations."
 ],
 "C42": [
  "proved",
  "The text written for any successful result with a solution and a value for each name is read, and gives a successful result with the same assignment of affected and solved variables (C42_round_trip). For any problem, the validity check and the objective value of the result that is read equal those of the written one (C42_check). Names are readable: no newline, no '=', no leading backslash, at most 1 MiB. The texts of the comments are arbitrary one-line texts. Observations: a failed result and a missing file are read as a success without variables; names with '=' or a leading backslash are misread; an empty value is read as 0; a blank line is refused."
 ],
 "C43": [
  "partial",
  "Every sequence of calls whose values stored without a test are not NaN; values in range are stored as given, values out of range are ignored or brought into range. False for NaN: two refutations."
 ],
 "C44": [
  "partial",
  "Every reachable context: setting back changes at most w, and nothing when w is 0 or between 1 and the limit. False for the other values of w: two refutations."
 ],
 "C45": [
  "proved",
  "Model: storage, insert, can_be_inserted, crossover and sort of itm-optimizer-common.hpp. C45_best_is_kept: from any population of at least five vectors (context_set_solver_parameters refuses fewer), after any sequence of try_update, try_advance and crossover calls made one at a time, no call fails, the ranking is sorted and has each entry once, and the front is at least as good as the initial vectors and as everything offered; if no crossover overwrites an entry, every entry is an initial or offered one. C45_four_entries_lose_the_best shows that the bound of five is needed."
 ],
 "C46": [
  "partial",
  "False as stated: insert reads m_indices without lock and replace_result writes under the shared lock. C46_best_is_lost (two workers delete the same entry, the best solution is lost), C46_data_race, C46_torn_entry_is_reported (an entry with the vector of one offer and remaining_constraints = 0 of another is reported as a success). Proved for every schedule and any number of workers (C46_safe_partial): no access outside the population, the indices stay a permutation, sort excludes the writers, the ranking is sorted when no call is in progress, each field of each entry was offered."
 ],
 "C47": [
  "partial",
  "False as stated: crossover overwrites the vector of an entry without changing its value and its number of remaining constraints (C47_overwritten_success_is_infeasible, with the default init_crossover_bastert_insertion of 0.01). Proved for any number of workers, every order of their steps, the storage one and no overwriting (init_crossover_bastert_insertion = 0): the solution satisfies every constraint of the problem given to the solver and, through the preprocessor, of the raw problem. The test of can_be_inserted and the insertion are two steps; an insertion is one. Missing: overlapping insertions, for which it is false because the entries can be torn (C46_torn_entry_is_reported)."
 ],
 "C48": [
  "partial",
  "False as stated for the storages bound and five: back(), used by is_valid_solution, compute_solution and the writer, is not the best (C48_bound_uses_an_infeasible_vector, C48_five_uses_the_worst). Proved for any number of workers and every order of their steps: optimize succeeds exactly when a vector of the run respects every constraint; the value of the first solution is the best of the run; with the storage one and no overwriting the only solution is the best vector. C48_one_worker_is_a_crew: the sequential model is a crew of one, and so is the whole of optimize with thread at 1 (C48_one_thread_is_a_crew). Missing: overlapping insertions, for which it is false (C46_best_is_lost, C46_torn_entry_is_reported). What each storage reports of a population is exact (C48_reported_entries)."
 ],
 "C49": [
  "partial",
  "False as stated for every problem and every behaviour of the inner optimizer (C49_never_returns): each turn adds two jobs and removes one. Proved: the run ends after at most 3^n turns by an abort, an exception or a read outside a vector. A turn splits the best open problem, opens its two halves and keeps the best result (C49_turn_explores_both_values)."
 ],
 "C50": [
  "partial",
  "Proved: the loop tries each of the 5^5 combinations exactly once and stops. False: the result is that of one more call with the last combination (C50_returns_the_last_combination, C50_solution_is_lost). The least value found and its parameters are recorded (C50_least_value_is_recorded_partial), whatever the direction (C50_maximization_keeps_the_least)."
 ],
 "C51": [
  "partial",
  "Refuted: the first seed is never compared, and a seed drawn again is not compared with those before it. Proved: the last seed differs from the others except the first, and distinct draws give distinct seeds."
 ],
 "C52": [
  "proved",
  "For every pair of integer types in two's complement, of any width."
 ],
 "C53": [
  "proved",
  "The three functions, maximality of the trimmed part and idempotence."
 ],
 "C54": [
  "proved",
  "Exact numbers, and floating point with any rounding that keeps the order: the value of the search and that of compute_solution lie between the computed bounds without any margin (C54_rounded_between, C54_rounded_compute_solution). The bounds are reached for linear objectives that name each variable once."
 ],
 "C55": [
  "partial",
  "Proved for strings of at most 1048576 characters. Refuted for longer ones: the copy writes past the node."
 ],
 "C56": [
  "partial",
  "Refuted for the infinity norm of negative costs (the order is reversed) and of no cost (undefined behaviour). Proved for the other norms and for the infinity norm with a cost that is not negative. In floating point (C56_rounded_costs_partial, for every rounding that keeps the order) the order is kept weakly; costs that differ can become equal (C56_rounding_makes_ties). When the rounding does nothing the rounded norms are the exact ones (C56_without_rounding)."
 ],
 "C57": [
  "partial",
  "Proved for linear objectives and for quadratic ones without a square of a variable at 0. Refuted for squares: the cost of x0 in x0^2 is 0 when x0 is 0. In floating point: within one unit of rounding per term and one for the conversions, exact on a grid of powers of two; equality refuted (16777217 x0 - 16777216 x0 costs 0 in float). When the rounding does nothing the rounded costs are the exact ones (C57_without_rounding)."
 ],
 "C58": [
  "proved",
  "Every comparison named by the property, on numbers and infinities. With NaN the claim is false, which is also proved."
 ],
 "C59": [
  "proved",
  "All sizes from 3, all placements. C111 is about the text."
 ],
 "C60": [
  "partial",
  "Proved when rows <= columns, and for new arrays. Refuted for arrays with more rows than columns: the copy writes past its buffer."
 ],
 "C61": [
  "partial",
  "Every name of other than two characters and every text that is not NaN: an accepted parameter is documented, holds the value of the text, in range, and changes nothing else; a refused one changes nothing; a valid one is accepted; the result of any command line is in range. False for names of two characters, NaN and the value 1 of kappa: three refutations. The conversions from texts to numbers are arbitrary functions. A value made of blanks is read as 0 (C61_blank_is_zero)."
 ],
 "C62": [
  "proved",
  "Every order except pi_sign_change and cycle."
 ],
 "C63": [
  "partial",
  "Holds for every order except pi_sign_change and cycle. Refuted for pi_sign_change with more variables than constraints."
 ],
 "C64": [
  "partial",
  "Constraints with a coefficient other than 1 and -1 that are equalities, long or bounded on both sides; any other constraint when a prefix of the sorted row fits. Every update that returns satisfies its row and changes nothing else. The full claim is false of the code: four refutations."
 ],
 "C65": [
  "partial",
  "Every sequence of file names, flags, and options with values in the five ways to write them. False for --verbose and --check: two refutations."
 ],
 "C66": [
  "partial",
  "The status returned for a refused parameter is the status of this parameter. The text of the message is wrong for every parameter: two refutations."
 ],
 "C67": [
  "partial",
  "Proved when a cost is not negative. Refuted for negative costs: the final division reverses the order. In floating point, for every rounding: the order is kept in the weak sense, or the largest cost is reached twice and the draw stops; refuted by two costs of 16777216 in float, on which the program stops. When the rounding does nothing the rounded norm, if it gives costs, gives those of the exact model (C67_without_rounding)."
 ],
 "C68": [
  "partial",
  "Proved for every correct file, with any number of groups of quadratic terms, with integer coefficients and values in constraints. False for constants in constraints and for non-integer values: refutations. A text that goes on after the word `end` is refused (C68_text_after_end)."
 ],
 "C69": [
  "proved",
  "The four solvers with coefficients 0/1 and -1/0/1, any tie breaking, both directions. C69_update_returns says when the update returns. Floating point numbers are rationals."
 ],
 "C70": [
  "partial",
  "False as stated: the 0/1 solvers add the costs of other variables (C70_push_reads_other_costs) and the others add the cost after the change of sign of a negative coefficient (C70_push_negative_coefficient). Proved for rows with positive coefficients, on variables 0, 1, ... in order for the 0/1 solvers."
 ],
 "C71": [
  "proved",
  "The four solvers with coefficients 0/1 and -1/0/1, any tie breaking, both directions, without push. Floating point numbers are rationals."
 ],
 "C72": [
  "partial",
  "False as stated for negative coefficients, for a positive delta when the problem maximises and for rows at an extreme value (C72_negative_coefficient, C72_maximise, C72_extreme_row). Proved in the other cases. C72_extreme_rows_reinforce_partial states what rows at an extreme value do instead."
 ],
 "C73": [
  "partial",
  "What an update that returns guarantees is proved for every constraint. It returns for satisfiable constraints with positive coefficients and for constraints that accept the value 0. False otherwise: a constraint with a negative upper bound always stops the process (C73_negative_bound_aborts), and a satisfiable row with coefficients of both signs can stop it (C73_mixed_row_aborts)."
 ],
 "C74": [
  "partial",
  "False of the code: the test that stops the loop is inverted and the cost of the first variable of the row is used for all. C74_no_improving_variable_is_set and C74_costly_variables_are_set state what the code does instead. C74_preferences_follow_the_values: the preferences of the row move towards the values chosen."
 ],
 "C75": [
  "partial",
  "Solver bastert and methods other than buffered: proved for feasible problems without null coefficient. Random solver: accepts the problems with coefficients -1 and 1, refuses the others and ignores the request. The method buffered stops the process on inequalities. The modes branch-manual and branch-nlopt are the mode branch. The result theorem covers every mode, and runs without preprocessing when the problem has a constraint and no variable fixed by its bounds; it needs the hypothesis of C47 on the crossover, and gives the reported value when the objective is linear or the preprocessor is not used. Without a context no problem is solved (C75_no_context_no_success)."
 ],
 "C76": [
  "partial",
  "False with nlopt: the first evaluation reads x[5] of a vector of five doubles, whatever nlopt does. Without nlopt the mode is the mode manual. A search that fails ends with the result of the mode manual (C76_failed_search_is_manual_partial)."
 ],
 "C77": [
  "partial",
  "Proved for linear objectives. False for quadratic ones (C77_quadratic_is_not_optimal)."
 ],
 "C78": [
  "partial",
  "Proved for the constraints with coefficients 1. False with a negative coefficient (C78_negative_coefficient). The pre-solve converts the costs to `float`: the best cost is that of the converted costs, exact when they are `float` numbers, and the general bound is C78_optimistic_is_nearly_optimal_partial; two costs that are equal in `float` may be swapped (C78_float_costs_tie)."
 ],
 "C79": [
  "partial",
  "solve: with every order except pi_sign_change and cycle the solution is the initial vector itself, which is not improved (C79_pessimistic_is_not_improved). With cycle, solve succeeds with a solution at least as good when it returns. With pi_sign_change the claim is false: the first pass updates every row and the initial vector is lost (C79_sign_change_loses_a_feasible_start). optimize: linear objectives and any number of workers, an insertion in the population being one step."
 ],
 "C80": [
  "partial",
  "Proved when a cost is not null, with exact arithmetic and in floating point (C80_rounded_delta_partial). False for a null objective, whose step is the largest floating-point number times (1 - theta) (C80_null_objective), and for `float`, whose conversion of theta may give 1 and a null step (C80_theta_converted)."
 ],
 "C81": [
  "partial",
  "Holds for every monotone rounding of the operations on kappa; the multipliers of the same run are exact. The two last clauses are false of the code: kappa-max = 1 lets a pass divide by zero (C81_weight_one), and with pi-sign-change the push phase goes beyond kappa-max (C81_push_weight_beyond_the_maximum), by at most one step."
 ],
 "C82": [
  "partial",
  "Proved for the main loop: a bound when each growth of kappa is at least some d > 0, with exact operations and with p binary digits. False for kappa-step = 0, which the parameters accept (C82_zero_step_never_ends), and for the positive kappa-steps that the addition of doubles loses (C82_small_step_never_ends)."
 ],
 "C83": [
  "partial",
  "Proved for seven orders in all passes and for cycle in the main loop. False for the push phase of cycle (C83_cycle_repeats_the_first_row). pi-sign-change visits the rows of indices below the number of variables whatever they are (C63)."
 ],
 "C84": [
  "partial",
  "Proved for the 0/1 and -1/0/1 equality solvers. With the inequality and the integer solvers the only fault is the read beyond the reduced costs (C25, C64); for the integer solver each row has a coefficient other than 1 and -1 and is not one-sided."
 ],
 "C85": [
  "partial",
  "Proved for the files whose cells are non-empty words that are read back as the same values: names without separators, numbers that the format of ten digits keeps. False of the code: a name of one letter before another name makes the file unreadable (C85_one_letter_name_breaks_the_file), empty cells move the values (C85_empty_cells_move_the_values), a cell of spaces becomes 0 (C85_blank_cell_is_zero), a last line without end is lost (C85_unended_line_is_lost)."
 ],
 "C86": [
  "partial",
  "Proved when the values are numbers or infinity. False with a minus infinity in the file (C86_minus_infinity_splits_a_rank); a NaN is an undefined behaviour of std::sort."
 ],
 "C87": [
  "partial",
  "False of the code: a model for which optimize returns without a solution is counted (C87_failures_are_counted, C87_unsolved_is_found). Proved when there is none."
 ],
 "C88": [
  "partial",
  "False of the code: the sum of the distances on the compared models is divided by the number of all the models (C88_distance_is_scaled, C88_unsolved_halves_the_distance), and the distance from the optimum compares the models of the run with its first model (C88_optimum_is_the_first_model). Proved when the solver and the run have solved all the models. Exact arithmetic."
 ],
 "C89": [
  "partial",
  "Proved with at least a solver and a model, no null value, and a number of models other than 512, 768, 1152 and so on. Undefined otherwise: C89_first_run_is_undefined (no solver), C89_full_array_is_undefined, C89_no_model_is_undefined, C89_null_value_is_undefined."
 ],
 "C90": [
  "proved",
  "Values of at most 511 characters, with at most nine digits: longer numbers can overflow an int."
 ],
 "C91": [
  "partial",
  "Proved for two to nine variables with coefficients that are not negative, two-sided rows or equalities; for ten or more, against the assignments that set two variables or more. False with a negative coefficient (the absolute value is used), for one-sided rows and for ten variables or more: see the three refutations. The prices are rationals."
 ],
 "C92": [
  "partial",
  "What is kept is proved. The preferences are proved when minimising: for every variable at 0, and for a variable at 1 up to a price. False beyond this price, when maximising, and for the multipliers: see the refutations. The prices are rationals. The multiplier adds a mean of two prices (C92_multiplier_is_a_mean_partial)."
 ],
 "C93": [
  "partial",
  "Proved for every success whose names can be written, and, without condition on the names, from the text of a linear problem to the text of the solution when the run is that of Model/Tuners, in any mode, with preprocessing when the problem has a solution, or without when it has a constraint and no variable fixed by its bounds. False of runs that are not a success (their file reads as a success without variable) and of quadratic problems (their names can hold `=`): see the refutations."
 ],
 "C94": [
  "proved",
  "The exit status, the messages and what silence means. The exit status does not tell of the failures: C94_failures_exit_zero."
 ],
 "C95": [
  "partial",
  "Proved when no run raises an exception before the line; an exception joins two lines (C95_exception_joins_lines)."
 ],
 "C96": [
  "partial",
  "Proved for every correct file, with any number of bracketed groups and with linear terms before, between and after them, whose text keeps each term close enough together that its words fit in the window of the reader (`Compact`). False for text spread over many lines: C38_quadratic_layout. A linear term inside the brackets is dropped and a cube is read as a square, without an error (C96_linear_in_brackets, C96_cube)."
 ],
 "C97": [
  "partial",
  "Proved for every number that is not NaN: to within 1/510 with exact arithmetic, and to within 1/509 with the rounding of float after each operation (C97_colour_tells_the_number_rounded; overflow and subnormal numbers are left out). NaN is undefined behaviour (C97_nan)."
 ],
 "C98": [
  "partial",
  "The size of the image and each of its pixels are proved; only the last multiplier is shown, in the first column (C98_other_multipliers_not_shown). With one constraint the claim holds. Without a limit, or when the file cannot be opened, the run stops (C98_no_limit, C98_cannot_open)."
 ],
 "C99": [
  "partial",
  "Proved for images of less than 2^32 bytes. False of larger ones (C99_large_images) and of the observer `file`, which reads a member that is never set (C99_file_undefined)."
 ]
}