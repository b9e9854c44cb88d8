{"id": "C01", "title": "Solution checking is exact", "statement": "is_valid_solution(raw_problem, result) returns true exactly when the 0-1 assignment named by the result (its last solution plus its affected variables) satisfies every equality, >= and <= constraint of the raw problem.", "quantifier": "every raw problem, every result that names each variable of the problem once", "why_tests_cant": "a test checks a handful of problems; a wrong comparison or a skipped constraint class only shows on the right combination of constraint, value and order", "anchors": ["lib/src/lpcore.cpp: is_valid_solution, is_valid_solution_impl, compute_function, make_variable_value"]}
{"id": "C02", "title": "The objective value is exact", "statement": "compute_solution(raw_problem, result) equals the constant of the objective plus the sum of the linear factors of variables at 1 plus the sum of the quadratic factors of pairs both at 1 (in exact arithmetic).", "quantifier": "every raw problem, every result naming each variable once", "why_tests_cant": "all assignments and all objective functions cannot be enumerated", "anchors": ["lib/src/lpcore.cpp: compute_solution, compute_solution_impl, make_variable_value"]}
{"id": "C03", "title": "Checking looks at names, not positions", "statement": "Reordering the (name, value) pairs of a result, or moving a pair between the affected variables and the solved variables, changes neither is_valid_solution nor compute_solution.", "quantifier": "every raw problem, every result with distinct names, every permutation and every split of its pairs", "why_tests_cant": "factorially many reorderings", "anchors": ["lib/src/lpcore.cpp: make_variable_value"]}
{"id": "C04", "title": "Preprocessing partitions the variables", "statement": "After preprocess, each variable name of the raw problem appears exactly once, either in the affected variables or in the remaining variables; the remaining variables keep their relative order and bounds and every variable index in the reduced problem is in range.", "quantifier": "every well formed raw problem on which preprocess returns", "why_tests_cant": "index remapping bugs need a specific mix of removed and kept variables", "anchors": ["lib/src/preprocessor.cpp: make_problem, variables_exclude_copy, constraints_exclude_copy, objective_function_exclude_copy"]}
{"id": "C05", "title": "Preprocessing is sound", "statement": "If the raw problem has a 0-1 solution (respecting variables fixed by equal bounds), every solution of the preprocessed problem, completed by the affected variables, satisfies every constraint of the raw problem.", "quantifier": "every feasible well formed raw problem, every assignment of the reduced problem", "why_tests_cant": "quantifies over all problems, all propagation orders and all assignments", "anchors": ["lib/src/preprocessor.cpp: preprocessor::operator(), affects, try_affect_variable, try_affect_bounded_variable, try_remove_unused_variable, reduce*"]}
{"id": "C06", "title": "Preprocessing loses no solution that matters", "statement": "If the raw problem is feasible, every feasible 0-1 assignment restricted to the remaining variables is feasible for the reduced problem; with a linear objective the completed restriction is at least as good as the original, so the optimum is preserved.", "quantifier": "every feasible well formed raw problem, every feasible assignment", "why_tests_cant": "needs all feasible assignments of all problems", "anchors": ["lib/src/preprocessor.cpp: try_remove_unused_variable, affects, constraints_exclude_copy"]}
{"id": "C07", "title": "Preprocessing preserves the objective", "statement": "For every assignment of the remaining variables, the objective of the reduced problem equals the objective of the raw problem on the completed assignment.", "quantifier": "every well formed raw problem (linear and quadratic), every assignment", "why_tests_cant": "all assignments and all affected/remaining splits", "anchors": ["lib/src/preprocessor.cpp: objective_function_exclude_copy, make_lp_from_bqp_objective"]}
{"id": "C08", "title": "Preprocessing keeps infeasibility visible", "statement": "If the raw problem has no 0-1 solution, preprocess either fails or returns a problem that has no solution.", "quantifier": "every infeasible well formed raw problem", "why_tests_cant": "infeasible inputs are unboundedly many and the failure is silent: a solution is reported", "anchors": ["lib/src/preprocessor.cpp: affects, try_affect_variable, constraints_exclude_copy"]}
{"id": "C09", "title": "Preprocessing terminates and does not abort on feasible problems", "statement": "On every feasible well formed problem preprocess returns a problem: the propagation loop stops, no contract check fails and no unreachable branch is reached; each variable is affected at most once.", "quantifier": "every feasible well formed raw problem", "why_tests_cant": "termination of a work-list over every problem is not testable", "anchors": ["lib/src/preprocessor.cpp: pp_lifo, affects, reduce_equal_constraint, reduce_greater_constraint, reduce_less_constraint"]}
{"id": "C10", "title": "Fixing a variable is exact", "statement": "affect(problem, v, value) returns a problem whose solutions, completed by its affected variables, are exactly solutions of the given problem with v at that value; split(problem, v) covers all solutions with its two results.", "quantifier": "every problem, variable and value such that the problem has a solution with that value", "why_tests_cant": "all problems and assignments", "anchors": ["lib/src/preprocessor.cpp: affect, split, preprocessor::operator()(int, bool)"]}
{"id": "C11", "title": "Disabling preprocessing changes nothing", "statement": "unpreprocess returns the same variables, constraints and objective as the raw problem, with no affected variable, classified by its coefficients.", "quantifier": "every raw problem", "why_tests_cant": "all raw problems", "anchors": ["lib/src/preprocessor.cpp: unpreprocess", "lib/src/problem.hpp: problem"]}
{"id": "C12", "title": "The solver class matches the problem", "statement": "The problem type computed for a problem is equalities_* exactly when it has no inequality, and *_01, *_101 or *_Z according to the smallest of the sets {0,1}, {-1,0,1}, all integers that contains every constraint coefficient (so a null coefficient does not by itself leave the 01 class; C16 covers what the solvers then do with it).", "quantifier": "every problem", "why_tests_cant": "all coefficient vectors", "anchors": ["lib/src/problem.hpp: problem::which_problem_type, coefficient_type"]}
{"id": "C13", "title": "Merging constraints preserves the solutions", "statement": "For each of the constraint orders, when make_merged_constraints returns, a 0-1 assignment satisfies every merged constraint (min <= sum <= max) iff it satisfies every constraint of the problem.", "quantifier": "every problem with int values, every order option, every assignment", "why_tests_cant": "combinations of duplicated left-hand sides across three constraint lists and twelve orders", "anchors": ["lib/src/merged-constraint.cpp: fill_merged_constraints, make_unsorted_merged_constraints, make_ordered_merged_constraints, make_special_merged_constraints, make_merged_constraints"]}
{"id": "C14", "title": "Merging never grows the problem and is order independent", "statement": "The number of merged constraints is at most the number of constraints; two different order options, when both return, give constraint sets with the same solutions.", "quantifier": "every problem, every pair of order options", "why_tests_cant": "all problems and orders", "anchors": ["lib/src/merged-constraint.cpp: make_merged_constraints"]}
{"id": "C15", "title": "A merge conflict means the problem is infeasible", "statement": "If merging throws multiple_constraint then no assignment satisfies the problem; conversely two contradictory constraints with the same left-hand side are always reported.", "quantifier": "every problem, every order option", "why_tests_cant": "all orders of contradictory constraints", "anchors": ["lib/src/merged-constraint.cpp: fill_merged_constraints"]}
{"id": "C16", "title": "The solver's coefficient contract always holds", "statement": "The merged constraints handed to the solver chosen by the problem type satisfy that solver's contract: factors 1 (01), factors +-1 (101), min = max for equalities solvers.", "quantifier": "every problem and order option for which merging returns", "why_tests_cant": "all problems", "anchors": ["lib/src/itm.hpp: solve, optimize", "lib/src/itm-solver-equalities-01.cpp: solver_equalities_01coeff", "lib/src/itm-solver-equalities-101.cpp: solver_equalities_101coeff", "lib/src/itm-solver-inequalities-01.cpp", "lib/src/itm-solver-inequalities-101.cpp"]}
{"id": "C17", "title": "The sparse matrix is the constraint matrix", "statement": "After construction, iterating row k yields the elements of constraint k in order, iterating column j yields exactly the (constraint, coefficient slot) pairs where variable j appears, and each coefficient slot appears in exactly one row and one column.", "quantifier": "every non-empty list of merged constraints with in-range variables", "why_tests_cant": "all matrices", "anchors": ["lib/src/sparse-matrix.hpp: sparse_matrix"]}
{"id": "C18", "title": "bit_array is an array of booleans", "statement": "Any sequence of set(i), unset(i), invert(i), zeros() and ones() on a bit_array gives, for every later get(i), the value that the same sequence gives on a plain array of booleans.", "quantifier": "every size, every sequence of operations with in-range indices", "why_tests_cant": "unbounded operation sequences and sizes; block boundaries", "anchors": ["lib/src/bit-array.hpp: bit_array_impl::set, unset, invert, get, zeros, ones"]}
{"id": "C19", "title": "set(index, value) stores the value", "statement": "After x.set(i, v), x.get(i) equals v and every other bit is unchanged.", "quantifier": "every size, index and value", "why_tests_cant": "every index within a block must be tried with both values", "anchors": ["lib/src/bit-array.hpp: bit_array_impl::set(int, bool)"]}
{"id": "C20", "title": "Equality and hash of bit arrays follow their contents", "statement": "Two bit arrays of the same size compare equal, and hash equally, whenever all their in-range bits agree; equal arrays have equal bits.", "quantifier": "every pair of arrays obtained by operations", "why_tests_cant": "depends on the history of padding bits", "anchors": ["lib/src/bit-array.hpp: operator==, bit_array_hash"]}
{"id": "C21", "title": "assign copies exactly the range", "statement": "x.assign(y, from, to) makes bits in [from, to) equal to those of y and leaves every other bit unchanged.", "quantifier": "every size and range", "why_tests_cant": "every pair of boundaries inside and across blocks", "anchors": ["lib/src/bit-array.hpp: bit_array::assign"]}
{"id": "C22", "title": "A crossover child mixes its parents", "statement": "Each bit of a child built by the block crossover of two solutions equals that bit of one of the two parents, whatever the random words are; bits on which both parents agree are inherited.", "quantifier": "all parents, all random words", "why_tests_cant": "all random streams", "anchors": ["lib/src/itm-optimizer-common.hpp: best_solution_recorder::crossover / init storage", "lib/src/bit-array.hpp: block operations"]}
{"id": "C23", "title": "Updating an equality row satisfies it", "statement": "After the 0/1 and the -1/0/1 equality solvers update the row of constraint k, the current assignment satisfies constraint k whenever some 0-1 assignment does.", "quantifier": "every constraint, every order of the reduced costs (any costs, any random tie breaking), every previous assignment", "why_tests_cant": "all permutations and multipliers", "anchors": ["lib/src/itm-solver-equalities-01.cpp: compute_update_row, select_variables", "lib/src/itm-solver-equalities-101.cpp", "lib/src/itm-common.hpp: affect"]}
{"id": "C24", "title": "Updating an inequality row satisfies it", "statement": "After the 0/1 and -1/0/1 inequality solvers update the row of constraint k, the current assignment satisfies min_k <= sum <= max_k, whenever the row's bounds are consistent.", "quantifier": "every constraint, reduced cost order and random choice", "why_tests_cant": "all permutations, random choices and bounds", "anchors": ["lib/src/itm-solver-inequalities-01.cpp: select_variables", "lib/src/itm-solver-inequalities-101.cpp: select_variables", "lib/src/itm-common.hpp: affect, stop_iterating"]}
{"id": "C25", "title": "Row updates stay inside the reduced-cost buffer", "statement": "Selecting the variables of a row never reads the reduced-cost array outside the entries written for that row.", "quantifier": "every row length, bounds and reduced cost", "why_tests_cant": "an out of bounds read is silent", "anchors": ["lib/src/itm-solver-inequalities-01.cpp: select_variables", "lib/src/itm-solver-inequalities-101.cpp: select_variables", "lib/src/itm-solver-inequalities-Z.cpp: select_variables"]}
{"id": "C26", "title": "A row update touches only its own variables", "statement": "Updating the row of constraint k changes no variable outside constraint k.", "quantifier": "every solver state and constraint", "why_tests_cant": "all states", "anchors": ["lib/src/itm-common.hpp: affect"]}
{"id": "C27", "title": "The violated-constraint count is exact", "statement": "The number the solver treats as 'remaining constraints' after each pass is the number of constraints violated by the current assignment; it is zero iff the assignment satisfies all of them.", "quantifier": "every constraint order, every assignment, every state", "why_tests_cant": "all orders and assignments", "anchors": ["lib/src/itm-common.hpp: compute_violated_constraints, compute_order::run, push_and_run, local_compute_violated_constraints"]}
{"id": "C28", "title": "solve: success means a feasible solution", "statement": "When solve reports success for a problem with constraints, the returned assignment satisfies every constraint the solver was given.", "quantifier": "every problem, parameters, random stream and clock", "why_tests_cant": "all runs of a randomised loop", "anchors": ["lib/src/itm-solver-common.hpp: solver_functor::operator(), store_if_better"]}
{"id": "C29", "title": "solve: the reported value is the objective of the reported solution", "statement": "When solve reports success, the value of the solution equals the objective function evaluated on the reported assignment (exact arithmetic), and it is the best among all feasible assignments the loop recorded.", "quantifier": "every run", "why_tests_cant": "all runs", "anchors": ["lib/src/itm-solver-common.hpp: store_if_better", "lib/src/itm-common.hpp: default_cost_type::results, quadratic_cost_type::results"]}
{"id": "C30", "title": "solve: the loop limit is respected", "statement": "The main loop of solve runs at most `limit` passes before the push phase, and the push phase runs at most pushes_limit * (1 + pushing_iteration_limit) passes.", "quantifier": "every run, every parameter set", "why_tests_cant": "liveness over all executions", "anchors": ["lib/src/itm-solver-common.hpp: solver_functor::operator()"]}
{"id": "C31", "title": "solve: the status tells why it stopped", "statement": "When solve fails to find a solution, its status says whether the time limit, the kappa maximum or the loop limit stopped it.", "quantifier": "every unsuccessful run", "why_tests_cant": "depends on the clock and kappa history", "anchors": ["lib/src/itm-solver-common.hpp: solver_functor::operator()"]}
{"id": "C32", "title": "End to end: success means the original problem is solved", "statement": "If the raw problem is feasible and solve reports success, is_valid_solution(raw problem, result) is true and compute_solution agrees with the reported value (linear objective).", "quantifier": "every feasible well formed raw problem, every parameter set, every random stream", "why_tests_cant": "composition of preprocessing, merging and a randomised loop", "anchors": ["lib/src/lpcore.cpp: solve, is_valid_solution, compute_solution", "lib/src/preprocessor.cpp", "lib/src/merged-constraint.cpp", "lib/src/itm-solver-common.hpp"]}
{"id": "C33", "title": "The exhaustive sub-solver is optimal", "statement": "For a constraint with at least two variables, the exhaustive solver enumerates every 0-1 assignment, keeps exactly those within bounds and selects one with the best reduced cost.", "quantifier": "every row with at least two coefficients, all bounds, all reduced costs", "why_tests_cant": "exponentially many assignments of arbitrary rows", "anchors": ["lib/src/exhaustive-solver.hpp: build_constraints, solve"]}
{"id": "C34", "title": "The branch-and-bound sub-solver returns a feasible best selection", "statement": "For a satisfiable row the branch-and-bound solver returns a selection within bounds, with the best total reduced cost among the selections within bounds.", "quantifier": "every satisfiable row and reduced costs", "why_tests_cant": "all rows", "anchors": ["lib/src/branch-and-bound-solver.hpp: branch_and_bound_solver::solve"]}
{"id": "C35", "title": "The sub-vector allocator never shares a live block", "statement": "For every sequence of emplace/remove on live blocks, the live blocks are disjoint, in range, and emplace returns a block that is not live.", "quantifier": "every sequence of operations, every element size of at least 4 bytes", "why_tests_cant": "unbounded histories", "anchors": ["lib/src/branch-and-bound-solver.hpp: shared_subvector"]}
{"id": "C36", "title": "Reading a problem never aborts the process", "statement": "make_problem returns a problem or an error status for every byte stream; it neither terminates the process nor loops forever.", "quantifier": "every input text", "why_tests_cant": "all byte streams", "anchors": ["lib/src/parser.cpp: make_problem, problem_parser::parse, raw_problem_status", "lib/src/lpcore.cpp: make_problem"]}
{"id": "C37", "title": "A parsed problem is well formed", "statement": "When make_problem succeeds, names are unique and as many as variable values, every variable index is in range, no constraint or objective names a variable twice, and constraint ids are distinct and follow the order of the file.", "quantifier": "every accepted input", "why_tests_cant": "all accepted inputs", "anchors": ["lib/src/parser.cpp: get_or_assign_variable, append_to_objective, parse"]}
{"id": "C38", "title": "Keywords are case-insensitive and layout is free", "statement": "Changing the case of section keywords, adding comments or changing white space between words does not change the parsed problem.", "quantifier": "every input and every re-layout of it", "why_tests_cant": "all layouts", "anchors": ["lib/src/parser.cpp: stream_token, are_equal, is_keyword"]}
{"id": "C39", "title": "Bounds are read as written", "statement": "A bounds line `x >= a` sets the lower bound, `x <= b` the upper bound, `x = v` both; and an unreadable bounds line is an error.", "quantifier": "every bounds line", "why_tests_cant": "all operators, values and positions", "anchors": ["lib/src/parser.cpp: read_bound, read_left_bound_token, read_right_bound_token, set_bound_variable"]}
{"id": "C40", "title": "Repeated terms add up", "statement": "In the objective and in each constraint, several terms of one variable are equivalent to one term with the summed coefficient.", "quantifier": "every objective and constraint", "why_tests_cant": "all term lists", "anchors": ["lib/src/parser.cpp: append_to_objective, parse"]}
{"id": "C41", "title": "Writing then reading a problem gives it back", "statement": "Reading the text written for a problem yields a problem with the same variables, bounds, constraints and objective.", "quantifier": "every well formed problem with representable names", "why_tests_cant": "all problems", "anchors": ["lib/src/problem.hpp: write_problem", "lib/src/parser.cpp"]}
{"id": "C42", "title": "Writing then reading a result gives it back", "statement": "Reading the text written for a successful result yields the same assignment of every variable (affected and solved).", "quantifier": "every successful result with readable names", "why_tests_cant": "all results", "anchors": ["lib/src/result.cpp: operator>>", "lib/src/result.hpp: formatter"]}
{"id": "C43", "title": "Stored parameters are always in range", "statement": "Whatever sequence of parameter sets is given to context_set_solver_parameters, the stored values satisfy their documented ranges.", "quantifier": "every sequence of arbitrary parameter sets, including NaN and infinities", "why_tests_cant": "all doubles and all sequences", "anchors": ["lib/src/private.cpp: context_set_solver_parameters"]}
{"id": "C44", "title": "Setting back the stored parameters changes nothing", "statement": "Reading the parameters of a context and setting them again leaves the context unchanged.", "quantifier": "every reachable context", "why_tests_cant": "all reachable parameter sets", "anchors": ["lib/src/private.cpp: context_set_solver_parameters, context_get_solver_parameters"]}
{"id": "C45", "title": "The population keeps its best solution", "statement": "For every sequence of insertions made one at a time, the front of the optimizer's storage is at least as good as every solution inserted so far, and entries are sorted from best to worst.", "quantifier": "every sequence of insertions, every random choice of the evicted index", "why_tests_cant": "unbounded histories", "anchors": ["lib/src/itm-optimizer-common.hpp: storage / best_solution_recorder::insert"]}
{"id": "C46", "title": "The population survives concurrent insertions", "statement": "For every interleaving of insertions by several threads, the best inserted solution is still in the storage.", "quantifier": "every schedule of any number of threads", "why_tests_cant": "all interleavings", "anchors": ["lib/src/itm-optimizer-common.hpp: insert, m_indices_mutex"]}
{"id": "C47", "title": "optimize: success means a feasible solution", "statement": "When optimize reports success the reported assignment satisfies every constraint.", "quantifier": "every run, every random stream", "why_tests_cant": "depends on rare random branches of the crossover", "anchors": ["lib/src/itm-optimizer-common.hpp: crossover, get_best, optimize_problem"]}
{"id": "C48", "title": "The reported solution is the best one", "statement": "With several stored solutions, the solution used by is_valid_solution, compute_solution and by the result file is the best one found.", "quantifier": "every storage option and every population", "why_tests_cant": "all populations", "anchors": ["lib/src/itm-optimizer-common.hpp: optimize_problem", "lib/src/lpcore.cpp: make_variable_value", "lib/src/result.hpp"]}
{"id": "C49", "title": "Branch optimization terminates", "statement": "optimize in branch mode returns for every problem; each turn explores the best open problem with its variable fixed to 0 and to 1, and keeps the best result seen.", "quantifier": "every problem and every behaviour of the inner optimizer", "why_tests_cant": "non-termination is not testable", "anchors": ["lib/src/branch-optimizer.cpp: optimize"]}
{"id": "C50", "title": "Manual tuning tries every combination and returns the best", "statement": "optimize in manual mode tries each of the length^length parameter combinations exactly once, stops, and returns the best result found.", "quantifier": "every length, every behaviour of the inner optimizer", "why_tests_cant": "combinatorial", "anchors": ["lib/src/manual-optimizer.cpp: manual_course, optimize"]}
{"id": "C51", "title": "Thread seeds are distinct", "statement": "The seeds given to the worker threads are pairwise distinct.", "quantifier": "every random stream and number of threads", "why_tests_cant": "collisions are rare", "anchors": ["lib/src/itm-common.hpp: generate_seed"]}
{"id": "C52", "title": "numeric_cast is exact or throws", "statement": "numeric_cast<Target>(v) returns a value equal to v when v is representable in Target and throws otherwise.", "quantifier": "all integer values, all signed/unsigned source and target widths", "why_tests_cant": "all values of all widths", "anchors": ["lib/src/utils.hpp: is_numeric_castable, numeric_cast"]}
{"id": "C53", "title": "Trimming removes exactly the outer blanks", "statement": "trim(s) is the longest sub-string of s that neither starts nor ends with a blank; left_trim and right_trim do one side; trimming twice changes nothing.", "quantifier": "all strings", "why_tests_cant": "all strings", "anchors": ["lib/src/utils.hpp: left_trim, right_trim, trim"]}
{"id": "C54", "title": "The objective range is a true bound", "statement": "compute_min_max_objective_function returns bounds between which the objective lies for every 0-1 assignment.", "quantifier": "every objective function, every assignment", "why_tests_cant": "all assignments", "anchors": ["lib/include/baryonyx/core-utils: compute_min_max_objective_function"]}
{"id": "C55", "title": "Interned strings stay put", "statement": "A view returned by string_buffer::append keeps denoting the same characters after any number of later appends.", "quantifier": "every sequence of appends of strings of at most 1 MiB", "why_tests_cant": "unbounded histories", "anchors": ["lib/include/baryonyx/core: string_buffer::append"]}
{"id": "C56", "title": "Cost normalisation keeps the ranking", "statement": "For the norms none, l1, l2 and loo, normalised costs are the original costs multiplied by one positive number (or unchanged), so comparisons between solutions do not change.", "quantifier": "every cost vector", "why_tests_cant": "all vectors", "anchors": ["lib/src/itm-common.hpp: normalize_costs"]}
{"id": "C57", "title": "Incremental cost equals the marginal objective", "statement": "The cost used for variable j on assignment x is the change of the objective when x_j goes from 0 to 1, the other variables being those of x (linear and quadratic).", "quantifier": "every objective and assignment", "why_tests_cant": "all quadratic forms", "anchors": ["lib/src/itm-common.hpp: default_cost_type, quadratic_cost_type"]}
{"id": "C58", "title": "Solution comparison is a strict order", "statement": "The comparisons given to std::sort and std::multiset (storage entries, reduced costs, branch nodes, raw results) are strict weak orders for values that are not NaN.", "quantifier": "all triples of elements", "why_tests_cant": "all triples", "anchors": ["lib/src/itm-optimizer-common.hpp: sort", "lib/src/itm-common.hpp: calculator_sort, is_better_solution", "lib/src/branch-optimizer.cpp: node_result_compare"]}
{"id": "C59", "title": "The n-queens example encodes n-queens", "statement": "The constraints produced by the n_queens example are satisfied exactly by the placements of n non-attacking queens.", "quantifier": "every board size n >= 3, every placement", "why_tests_cant": "all sizes", "anchors": ["lib/include/baryonyx/core-test: n_queens"]}
{"id": "C60", "title": "Matrix copies stay in bounds", "statement": "Copy-assigning a fixed_2darray copies rows*columns cells into a buffer of that size.", "quantifier": "all row and column counts", "why_tests_cant": "all sizes", "anchors": ["lib/src/fixed-2darray.hpp: operator="]}
{"id": "C61", "title": "Command line values are validated", "statement": "A parameter given on the command line is stored only if it is in the documented range, and a rejected parameter leaves the parameters unchanged.", "quantifier": "every name and value", "why_tests_cant": "all strings", "anchors": ["app/src/main.cpp: assign_parameter, split_argument, get_param"]}
{"id": "C62", "title": "solve: the push phase does not move", "statement": "With every constraint order except pi-sign-change and cycle, once solve found a solution the push phase never changes the assignment: the reported solution is the first one found, whatever the push parameters.", "quantifier": "every problem, row update, parameters, random stream and clock", "why_tests_cant": "all runs of a randomised loop", "anchors": ["lib/src/itm-solver-common.hpp: solver_functor::operator()", "lib/src/itm-common.hpp: compute_order::push_and_run, run"]}
{"id": "C63", "title": "solve: a pass updates exactly the violated constraints", "statement": "Whatever the constraint order, each pass of the solving loop updates each constraint violated at its start exactly once, and no other.", "quantifier": "every run and every pass of it, every constraint order", "why_tests_cant": "all histories of the loop", "anchors": ["lib/src/itm-common.hpp: compute_order::init, run"]}
{"id": "C64", "title": "solve: updating a constraint with integer coefficients satisfies it", "statement": "When the solver for integer coefficients updates a constraint that some assignment satisfies, the new assignment satisfies this constraint and only variables of the constraint change, whatever the reduced costs and their order.", "quantifier": "every set of constraints with integer coefficients, every constraint of it, every reduced cost, order and assignment", "why_tests_cant": "unbounded rows and coefficients, all orders of floating point values", "anchors": ["lib/src/itm-solver-inequalities-Z.cpp: solver_inequalities_Zcoeff, local_affect, compute_update_row", "lib/src/exhaustive-solver.hpp", "lib/src/branch-and-bound-solver.hpp"]}
{"id": "C65", "title": "Every option of the command line takes effect", "statement": "A command line made of the documented options and of file names does what each of them asks for, in order: flags and values are set, and the files are exactly the arguments that are not options.", "quantifier": "every sequence of options, values and file names, and every way to write an option", "why_tests_cant": "all argument lists of any length", "anchors": ["app/src/main.cpp: parse, get_param, split_argument"]}
{"id": "C66", "title": "The message for a refused parameter names it", "statement": "When a parameter of the command line is refused, the message printed to the user names this parameter.", "quantifier": "every parameter and every value it does not accept", "why_tests_cant": "all names and all texts", "anchors": ["app/src/main.cpp: command_line_status, command_line_status_string, to_string, assign_parameter"]}
{"id": "C67", "title": "The random norm only breaks ties", "statement": "With the random norm, a cost that was under another one stays under it: the draws change the order of equal costs only.", "quantifier": "every cost vector, every random stream", "why_tests_cant": "all cost vectors and draws", "anchors": ["lib/src/itm-common.hpp: make_random_norm, random_epsilon_unique", "lib/src/utils.hpp: linearize"]}
{"id": "C68", "title": "A correct problem file is read as the problem it denotes", "statement": "Reading a text of the LP format (objective, constraints, bounds, binary and general sections) gives the problem that it denotes: the variables in the order of their first occurrence, the sums of the factors, the constraints by operator with their labels, values and positions, the bounds and the types.", "quantifier": "every correct file without quadratic terms, every layout and case of the keywords", "why_tests_cant": "unboundedly many files", "anchors": ["lib/src/parser.cpp: make_problem, parse, read_objective_type, read_bounds, read_binary, read_general", "lib/src/lpcore.cpp: make_problem"]}
{"id": "C69", "title": "A row update picks the cheapest assignment of its row", "statement": "Updating the row of a constraint returns, among all the assignments of its variables that respect the constraint, one that is best for the current reduced costs (cost minus coefficients times multipliers and preferences), and leaves the other variables as they are.", "quantifier": "every set of constraints with coefficients -1, 0 and 1, row, cost function, multipliers, preferences, tie breaking", "why_tests_cant": "all multipliers, preferences and tie breakings", "anchors": ["lib/src/itm-solver-equalities-101.cpp: compute_update_row, compute_reduced_costs, select_variables", "lib/src/itm-solver-inequalities-101.cpp: compute_update_row, select_variables", "lib/src/itm-solver-equalities-01.cpp: compute_update_row", "lib/src/itm-solver-inequalities-01.cpp: compute_update_row, select_variables", "lib/src/itm-common.hpp: affect, calculator_sort, stop_iterating"]}
{"id": "C70", "title": "A push favours the objective", "statement": "During a push, the row update returns the assignment of the row that respects the constraint and is best for the reduced costs plus the costs times the amplifier.", "quantifier": "every set of constraints, row, cost function, multipliers, preferences, amplifier, tie breaking", "why_tests_cant": "all costs and multipliers", "anchors": ["lib/src/itm-solver-equalities-01.cpp: push_and_compute_update_row", "lib/src/itm-solver-inequalities-01.cpp: push_and_compute_update_row", "lib/src/itm-solver-equalities-101.cpp: push_and_compute_update_row", "lib/src/itm-solver-inequalities-101.cpp: push_and_compute_update_row"]}
{"id": "C71", "title": "The multiplier separates the variables of the row", "statement": "After a row update that gives the row a value which is neither its least nor its greatest, the reduced costs computed with the new multiplier are on the good side of zero for each variable at 1 and on the other side for each variable at 0; in the other case the multipliers are kept.", "quantifier": "every set of constraints with coefficients -1, 0 and 1, row, cost function, multipliers, preferences, tie breaking", "why_tests_cant": "all multipliers and costs", "anchors": ["lib/src/itm-common.hpp: affect"]}
{"id": "C72", "title": "The preferences reinforce the last decision", "statement": "After a row update, the preferences of the row move the reduced cost of each of its variables towards the value it got, and the preferences of the other rows are kept.", "quantifier": "every set of constraints, row, cost function, multipliers, preferences, kappa, delta and theta", "why_tests_cant": "all histories of preferences", "anchors": ["lib/src/itm-common.hpp: affect", "lib/src/itm-solver-equalities-101.cpp: decrease_preference"]}
{"id": "C73", "title": "The random solver satisfies the constraint it updates", "statement": "With the random solver, the update of a satisfiable constraint returns, the constraint holds afterwards and no variable outside the constraint changed.", "quantifier": "every set of constraints with coefficients -1 and 1, constraint, assignment, costs, multipliers, preferences, draws and order of equal values", "why_tests_cant": "all rows, costs and draws of the random engine", "anchors": ["lib/src/random-solver.cpp: compute_update_row", "lib/src/random-solver.cpp: solver_random_inequalities_101coeff"]}
{"id": "C74", "title": "The random solver sets only the variables that pay", "statement": "Once the lower bound of the constraint is reached, the random solver sets only variables whose price improves the objective, and the price of a variable is computed with its own cost.", "quantifier": "every set of constraints, constraint, costs, multipliers, preferences, draws", "why_tests_cant": "all costs and preferences", "anchors": ["lib/src/random-solver.cpp: compute_update_row", "lib/src/itm-common.hpp: stop_iterating"]}
{"id": "C75", "title": "The solver that runs accepts the problem and does what was asked", "statement": "solve and optimize choose, from the solver option, the method, the mode and the class of the problem, a solver that accepts every constraint of the problem with exactly its solutions; solve solves and optimize optimizes; whatever the choice, a success solves the problem given by the caller.", "quantifier": "every problem, solver option, method, mode, run", "why_tests_cant": "all problems and combinations of options", "anchors": ["lib/src/itm.hpp: solve, optimize", "lib/src/lpcore.cpp: solve, optimize", "lib/src/random-solver.cpp: select_float"]}
{"id": "C76", "title": "Tuning with nlopt stays in the memory of the parameters", "statement": "In the mode nlopt, every evaluation reads only the coordinates of the point that nlopt proposes; without nlopt the mode gives the result of the mode manual.", "quantifier": "every behaviour of nlopt, problem, result of the solver", "why_tests_cant": "all the sequences of points that nlopt can try; an out of bounds read is silent", "anchors": ["lib/src/nlopt-optimizer.cpp: nlopt_optimize_fun, optimize"]}
{"id": "C77", "title": "The bastert initial vector has the best objective", "statement": "The initial vector of the policy bastert, which looks at the costs and not at the constraints, has an objective at least as good as that of every assignment.", "quantifier": "every objective, direction and assignment", "why_tests_cant": "all objectives and all assignments", "anchors": ["lib/src/itm-common.hpp: init_x, init_with_bastert"]}
{"id": "C78", "title": "The pre-solve respects each constraint it visits, with the best cost", "statement": "After its turn the constraint holds when it can, and no variable outside changed; the optimistic vector has the best cost of the assignments that respect the constraint, the pessimistic one has the fewest variables at 1. When the constraints share no variable the whole initial vector respects them all, and the optimistic one is optimal.", "quantifier": "every set of constraints, costs, direction, starting vectors, draws and order of equal costs", "why_tests_cant": "all constraints, costs and draws", "anchors": ["lib/src/itm-common.hpp: init_with_pre_solve", "lib/src/itm-solver-common.hpp: solver_functor"]}
{"id": "C79", "title": "A feasible initial vector is not lost", "statement": "When the initial vector respects every constraint, solve succeeds with a solution at least as good. When the bastert vector respects every constraint, optimize reports the optimum.", "quantifier": "every problem, order, limits, draws, number of passes and pushes", "why_tests_cant": "all problems and runs", "anchors": ["lib/src/itm-solver-common.hpp: solver_functor", "lib/src/itm-optimizer-common.hpp: storage"]}
{"id": "C80", "title": "The computed step delta is positive and at the scale of the costs", "statement": "When delta is not given, the step is (1 - theta) times the smallest absolute value of the nonzero costs; it is never negative and is null only for theta = 1.", "quantifier": "every objective and theta from 0 to 1", "why_tests_cant": "all costs", "anchors": ["lib/src/itm-common.hpp: compute_delta, default_cost_type::min, quadratic_cost_type::min"]}
{"id": "C81", "title": "The weight kappa follows its parameters", "statement": "The first pass of solve uses the weight kappa-min; the weight is kept during the first w passes, then grows by kappa-step times the power of the share of the constraints that are not respected; no pass uses a weight beyond kappa-max, nor a weight for which the update is undefined.", "quantifier": "every problem, solver, parameters and run", "why_tests_cant": "all parameter values, problems and numbers of passes", "anchors": ["lib/src/itm-solver-common.hpp: solver_functor"]}
{"id": "C82", "title": "The search ends without a loop limit", "statement": "Whatever the limit on the number of loops and without a time limit, solve makes a number of passes bounded by w, kappa-min, kappa-step and kappa-max.", "quantifier": "every problem, parameters and run", "why_tests_cant": "all problems and an unbounded number of passes", "anchors": ["lib/src/itm-solver-common.hpp: solver_functor"]}
{"id": "C83", "title": "The constraint-order option is followed", "statement": "A pass updates each constraint that does not hold once and no other, in the order that the option constraint-order names.", "quantifier": "every problem, order, pass of a run, and order of equal keys", "why_tests_cant": "all runs, states of the multipliers and orders", "anchors": ["lib/src/itm-common.hpp: compute_order, compute_violated_constraints, infeasibility_local_compute_violated_constraints", "lib/src/itm-solver-common.hpp: solver_functor"]}
{"id": "C84", "title": "solve returns", "statement": "For constraints that can each be respected and hold no variable twice, solve ends with a result: no assertion fails and no read is out of bounds.", "quantifier": "every such problem, parameters, multipliers reached and choices of the generator", "why_tests_cant": "all problems and all states reached", "anchors": ["lib/src/itm-solver-common.hpp: solver_functor", "lib/src/itm-solver-equalities-01.cpp", "lib/src/itm-solver-equalities-101.cpp", "lib/src/itm-solver-inequalities-01.cpp", "lib/src/itm-solver-inequalities-101.cpp"]}
{"id": "C85", "title": "A benchmark keeps its file and adds a column", "statement": "A benchmark run on a csv file of models and results rewrites the file with the same models, solvers and values, in the same order, and one more column with the value found for each model; a run that returns an error leaves the file unchanged; the next run can read the file.", "quantifier": "every file, run name and outcome of the models", "why_tests_cant": "all files, names and outcomes, and any number of successive runs", "anchors": ["app/src/benchmark.cpp: try_benchmark, bench::load, bench::save"]}
{"id": "C86", "title": "Benchmark ranks are ranks", "statement": "The file of ranks gives, for each model, the rank of each solver in the direction of the model, equal values having equal ranks; then the mean rank of each solver and the ranks of these means.", "quantifier": "every table of results, direction and order of equal values", "why_tests_cant": "all tables", "anchors": ["app/src/benchmark.cpp: bench::save_stats"]}
{"id": "C87", "title": "The benchmark counts the solutions found", "statement": "The number of feasible solutions printed is the number of models for which a solution was found.", "quantifier": "every file and outcome of the models", "why_tests_cant": "all tables", "anchors": ["app/src/benchmark.cpp: try_benchmark, bench::element"]}
{"id": "C88", "title": "The benchmark prints average distances", "statement": "The distance printed for a solver is the average, on the models that both the solver and the run have solved, of the relative distance between their values; the distance from the optimum compares the run with the results of the file.", "quantifier": "every table of results", "why_tests_cant": "all tables", "anchors": ["app/src/benchmark.cpp: try_benchmark"]}
{"id": "C89", "title": "A benchmark run ends", "statement": "A benchmark run on a well written file ends with success, without an access out of bounds, whatever the number of models and solvers and whatever the values.", "quantifier": "every well written file and outcome of the models", "why_tests_cant": "all sizes and values", "anchors": ["app/src/benchmark.cpp: try_benchmark, bench::load, bench::save", "lib/src/dynarray.hpp: dynamic_array"]}
{"id": "C90", "title": "Files of results written by hand are read", "statement": "A file whose lines are comments (a backslash after blanks) or name=integer, of at most nine digits, is read as these values, in their order, whether or not the last line ends with a newline; a line that is neither is refused.", "quantifier": "every such file: any names, blanks, signs, digits and texts after the number", "why_tests_cant": "all files", "anchors": ["lib/src/result.cpp: operator>>, to_int"]}
{"id": "C91", "title": "A row update with integer coefficients takes the cheapest assignment", "statement": "When the update of a constraint with a coefficient other than 1 and -1 returns, the variables of the constraint respect it and no other respecting assignment has a better total of reduced costs (cost minus the multipliers and preferences of the constraints that hold the variable), for the minimisation and the maximisation, with the amplified costs of a push.", "quantifier": "every problem, constraint, multiplier, preference, parameter, cost function, current assignment and choice of the sorts", "why_tests_cant": "all constraints and all values of the multipliers", "anchors": ["lib/src/itm-solver-inequalities-Z.cpp: compute_update_row, compute_reduced_costs, local_compute_reduced_cost", "lib/src/branch-and-bound-solver.hpp: branch_and_bound_solver"]}
{"id": "C92", "title": "A row update with integer coefficients remembers its decision", "statement": "After the update of a constraint with a coefficient other than 1 and -1, its multiplier separates the variables it set from the others, its preferences make the variables it set more attractive and the others less, and no other multiplier, preference or variable changes.", "quantifier": "every problem, constraint, multiplier, preference, parameter, cost function, current assignment and choice of the sorts", "why_tests_cant": "all histories of multipliers and preferences", "anchors": ["lib/src/itm-solver-inequalities-Z.cpp: compute_update_row, local_affect"]}
{"id": "C93", "title": "The solution file of a command holds the solution of its problem file", "statement": "When `baryonyx file.lp` solves or optimizes the problem of the file with success, the process ends normally and writes one file, `file.lp-<pid>.sol`; read back as a result, this file gives each variable the value it has in the solution: it is valid for the problem and has its value.", "quantifier": "every problem file, command line, solver, choice of the solver and process identifier", "why_tests_cant": "the names of the variables, the layout of the problem file and the run of the solver are arbitrary", "anchors": ["app/src/main.cpp: main, resume, solve_or_optimize", "lib/src/result.cpp: operator>>", "lib/src/parser.cpp: make_problem"]}
{"id": "C94", "title": "A command reports each of its failures", "statement": "The process ends with a failure status exactly when the command line is refused, and then writes no file. Otherwise it says on the standard error which files could not be read and which runs raised an exception, in order; when it says nothing, each file was read and its run returned a result, or each benchmark succeeded.", "quantifier": "every command line, set of files and outcome of reading and solving them", "why_tests_cant": "every combination of failures in every order", "anchors": ["app/src/main.cpp: main, parse"]}
{"id": "C95", "title": "A command on several problems writes one line for each", "statement": "A command on two problem files or more writes `baryonyx-<pid>.res`, with one line per problem that was read, in the order of the command: its name, and its value, duration and values of all its solutions, or that there is no solution. If the process is killed at some problem, the lines of the problems before it are in the file.", "quantifier": "every list of files, outcome of each problem and point where the process is killed", "why_tests_cant": "every sequence of outcomes and every crash point", "anchors": ["app/src/main.cpp: main"]}
{"id": "C96", "title": "A quadratic objective is read as written", "statement": "The objective of the problem that is read from a file with bracketed groups of quadratic terms has, for every assignment of the variables, the value of the text: the linear terms and constants plus half of the bracketed terms. Each pair of variables, in either order, has at most one element, whose factor is half the sum of the factors of its terms.", "quantifier": "every correct file with a group of quadratic terms, every layout of its text and every assignment of the variables", "why_tests_cant": "an arbitrary number of terms, names, repeated pairs and layouts", "anchors": ["lib/src/parser.cpp: read_quadratic_element, parse, stream_buffer"]}
{"id": "C97", "title": "The colour of a pixel tells the number it stands for", "statement": "In the images of a run every number has a colour on a scale from blue (-1) to red (1): numbers outside take the colour of the nearest end, the channels are bytes, and the colour tells the number to within 1/510.", "quantifier": "every number", "why_tests_cant": "every real number, with the bounds of the scale and the rounding of the channels", "anchors": ["lib/src/pnm.hpp: colormap"]}
{"id": "C98", "title": "The image of the multipliers has a row for each pass of the limit", "statement": "With the observer `pnm`, a run leaves an image of the multipliers with as many rows as the limit of passes and a column for each constraint: each row shows the multipliers at its pass, and the rows after the last pass repeat it.", "quantifier": "every problem, limit, number of passes and value of the multipliers", "why_tests_cant": "an arbitrary number of constraints and passes, and runs that stop early", "anchors": ["lib/src/observer.hpp: pi_pnm_observer, pnm_observer", "lib/src/pnm.hpp: pnm_vector", "lib/src/itm-solver-common.hpp: solver_functor"]}
{"id": "C99", "title": "Each pass leaves the preferences of the variables", "statement": "With the observer `pnm` (`file`), each pass leaves a numbered image (table) with a row for each constraint and a column for each variable, which shows the preference of the variable in the constraint, or black (0) when it is not in the constraint.", "quantifier": "every problem, number of passes, value of the preferences and set of files that cannot be opened", "why_tests_cant": "arbitrary sparse matrices and sizes", "anchors": ["lib/src/observer.hpp: ap_pnm_observer, ap_file_observer, pi_file_observer, file_observer", "lib/src/pnm.hpp: pnm_array"]}
{"id": "C100", "title": "The number of remaining constraints is that of the solution", "statement": "The number of remaining constraints of a result is the number of constraints that its solution does not respect: it is zero exactly when a solution is found, it is never more than the number of constraints, and no vector of the run does better.", "quantifier": "every problem, run, storage type and sequence of turns of the optimizer", "why_tests_cant": "every history of passes, crossovers and insertions in the population", "anchors": ["lib/src/itm-optimizer-common.hpp: optimize_functor, optimize_problem, storage::try_advance", "lib/src/itm-solver-common.hpp: solve_problem", "lib/include/baryonyx/core: result::remaining_constraints"]}
{"id": "C101", "title": "The arguments of the R functions are the parameters of the run", "statement": "In `solve_01lp_problem` and `optimize_01lp_problem`, a documented code selects what the documentation names and another code selects the default; the other arguments, when the solver can use them, are the parameters of the run; arguments that are not given take the documented defaults.", "quantifier": "every list of arguments, valid or not", "why_tests_cant": "every code and every real number of some thirty arguments", "anchors": ["rbaryonyx/src/rbaryonyx.cpp: solve_01lp_problem, optimize_01lp_problem, get_pre_constraint_order, get_constrait_order, get_cost_norm, get_init_policy, get_floating_point_type, get_storage_type"]}
{"id": "C102", "title": "The list of the R functions tells what happened", "statement": "The list that an R function returns says whether a solution or an error was found; the value is that of a solution of the problem in the file, the numbers of variables and constraints are those of the problem, and the number of remaining constraints is 0 exactly when a solution is found.", "quantifier": "every file, list of arguments and run", "why_tests_cant": "every problem file and every run, including those that fail", "anchors": ["rbaryonyx/src/rbaryonyx.cpp: convert_result, solve_01lp_problem, optimize_01lp_problem"]}
{"id": "C103", "title": "Problems that compare equal are the same problem", "statement": "Two problems for which `==` is true have the same variables, the same direction, the same solutions, and give the same value to every assignment. `==` is reflexive, symmetric and transitive.", "quantifier": "every pair of problems and every assignment", "why_tests_cant": "a field that is not compared shows only on problems that differ by this field", "anchors": ["lib/include/baryonyx/core-compare: operator== on raw_problem, objective_function, constraint, variables", "lib/test/io.cpp: the test that reads back a written problem"]}
{"id": "C104", "title": "The start message tells the parameters of the run", "statement": "Each line `name: value` of the message printed when a run starts, given back on another command line as `--param name:value` or `--auto value`, gives the other run the same parameter.", "quantifier": "every set of parameters in range and every command line", "why_tests_cant": "every value of some forty parameters", "anchors": ["app/src/main.cpp: solver_started_cb, assign_parameter, parse", "lib/include/baryonyx/core-out: formatters of the enumerations"]}
{"id": "C105", "title": "No solution is reported twice", "statement": "When the storage of solutions is `five`, the five solutions reported by an optimization are different assignments. More generally the population never holds the same vector twice as a solution, or twice with the same number of remaining constraints.", "quantifier": "every sequence of insertions and crossovers, every initial population, every problem and every number of workers", "why_tests_cant": "a duplicate needs two insertions of one vector in a run that depends on the random generator and on the schedule of the workers", "anchors": ["lib/src/itm-optimizer-common.hpp: storage::insert, storage::can_be_inserted, storage constructor, crossover", "lib/src/itm-optimizer-common.hpp: best_solution_recorder::try_update, try_advance"]}
{"id": "C106", "title": "The registered functions are told of the run", "statement": "During an optimization the function `start` is called once and first, and the function `finish` once and last, with the result that is returned. Between them `update` is called for each improvement; what it is told is true, never gets worse, and the result is not worse than any of it. Registering the functions does not change the result.", "quantifier": "every problem, every number of workers, every order of their steps and every clock", "why_tests_cant": "what a call tells depends on the schedule of the workers and on the time", "anchors": ["lib/include/baryonyx/core: context_register, solver_started_cb, solver_updated_cb, solver_finished_cb", "lib/src/itm-optimizer-common.hpp: optimize_problem, storage::get_best"]}
{"id": "C107", "title": "optimize returns when its time limit is over, and only then", "statement": "With a time limit of L seconds `optimize` stops its workers after more than L seconds and at most one more turn of a second; without a positive limit, which is the default, it does not return, whatever the limit on the loops.", "quantifier": "every problem with a constraint and a variable, every limit, every clock that counts the seconds slept, every schedule", "why_tests_cant": "a test cannot wait for ever, and the time that it measures is that of one machine", "anchors": ["lib/src/itm-optimizer-common.hpp: optimize_problem", "lib/src/utils.hpp: is_time_limit", "lib/include/baryonyx/core: solver_parameters::time_limit"]}
{"id": "C108", "title": "Integer arithmetic does not overflow on small constraints", "statement": "On a problem whose constraints are small, that is whose factors and right-hand side add up without their signs to an `int`, checking a solution, preprocessing, branching, building a solver, updating a row, checking a row and measuring its distance to its bound compute with 32 bits what unbounded integers would give. Accepting a problem does not guarantee it.", "quantifier": "every problem with small constraints, every result to check, every order of the constraints, every row, reduced cost, sort and assignment", "why_tests_cant": "signed overflow is undefined behaviour that depends on the magnitudes and on what a previous row left in memory; a test sees one value", "anchors": ["lib/src/preprocessor.cpp: preprocessor", "lib/src/lpcore.cpp: is_valid_solution", "lib/src/itm-solver-inequalities-Z.cpp: select_variables", "lib/src/itm-solver-equalities-101.cpp: select_variables", "lib/src/branch-and-bound-solver.hpp", "lib/src/exhaustive-solver.hpp"]}
{"id": "C109", "title": "How a turn of optimize starts, and that it does", "statement": "A turn of optimize starts from the vector of the turn before or from the mixture of two different members of the population, then from the mutation that the parameters describe. With every set of parameters that the library accepts and documents, the turn starts: no loop of the draws is endless and no draw leaves the population.", "quantifier": "every population, every accepted set of parameters, every sequence of draws that the distributions allow, every number of turns", "why_tests_cant": "the draws are random and the endless loops depend on the parameters; a test that does not end tells nothing and one that ends covers one seed", "anchors": ["lib/src/itm-optimizer-common.hpp: local_context, choose_a_solution, crossover, mutation, reinit", "lib/src/private.cpp: context_set_solver_parameters", "lib/include/baryonyx/core: solver_parameters"]}
{"id": "C110", "title": "The weight kappa at the start of a turn", "statement": "The kappa at which a turn of optimize starts is between kappa_min and kappa_max. It grows by init_kappa_improve_increase, as a fraction of the interval, from init_kappa_improve_start to init_kappa_improve_stop; then a crossover brings it back to kappa_min.", "quantifier": "every accepted set of parameters, every number of turns, every sequence of draws, whatever happens between the turns", "why_tests_cant": "kappa is internal state of a worker that lasts as long as the run; a test sees the end of a run with one set of parameters", "anchors": ["lib/src/itm-optimizer-common.hpp: best_solution_recorder::reinit, m_kappa_append", "lib/src/private.cpp: context_set_solver_parameters"]}
{"id": "C111", "title": "The text of the n-queens example is n-queens, from the file to the queens", "statement": "The text that the n_queens example writes is read without error as a problem that minimises, with one binary variable x_i_j for each square, whose solutions are exactly the placements of n queens that do not attack each other and whose objective is the number of queens. When solve or optimize reports a success on it, the values of the variables x_i_j in the result are such a placement and the value is n.", "quantifier": "every board size n >= 3 whose squares can be counted by an int, every run", "why_tests_cant": "the tests build the text for a few sizes, and check the constraints of the problem that was read and not that they are those of the queens", "anchors": ["lib/include/baryonyx/core-test: example::n_queens, operator<<", "lib/src/parser.cpp: make_problem", "lib/test/io.cpp", "lib/test/solve.cpp", "lib/test/optimize.cpp"]}
{"id": "C112", "title": "The counts of a result", "statement": "The number of variables of a result is the number of its variable names, and with the affected variables it makes the number of variables of the problem. Its number of constraints is not more than that of the problem; without preprocessing it is the number of distinct left-hand sides of the problem, whatever the order of the constraints that is asked for.", "quantifier": "every well-formed problem, order, storage, preprocessing option and run of solve or optimize that returns", "why_tests_cant": "the tests never read these counts, which depend on what the preprocessing affects and on which constraints share a left-hand side", "anchors": ["lib/src/itm-solver-common.hpp: solve_problem", "lib/src/itm-optimizer-common.hpp: optimize_problem", "lib/src/merged-constraint.cpp: make_merged_constraints", "lib/include/baryonyx/core: result"]}
{"id": "C113", "title": "The parameters tried by the manual mode", "statement": "When the parameters of the context are in range, each combination of parameters that optimize tries in manual mode is in range too: context_set_solver_parameters would accept it.", "quantifier": "every parameters in range and every combination of the manual mode", "why_tests_cant": "no test reads the parameters of the 3125 runs, and whether they are in range depends on the parameters of the user", "anchors": ["lib/src/manual-optimizer.cpp: manual_course, optimize", "lib/src/private.cpp: context_set_solver_parameters", "lib/src/itm-optimizer-common.hpp: reinit"]}
{"id": "C114", "title": "Values in floating point", "statement": "The value that solve and optimize report for a solution, computed with double on the preprocessed problem, is the value that compute_solution computes with double on the problem of the user for the same solution, and the objective of the solution.", "quantifier": "every problem, objective and solution", "why_tests_cant": "rounding depends on all the factors and on the order of the additions, which the preprocessor changes", "anchors": ["lib/src/lpcore.cpp: compute_solution", "lib/src/itm-common.hpp: default_cost_type::results, quadratic_cost_type::results", "lib/src/preprocessor.cpp: objective_function_exclude_copy"]}
{"id": "C115", "title": "What the program prints of a run is true", "statement": "When a run ends the program prints whether a solution was found and the value of the best one, or else why the run stopped and how many constraints the best vector does not respect. Each line that it prints during optimize is true of a vector of the run.", "quantifier": "every problem, every run, every number of workers and every order of their steps", "why_tests_cant": "the text depends on the run, on the storage and on the order of the workers", "anchors": ["app/src/main.cpp: solver_updated_cb, solver_finished_cb", "lib/src/itm-solver-common.hpp: solver_functor", "lib/src/itm-optimizer-common.hpp: optimize_problem"]}
{"id": "C116", "title": "The verbosity decides which messages are printed", "statement": "A message is printed exactly when its level, from 0 for an emergency to 7 for debugging, is at most the verbosity of the context; errors and warnings go to the standard error and the others to the standard output. With --quiet no message is printed except errors.", "quantifier": "every verbosity, message, build and mode", "why_tests_cant": "the tests create their contexts with one verbosity and do not read the output", "anchors": ["lib/src/private.hpp: context, is_loggable, emerg to debug", "lib/src/lpcore.cpp: make_context", "app/src/main.cpp: main", "lib/src/manual-optimizer.cpp: optimize", "lib/src/branch-optimizer.cpp: optimize", "lib/src/nlopt-optimizer.cpp"]}
{"id": "C117", "title": "A row update in floating point takes a nearly cheapest assignment", "statement": "Whatever the rounding of float, double or long double, the update of a constraint returns values of its variables that respect the constraint and that are the cheapest for the reduced costs as computed. With the exact reduced costs, no other assignment is better by more than the rounding errors on the variables where the two differ: for a variable in q constraints, (1 + u)^(q + 2) - 1 times the sum of the absolute values of its cost, multipliers and preferences, u being the relative error of one operation. There is no loss when the numbers are multiples of one power of 2 that fit the digits.", "quantifier": "every constraint system, cost, multiplier, preference, order of equal values, direction and rounding with a bounded relative error", "why_tests_cant": "the tests compare final values on a few files, and rounding depends on every earlier update", "anchors": ["lib/src/itm-solver-equalities-01.cpp: compute_reduced_costs, compute_update_row", "lib/src/itm-solver-equalities-101.cpp: compute_reduced_costs, compute_update_row", "lib/src/itm-solver-inequalities-01.cpp: compute_reduced_costs", "lib/src/itm-solver-inequalities-101.cpp: compute_reduced_costs", "lib/src/itm-common.hpp: affect"]}
{"id": "C118", "title": "A row update in floating point reinforces its choice", "statement": "After the update of a constraint in floating point, the new multiplier separates the variables at 1 from those at 0, and the new preferences do not move the computed reduced cost of a variable away from the value it got.", "quantifier": "every constraint system, cost, multiplier, preference, order of equal values, direction and increasing rounding", "why_tests_cant": "it concerns hidden state at every step of a run", "anchors": ["lib/src/itm-common.hpp: affect", "lib/src/itm-solver-equalities-01.cpp: decrease_preference, compute_reduced_costs", "lib/src/itm-solver-equalities-101.cpp: decrease_preference, compute_reduced_costs", "lib/src/itm-solver-inequalities-01.cpp: decrease_preference", "lib/src/itm-solver-inequalities-101.cpp: decrease_preference"]}
{"id": "C119", "title": "The benchmark table marks the best results", "statement": "At the end of a benchmark run the console shows a line per model with the numbers of the new file; on each line the best results are green and the worst ones blue.", "quantifier": "every file, number of models and solvers, outcome of the models and direction", "why_tests_cant": "ties, missing results and NaN in any place of any line", "anchors": ["app/src/benchmark.cpp: show_to_console, is_valid, try_benchmark"]}
{"id": "C120", "title": "A run of solve in floating point", "statement": "With costs, multipliers, preferences and weights in floating point, solve returns; each row update of the run gives the variables of its constraint values that respect it, and outside of the pushes no other respecting values are cheaper for the reduced costs as computed; it succeeds exactly when a pass ended on a vector that respects every constraint, and returns the best of these vectors.", "quantifier": "every list of constraints with coefficients -1, 0 and 1, cost function, rounding, parameter setting, initial vector, order of the constraints and random draws", "why_tests_cant": "the rounding errors depend on the whole history of the run, and the draws and the ties of the sort on the platform", "anchors": ["lib/src/itm-solver-common.hpp: solver_functor::operator()", "lib/src/itm-solver-equalities-101.cpp: compute_update_row, push_and_compute_update_row", "lib/src/itm-solver-equalities-01.cpp: compute_update_row, push_and_compute_update_row", "lib/src/itm-solver-inequalities-101.cpp: compute_update_row, push_and_compute_update_row", "lib/src/itm-solver-inequalities-01.cpp: compute_update_row, push_and_compute_update_row", "lib/src/itm-common.hpp: affect"]}
{"id": "C121", "title": "A row update with integer coefficients in floating point", "statement": "With costs, multipliers, preferences and sums in floating point, an update of a constraint with integer coefficients gives its variables values that respect it and touches nothing else; no other respecting values have a smaller sum of reduced costs, as computed; with the exact reduced costs none is cheaper by more than the rounding errors of the two sums; and when every number is a multiple of one power of two and their sum fits, none is cheaper at all. A run made of such updates returns the best vector that one of its passes ended on.", "quantifier": "every list of constraints with integer coefficients, cost function, multipliers, preferences, rounding, number of digits, parameter setting, order of the constraints and random draws", "why_tests_cant": "the rounding errors depend on all the numbers and on the order in which the sub-solvers add them", "anchors": ["lib/src/itm-solver-inequalities-Z.cpp: compute_reduced_costs, local_compute_reduced_cost, local_affect, compute_update_row, push_and_compute_update_row", "lib/src/exhaustive-solver.hpp: exhaustive_solver::solve", "lib/src/branch-and-bound-solver.hpp: branch_and_bound_solver::solve"]}
{"id": "C122", "title": "The sizes printed for a problem", "statement": "The messages of the library give the size of a problem as a number with two decimals and a unit. The text stands for a number of bytes within 1% of the size, exactly for sizes up to 512 bytes, and a bigger size is never printed as a smaller one. The size counts the strings, the objective, every constraint and the variables. Computing the messages does not change what preprocessing gives, for any problem that a program builds, and the last message of the reduction tells the size that is left.", "quantifier": "every size, every problem and all capacities of its vectors, every number of blocks of the string buffer", "why_tests_cant": "the unit and the two decimals depend on the size through rounded divisions, and the sizes at the bounds of the units are the ones that go wrong", "anchors": ["lib/src/memory.hpp: memory_consumed_size, show_size_type", "lib/src/memory.cpp: memory_consumed, to_string", "lib/src/preprocessor.cpp: preprocess, unpreprocess, preprocessor::operator()"]}
{"id": "C123", "title": "The file preprocessed.lp", "statement": "preprocess leaves in the file preprocessed.lp of the current directory a problem in the lp format that can be read again. Together with the values that the reduction has found for the other variables, the solutions of the problem that is read, by the names of the variables, are the solutions of the problem that was given, with the same value, and a best solution of one is a best solution of the other. Writing the file changes nothing in the result of preprocess, even if the file cannot be opened. No other file is lost.", "quantifier": "every problem, every number printed and read back, every assignment of the variables by name, every previous content of the file", "why_tests_cant": "the claim goes through the reduction, the printed text and the reader, and must hold for every problem and every assignment of its variables", "anchors": ["lib/src/preprocessor.cpp: make_problem, preprocess, split", "lib/src/problem.cpp: operator<<", "lib/src/problem.hpp: write_problem", "lib/src/parser.cpp: make_problem"]}
{"id": "C124", "title": "The order of the constraints", "statement": "The option preprocessing gives the order in which the solver takes the constraints. With none and memory it is the order of the file. With the six options that name the types, such as less-greater-equal, the constraints of the first type come first, then those of the second and of the third, each type in the order of the file. With p1 to p4 the constraints are sorted by the smallest cost of their variables, each cost being shared between the constraints where the variable is. A left-hand side that is in several constraints is taken once, at its first place. Every option but none also sorts the terms of each constraint, by variable or for p1 to p4 by cost.", "quantifier": "every problem, every option, all the sortings that std::sort may give of equal elements", "why_tests_cant": "a sort that applies the inverse of the permutation is right for two constraints and for many tests, the order of repeated left-hand sides depends on the types of all the constraints that have them, and std::sort may order equal elements in any way", "anchors": ["lib/src/merged-constraint.cpp: make_merged_constraints, make_unsorted_merged_constraints, make_ordered_merged_constraints, make_special_merged_constraints, improve_memory_usage, fill_merged_constraints", "lib/include/baryonyx/core: solver_parameters::pre_constraint_order"]}
{"id": "C125", "title": "Names live with their object", "statement": "The names of the variables, those of the variables fixed by the preprocessing and the labels of the constraints that a problem or a result shows can be read as long as this object lives, and are those it was made with. It does not matter that the problem it comes from, the object it is a copy of or any other object was destroyed, assigned or moved.", "quantifier": "every program: all sequences of reading problems, reading results, copies, assignments, moves, solve, optimize with any reduction and any splits, and destructions, in any order", "why_tests_cant": "a view on a buffer that was freed often still shows the right characters, and the order in which a program destroys its objects is unbounded", "anchors": ["lib/include/baryonyx/core: string_buffer, string_buffer_ptr, raw_problem::strings, result::strings", "lib/src/problem.hpp: problem", "lib/src/preprocessor.cpp: make_problem, variables_exclude_copy", "lib/src/itm-solver-common.hpp: solve_problem", "lib/src/itm-optimizer-common.hpp: optimize_problem", "lib/src/result.cpp: operator>>", "lib/src/parser.cpp: problem_parser, make_problem"]}
{"id": "C126", "title": "The values listed by the help message are accepted", "statement": "A value that the help message lists for a parameter (an integer or a real number of the interval, or one of the words) is accepted by --param, after any other options and in any of the ways to write it; the parameter then holds this value and nothing else changes.", "quantifier": "every command line made of files, flags, options and accepted parameters, followed by any parameter of the help message with any text that its line allows, any separator and any way to write the option, every conversion of texts to numbers", "why_tests_cant": "the intervals are infinite and the message is a text that no compiler compares with the code; a test gives a few values", "anchors": ["app/src/main.cpp: help, assign_parameter, assign_0oo, assign_01, assign, assign_d, parse"]}
{"id": "C127", "title": "optimize has no data race", "statement": "Whatever the number of threads, the parameters and the order in which the threads run, no two threads of optimize touch the same object at once with one of them writing it: every two such accesses are ordered by the mutex, by the start or by the end of a thread.", "quantifier": "every number of workers, every size of the population, every sequence of crossovers, refused and accepted solutions of each worker, every number of calls of update, every schedule allowed by the mutex, the starts and the joins, every moment of the run", "why_tests_cant": "a test runs one schedule among an unbounded number and a race rarely changes the result on the machine of the test", "anchors": ["lib/src/itm-optimizer-common.hpp: storage, replace_result, insert, can_be_inserted, crossover, sort, get_best, best_solution_recorder, optimize_functor, optimize_problem"]}
{"id": "C128", "title": "More time never gives a worse answer", "statement": "Two calls of solve with the same problem, the same parameters and the same random choices, where the second is given more time: when both return, if the first succeeds so does the second, with a solution that is at least as good; if the first fails, the second succeeds or its vector leaves no more constraints unsatisfied.", "quantifier": "every problem, every solver and order, every parameter, every random choice, every pair of clocks such that the second says that the time is over only when the first does", "why_tests_cant": "the moment when the clock stops the search is not under the control of a test and any pass can be the last one", "anchors": ["lib/src/itm-solver-common.hpp: solver_functor::operator(), is_timelimit_reached, store_if_better"]}
{"id": "C129", "title": "A search that fails returns the vector with the fewest unsatisfied constraints", "statement": "When solve does not find a solution, the vector that it returns is the first among those at the end of its passes that leave the fewest constraints unsatisfied, at least one; without a loop it returns no vector.", "quantifier": "every problem, every solver and order, every parameter, every random choice, every clock, every number of passes", "why_tests_cant": "it compares the vector returned with all those of a run of any length, which a test does not see", "anchors": ["lib/src/itm-solver-common.hpp: solver_functor::operator(), store_if_better"]}
{"id": "C130", "title": "Larger limits never give a worse answer", "statement": "Two calls of solve with the same problem, the same random choices and the same parameters but larger limits on the loops and on the pushes for the second: when both return, the second goes through the vectors of the first, then possibly others. If the first succeeds so does the second, with a solution that is at least as good, and the same one when only the limit on the loops differs; if the first fails, the second succeeds or its vector leaves no more constraints unsatisfied.", "quantifier": "every problem, every solver and order, every parameter, every random choice, every clock, every pair of limits", "why_tests_cant": "it compares two runs of any length for every pair of limits", "anchors": ["lib/src/itm-solver-common.hpp: solver_functor::operator(), store_if_better"]}
{"id": "C131", "title": "A larger kappa-max never gives a worse answer", "statement": "Two calls of solve with the same problem, the same random choices and the same parameters but a larger kappa-max for the second: when both return, if the first succeeds so does the second, with a solution that is at least as good; if the first fails, the second succeeds or its vector leaves no more constraints unsatisfied.", "quantifier": "every problem, every solver and order, every parameter, every random choice, every clock, every pair of values of kappa-max", "why_tests_cant": "it compares two runs of any length for every pair of values", "anchors": ["lib/src/itm-solver-common.hpp: solver_functor::operator(), store_if_better"]}
{"id": "C132", "title": "The seed decides the random numbers", "statement": "Two runs with the same seed, other than 0, draw the same random numbers, whatever the clock; two runs with different seeds draw different numbers. The random engine never stops on a number, and draws no number twice before it has drawn all of them.", "quantifier": "every seed, every clock, every number of draws, the engines of the two usual standard libraries", "why_tests_cant": "there are 2^32 seeds and the sequences have 2^31 numbers", "anchors": ["lib/src/itm-common.hpp: random_engine, init_random_generator_seed", "lib/src/itm-solver-common.hpp: solve_problem", "lib/src/itm-optimizer-common.hpp: local_context, optimize_problem", "app/src/main.cpp: assign_parameter"]}
{"id": "C133", "title": "The coefficients a solver computes with are those of the constraints", "statement": "Each solver keeps its own encoding of the coefficients of the constraints: none for the 0/1 solvers, one bit for each in the -1/0/1 inequality solver, integers in the others, next to a sparse matrix of places. Whatever the number of constraints and of coefficients, building it never writes outside the arrays, and reading a constraint, reading the coefficients of a variable and counting the violated constraints with it give what the constraints of the problem say.", "quantifier": "every solver, every list of constraints it accepts, every assignment, every variable", "why_tests_cant": "the packing in bits and the indices of the matrix depend on the number and the place of all the coefficients", "anchors": ["lib/src/bit-array.hpp: value_bit_array", "lib/src/sparse-matrix.hpp", "lib/src/itm-solver-inequalities-101.cpp: solver_inequalities_101coeff, factor", "lib/src/itm-solver-equalities-101.cpp", "lib/src/itm-solver-inequalities-Z.cpp", "lib/src/itm-common.hpp: is_valid_constraint, compute_violated_constraints"]}
{"id": "C134", "title": "More time never gives a worse answer in optimize", "statement": "Two calls of optimize with the same problem, the same parameters but the time limit, and workers that do the same until the shorter limit is over: every pass that a worker makes in the shorter run, it makes in the longer one, in the same order and with the same vectors; if the shorter run succeeds so does the longer, with a value at least as good; and the longer run does not report more remaining constraints.", "quantifier": "every problem, solver, number of threads, interleaving of the threads, random choice, moment when the flag is set and read", "why_tests_cant": "it compares two runs under every interleaving of the threads", "anchors": ["lib/src/itm-optimizer-common.hpp: optimize_functor::operator(), optimize_problem, best_solution_recorder"]}
{"id": "C135", "title": "The unit of the objective does not matter", "statement": "Multiplying the objective by a positive number (costs in cents instead of euros) changes nothing but the value: with the same random choices, solve makes the same passes with the same vectors, ends with the same status and returns the same solution, with its value multiplied.", "quantifier": "every problem, objective with or without quadratic terms, positive number, solver, order, norm, parameters and random choices", "why_tests_cant": "it compares two runs on every objective and every number", "anchors": ["lib/src/itm-solver-common.hpp: solver_functor::operator()", "lib/src/itm-common.hpp: normalize_costs, compute_delta, init_with_bastert, affect, default_cost_type, quadratic_cost_type"]}
{"id": "C136", "title": "To maximize an objective is to minimize its opposite", "statement": "Maximizing an objective and minimizing its opposite, with the same constraints, parameters and random choices, is one search: solve makes the same passes with the same vectors, ends with the same status and returns the same solution, with the opposite value.", "quantifier": "every problem, objective with or without quadratic terms, solver, order, norm, parameters and random choices", "why_tests_cant": "it compares two runs on every objective, parameters and schedule of choices", "anchors": ["lib/src/itm-solver-common.hpp: solver_functor::operator()", "lib/src/itm-common.hpp: normalize_costs, init_with_bastert, affect, is_better_solution, stop_iterating, compute_order"]}
{"id": "C137", "title": "The names do not matter", "statement": "Giving other names to the variables and other labels to the constraints changes nothing but the names: the file is read as the same problem, the preprocessing reduces it in the same way, solve and optimize (in every mode) with the same random choices return the same result with the new names, or stop for the same reason, and the check of a solution and its value do not change as long as distinct names stay distinct.", "quantifier": "every problem, renaming of its variables and labels, parameters, solver, mode and random choices; for files, every pair of files in the grammar of C68 that differ by the names, whatever their layout", "why_tests_cant": "it compares two runs on every problem and every renaming", "anchors": ["lib/src/preprocessor.cpp: preprocess", "lib/src/lpcore.cpp: solve, optimize, is_valid_solution, compute_solution, make_variable_value", "lib/src/branch-optimizer.cpp: branch_optimize", "lib/src/manual-optimizer.cpp: manual_optimize", "lib/src/parser.cpp: make_problem"]}
{"id": "C138", "title": "A constraint written several times counts once", "statement": "Writing again, anywhere later and under any label, constraints that the problem already has (the same type, the same terms in the same order and the same value) changes nothing: the preprocessing finds the same values, solve and optimize (in every mode) with the same random choices return the same result or stop for the same reason, whatever the order of the constraints asked, and the check of a solution and its value do not change.", "quantifier": "every problem, every number of repeated constraints at every place, parameters, solver, mode, order of the constraints and random choices", "why_tests_cant": "it compares two runs on every problem and every way to repeat its constraints", "anchors": ["lib/src/preprocessor.cpp: preprocess", "lib/src/merged-constraint.cpp: make_merged_constraints", "lib/src/lpcore.cpp: solve, optimize, is_valid_solution", "lib/src/branch-optimizer.cpp: branch_optimize", "lib/src/manual-optimizer.cpp: manual_optimize"]}
{"id": "C139", "title": "A constant added to the objective only moves the values", "statement": "Adding a constant to the objective changes neither the preprocessing, nor the check of a solution, nor the search: with the same random choices, solve and optimize (in every mode but nlopt) return the same solutions in the same order, with the same statistics, and every value of a solution is greater by the constant; the value recomputed from a solution is greater by the constant too.", "quantifier": "every problem, constant, parameters, solver, mode and random choices", "why_tests_cant": "it compares two runs on every problem and every constant", "anchors": ["lib/src/itm-common.hpp: default_cost_type::results, quadratic_cost_type::results, is_better_solution", "lib/src/itm-optimizer-common.hpp: cost_constant", "lib/src/itm-solver-common.hpp: solver_functor", "lib/src/preprocessor.cpp: objective_function_exclude_copy", "lib/src/lpcore.cpp: solve, optimize, compute_solution", "lib/src/branch-optimizer.cpp: branch_optimize"]}
{"id": "C140", "title": "A looser copy of a constraint changes nothing without preprocessing", "statement": "Writing again, anywhere later and under any label, the terms of a constraint that the problem already has with a bound that it implies (for <= a greater or equal value, for >= a smaller or equal one) changes neither the check nor the value of a solution, nor, without preprocessing, the merged constraints and the result of solve and optimize with the same random choices, whatever the order of the constraints asked and the number of workers.", "quantifier": "every problem, every number of looser copies at every place, parameters, solver, mode (but branch), order of the constraints, number and schedule of the workers and random choices", "why_tests_cant": "it compares two runs on every problem and every way to loosen its constraints", "anchors": ["lib/src/merged-constraint.cpp: make_merged_constraints", "lib/src/lpcore.cpp: solve, optimize, is_valid_solution", "lib/src/preprocessor.cpp: try_affect_variable"]}
{"id": "C141", "title": "The order of the terms of a constraint", "statement": "Writing the terms of the constraints in another order, in such a way that constraints with the same terms keep them in a same order, changes neither the class of the solver, nor the check and the value of a solution, nor, without preprocessing and with an order of the constraints that sorts the terms (memory and the six orders by operator), the merged constraints and the result of solve and optimize with the same random choices. Writing the terms of the objective in another order does not change the value of a solution, nor, in exact arithmetic, the search of solve when its linear terms are concerned, nor, with the same random choices, the result of solve and optimize, without preprocessing or with a linear objective. A file where the terms of the constraints are in another order is read as the same problem with its terms in that order.", "quantifier": "every problem, every order of the terms of each constraint, parameters, solver, mode (but branch), number and schedule of the workers and random choices", "why_tests_cant": "it compares two runs on every problem and every order of its terms", "anchors": ["lib/src/merged-constraint.cpp: fill_merged_constraints, improve_memory_usage, make_merged_constraints", "lib/src/problem.hpp: problem::coefficient_type, problem::which_problem_type", "lib/src/lpcore.cpp: solve, optimize, is_valid_solution, compute_solution"]}
{"id": "C142", "title": "The bounds and the kinds of the variables", "statement": "Without preprocessing the bounds and the kinds of the variables do not count: two problems that differ only there have the same result of solve and optimize with the same random choices. With preprocessing they count only for the variables whose two bounds are equal, and there it only counts whether the bounds are 0. The check and the value of a solution never depend on them.", "quantifier": "every problem, bounds and kinds of the variables, parameters, solver, mode, number and schedule of the workers and random choices", "why_tests_cant": "it compares two runs on every problem and every choice of bounds", "anchors": ["lib/src/preprocessor.cpp: preprocess", "lib/src/lpcore.cpp: solve, optimize, is_valid_solution, compute_solution", "lib/src/branch-optimizer.cpp: branch_optimize"]}
