# Formal model of quesnel/baryonyx in Lean 4

## Method

The code in `/repo` is read as text. Each modelled function becomes a total,
computable Lean function; the comment on each definition cites the file and
lines it models and names each simplification. Undefined behaviour, failed
contract checks (`bx_expects`, `bx_ensures`, `bx_assert`, `bx_reach`, which
call `std::terminate`) and C++ exceptions are distinct outcomes of the model
(`Outcome`), never silently given a default value.

Layout (`lean/Verif/`):

* `Basic.lean`      - `Outcome`, raw problem and problem types.
* `Model/*.lean`    - the functions of the code, one file per source file.
* `Spec/*.lean`     - small specifications written without the model's helpers
                      (0-1 assignments, constraint satisfaction, objective).
* `Proofs/*.lean`   - helper lemmas.
* `Props/*.lean`    - one theorem (or a few) per property, each followed by an
                      `example` showing that its hypotheses can be met.

When a property is false of the code, the negation is proved with a concrete
witness, and the part that does hold is proved under a `_partial` name.

## Trusted base

* Lean's kernel. Theorems depend at most on `propext`, `Classical.choice`,
  `Quot.sound`. `AXIOMS.md` lists them per theorem; `tools/axioms.py` writes it.
* The hand translation from C++ to Lean. It is checked by reading only.
* `double`/`float` values are rationals, and the operations are exact, except in
  the theorems that name a rounding: those hold for every monotone rounding
  (`Spec.Rounding`) or for the rounding to `p` binary digits, ties to even
  (`Spec.binary`, without overflow and subnormal numbers). For parameters a `double` is NaN, an infinity or a rational,
  with IEEE comparisons.
* `int` is unbounded `Int`, except in the parser and in `Model/Overflow`, where an
  operation out of the 32 bits is a fault. C108 tells when the two agree.
* `std::sort` is any permutation that is sorted for the comparison used;
  `std::shuffle` any permutation; random engines and clocks are arbitrary
  oracles (universally quantified).

## Plan per property

| Id | Model | Proof |
|----|-------|-------|
| C01 | `make_variable_value`, `compute_function`, `is_valid_solution` | unfold, induction on lists, against `Spec.Satisfies` |
| C02 | `compute_solution` | induction on lists |
| C03 | same, name lookup as a map | permutation invariance of the map |
| C04 | `preprocessor` (all of preprocessor.cpp) | invariants of the copy functions |
| C05 | idem | invariant of the propagation loop: every feasible x agrees with the affected variables; a constraint with counter 0 is implied |
| C06 | idem | same invariant, exchange argument for unused variables |
| C07 | idem | list algebra; for quadratic objectives prove or refute |
| C08 | idem | expected false: negation with a witness, converse partial |
| C09 | idem | fuel bound: each step removes a variable |
| C10 | `affect`, `split` | as C05; expected partial (length-one constraints) |
| C11 | `unpreprocess` | unfold |
| C12 | `which_problem_type`, `coefficient_type` | case analysis, list induction |
| C13 | `merged-constraint.cpp` | loop invariant: (seen constraints) iff (merged so far) |
| C14 | idem | counting, permutation |
| C15 | idem | exception branch implies contradictory bounds |
| C16 | idem + C12 | composition |
| C17 | `sparse_matrix` constructor | counting-sort style invariant |
| C18 | `bit_array_impl` on 64-bit blocks | refinement to `Nat -> Bool` by induction on operations |
| C19 | `set(int,bool)` | expected false: exact characterisation + negation |
| C20 | `operator==`, hash | expected false for `ones()`; partial without padding |
| C21 | `assign` | expected false: negation |
| C22 | block crossover | bitwise extensionality |
| C23 | row update of the equalities solvers, `affect` | counting over the permutation of the row |
| C24 | row update of the inequalities solvers | idem |
| C25 | `select_variables` with out-of-range read as an outcome | negation + safe subset |
| C26 | `affect` | frame lemma |
| C27 | `compute_violated_constraints`, `compute_order` | list induction |
| C28 | `solver_functor` | loop invariant over arbitrary oracles |
| C29 | idem | idem |
| C30 | idem | counting passes |
| C31 | idem | expected false: witness run |
| C32 | composition | C05, C13, C28 |
| C33 | `exhaustive_solver` | enumeration covers all bit vectors |
| C34 | `branch_and_bound_solver` | feasibility proved, optimality expected false |
| C35 | `shared_subvector` | free-list invariant |
| C36 | `parser.cpp` | expected false: witness text; partial |
| C37 | idem | invariant over parser steps |
| C38 | tokenizer | tokens invariant under layout |
| C39 | bounds | expected false: witnesses |
| C40 | `append_to_objective`, `append_to_constraint` | merging lemma |
| C41 | `write_problem` | round trip on the bounds-free fragment; negation for bounds |
| C42 | result writer/reader | round trip |
| C43 | `context_set_solver_parameters` | invariant by induction on calls; NaN exceptions |
| C44 | idem | expected false for `w`; partial |
| C45 | optimizer storage | invariant by induction on insertions |
| C46 | idem, interleaving semantics | expected false: schedule |
| C47 | `crossover`; the steps of any number of workers (`Model/Workers`) | expected false: witness; partial without overwriting, by an invariant on the storage and on what each worker is about to insert |
| C48 | `optimize_problem` storage; `Model/Workers` | expected false: witness; partial for storage `one`, same invariant as C47 |
| C49 | branch optimizer loop | job list never empty: returns for no behaviour |
| C50 | `manual_course::next` | odometer enumerates base-5 numerals |
| C51 | `generate_seed` | expected false: witness |
| C52 | `numeric_cast` | arithmetic on intervals |
| C53 | trims | list lemmas |
| C54 | `compute_min_max_objective_function`, exact and in `Model/RoundedBounds` with a rounding after each operation | induction; monotone rounding keeps the frame |
| C55 | `string_buffer` | invariant over appends |
| C56 | `normalize_costs` | rational arithmetic (l2 with an abstract positive root) |
| C57 | cost types | rational arithmetic; error bound of the rounded sums |
| C58 | comparators | case analysis |
| C59 | `n_queens` generator | combinatorial equivalence |
| C60 | `fixed_2darray` | expected false: witness |
| C61 | CLI parsing | case analysis |

| C62 | `compute_order`, `push` | the push phase is the identity on the assignment |
| C63 | `compute_order::run` | the pass visits the violated rows once |
| C64 | `itm-solver-inequalities-Z.cpp` | C33, C34 and prefixes of the sorted row |
| C65 | `parse_argument`, main loop of the options | induction on the arguments |
| C66 | error messages of the command line | case analysis |
| C67 | `normalize_costs`, random norm | rational arithmetic; any rounding for the weak order |
| C68 | `parser.cpp` | simulation of the parser by a grammar |
| C69 | row updates with `pi`, `P` and the reduced costs | threshold between the selected elements and the others |
| C70 | `push_and_compute_update_row` | as C69; expected false: witnesses |
| C71 | `affect` on `pi` | the added value is between two sorted values |
| C72 | `affect` on `P` | expected false: witnesses; partial |
| C73 | `random-solver.cpp` constructor and row update | invariant of the three loops; expected false for negative bounds |
| C74 | idem | expected false: exact description of what is set |
| C75 | dispatch of `itm.hpp` and `lpcore.cpp` | case analysis, composition with C12, C16, C28, C47 |
| C76 | `nlopt-optimizer.cpp`, nlopt as an arbitrary search | expected false: out of bounds read as an outcome |
| C77 | `init_with_bastert` | sum by variables, best value of each |
| C78 | `init_with_pre_solve` | invariant of the two loops, exchange argument on the sorted prefix, then induction on the constraints |
| C79 | initial vectors composed with the models of `solve` and `optimize` | a pass from a feasible vector does not move; C48 |
| C80 | `compute_delta` | induction on the costs |
| C81 | `solver_functor` with pi, P and kappa (`Model/Numeric`) | a log of the passes is kept by the model; invariant on the chain of weights |
| C82 | the same | the weights of the log grow by at least a constant once w passes are done |
| C83 | the same, `compute_order::run`, `push_and_run` | invariant: the rows held by the order are the broken ones; sorts are arbitrary sorting permutations |
| C84 | the same, composed with the row updates of C69 | the fault of each step is excluded by C69 |
| C85 | `try_benchmark`, `bench` (`Model/Benchmark`) | invariant of the array under the reads; words and fields of a written line; expected false for some files: witnesses |
| C86 | `save_stats` | the rank loop on a sorted list is the dense rank, then induction on the lines |
| C87 | `all_found` | expected false: exact count |
| C88 | average distances | expected false: exact value |
| C89 | the reads of `save_stats` and of `show_to_console` | bounds of the array; expected false for full arrays, null values, no solver, no model |
| C90 | `operator>>` of a result | induction on the lines, with a grammar of the lines |
| C91 | the row update of the integer solver with its numbers (`Model/ZNumeric`) | the choice is that of C64; the prices are rewritten as reduced costs |
| C92 | the same | induction on the prefix that `local_affect` writes |
| C93 | `main` and `resume` (`Model/Main`), with the reader of C42 and the solvers of C75 | the comments are skipped; a valid result names each variable once; names that were read have no `=`; expected false for failures |
| C94 | `main` (`Model/Main`) | induction on the files |
| C95 | `main` (`Model/Main`) | induction on the files; expected false with exceptions |
| C96 | `read_quadratic_element` and the window of the stream (`Model/Parser`, `Model/Lexer`) | induction on the terms of the group; the name held by the reader stays in its slot while the words that follow fit in the window; expected false for spread out texts |
| C97 | `colormap` (`Model/Observer`), and in `Model/RoundedObserver` with the operations of `float` | cases on the segment of the scale; bounds of the integer part; error of each rounded operation |
| C98 | `pnm_vector`, `pi_pnm_observer` (`Model/Observer`) | induction on the passes: rows written and content of the buffer; expected false for the columns |
| C99 | `pnm_array`, `ap_pnm_observer`, `file_observer` (`Model/Observer`) | induction on the rows and their elements: the buffer is the image painted so far; expected false of large images and of `file` |
| C100 | `report`, `call`, `try_advance` (`Model/Optimizer`), `solve_problem` (`Model/Solve`) | invariant on the population and the best number of the turn, over every sequence of turns; expected false for `solve` and for the vector |
| C101 | `solve_01lp_problem`, `optimize_01lp_problem`, code tables (`Model/RInterface`) | cases on the codes, then C43 for the values; expected false of the default storage and seed |
| C102 | `convert_result` and the bodies of the two functions (`Model/RInterface`) | cases on the outcome; composition with C37, C75 and C02; expected false of unreadable files and the default storage |
| C103 | `operator==` (`Model/Equal`) | list induction; expected false of quadratic objectives |
| C104 | `solver_started_cb` and the words of core-out (`Model/CoreOut`), with `Model/CommandLine` | cases on the lines, then induction on the message; expected false of the lines without the name of a parameter |
| C105 | the population (`Model/Optimizer`) and the crew (`Model/Workers`) | the invariant `any two entries differ by what insertion compares`, kept by every call; a worker's run is a sequence of calls; expected false with two workers |
| C106 | `optimize_problem` with the functions of `context_register` (`Model/Callbacks`) over the workers (`Model/Workers`) | the best entry and the turns only improve along the steps; induction on the turns of the waiting thread; expected false of `finish` without constraint |
| C107 | the waiting loop and `is_time_limit` (`Model/Callbacks`) | induction on the turns; the clock as an arbitrary function |
| C108 | the integer functions of `is_valid_solution`, the preprocessor, the rows and the sub-solvers with 32 bits (`Model/Overflow`) | each checked function equals the unbounded one: the partial sums are at most the sum of the absolute values; expected false without the condition |
| C109 | `local_context`, the loops of `choose_a_solution`, `crossover`, `mutation`, and `reinit`, on sequences of draws (`Model/Reinit`) | inversion of the loops and refinement to `Model/Optimizer`; termination by the first usable draw; endless loops by induction on the fuel |
| C110 | `m_kappa_append` through the turns of a worker (`Model/Reinit`) | induction on the turns; expected false: `append` is tested before it grows |
| C111 | the text of `n_queens` (`Model/NQueens`), read by `Model/Parser`, solved by `Model/Dispatch` | the text spells the tokens of a file (C68), its constraints are those of C59, then C75 and C02 |
| C112 | `Model/Solve`, `Model/Optimizer`, `Model/Merge` | the merged constraints have distinct left-hand sides, and all those of the problem (the invariants of C14); then C04 |
| C113 | `Model/Manual`, `Model/Params`, `Model/Reinit` | the five values of each array, computed for every first value; then the ranges of C43 and the invariant of C110 |
| C114 | the sums of the objective with a rounding after each operation (`Model/Rounded`) | multiples of a power of 2 are not rounded; the preprocessor only permutes the terms; standard bound of the error of a sum; expected false in general |
| C115 | `solver_updated_cb` and `solver_finished_cb` (`Model/Messages`) on the results of `solve` and `optimize` | the texts are compared with the vectors of the run, by C32, C48, C100 and C106; expected false for failures of `solve` and for the storage five |
| C116 | `message_type`, `convert_verbose_level`, `is_loggable`, `emerg` to `debug`, the priority given by `main` and by the tuners (`Model/Log`) | cases on the level; the output of a run is the concatenation of the texts; expected false for `--quiet` and the tuners |
| C117 | the row updates of the four 0/1 and -1/0/1 solvers with a rounding after each operation (`Model/RoundedRows`) | the assignment is the one of an exact update with other costs, hence the cheapest for the computed reduced costs (C69); then an error bound on these, by induction on the sums |
| C118 | idem, `affect` on `pi` and `P` | increasing rounding keeps the order of the sums; expected false for the multiplier: two updates in `double` |
| C119 | `show_to_console` without the widths (`Model/Benchmark`) | folds over a line compute the bounds of its numbers; expected false for maximizations |
| C120 | `Num.functor` with the update of `Model/RoundedRows` as its engine | the theorems on any engine (C29-C31, C83) and those on one rounded update (C117) |
| C121 | `Model/RoundedZ`: `ZNumeric` again with a rounding after each operation, the two sub-solvers with a rounding after each addition | the price that is computed is the rounded sum of the specification, the sub-solvers are optimal for rounded sums taken in one order, then the error of a rounded sum |
| C122 | `Model/Memory`: the sizes, their units and their text with the rounding of `double`; a text is read by `Spec/Memory` | divisions by a power of two are exact, the bounds of the units are printed the same with both units, the rest is monotonicity of rounding |
| C123 | `Model/PreprocessedFile`: `preprocess` and `split` with the file that they write; assignments by name in `Spec/ByName` | the reduced problem of a writable problem is writable, then C41, C05, C06 and C07 are put together |
| C124 | `Model/Merge`, as for C13; `Spec/ConstraintOrder` has the first occurrences and the shared costs | the fills keep the list of first occurrences (induction on the constraints); for p1 to p4 the new numbers are a permutation of 0..n-1, sorted |
| C125 | `Model/Lifetime`: the buffers, who holds them and the views of each object, for `make_problem`, `operator>>`, copies, moves, `solve`, `optimize` and destructions; `Spec/Lifetime` is the same program with objects that hold their texts | simulation: every view of a living object is on the buffer it holds, by induction on the operations; expected false for a result read twice |
| C126 | `Spec/Help`: the lines of `help` (`main.cpp:341-377`) as intervals and lists of words, next to `assignParameter` and `parse` of `Model/CommandLine` | by cases on the lines, from C61 (what is refused has no value in the range) and C65; expected false for the values that the message lists and the code refuses |
| C127 | `Model/Races`: the accesses, the locks, the starts and the joins of each thread of `optimize_problem`, in any order they allow; `Spec/Races` has the definition of a data race of the C++ standard | the mutex orders a writer with everybody (invariant on the holders), starts and joins order the main thread, each function keeps a discipline on what it touches under which lock; expected false where the code writes under a reader lock or reads without a lock |
| C128 | `Model/Numeric` twice, with the same `World` but for the clock; `Spec/Time` says which passes begin in time | the two runs are in the same state until the first clock says that the time is over, then traces only grow (C29 and C129 turn this into the answers); expected false because of the push that begins late |
| C129 | `Model/Solve` | invariant of the main loop: the vector stored is the first with the least number of violated constraints |
| C130 | `Model/Numeric` twice, with other limits | the longer run goes through the state where the shorter one ends |
| C131 | `Model/Numeric` twice, with another `kappa-max` | as for C130 in the main loop; expected false of the pushes, whose loops end earlier |
| C132 | `Model/Seed`: `init_random_generator_seed` and the linear congruential engine of the standard | the modulus is prime (Lucas) and both factors have the order 2147483646 in the units of `ZMod 2147483647`; expected false of seeds that are equal modulo 2147483647 |
| C133 | `Model/Coefficients`: the array `A` of each solver, over `Model/SparseMatrix` and `Model/BitArray` | induction on the loops that fill `A`, with the exact rows and columns of the matrix (C17) and the bits (C18) |
| C134 | `Model/Flag`: the workers of `Model/Workers`, where each step comes with the answer of `stop_task.load()` | the state where the first run is told to stop is the same in both; a step that sees the flag makes no pass, and a pass depends on the worker alone; then C48 and C100 on the vectors of both runs |
| C135 | `Model/Setup`: the lines of `solver_functor` before the loop, from the objective to the costs, `delta` and the initial vector | simulation between the two runs: the multipliers, the preferences and the reduced costs are multiplied by one number, which leaves the sorts and the signs as they are; refuted by two concrete runs |
| C136 | `Model/Setup`, as for C135 | the simulation of C135 with the number -1 between the two directions: the comparisons, the sorts and the tests of the signs are reversed together; refuted by three concrete runs |
| C137 | `Model/Preprocess`, `Model/Merge`, `Model/Dispatch`, `Model/Tuners`, `Model/Lpcore`, `Model/Parser` | each function that reads a problem commutes with the renaming; for files, the meaning of the tree of C68 commutes with it |
| C138 | `Model/Preprocess`, `Model/Merge`, `Model/Dispatch`, `Model/Tuners`, `Model/Lpcore` | simulation: the counter of a repeated constraint is that of the first one, and what it would push is already on the stack; in the merge the entry of the first one is a fixed point of the step of the repeated one |
| C139 | `Model/Preprocess`, `Model/Itm`, `Model/Setup`, `Model/Optimizer`, `Model/Dispatch`, `Model/Tuners`, `Model/Lpcore` | simulation: the constant is read only where a value is computed; every comparison of values is between two values moved by the same amount |
| C140 | `Model/Merge`, `Model/Dispatch`, `Model/Tuners`, `Model/Workers`, `Model/Lpcore`, `Model/Preprocess` | as C138: the entry of the tighter constraint is a fixed point of the step of the looser one; a counterexample for the preprocessing |
| C141 | `Model/Merge`, `Model/ProblemType`, `Model/Dispatch`, `Model/Tuners`, `Model/Workers`, `Model/Lpcore` | the entries of the merge are the same up to the order of their terms, and sorting distinct variables is a function; the search reads the objective through its costs and its values, which are sums; counterexamples for the default order, for different orders of the same terms, for the products with preprocessing and for rounded values |
| C142 | `Model/Preprocess`, `Model/Dispatch`, `Model/Tuners`, `Model/Workers`, `Model/Lpcore` | only the pass of the preprocessing over the fixed variables reads the bounds; the rest of the run is equal by rewriting, the branches by induction on the tree; counterexamples for the meaning of the bounds |

Not expressible in the model: time to completion in seconds, quality of the
heuristic solutions, overflow and underflow of floating-point numbers, memory use.

## What is modelled

| Source | Model |
|--------|-------|
| `lib/src/lpcore.cpp:134-257` (checks, values) | `Model/Lpcore` |
| `lib/src/problem.hpp:43-149` (classes of problems) | `Model/ProblemType` |
| `lib/src/problem.hpp:235-384` (writer) | `Model/Writer` |
| `lib/src/preprocessor.cpp` | `Model/Preprocess` |
| `lib/src/merged-constraint.cpp` | `Model/Merge` |
| `lib/src/sparse-matrix.hpp` | `Model/SparseMatrix` |
| `lib/src/bit-array.hpp` | `Model/BitArray` |
| `lib/src/itm-common.hpp` (row updates, orders, costs, seeds) | `Model/Itm`, `Model/Multipliers`, `Model/Solve`, `Model/Costs`, `Model/Compare` |
| `lib/src/itm-solver-{equalities,inequalities}-{01,101}.cpp` | `Model/Itm`, `Model/SolverCtor`, `Model/Multipliers` |
| `lib/src/itm-solver-inequalities-Z.cpp` | `Model/ZSolver` |
| `lib/src/exhaustive-solver.hpp` | `Model/Exhaustive` |
| `lib/src/branch-and-bound-solver.hpp` | `Model/BranchBound`, `Model/Subvector` |
| `lib/src/itm-solver-common.hpp`, `lib/src/itm.hpp` (solve) | `Model/Solve` |
| `lib/src/itm-optimizer-common.hpp` | `Model/Optimizer` (one worker), `Model/Workers`, `Model/Flag` (any number of workers, an insertion is one step), `Model/Population` (overlapping insertions), `Model/Races` (which thread touches what, and under which lock) |
| `lib/src/branch-optimizer.cpp` | `Model/Branch` |
| `lib/src/manual-optimizer.cpp` | `Model/Manual` |
| `lib/src/random-solver.cpp` | `Model/RandomSolver` |
| `lib/src/itm.hpp`, `lib/src/lpcore.cpp:88-132` (choice of the solver), `lib/src/nlopt-optimizer.cpp` | `Model/Dispatch`, `Model/Tuners` |
| `lib/src/itm-common.hpp:182-374` (initial vectors), `917-933` (delta), `lib/src/itm-solver-common.hpp:99-123`, `lib/src/itm-optimizer-common.hpp:164-203` | `Model/Init` |
| `lib/src/itm-common.hpp:627-915`, `lib/src/itm-solver-common.hpp:63-225`, with the multipliers, the preferences and kappa | `Model/Numeric` |
| `lib/src/itm-solver-common.hpp:63-123`, from the objective to the loop | `Model/Setup` |
| `app/src/benchmark.cpp`, `lib/src/dynarray.hpp` (`init(cols)`, `push_line`, `operator()`) | `Model/Benchmark` |
| `lib/src/itm-solver-inequalities-Z.cpp:242-564`, with the multipliers and the preferences | `Model/ZNumeric` |
| `app/src/main.cpp` (`main`, `resume`) | `Model/Main` |
| `lib/src/observer.hpp`, `lib/src/pnm.hpp` | `Model/Observer` |
| `rbaryonyx/src/rbaryonyx.cpp` | `Model/RInterface` |
| `lib/include/baryonyx/core-compare` | `Model/Equal`, `Model/Compare` |
| `lib/include/baryonyx/core-out`, messages of `app/src/main.cpp` at the start of a run | `Model/CoreOut` |
| `context_register` and the waiting thread of `optimize_problem`, `is_time_limit` | `Model/Callbacks` |
| the same functions of `lpcore.cpp`, `preprocessor.cpp`, the row updates and the sub-solvers, with 32 bits `int` | `Model/Overflow` |
| `app/src/main.cpp`: `solver_updated_cb`, `solver_finished_cb` | `Model/Messages` |
| `lib/src/private.hpp`: which messages are printed and where | `Model/Log` |
| `lib/src/bit-array.hpp:339-369` and the member `A` of the solvers | `Model/Coefficients` |
| `lib/src/itm-common.hpp:1442-1452` and the engine of the random numbers | `Model/Seed` |
| `lib/src/itm-common.hpp`: `random_shuffle_unique`, `calculator_sort` | `Model/CalculatorSort` |
| the row updates of the 0/1 and -1/0/1 solvers, with rounding | `Model/RoundedRows` |
| the row updates of the solver with integer coefficients, with rounding | `Model/RoundedZ` |
| the colours of `pnm.hpp`, with rounding | `Model/RoundedObserver` |
| the file `preprocessed.lp`, `preprocessor.cpp:710-713` | `Model/PreprocessedFile` |
| the sizes of the messages, `memory.hpp`, `memory.cpp` | `Model/Memory` |
| who holds the strings of a problem or of a result: `raw_problem`, `problem`, `result`, `operator>>` | `Model/Lifetime` |
| the sums of the objective in `lpcore.cpp`, `preprocessor.cpp` and `itm-common.hpp`, with rounding | `Model/Rounded` |
| the normalisation of the costs in `itm-common.hpp`, with rounding | `Model/RoundedCosts` |
| `lib/src/itm-optimizer-common.hpp`: the draws at the start of a turn and its kappa | `Model/Reinit` |
| `lib/src/parser.cpp` | `Model/Lexer`, `Model/Parser`, `Model/Scan` |
| `lib/src/result.{hpp,cpp}` | `Model/ResultFile` |
| `lib/src/private.cpp:50-178` | `Model/Params` |
| `app/src/main.cpp` (command line) | `Model/CommandLine` |
| `lib/src/utils.hpp`, `fixed-2darray.hpp`, `string_buffer` | `Model/Utils` |
| `lib/include/baryonyx/core-test` (n-queens) | `Model/NQueens` |

The models of the solving loops take what the floating point arithmetic, the
random engine, the clock and the sorts decide as parameters; the theorems hold
for all of them. A theorem about such a model is therefore about every run of
the code, and about other runs too: a refutation is only claimed with parameters
that the code can produce, as the comment beside it says.

## What is not modelled

* in `Model/Solve` and the optimizer, the values of the multipliers `pi`, of the
  preferences `P` and of the reduced costs (arbitrary orders stand for them).
  `Model/Multipliers` and `Model/Numeric` have them, as rationals, for a row
  update and for the loops of `solve`, and refine `Model/Solve`;
  `Model/ZNumeric` has them for the integer (`Z`) row updates;
* `itm-solver-inequalities-101-buffered.cpp` (no function of the library calls it);
* the iterators of `pnm.hpp` that no observer uses, `resume.hpp`, `debug.hpp`, the texts of the log messages;
* the messages of `benchmark.cpp` and of the R interface `rbaryonyx`;
* the conversions of `sscanf` and `fmt` between texts and `double` (arbitrary
  functions with the few laws named in the theorems);
* the C++ memory model below data races: C46 and C127 prove that some exist, and
  the other theorems on several workers assume that each field is read and
  written in one step.

## Results

Status of each claim; `MANIFEST.json` has the notes and the theorems. A claim
marked partial has a proved part, and a refutation when the full claim is false
of the code.

<!-- status -->
| Id | Property | Status | Theorems |
|----|----------|--------|----------|
| C01 | Solution checking is exact | proved | `C01_is_valid_solution_exact`, `C01_no_solution`, `C01_no_variable_terminates` |
| C02 | The objective value is exact | proved | `C02_compute_solution_exact` |
| C03 | Checking looks at names, not positions | proved | `C03_order_independent` |
| C04 | Preprocessing partitions the variables | proved | `C04_variables_partitioned`, `C04_kept_variables_are_used` |
| C05 | Preprocessing is sound | proved | `C05_reduced_solution_valid`, `C05_completion_exists` |
| C06 | Preprocessing loses no solution that matters | partial | `C06_no_solution_lost`, `C06_completion_at_least_as_good`, `C06_optimum_preserved_partial`, `C06_optimum_lost_for_quadratic_objective` |
| C07 | Preprocessing preserves the objective | partial | `C07_objective_preserved_partial`, `C07_fails_for_quadratic_objective` |
| C08 | Preprocessing keeps infeasibility visible | partial | `C08_infeasibility_partial`, `C08_infeasibility_hidden` |
| C09 | Preprocessing terminates and does not abort on feasible problems | partial | `C09_returns_on_feasible_partial`, `C09_terminates`, `C09_quadratic_undefined_behaviour` |
| C10 | Fixing a variable is exact | partial | `C10_affect_sound_partial`, `C10_affect_complete_partial`, `C10_split_covers_partial`, `C10_affect_ends_partial`, `C10_split_returns_partial`, `C10_preprocessed_is_well_formed`, `C10_affect_drops_single_element_constraint`, `C10_split_aborts_on_infeasible_half` |
| C11 | Disabling preprocessing changes nothing | proved | `C11_unpreprocess_identity` |
| C12 | The solver class matches the problem | proved | `C12_classification`, `C12_class_of_the_solved_problem` |
| C13 | Merging constraints preserves the solutions | proved | `C13_merge_preserves_solutions` |
| C14 | Merging never grows the problem and is order independent | proved | `C14_merge_never_grows`, `C14_no_constraint_lost`, `C14_order_independent` |
| C15 | A merge conflict means the problem is infeasible | partial | `C15_conflict_means_infeasible`, `C15_contradictions_reported_partial`, `C15_contradiction_not_reported` |
| C16 | The solver's coefficient contract always holds | partial | `C16_solver_contract_partial`, `C16_null_coefficient_aborts`, `C16_infeasible_row_aborts` |
| C17 | The sparse matrix is the constraint matrix | proved | `C17_matrix_is_exact`, `C17_empty_matrix_is_undefined` |
| C18 | bit_array is an array of booleans | proved | `C18_refines_plain_array`, `C18_out_of_range_aborts` |
| C19 | set(index, value) stores the value | partial | `C19_set_value_partial`, `C19_set_true_clears` |
| C20 | Equality and hash of bit arrays follow their contents | partial | `C20_equal_arrays_agree`, `C20_ne_is_not_eq`, `C20_agreeing_arrays_equal_partial`, `C20_ones_breaks_equality` |
| C21 | assign copies exactly the range | partial | `C21_assign_aligned_partial`, `C21_assign_copies_the_wrong_bits` |
| C22 | A crossover child mixes its parents | proved | `C22_child_mixes_parents`, `C22_crossover_of_the_population` |
| C23 | Updating an equality row satisfies it | proved | `C23_equality_update`, `C23_unsatisfiable_row_aborts` |
| C24 | Updating an inequality row satisfies it | partial | `C24_inequality_update_partial`, `C24_one_more_cell` |
| C25 | Row updates stay inside the reduced-cost buffer | partial | `C25_reads_in_bounds_partial`, `C25_read_past_the_buffer` |
| C26 | A row update touches only its own variables | proved | `C26_frame` |
| C27 | The violated-constraint count is exact | proved | `C27_count_is_exact` |
| C28 | solve: success means a feasible solution | proved | `C28_success_is_feasible` |
| C29 | solve: the reported value is the objective of the reported solution | proved | `C29_best_of_the_run` |
| C30 | solve: the loop limit is respected | proved | `C30_passes_are_bounded` |
| C31 | solve: the status tells why it stopped | partial | `C31_status_partial`, `C31_status_hides_the_reason` |
| C32 | End to end: success means the original problem is solved | partial | `C32_success_solves_the_raw_problem`, `C32_without_preprocessing_partial`, `C32_unconstrained_aborts`, `C32_quadratic_value_differs`, `C32_infeasible_reported_solved` |
| C33 | The exhaustive sub-solver is optimal | proved | `C33_exhaustive_optimal`, `C33_exhaustive_as_computed`, `C33_prepared_iff_satisfiable`, `C33_one_element_aborts` |
| C34 | The branch-and-bound sub-solver returns a feasible best selection | partial | `C34_branch_and_bound_partial`, `C34_as_computed_partial`, `C34_not_optimal`, `C34_negative_factors_not_optimal` |
| C35 | The sub-vector allocator never shares a live block | proved | `C35_live_blocks_are_disjoint`, `C35_calls_succeed` |
| C36 | Reading a problem never aborts the process | partial | `C36_terminates_partial`, `C36_aborts`, `C36_undefined`, `C36_loops` |
| C37 | A parsed problem is well formed | proved | `C37_parsed_ok`, `C37_well_formed_raw` |
| C38 | Keywords are case-insensitive and layout is free | partial | `C38_layout_partial`, `C38_words_partial`, `C38_keyword_case_partial`, `C38_final_comment`, `C38_quadratic_layout`, `C38_s_t_is_a_variable` |
| C39 | Bounds are read as written | partial | `C39_every_line_as_read`, `C39_operators_do_not_matter`, `C39_decreasing_is_refused`, `C39_bounds_as_written_partial`, `C39_unreadable_partial`, `C39_unknown_variable_partial`, `C39_greater_is_upper`, `C39_equal_is_upper`, `C39_decreasing_refused`, `C39_lower_alone`, `C39_name_with_e`, `C39_name_alone`, `C39_fraction_truncated` |
| C40 | Repeated terms add up | partial | `C40_sums_partial`, `C40_merge_partial`, `C40_fractions` |
| C41 | Writing then reading a problem gives it back | partial | `C41_same_solutions_partial`, `C41_round_trip_partial`, `C41_exact_partial`, `C41_lower_bound`, `C41_fixed_binary`, `C41_unused`, `C41_quadratic`, `C41_name_with_e`, `C41_exponent`, `C41_no_terms`, `C41_no_variables` |
| C42 | Writing then reading a result gives it back | proved | `C42_round_trip`, `C42_check`, `C42_failure_read_as_success`, `C42_no_file`, `C42_equal_in_name`, `C42_backslash_in_name`, `C42_no_number`, `C42_blank_line` |
| C43 | Stored parameters are always in range | partial | `C43_stored_in_range_partial`, `C43_nan_time_limit_stored`, `C43_nan_improve_start_stored`, `C43_valid_parameters_are_stored`, `C43_invalid_values_are_ignored` |
| C44 | Setting back the stored parameters changes nothing | partial | `C44_set_back_partial`, `C44_set_back_changes_w`, `C44_default_changes` |
| C45 | The population keeps its best solution | proved | `C45_best_is_kept`, `C45_four_entries_lose_the_best` |
| C46 | The population survives concurrent insertions | partial | `C46_safe_partial`, `C46_best_is_lost`, `C46_data_race`, `C46_torn_entry_is_reported` |
| C47 | optimize: success means a feasible solution | partial | `C47_success_is_feasible_partial`, `C47_success_solves_the_raw_problem_partial`, `C47_overwritten_success_is_infeasible`, `C47_workers_success_is_feasible_partial`, `C47_workers_solve_the_raw_problem_partial` |
| C48 | The reported solution is the best one | partial | `C48_best_value_partial`, `C48_reported_is_best_partial`, `C48_bound_uses_an_infeasible_vector`, `C48_reported_entries`, `C48_five_uses_the_worst`, `C48_workers_best_value_partial`, `C48_workers_reported_is_best_partial`, `C48_worker_count`, `C48_one_worker_is_a_crew`, `C48_one_thread_is_a_crew` |
| C49 | Branch optimization terminates | partial | `C49_never_returns`, `C49_ends_with_an_error_partial`, `C49_turn_explores_both_values` |
| C50 | Manual tuning tries every combination and returns the best | partial | `C50_every_combination_once_partial`, `C50_returns_the_last_combination`, `C50_last_combination`, `C50_solution_is_lost`, `C50_least_value_is_recorded_partial`, `C50_one_index_per_parameter`, `C50_first_combination`, `C50_maximization_keeps_the_least`, `C50_manual_mode_partial`, `C50_one_call_per_combination` |
| C51 | Thread seeds are distinct | partial | `C51_last_seed_partial`, `C51_distinct_draws_partial`, `C51_equal_seeds`, `C51_redrawn_seed_not_compared` |
| C52 | numeric_cast is exact or throws | proved | `C52_numeric_cast_exact` |
| C53 | Trimming removes exactly the outer blanks | proved | `C53_left_trim`, `C53_right_trim`, `C53_trim`, `C53_trim_longest`, `C53_trim_idempotent` |
| C54 | The objective range is a true bound | proved | `C54_rounded_between`, `C54_rounded_compute_solution`, `C54_without_rounding`, `C54_objective_between`, `C54_linear_bounds_reached` |
| C55 | Interned strings stay put | partial | `C55_views_stay_valid_partial`, `C55_long_string_overflows` |
| C56 | Cost normalisation keeps the ranking | partial | `C56_normalised_costs_partial`, `C56_infinity_norm_reverses`, `C56_infinity_norm_empty`, `C56_without_rounding`, `C56_rounded_costs_partial`, `C56_rounding_makes_ties` |
| C57 | Incremental cost equals the marginal objective | partial | `C57_linear_cost_is_marginal`, `C57_quadratic_cost_is_marginal_partial`, `C57_quadratic_index_all_ones`, `C57_square_is_missed`, `C57_without_rounding`, `C57_rounded_cost_partial`, `C57_rounded_cost_exact_partial`, `C57_rounded_linear_cost_partial`, `C57_rounded_cost_is_wrong` |
| C58 | Solution comparison is a strict order | proved | `C58_is_better_solution`, `C58_calculator_sort`, `C58_storage_sort`, `C58_raw_result_compare`, `C58_node_result_compare`, `C58_solution_less`, `C58_element_less`, `C58_storage_order`, `C58_better_value`, `C58_nan_is_not_ordered` |
| C59 | The n-queens example encodes n-queens | proved | `C59_n_queens`, `C59_small_sizes` |
| C60 | Matrix copies stay in bounds | partial | `C60_copy_partial`, `C60_copy_overflows`, `C60_new_array`, `C60_cells` |
| C61 | Command line values are validated | partial | `C61_rejected_unchanged`, `C61_accepted_partial`, `C61_refused`, `C61_command_line_in_range_partial`, `C61_two_letter_name`, `C61_nan_time_limit`, `C61_kappa_one`, `C61_blank_is_zero` |
| C62 | solve: the push phase does not move | proved | `C62_push_phase_does_nothing` |
| C63 | solve: a pass updates exactly the violated constraints | partial | `C63_pass_visits_the_violated_partial`, `C63_pi_sign_change_never_returns` |
| C64 | solve: updating a constraint with integer coefficients satisfies it | partial | `C64_integer_update_partial`, `C64_prefix_update_partial`, `C64_returned_row_is_satisfied`, `C64_linear_row_aborts`, `C64_one_sided_row_aborts`, `C64_reads_past_the_end`, `C64_one_variable_row_aborts` |
| C65 | Every option of the command line takes effect | partial | `C65_options_take_effect_partial`, `C65_no_error_partial`, `C65_verbose_becomes_a_file`, `C65_check_has_no_effect` |
| C66 | The message for a refused parameter names it | partial | `C66_status_of_the_parameter_partial`, `C66_wrong_name_in_every_message`, `C66_seed_message_aborts` |
| C67 | The random norm only breaks ties | partial | `C67_random_norm_keeps_order_partial`, `C67_random_draws_between`, `C67_random_norm_reverses`, `C67_without_rounding`, `C67_rounded_random_norm_partial`, `C67_rounded_norm_stops` |
| C68 | A correct problem file is read as the problem it denotes | partial | `C68_read_as_written_partial`, `C68_text_after_end`, `C68_constant`, `C68_value` |
| C69 | A row update picks the cheapest assignment of its row | proved | `C69_calculator_sort_sorts`, `C69_calculator_sort_is_any_order`, `C69_oracle_is_the_code`, `C69_cheapest_row`, `C69_update_returns` |
| C70 | A push favours the objective | partial | `C70_push_partial`, `C70_push_reads_other_costs`, `C70_push_negative_coefficient`, `C70_push_rounded_partial` |
| C71 | The multiplier separates the variables of the row | proved | `C71_multiplier_separates`, `C71_multiplier_kept` |
| C72 | The preferences reinforce the last decision | partial | `C72_preferences_reinforce_partial`, `C72_extreme_rows_reinforce_partial`, `C72_negative_coefficient`, `C72_maximise`, `C72_extreme_row` |
| C73 | The random solver satisfies the constraint it updates | partial | `C73_update_is_sound`, `C73_update_returns_partial`, `C73_negative_bound_aborts`, `C73_mixed_row_aborts` |
| C74 | The random solver sets only the variables that pay | partial | `C74_no_improving_variable_is_set`, `C74_preferences_follow_the_values`, `C74_costly_variables_are_set` |
| C75 | The solver that runs accepts the problem and does what was asked | partial | `C75_solver_accepts_partial`, `C75_random_accepts_partial`, `C75_success_solves_the_raw_problem_partial`, `C75_random_ignores_the_request`, `C75_random_refuses_integers`, `C75_buffered_aborts`, `C75_first_mode_wins`, `C75_no_context_no_success`, `C75_tuned_success_solves_the_raw_problem_partial` |
| C76 | Tuning with nlopt stays in the memory of the parameters | partial | `C76_nlopt_reads_out_of_bounds`, `C76_without_nlopt_is_manual_partial`, `C76_failed_search_is_manual_partial`, `C76_library_without_nlopt_partial` |
| C77 | The bastert initial vector has the best objective | partial | `C77_bastert_is_optimal_partial`, `C77_quadratic_is_not_optimal` |
| C78 | The pre-solve respects each constraint it visits, with the best cost | partial | `C78_turn_partial`, `C78_negative_coefficient`, `C78_initial_is_feasible_partial`, `C78_optimistic_is_optimal_partial`, `C78_optimistic_is_nearly_optimal_partial`, `C78_float_costs_tie` |
| C79 | A feasible initial vector is not lost | partial | `C79_feasible_start_is_the_answer_partial`, `C79_optimistic_solve_is_optimal_partial`, `C79_pessimistic_is_not_improved`, `C79_optimize_feasible_bastert_partial`, `C79_cycle_keeps_a_feasible_start_partial`, `C79_sign_change_loses_a_feasible_start`, `C79_workers_feasible_bastert_partial` |
| C80 | The computed step delta is positive and at the scale of the costs | partial | `C80_delta_partial`, `C80_rounded_delta_partial`, `C80_theta_converted`, `C80_null_objective` |
| C81 | The weight kappa follows its parameters | partial | `C81_weights_partial`, `C81_weight_one`, `C81_push_weight_beyond_the_maximum` |
| C82 | The search ends without a loop limit | partial | `C82_main_loop_ends_partial`, `C82_main_loop_ends_exact_partial`, `C82_main_loop_ends_rounded_partial`, `C82_lost_step_never_ends`, `C82_zero_step_never_ends`, `C82_small_step_never_ends` |
| C83 | The constraint-order option is followed | partial | `C83_log_is_the_run`, `C83_order_is_followed_partial`, `C83_cycle_repeats_the_first_row` |
| C84 | solve returns | partial | `C84_solve_returns_partial`, `C84_integer_solve_returns_partial` |
| C85 | A benchmark keeps its file and adds a column | partial | `C85_run_adds_a_column_partial`, `C85_table_is_read`, `C85_next_run_reads_it_partial`, `C85_errors_keep_the_file`, `C85_unreadable_model_is_an_error`, `C85_one_letter_name_breaks_the_file`, `C85_unended_line_is_lost`, `C85_empty_cells_move_the_values`, `C85_blank_cell_is_zero` |
| C86 | Benchmark ranks are ranks | partial | `C86_ranks_partial`, `C86_minus_infinity_splits_a_rank` |
| C87 | The benchmark counts the solutions found | partial | `C87_failures_are_counted`, `C87_found_partial`, `C87_unsolved_is_found` |
| C88 | The benchmark prints average distances | partial | `C88_distance_is_scaled`, `C88_distance_partial`, `C88_unsolved_halves_the_distance`, `C88_optimum_is_the_first_model` |
| C89 | A benchmark run ends | partial | `C89_run_ends_partial`, `C89_first_run_is_undefined`, `C89_full_array_is_undefined`, `C89_no_model_is_undefined`, `C89_null_value_is_undefined` |
| C90 | Files of results written by hand are read | proved | `C90_file_is_read`, `C90_line_without_value_is_refused`, `C90_value_without_number_is_refused` |
| C91 | A row update with integer coefficients takes the cheapest assignment | partial | `C91_short_row_partial`, `C91_absolute_values`, `C91_long_row_partial`, `C91_update_returns`, `C91_negative_coefficient`, `C91_one_sided_row_not_optimal`, `C91_long_row_not_optimal` |
| C92 | A row update with integer coefficients remembers its decision | partial | `C92_rest_is_kept`, `C92_preferences_reinforce_partial`, `C92_multiplier_is_a_mean_partial`, `C92_variable_at_one_pushed_away`, `C92_maximise`, `C92_multiplier_does_not_separate`, `C92_multiplier_of_a_full_row` |
| C93 | The solution file of a command holds the solution of its problem file | partial | `C93_solution_file_reads_back`, `C93_read_problem_partial`, `C93_from_problem_to_solution_partial`, `C93_failed_run_reads_as_success`, `C93_names_of_the_files`, `C93_unwritable_is_silent`, `C93_quadratic_file_unreadable` |
| C94 | A command reports each of its failures | proved | `C94_each_failure_is_reported`, `C94_silence_means_done`, `C94_exit_status`, `C94_failures_exit_zero` |
| C95 | A command on several problems writes one line for each | partial | `C95_one_line_per_problem`, `C95_killed_keeps_the_lines_before`, `C95_exception_joins_lines` |
| C96 | A quadratic objective is read as written | partial | `C96_objective_value_partial`, `C96_products_partial`, `C96_linear_in_brackets`, `C96_cube` |
| C97 | The colour of a pixel tells the number it stands for | partial | `C97_colour_of_a_number`, `C97_colour_tells_the_number`, `C97_nan`, `C97_colour_tells_the_number_rounded`, `C97_without_rounding` |
| C98 | The image of the multipliers has a row for each pass of the limit | partial | `C98_image_partial`, `C98_one_constraint`, `C98_cannot_open`, `C98_no_limit`, `C98_other_multipliers_not_shown` |
| C99 | Each pass leaves the preferences of the variables | partial | `C99_images`, `C99_large_images`, `C99_tables_partial`, `C99_file_undefined` |
| C100 | The number of remaining constraints is that of the solution | partial | `C100_optimize_tells_the_least_partial`, `C100_solve_never_tells`, `C100_trivial_problem`, `C100_number_of_another_vector`, `C100_workers_tell_the_least_partial` |
| C101 | The arguments of the R functions are the parameters of the run | partial | `C101_documented_codes`, `C101_solve_arguments`, `C101_optimize_arguments`, `C101_invalid_arguments`, `C101_default_storage`, `C101_default_seed` |
| C102 | The list of the R functions tells what happened | partial | `C102_list_tells_the_run_partial`, `C102_value_of_a_solution_partial`, `C102_unreadable_file`, `C102_remaining_constraints`, `C102_default_value_is_not_reached`, `C102_minimize_of_a_failure`, `C102_counts_are_reduced` |
| C103 | Problems that compare equal are the same problem | partial | `C103_what_is_compared`, `C103_equivalence`, `C103_equal_problems_partial`, `C103_quadratic_part_ignored` |
| C104 | The start message tells the parameters of the run | partial | `C104_line_gives_back_partial`, `C104_message_gives_back_partial`, `C104_lines_refused`, `C104_words_give_back_partial`, `C104_mode_is_lost`, `C104_computed_delta_refused`, `C104_not_in_the_message` |
| C105 | No solution is reported twice | partial | `C105_no_entry_twice_partial`, `C105_five_are_different_partial`, `C105_two_workers_store_it_twice`, `C105_initial_vectors_are_not_compared`, `C105_stored_without_a_pass` |
| C106 | The registered functions are told of the run | partial | `C106_calls_in_order_partial`, `C106_watching_changes_nothing`, `C106_progress_never_gets_worse`, `C106_messages_are_true`, `C106_no_finish_without_constraint`, `C106_update_without_improvement`, `C106_no_finish_after_preprocessing` |
| C107 | optimize returns when its time limit is over, and only then | proved | `C107_not_before_the_limit`, `C107_ends_after_the_limit`, `C107_no_limit_never_returns`, `C107_default_has_no_limit` |
| C108 | Integer arithmetic does not overflow on small constraints | partial | `C108_check_is_exact`, `C108_preprocess_is_exact`, `C108_split_is_exact`, `C108_rows_are_exact`, `C108_integer_rows_are_exact_partial`, `C108_initialization_is_exact`, `C108_accepted_problem_overflows`, `C108_reading_overflows`, `C108_row_overflows`, `C108_next_cell_overflows`, `C108_initialization_overflows` |
| C109 | How a turn of optimize starts, and that it does | partial | `C109_is_a_start_of_the_optimizer`, `C109_improve`, `C109_two_different_members`, `C109_insertion`, `C109_no_mutation`, `C109_values_all_one`, `C109_a_turn_starts_partial`, `C109_draw_of_one_is_undefined`, `C109_mean_one_is_undefined`, `C109_no_deviation_never_returns`, `C109_documented_no_mutation_never_starts`, `C109_numbers_of_the_parameters` |
| C110 | The weight kappa at the start of a turn | partial | `C110_first_turns`, `C110_first_crossover`, `C110_after_a_crossover`, `C110_at_least_min`, `C110_at_most_max_partial`, `C110_bound_partial`, `C110_above_max`, `C110_no_increase_never_crosses` |
| C111 | The text of the n-queens example is n-queens, from the file to the queens | partial | `C111_text_is_n_queens`, `C111_success_places_the_queens_partial` |
| C112 | The counts of a result | partial | `C112_one_merged_constraint_a_side`, `C112_solve_counts`, `C112_optimize_counts_partial`, `C112_optimize_forgets_the_variables`, `C112_workers_counts_partial` |
| C113 | The parameters tried by the manual mode | partial | `C113_values`, `C113_in_range_partial`, `C113_large_kappa_max_partial`, `C113_out_of_range`, `C113_last_run_above_kappa_max` |
| C114 | Values in floating point | partial | `C114_without_rounding`, `C114_compute_solution_partial`, `C114_value_partial`, `C114_reported_value_partial`, `C114_same_order`, `C114_values_are_close`, `C114_values_differ`, `C114_order_is_lost` |
| C115 | What the program prints of a run is true | partial | `C115_solve_found_partial`, `C115_solve_failure_is_not_told`, `C115_optimize_found_partial`, `C115_optimize_failed_partial`, `C115_updates_are_true`, `C115_preprocessor_named_without_it`, `C115_five_prints_the_worst` |
| C116 | The verbosity decides which messages are printed | partial | `C116_printed_iff_level`, `C116_stream`, `C116_verbosity_is_clamped`, `C116_build_without_log`, `C116_quiet_partial`, `C116_quiet_is_not_silent`, `C116_tuners_are_silent`, `C116_tuners_print_warnings` |
| C117 | A row update in floating point takes a nearly cheapest assignment | proved | `C117_update_without_rounding`, `C117_cheapest_as_computed`, `C117_update_returns`, `C117_nearly_cheapest`, `C117_nearly_cheapest_binary`, `C117_cheapest_on_a_grid`, `C117_without_rounding`, `C117_dearer_row` |
| C118 | A row update in floating point reinforces its choice | partial | `C118_preferences_reinforce_partial`, `C118_nearly_separates_partial`, `C118_multiplier_kept`, `C118_separation_lost` |
| C119 | The benchmark table marks the best results | partial | `C119_colours`, `C119_green_is_best_partial`, `C119_best_is_blue` |
| C120 | A run of solve in floating point | partial | `C120_solve_returns_partial`, `C120_rows_of_the_run`, `C120_last_row_holds`, `C120_best_of_the_run`, `C120_rounding_changes_the_answer` |
| C121 | A row update with integer coefficients in floating point | partial | `C121_without_rounding`, `C121_respects_and_keeps`, `C121_update_returns`, `C121_short_row_as_computed`, `C121_long_row_as_computed_partial`, `C121_short_row_nearly_cheapest_partial`, `C121_long_row_nearly_cheapest_partial`, `C121_short_row_on_a_grid_partial`, `C121_variable_at_zero_partial`, `C121_solve_returns_partial`, `C121_rows_of_the_run`, `C121_best_of_the_run`, `C121_dearer_row` |
| C122 | The sizes printed for a problem | partial | `C122_one_reading`, `C122_size_is_close`, `C122_small_sizes_are_exact`, `C122_sizes_keep_their_order`, `C122_without_strings_undefined`, `C122_preprocess_with_strings_partial`, `C122_finish_repeats_the_size`, `C122_size_counts_every_part`, `C122_size_counts_the_affected`, `C122_at_least_one_block` |
| C123 | The file preprocessed.lp | partial | `C123_writing_changes_nothing`, `C123_file_is_the_reduced_problem_partial`, `C123_overwrites`, `C123_nothing_left`, `C123_split_keeps_the_last` |
| C124 | The order of the constraints | partial | `C124_order_of_the_file`, `C124_memory_sorts_the_terms`, `C124_file_order_partial`, `C124_order_of_the_types`, `C124_special_order`, `C124_three_names_for_one_order`, `C124_special_is_not_sorted`, `C124_a_repeated_side_moves` |
| C125 | Names live with their object | partial | `C125_names_live_with_their_object_partial`, `C125_reading_twice` |
| C126 | The values listed by the help message are accepted | partial | `C126_listed_values_are_accepted_partial`, `C126_listed_but_refused`, `C126_refused_values_are_listed` |
| C127 | optimize has no data race | partial | `C127_races_are_confined_partial`, `C127_one_worker_without_update`, `C127_two_workers_write_one_solution`, `C127_indices_read_during_a_sort`, `C127_two_crossovers_write_the_random_vector`, `C127_a_crossover_writes_what_another_reads`, `C127_calls_read_during_a_run` |
| C128 | More time never gives a worse answer | partial | `C128_success_is_kept`, `C128_passes_in_time_are_shared`, `C128_at_least_as_good_partial`, `C128_same_solution`, `C128_no_more_unsatisfied`, `C128_more_time_can_be_worse` |
| C129 | A search that fails returns the vector with the fewest unsatisfied constraints | proved | `C129_the_fewest_unsatisfied`, `C129_no_loop_no_vector` |
| C130 | Larger limits never give a worse answer | proved | `C130_larger_limits_are_not_worse`, `C130_larger_limits_leave_no_more` |
| C131 | A larger kappa-max never gives a worse answer | partial | `C131_success_is_kept`, `C131_at_least_as_good_partial`, `C131_same_solution`, `C131_no_more_unsatisfied`, `C131_larger_kappa_max_can_be_worse` |
| C132 | The seed decides the random numbers | partial | `C132_same_seed_same_numbers`, `C132_numbers_of_a_run`, `C132_when_seeds_agree`, `C132_different_seeds_partial`, `C132_seeds_that_agree`, `C132_one_sequence`, `C132_workers_may_agree` |
| C133 | The coefficients a solver computes with are those of the constraints | proved | `C133_rows_are_the_constraints`, `C133_violated_constraints`, `C133_columns_are_the_constraints` |
| C134 | More time never gives a worse answer in optimize | partial | `C134_passes_are_kept`, `C134_not_worse_partial`, `C134_no_more_unsatisfied_partial` |
| C135 | The unit of the objective does not matter | partial | `C135_same_search_partial`, `C135_same_search_integer_partial`, `C135_computed_delta_partial`, `C135_scaled_delta_partial`, `C135_fixed_delta_changes_the_search`, `C135_norm_l2_changes_the_search` |
| C136 | To maximize an objective is to minimize its opposite | partial | `C136_same_search_partial`, `C136_delta_changes_the_search`, `C136_norm_loo_changes_the_search`, `C136_lagrangian_order_changes_the_search` |
| C137 | The names do not matter | proved | `C137_workers`, `C137_preprocess`, `C137_solve`, `C137_optimize`, `C137_file`, `C137_check`, `C137_value`, `C137_equal_names_break_the_check` |
| C138 | A constraint written several times counts once | proved | `C138_workers`, `C138_file`, `C138_file_solve`, `C138_file_optimize`, `C138_preprocess`, `C138_merge`, `C138_solve`, `C138_optimize`, `C138_check`, `C138_value`, `C138_other_order_counts_twice` |
| C139 | A constant added to the objective only moves the values | partial | `C139_preprocess`, `C139_search_partial`, `C139_search_integer_partial`, `C139_solve_partial`, `C139_optimize_partial`, `C139_check`, `C139_value`, `C139_rounded_value_partial`, `C139_rounding_changes_the_order`, `C139_workers_partial` |
| C140 | A looser copy of a constraint changes nothing without preprocessing | partial | `C140_merge`, `C140_solve_partial`, `C140_optimize_partial`, `C140_workers_partial`, `C140_check`, `C140_value`, `C140_preprocessing_keeps_the_copy`, `C140_file`, `C140_file_solve_partial`, `C140_file_workers_partial` |
| C141 | The order of the terms of a constraint | partial | `C141_class`, `C141_merge_partial`, `C141_solve_partial`, `C141_optimize_partial`, `C141_workers_partial`, `C141_check`, `C141_value`, `C141_objective_value_partial`, `C141_order_hides_a_conflict`, `C141_default_order_changes_the_search`, `C141_file_partial`, `C141_file_solve_partial`, `C141_other_variables_are_renumbered`, `C141_objective_search_partial`, `C141_objective_search_integer_partial`, `C141_objective_rounded_costs`, `C141_rounding_changes_the_value`, `C141_objective_solve_partial`, `C141_objective_optimize_partial`, `C141_objective_workers_partial`, `C141_linear_preprocess`, `C141_linear_solve`, `C141_linear_optimize`, `C141_linear_workers`, `C141_products_order_changes_the_preprocessing`, `C141_repeated_terms_change_the_preprocessing` |
| C142 | The bounds and the kinds of the variables | proved | `C142_solve`, `C142_optimize`, `C142_workers`, `C142_fixed_solve`, `C142_fixed_optimize`, `C142_fixed_workers`, `C142_check`, `C142_fixed_variables_move`, `C142_fixed_at_seven_is_one`, `C142_file`, `C142_file_solve`, `C142_file_optimize`, `C142_file_fixed_solve`, `C142_file_fixed_optimize`, `C142_file_fixed_workers` |
<!-- end -->
