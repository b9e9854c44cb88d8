import Verif.Proofs.Races

/-!
# Data races between the threads of the optimizer (C127)

The property asks that no run of `optimize` has a data race: the workers and the main thread share the
population, and a race is undefined behaviour in C++. It is false of the code: runs with races are given.
What holds in every run, with any number of workers and under every schedule, is that the races are
confined to the solutions of the population, to the random vector, to the vector of the indices and to the
numbers of calls, each for one reason, and that there is none with one worker and without the function
`update`.
-/

namespace Bx.Races
open Spec.Races Ev Loc

/-- **C127, part.** In every run, under every schedule, a data race is one of these:

* both threads are inside the population as readers of its mutex and one of them writes there all the same:
  a solution or the random vector;
* one thread reads the indices of the population without the mutex;
* the main thread reads the number of calls of a worker, to give it to the function `update`.

So the data of each worker, its kappa, the constant data and the starting vector are never part of a race,
and the indices are only written by one thread at a time. Missing: the absence of any race, which is
false. -/
theorem C127_races_are_confined_partial {size n : Nat} {update : Bool} {tr : Trace} (hr : Run size n update tr)
    {l : Loc} {i j : Nat} (h : DataRace tr l i j) :
    (((∃ id, l = .vector id) ∨ (∃ id f, l = .field id f) ∨ l = .random) ∧
        ∃ w v, w ≠ v ∧ (∃ e, tr[i]? = some (w, e)) ∧ (∃ f, tr[j]? = some (v, f)) ∧
          held tr i w = .shared ∧ held tr j v = .shared) ∨
      (l = .indices ∧ ∃ k w, (k = i ∨ k = j) ∧ tr[k]? = some (w, .read .indices) ∧ held tr k w = .free) ∨
      (∃ t k, l = .calls t ∧ update = true ∧ (k = i ∨ k = j) ∧ tr[k]? = some (.main, .read (.calls t))) := by
  obtain ⟨w, v, e, f, hi, hj, hwv, he, hf, hwr⟩ := h.race
  have hij := h.unordered
  have hji : ¬ HappensBefore tr j i := fun hb => Nat.lt_asymm h.order (happensBefore_lt hb)
  rcases hwr with rfl | rfl
  · rcases unordered_write hr hi hj hwv hf hij hji with ⟨hl, h1, h2⟩ | ⟨rfl, rfl, h1⟩ | ⟨t, rfl, hu, rfl, rfl⟩
    · exact Or.inl ⟨hl, w, v, hwv, ⟨_, hi⟩, ⟨_, hj⟩, h1, h2⟩
    · exact Or.inr (Or.inl ⟨rfl, j, v, Or.inr rfl, hj, h1⟩)
    · exact Or.inr (Or.inr ⟨t, j, rfl, hu, Or.inr rfl, hj⟩)
  · rcases unordered_write hr hj hi (Ne.symm hwv) he hji hij with
      ⟨hl, h1, h2⟩ | ⟨rfl, rfl, h1⟩ | ⟨t, rfl, hu, rfl, rfl⟩
    · exact Or.inl ⟨hl, w, v, hwv, ⟨_, hi⟩, ⟨_, hj⟩, h2, h1⟩
    · exact Or.inr (Or.inl ⟨rfl, i, w, Or.inl rfl, hi, h1⟩)
    · exact Or.inr (Or.inr ⟨t, i, rfl, hu, Or.inl rfl, hi⟩)

/-- **C127.** With one worker and without the function `update`, no run has a data race. -/
theorem C127_one_worker_without_update {size : Nat} {tr : Trace} (hr : Run size 1 false tr) {l : Loc} {i j : Nat} :
    ¬ DataRace tr l i j := by
  intro h
  obtain ⟨w, v, e, f, hi, hj, hwv, he, hf, hwr⟩ := h.race
  have hworker : ∀ {t k : Nat} {g : Ev}, tr[k]? = some (.worker t, g) → t = 0 := by
    intro t k g hk
    have := (worker_good hr hk).1
    omega
  have hji : ¬ HappensBefore tr j i := fun hb => Nat.lt_asymm h.order (happensBefore_lt hb)
  -- the loop of the main thread makes no access
  have hno : ∀ {k t m : Nat} {g g' : Ev}, tr[k]? = some (.main, g) → tr[m]? = some (.worker t, g') →
      Accesses g l → ¬ HappensBefore tr k m → ¬ HappensBefore tr m k → False := by
    intro k t m g g' hk hm hg h1 h2
    rcases main_quiet hr hk hm hg with h | h
    · exact h1 h
    · exact h2 h
  cases w with
  | main =>
    cases v with
    | main => exact hwv rfl
    | worker t => exact hno hi hj he h.unordered hji
  | worker s =>
    cases v with
    | main => exact hno hj hi hf hji h.unordered
    | worker t => exact hwv (by rw [hworker hi, hworker hj])


/-! ## Runs with a race -/

/-- The thread `w` makes these events. -/
def by' (w : Who) (evs : List Ev) : Trace := evs.map fun e => (w, e)

/-- A population of five solutions and two workers. -/
def begin2 : Trace := by' .main (setupEvents 5 2 [.look, .compare 0 1, .move] ++ [start 0, start 1])

/-- Each worker finds a solution at its first turn and replaces the solution 1. -/
def finds : Turn := ⟨none, [.work, .submit (.accepted true 1 [.look, .compare 1 0, .move])]⟩

/-- Up to the first `k` events of the worker `t`. -/
def upTo (t k : Nat) (turn : Turn) : Trace := by' (.worker t) ((workerEvents 5 t [turn]).take k)

/-- Both workers are in `replace_result`, as readers. -/
def entryRun : Trace := begin2 ++ upTo 0 37 finds ++ upTo 1 37 finds


theorem entryRun_run : Run 5 2 false entryRun :=
  run_of_check [.look, .compare 0 1, .move] [] [] (fun _ => [finds]) (by decide +kernel) (by decide +kernel)
    (by decide +kernel) (by decide +kernel) (by decide +kernel) (by decide +kernel)

/-- **C127, refuted.** Two workers, each with a solution, write the value of one solution of the population
at once: `replace_result` writes under a reader lock. -/
theorem C127_two_workers_write_one_solution :
    ∃ tr i j, Run 5 2 false tr ∧ DataRace tr (.field 1 .value) i j :=
  ⟨entryRun, 87, 124, entryRun_run, by decide, ⟨.worker 0, .worker 1, .write (.field 1 .value), .write (.field 1 .value),
    by decide +kernel, by decide +kernel, by decide, Or.inr rfl, Or.inr rfl, Or.inl rfl⟩,
    not_happensBefore [87] (by decide +kernel) (by decide) (by decide)⟩

/-- The first worker sorts the indices when the second one looks for a solution to delete. -/
def indexRun : Trace :=
  begin2 ++ upTo 1 33 finds ++ upTo 0 49 finds ++ [(.worker 1, .read .indices)]

theorem indexRun_run : Run 5 2 false indexRun :=
  run_of_check [.look, .compare 0 1, .move] [] [] (fun _ => [finds]) (by decide +kernel) (by decide +kernel)
    (by decide +kernel) (by decide +kernel) (by decide +kernel) (by decide +kernel)

/-- **C127, refuted.** A worker reads the indices, without the mutex, when another one sorts them. -/
theorem C127_indices_read_during_a_sort : ∃ tr i j, Run 5 2 false tr ∧ DataRace tr .indices i j :=
  ⟨indexRun, 132, 133, indexRun_run, by decide, ⟨.worker 0, .worker 1, .write .indices, .read .indices,
    by decide +kernel, by decide +kernel, by decide, Or.inr rfl, Or.inl rfl, Or.inl rfl⟩,
    not_happensBefore [132] (by decide +kernel) (by decide) (by decide)⟩

/-- The first worker mixes its vector with the random vector, the second one too. -/
def randomRun : Trace := begin2 ++ upTo 0 12 ⟨some (.withRandom 0), []⟩ ++ upTo 1 12 ⟨some (.withRandom 3), []⟩

theorem randomRun_run : Run 5 2 false randomRun :=
  run_of_check [.look, .compare 0 1, .move] [] []
    (fun t => if t = 0 then [⟨some (.withRandom 0), []⟩] else [⟨some (.withRandom 3), []⟩])
    (by decide +kernel) (by decide +kernel) (by decide +kernel) (by decide +kernel) (by decide +kernel)
    (by decide +kernel)

/-- **C127, refuted.** Two crossovers write the random vector of the population at once. -/
theorem C127_two_crossovers_write_the_random_vector : ∃ tr i j, Run 5 2 false tr ∧ DataRace tr .random i j :=
  ⟨randomRun, 62, 74, randomRun_run, by decide, ⟨.worker 0, .worker 1, .write .random, .write .random,
    by decide +kernel, by decide +kernel, by decide, Or.inr rfl, Or.inr rfl, Or.inl rfl⟩,
    not_happensBefore [62] (by decide +kernel) (by decide) (by decide)⟩

/-- The first worker resets a solution that the second one crosses with another. -/
def vectorRun : Trace := begin2 ++ upTo 0 13 ⟨some (.becomesBastert 0), []⟩ ++ upTo 1 14 ⟨some (.pair 0 2 1), []⟩

theorem vectorRun_run : Run 5 2 false vectorRun :=
  run_of_check [.look, .compare 0 1, .move] [] []
    (fun t => if t = 0 then [⟨some (.becomesBastert 0), []⟩] else [⟨some (.pair 0 2 1), []⟩])
    (by decide +kernel) (by decide +kernel) (by decide +kernel) (by decide +kernel) (by decide +kernel)
    (by decide +kernel)

/-- **C127, refuted.** A crossover writes the vector of a solution when another one reads it. -/
theorem C127_a_crossover_writes_what_another_reads : ∃ tr i j, Run 5 2 false tr ∧ DataRace tr (.vector 0) i j :=
  ⟨vectorRun, 63, 77, vectorRun_run, by decide, ⟨.worker 0, .worker 1, .write (.vector 0), .read (.vector 0),
    by decide +kernel, by decide +kernel, by decide, Or.inr rfl, Or.inl rfl, Or.inl rfl⟩,
    not_happensBefore [63] (by decide +kernel) (by decide) (by decide)⟩

/-- One worker, and the function `update`. -/
def counterRun : Trace :=
  by' .main (setupEvents 5 1 [.look, .move] ++ [start 0]) ++ upTo 0 5 finds ++ [(.main, .read (.calls 0))]

theorem counterRun_run : Run 5 1 true counterRun :=
  run_of_check [.look, .move] [0] [] (fun _ => [finds]) (by decide +kernel) (by decide +kernel)
    (by decide +kernel) (by decide +kernel) (by decide +kernel) (by decide +kernel)

/-- **C127, refuted.** With one worker and the function `update`, the main thread reads the number of calls
when the worker writes it. -/
theorem C127_calls_read_during_a_run : ∃ tr i j, Run 5 1 true tr ∧ DataRace tr (.calls 0) i j :=
  ⟨counterRun, 47, 48, counterRun_run, by decide, ⟨.worker 0, .main, .write (.calls 0), .read (.calls 0),
    by decide +kernel, by decide +kernel, by decide, Or.inr rfl, Or.inl rfl, Or.inl rfl⟩,
    not_happensBefore [47] (by decide +kernel) (by decide) (by decide)⟩

/-- A whole run with one worker and without `update`: the worker improves the population, stops and is
joined, and the main thread reads the solutions. -/
def wholeRun : Trace :=
  by' .main (setupEvents 5 1 [.look, .move] ++ [start 0]) ++ upTo 0 50 finds ++
    [(.main, .store), (.worker 0, .load), (.main, .join 0), (.main, .read .indices), (.main, .read (.vector 1))]

/-- The hypotheses of `C127_one_worker_without_update` are met by a whole run, where both threads touch the
same solution. -/
example : Run 5 1 false wholeRun ∧ (Who.worker 0, Ev.write (.vector 1)) ∈ wholeRun ∧
    (Who.main, Ev.read (.vector 1)) ∈ wholeRun :=
  ⟨run_of_check [.look, .move] [] [.indices, .vector 1] (fun _ => [finds]) (by decide +kernel) (by decide +kernel)
    (by decide +kernel) (by decide +kernel) (by decide +kernel) (by decide +kernel), by decide +kernel,
    by decide +kernel⟩

end Bx.Races
