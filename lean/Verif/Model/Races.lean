/-!
# The accesses to shared memory made by the optimizer

`Model/Workers.lean` and `Model/Population.lean` describe what the workers of `optimize` compute when
their accesses are interleaved. Here only the accesses themselves are kept: which thread touches which
object, whether it writes it, and which locks it holds. A run is a trace of such events, in any order that
the threads, the mutex, the start and the end of the threads allow.

Simplifications: the values are dropped, so every choice that depends on a value or on the random engine
(which solutions are crossed, where `can_be_inserted` stops, which indices `std::sort` moves, how many
iterations a worker makes) is arbitrary. The data of one worker (`local_context`, its vector `x`, its solver)
is one location, and so are the data which are constant during the run. The messages (`info`, `to_log`) are
left out: `to_log` takes its arguments by reference and does nothing in a build without debug.
-/

namespace Bx.Races

/-- The members of `raw_result` other than the vector (lib/src/result.hpp:34-92, used in
lib/src/itm-optimizer-common.hpp:139-143). -/
inductive Field where
  | value | duration | hash | loop | remaining
  deriving DecidableEq, Repr

/-- The objects in memory that the threads of the optimizer touch
(lib/src/itm-optimizer-common.hpp:97-108, 463-465, 606-609, 796-819). -/
inductive Loc where
  /-- `m_indices`, line 101. The elements of the vector are one location. -/
  | indices
  /-- `m_data[id].x`, line 102. The blocks of the vector are one location. -/
  | vector (id : Nat)
  /-- another member of `m_data[id]`, line 102 -/
  | field (id : Nat) (f : Field)
  /-- `m_bastert`, line 103 -/
  | bastert
  /-- `m_random`, line 104 -/
  | random
  /-- `m_kappa_append[t]`, line 465 -/
  | kappa (t : Nat)
  /-- `functors[t].m_call_number`, line 608 -/
  | calls (t : Nat)
  /-- `functors[t].m_local_ctx`, line 607, and the locals of the functor, lines 627-656 -/
  | own (t : Nat)
  /-- what is only read by the workers: the context, the constraints, the costs, `m_start`, `m_size` -/
  | input
  deriving DecidableEq, Repr

/-- The main thread (the caller of `optimize`) and the workers (line 825). -/
inductive Who where
  | main
  | worker (t : Nat)
  deriving DecidableEq, Repr

/-- What a thread does that matters to the others. -/
inductive Ev where
  | read (l : Loc)
  | write (l : Loc)
  /-- the constructor and the destructor of `m_indices_reader`, line 99 -/
  | lockShared
  | unlockShared
  /-- the constructor and the destructor of `m_indices_writer`, line 98 -/
  | lock
  | unlock
  /-- `stop_task.load()`, lines 658, 668, 702, 725 -/
  | load
  /-- `stop_task.store(…)`, lines 819, 859 -/
  | store
  /-- `pool[t] = std::thread(…)`, line 825 -/
  | start (t : Nat)
  /-- `t.join()`, line 862 -/
  | join (t : Nat)
  deriving DecidableEq, Repr

open Ev Loc

/-- How a thread holds the mutex of the population. -/
inductive Hold where
  | free | shared | exclusive
  deriving DecidableEq, Repr

/-- What an event of a thread does to its hold of the mutex
(lib/src/itm-optimizer-common.hpp:97-99: `std::shared_lock` and `std::unique_lock` of a
`std::shared_mutex`). -/
def Hold.after (h : Hold) : Ev → Hold
  | lockShared => .shared
  | lock => .exclusive
  | unlockShared => if h = .shared then .free else h
  | unlock => if h = .exclusive then .free else h
  | _ => h

/-- The hold of a thread after its events. -/
def holdAfter (evs : List Ev) : Hold := evs.foldl Hold.after .free

/-! ## The functions of the population -/

/-- One step of `std::sort` in `sort` (lib/src/itm-optimizer-common.hpp:428-442): it moves an index or it
compares two solutions. -/
inductive SortStep where
  | look
  | move
  | compare (i1 i2 : Nat)
  deriving DecidableEq, Repr

/-- lib/src/itm-optimizer-common.hpp:430-433: what the comparison reads. -/
def SortStep.events : SortStep → List Ev
  | .look => [read indices]
  | .move => [write indices]
  | .compare i1 i2 =>
    [read (field i1 .remaining), read (field i2 .remaining), read (field i1 .value), read (field i2 .value)]

/-- `storage::sort`, lib/src/itm-optimizer-common.hpp:424-457. -/
def sortEvents (steps : List SortStep) : List Ev :=
  lock :: (steps.flatMap SortStep.events ++ [unlock])

/-- `storage::replace_result`, lib/src/itm-optimizer-common.hpp:128-144: the six members are written under
a reader lock. -/
def replaceEvents (id : Nat) : List Ev :=
  [lockShared, write (vector id), write (field id .value), write (field id .duration), write (field id .hash),
    write (field id .loop), write (field id .remaining), unlockShared]

/-- `storage::insert`, lib/src/itm-optimizer-common.hpp:240-300: the index to delete is read at lines 255
and 289 without a lock. -/
def insertEvents (id : Nat) (steps : List SortStep) : List Ev :=
  [read indices] ++ replaceEvents id ++ sortEvents steps

/-- The members of solution `i` read by `can_be_inserted`, lib/src/itm-optimizer-common.hpp:308-309 (with a
number of constraints) and 321-322 (with a value). Simplification: the members which `&&` skips are read
too. -/
def lookEvents (byValue : Bool) (i : Nat) : List Ev :=
  if byValue then [read (field i .remaining), read (field i .value), read (field i .hash)]
  else [read (field i .remaining), read (field i .hash)]

/-- `storage::can_be_inserted`, lib/src/itm-optimizer-common.hpp:302-326, when it looks at `seen`
solutions. -/
def canBeInsertedEvents (byValue : Bool) (seen : Nat) : List Ev :=
  lockShared :: ((List.range seen).flatMap (lookEvents byValue) ++ [unlockShared])

/-- What `try_update` (lib/src/itm-optimizer-common.hpp:572-585, by value) or `try_advance` (556-570) does:
either the solution is already there, or it replaces the solution `id`. -/
inductive Submit where
  | refused (byValue : Bool) (seen : Nat)
  | accepted (byValue : Bool) (id : Nat) (steps : List SortStep)
  deriving DecidableEq, Repr

/-- lib/src/itm-optimizer-common.hpp:563-569 and 579-584. -/
def Submit.events (size : Nat) : Submit → List Ev
  | .refused byValue seen => canBeInsertedEvents byValue seen
  | .accepted byValue id steps => canBeInsertedEvents byValue size ++ insertEvents id steps

/-- The branches of `storage::crossover`, lib/src/itm-optimizer-common.hpp:373-421. -/
inductive Cross where
  /-- line 383 -/
  | withBastert (first : Nat)
  /-- line 390 -/
  | becomesBastert (first : Nat)
  /-- lines 393 and 395 -/
  | withRandom (first : Nat)
  /-- lines 393 and 402 -/
  | becomesRandom (first : Nat)
  /-- lines 406-411, `again` times line 409 -/
  | pair (first second again : Nat)
  deriving DecidableEq, Repr

/-- lib/src/itm-optimizer-common.hpp:375-420: every branch runs under a reader lock. The vector `x` and the
random engine are the data of the worker `t`. -/
def Cross.events (t : Nat) : Cross → List Ev
  | .withBastert first =>
    [lockShared, write (own t), read indices, read (vector first), read bastert, write (own t), unlockShared]
  | .becomesBastert first =>
    [lockShared, write (own t), read indices, read bastert, write (vector first), unlockShared]
  | .withRandom first =>
    [lockShared, write (own t), read indices, write random, read (vector first), read random, write (own t),
      unlockShared]
  | .becomesRandom first =>
    [lockShared, write (own t), read indices, write random, read random, write (vector first), unlockShared]
  | .pair first second again =>
    [lockShared, write (own t), read indices, read indices] ++ List.replicate again (read indices) ++
      [read (vector first), read (vector second), write (own t), unlockShared]

/-- `storage::get_best` with four references, lib/src/itm-optimizer-common.hpp:340-352. -/
def getBestEvents (id : Nat) : List Ev :=
  [lockShared, read indices, read (field id .remaining), read (field id .value), read (field id .duration),
    read (field id .loop), unlockShared]

/-! ## The threads -/

/-- `best_solution_recorder::reinit`, lib/src/itm-optimizer-common.hpp:528-554: line 538 reads the element of
the thread, lines 539-541 change it, or lines 545-546 change it and make a crossover. -/
def reinitEvents (t : Nat) : Option Cross → List Ev
  | none => [read input, read (kappa t), read (kappa t), write (kappa t), read (kappa t), write (own t)]
  | some c => [read input, read (kappa t), write (kappa t)] ++ c.events t ++ [write (own t)]

/-- What a worker does in a turn after `reinit`, lib/src/itm-optimizer-common.hpp:663-750. -/
inductive Act where
  /-- the solver works on its own data and on the constant data, lines 669-670, 705-712, 728-729 -/
  | work
  /-- `stop_task.load()`, lines 668, 702, 725 -/
  | poll
  /-- `try_update`, lines 673, 715, 732, or `try_advance`, line 697 -/
  | submit (s : Submit)
  deriving DecidableEq, Repr

/-- lib/src/itm-optimizer-common.hpp:663-750. -/
def Act.events (size t : Nat) : Act → List Ev
  | .work => [read input, read (own t), write (own t)]
  | .poll => [load]
  | .submit s => [read (own t), read input] ++ s.events size

/-- One iteration of the loop of a worker, lib/src/itm-optimizer-common.hpp:658-751. -/
structure Turn where
  cross : Option Cross
  acts : List Act
  deriving DecidableEq, Repr

/-- lib/src/itm-optimizer-common.hpp:658-751: `++m_call_number` (659), `reinit` (660), the rest.
Simplification: the acts come in any order. -/
def Turn.events (size t : Nat) (turn : Turn) : List Ev :=
  [load, read (calls t), write (calls t)] ++ reinitEvents t turn.cross ++
    turn.acts.flatMap (Act.events size t)

/-- `optimize_functor::operator()`, lib/src/itm-optimizer-common.hpp:620-752, when the loop makes these
turns. -/
def workerEvents (size t : Nat) (turns : List Turn) : List Ev :=
  [write (own t), read input] ++ turns.flatMap (Turn.events size t) ++ [load]

/-- The members of a new solution, lib/src/itm-optimizer-common.hpp:176-221. -/
def entryEvents (id : Nat) : List Ev :=
  [write (vector id), write (field id .value), write (field id .duration), write (field id .hash),
    write (field id .loop), write (field id .remaining)]

/-- What the main thread does before it starts the workers, lib/src/itm-optimizer-common.hpp:796-822 with the
constructors at 162-226 (the last statement is `sort`), 467-479 and 611-618. -/
def setupEvents (size n : Nat) (steps : List SortStep) : List Ev :=
  [write input, write bastert, write random] ++ (List.range size).flatMap entryEvents ++ [write indices] ++
    sortEvents steps ++ [store] ++
    (List.range n).flatMap fun t => [write (kappa t), write (calls t), write (own t)]

/-- One iteration of the loop of the main thread, lib/src/itm-optimizer-common.hpp:836-857, when the first
index is `id`: nothing without `update`, otherwise the call numbers (841-842) and the best solution (849). -/
def tickEvents (n : Nat) (update : Bool) (id : Nat) : List Ev :=
  if update then (List.range n).map (fun t => read (calls t)) ++ getBestEvents id else []

/-- `optimize_problem`, lib/src/itm-optimizer-common.hpp:796-907: the construction, the start of the `n`
workers (824-831), the loop (836-857), the end (859-862) and the reads of the population by `get_best`,
`get_worst`, `convert` and `show_population` (870-902). Simplification: those last reads are any reads. -/
def mainEvents (size n : Nat) (update : Bool) (steps : List SortStep) (ticks : List Nat) (last : List Loc) :
    List Ev :=
  setupEvents size n steps ++ ((List.range n).map start ++ (ticks.flatMap (tickEvents n update) ++
    ([store] ++ ((List.range n).map join ++ last.map read))))

/-! ## The runs -/

/-- The events of all the threads, in the order they happen. -/
abbrev Trace := List (Who × Ev)

/-- The events of one thread. -/
def proj (w : Who) (tr : Trace) : List Ev := tr.filterMap fun p => if p.1 = w then some p.2 else none

/-- How the thread `w` holds the mutex just before event `i`. -/
def held (tr : Trace) (i : Nat) (w : Who) : Hold := holdAfter (proj w (tr.take i))

/-- A `std::shared_mutex` (lib/src/itm-optimizer-common.hpp:97): a writer locks it when no thread holds it, a
reader when no writer holds it. -/
def MutexWorks (tr : Trace) : Prop :=
  ∀ i w, (tr[i]? = some (w, lock) → ∀ v, held tr i v = .free) ∧
    (tr[i]? = some (w, lockShared) → held tr i w = .free ∧ ∀ v, held tr i v ≠ .exclusive)

/-- A run of `optimize_problem` up to some moment, with a population of `size` solutions and `n` workers
(lib/src/itm-optimizer-common.hpp:796-907): each thread follows its function, the mutex works, a worker
runs after its start (line 825), and `join` returns after the end of the worker (line 862). -/
structure Run (size n : Nat) (update : Bool) (tr : Trace) : Prop where
  main : ∃ steps ticks last, proj .main tr <+: mainEvents size n update steps ticks last
  workers : ∀ t, t < n → ∃ turns, proj (.worker t) tr <+: workerEvents size t turns
  nobody : ∀ t, n ≤ t → proj (.worker t) tr = []
  mutex : MutexWorks tr
  started : ∀ (j t : Nat) (e : Ev), tr[j]? = some (Who.worker t, e) → ∃ i, i < j ∧ tr[i]? = some (Who.main, start t)
  joined : ∀ (i j t : Nat) (e : Ev), tr[j]? = some (Who.main, join t) → tr[i]? = some (Who.worker t, e) → i < j

end Bx.Races
