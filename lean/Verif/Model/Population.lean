import Verif.Model.Optimizer

/-!
# The population shared by several workers

Models the same functions of `lib/src/itm-optimizer-common.hpp` as `Verif.Model.Optimizer`, but as
the steps that the workers make in any order.  What is between two steps of a worker can be
interleaved with the steps of the others, as far as the lock `m_indices_mutex` allows.

`can_be_inserted` and `crossover` hold the shared lock; each is one step.  `insert` reads
`m_indices` without lock.  `replace_result` writes under the *shared* lock: each of its
assignments is a step.  `sort` holds the exclusive lock.
-/

namespace Bx.Population

open Optimizer Itm Merge SolverCtor Spec

/-- Where a worker is in `try_update` or `try_advance`. -/
inductive Pc where
  /-- Outside. -/
  | idle
  /-- After `can_be_inserted` (`itm-optimizer-common.hpp:563` and `579`). -/
  | checked (e : Entry)
  /-- After the read of `m_indices` (`itm-optimizer-common.hpp:255` and `289`). -/
  | picked (e : Entry) (id : Nat)
  /-- In `replace_result`, with the shared lock (`itm-optimizer-common.hpp:136-143`); `k`
  assignments are done among those of `x`, `value`, `hash` and `remaining_constraints`. -/
  | writing (e : Entry) (id : Nat) (k : Nat)
  /-- After `replace_result`. -/
  | replaced
  /-- In `sort`, with the exclusive lock (`itm-optimizer-common.hpp:424-426`). -/
  | sorting

/-- The worker holds the exclusive lock. -/
def Pc.exclusive : Pc → Bool
  | .sorting => true
  | _ => false

/-- The worker holds the shared lock between two steps. -/
def Pc.shared : Pc → Bool
  | .writing _ _ _ => true
  | _ => false

/-- The storage and the workers. -/
structure State where
  storage : Storage
  workers : List Pc

/-- The steps of a worker. -/
inductive Act where
  /-- `try_update` up to `can_be_inserted`. -/
  | update (x : Assign) (value : Rat)
  /-- `try_advance` up to `can_be_inserted`. -/
  | advance (x : Assign) (remaining : Nat)
  /-- The read of `m_indices[choose_a_bad_solution(ctx)]`, without lock; `seen` is what is read
  when a worker is in `sort`. -/
  | pick (position seen : Nat)
  /-- The shared lock of `replace_result`. -/
  | lock
  /-- The next assignment of `replace_result`; the last one releases the lock. -/
  | write
  /-- The exclusive lock of `sort`. -/
  | lockSort
  /-- The end of `sort`. -/
  | sort (srt : Sorter)
  /-- `crossover`. -/
  | cross (c : Cross) (x : Assign)

/-- The assignments of `replace_result` (`itm-optimizer-common.hpp:138-143`). -/
def writeField (e : Entry) : Nat → Entry → Entry
  | 0, a => { a with x := e.x }
  | 1, a => { a with value := e.value }
  | 2, a => { a with hash := e.hash }
  | _, a => { a with remaining := e.remaining }

/-- A step of the worker `t`; `none`: the worker is not there or the lock is taken. -/
def act (g : Setting) (t : Nat) (a : Act) (s : State) : Outcome (Option State) :=
  let free := !(s.workers.any Pc.exclusive)
  let go (pc : Pc) (st : Storage) : Outcome (Option State) :=
    .ok (some ⟨st, s.workers.set t pc⟩)
  match s.workers[t]?, a with
  | some .idle, .update x v =>
    if free then
      if canUpdate s.storage (g.hash x) v then go (.checked ⟨x, v, g.hash x, 0⟩) s.storage
      else go .idle s.storage
    else .ok none
  | some .idle, .advance x k =>
    if free then
      if canAdvance s.storage (g.hash x) k then
        go (.checked ⟨x, results g.o x, g.hash x, k⟩) s.storage
      else go .idle s.storage
    else .ok none
  | some (.checked e), .pick position seen =>
    if free then do
      let id ← s.storage.index position
      go (.picked e id) s.storage
    else go (.picked e seen) s.storage
  | some (.picked e id), .lock =>
    if free then go (.writing e id 0) s.storage else .ok none
  | some (.writing e id k), .write => do
    let a ← s.storage.entry id
    let st ← s.storage.replace id (writeField e k a)
    go (if k < 3 then .writing e id (k + 1) else .replaced) st
  | some .replaced, .lockSort =>
    if free && !(s.workers.any Pc.shared) then go .sorting s.storage else .ok none
  | some .sorting, .sort srt => do
    let st ← s.storage.sort g.t srt
    go .idle st
  | some .idle, .cross c x =>
    if free then do
      let (_, st) ← crossover g c x s.storage
      go .idle st
    else .ok none
  | _, _ => .ok none

/-- A schedule: who makes which step. -/
def schedule (g : Setting) : List (Nat × Act) → State → Outcome (Option State)
  | [], s => .ok (some s)
  | (t, a) :: as, s => do
    match ← act g t a s with
    | none => .ok none
    | some s => schedule g as s

end Bx.Population
