import Verif.Model.Optimizer

/-!
# The optimizer with several workers

Models `optimize_functor` and `optimize_problem` of `lib/src/itm-optimizer-common.hpp` for any
number of threads.  A worker makes its steps one after the other; the steps of different workers
are made in any order.  A step makes at most one access to the population: a crossover, a test
`can_be_inserted` or an insertion.  Simplification: an insertion (the choice of the entry, its
replacement and the sort, `itm-optimizer-common.hpp:240-300`) is one step.  In the code its parts
can be interleaved with the steps of the others; what happens then is in `Verif.Model.Population`.

As in `Verif.Model.Optimizer`, what the floating point values, the random engines, the clock, the
flag and the sorts decide is given by parameters.
-/

namespace Bx.Optimizer

open Itm Merge SolverCtor Spec

/-- What a worker does after an insertion. -/
inductive Next where
  /-- The pushes, `k` of them left (`itm-optimizer-common.hpp:702-703`). -/
  | pushes (k : Nat)
  /-- The inner loop of a push, `j` passes left (`itm-optimizer-common.hpp:724-726`). -/
  | inner (k j : Nat)
  /-- The next turn (`itm-optimizer-common.hpp:699`). -/
  | turn

/-- Where a worker is in `operator()` (`itm-optimizer-common.hpp:658-751`). -/
inductive At (ρ : Type) where
  /-- Before a turn. -/
  | turn
  /-- The main loop, `k` passes left, and `best_remaining`. -/
  | main (c : Call ρ) (k : Nat) (best : Option Nat)
  /-- After the main loop, when no solution was found (`itm-optimizer-common.hpp:696-698`). -/
  | advance (c : Call ρ) (best : Option Nat)
  /-- The pushes, `k` of them left. -/
  | pushes (c : Call ρ) (k : Nat)
  /-- The inner loop of a push, `j` passes left. -/
  | inner (c : Call ρ) (k j : Nat)
  /-- `can_be_inserted` has answered yes (`itm-optimizer-common.hpp:563` and `579`). -/
  | insert (c : Call ρ) (e : Entry) (next : Next)

/-- Where a worker is after an insertion. -/
def Next.at {ρ : Type} (c : Call ρ) : Next → At ρ
  | .pushes k => .pushes c k
  | .inner k j => .inner c k j
  | .turn => .turn

/-- The state of a worker (`optimize_functor` and the variables of its `operator()`): where it is,
the turns that it makes before it sees the flag, `x`, `compute`; `passes` counts the passes of the
turn and `trace` lists the vectors at the end of each pass. -/
structure Local (ρ : Type) where
  pc : At ρ := .turn
  todo : List (Call ρ)
  x : Assign
  compute : Compute
  passes : Nat := 0
  trace : List Assign := []

/-- After a pass. -/
def Local.pass {ρ : Type} (l : Local ρ) (c : Compute) (x : Assign) : Local ρ :=
  { l with compute := c, x := x, passes := l.passes + 1, trace := l.trace ++ [x] }

/-- `try_update` up to `can_be_inserted` (`itm-optimizer-common.hpp:572-579`). -/
def Local.offer {ρ : Type} (g : Setting) (c : Call ρ) (next : Next) (st : Storage)
    (l : Local ρ) : Local ρ :=
  if canUpdate st (g.hash l.x) (results g.o l.x) then
    { l with pc := .insert c ⟨l.x, results g.o l.x, g.hash l.x, 0⟩ next }
  else { l with pc := next.at c }

/-- A step of a worker: the worker and the storage after it.  A worker without turn does
nothing. -/
def Local.step {ρ : Type} (g : Setting) (s : Slv) (upd : ρ → Nat → Assign → Outcome Assign)
    (p : Params) (l : Local ρ) (st : Storage) : Outcome (Local ρ × Storage) :=
  match l.pc with
  | .turn =>
    match l.todo with
    | [] => .ok (l, st)
    | c :: cs => do
      let (x, st) ← match c.cross with
        | none => .ok (l.x, st)
        | some k => crossover g k l.x st
      let cmp ← l.compute.init s (c.mutate x)
      .ok ({ l with pc := .main c p.limit none, todo := cs, x := c.mutate x, compute := cmp
                    passes := 0 }, st)
  | .main c 0 best => .ok ({ l with pc := .advance c best }, st)
  | .main c (k + 1) best =>
    if c.stopMain l.passes then .ok ({ l with pc := .advance c best }, st)
    else do
      let (remaining, cmp, x) ← run s upd (c.pass l.passes) l.compute l.x
      let l := l.pass cmp x
      if remaining = 0 then .ok (l.offer g c (.pushes p.pushes) st, st)
      else
        let best := if ltInt remaining best then some remaining else best
        .ok ({ l with pc := if c.kappaOver l.passes then .advance c best else .main c k best }, st)
  | .advance c best =>
    if canAdvance st (g.hash l.x) (best.getD intMax) then
      .ok ({ l with pc := .insert c ⟨l.x, results g.o l.x, g.hash l.x, best.getD intMax⟩ .turn },
        st)
    else .ok ({ l with pc := .turn }, st)
  | .pushes _ 0 => .ok ({ l with pc := .turn }, st)
  | .pushes c (k + 1) =>
    if c.stopPush l.passes then .ok ({ l with pc := .turn }, st)
    else do
      let (remaining, cmp, x) ← pushAndRun s upd (c.pass l.passes) l.compute l.x
      let l := l.pass cmp x
      if remaining = 0 then .ok (l.offer g c (.inner k p.pushIter) st, st)
      else .ok ({ l with pc := .inner c k p.pushIter }, st)
  | .inner c k 0 => .ok ({ l with pc := .pushes c k }, st)
  | .inner c k (j + 1) =>
    if c.stopInner l.passes then .ok ({ l with pc := .pushes c k }, st)
    else do
      let (remaining, cmp, x) ← run s upd (c.pass l.passes) l.compute l.x
      let l := l.pass cmp x
      if remaining = 0 then .ok (l.offer g c (.pushes k) st, st)
      else .ok ({ l with pc := if c.kappaOver l.passes then .pushes c k else .inner c k j }, st)
  | .insert c e next => do
    let st ← st.insert g.t (c.evict l.passes) e
    .ok ({ l with pc := next.at c }, st)

/-- A worker that has made all its turns. -/
def Local.finished {ρ : Type} (l : Local ρ) : Bool :=
  match l.pc, l.todo with
  | .turn, [] => true
  | _, _ => false

/-- The storage and the workers (`itm-optimizer-common.hpp:802-831`). -/
structure Pool (ρ : Type) where
  storage : Storage
  workers : List (Local ρ)

/-- A step of the worker `i`; nothing when there is no such worker. -/
def Pool.step {ρ : Type} (g : Setting) (s : Slv) (upd : ρ → Nat → Assign → Outcome Assign)
    (p : Params) (q : Pool ρ) (i : Nat) : Outcome (Pool ρ) :=
  match q.workers[i]? with
  | none => .ok q
  | some l => do
    let (l, st) ← l.step g s upd p q.storage
    .ok ⟨st, q.workers.set i l⟩

/-- A schedule: the workers that make the steps. -/
def Pool.steps {ρ : Type} (g : Setting) (s : Slv) (upd : ρ → Nat → Assign → Outcome Assign)
    (p : Params) : List Nat → Pool ρ → Outcome (Pool ρ)
  | [], q => .ok q
  | i :: is, q => do
    let q ← q.step g s upd p i
    Pool.steps g s upd p is q

/-- `get_thread_number` (`itm-optimizer-common.hpp:760-774`); `hardware` is what
`std::thread::hardware_concurrency` returns. -/
def threadNumber (thread : Int) (hardware : Nat) : Nat :=
  let ret := if thread ≤ 0 then hardware else thread.toNat
  if ret = 0 then 1 else ret

/-- What the outside decides during a run: as `Choices`, with the turns of each worker and the
order of the steps. -/
structure Crew (ρ : Type) where
  init : List Assign
  srt : Sorter
  bastert : Assign
  hash : Assign → Nat
  calls : Nat → List (Call ρ)
  schedule : List Nat

/-- `optimize_problem` with constraints and variables (`itm-optimizer-common.hpp:796-900`) and
`threads` workers: the result and the workers after `join`.  A schedule in which a worker does not
make all its turns is not a run. -/
def crewMerged {ρ : Type} (kind : SolverType)
    (upd : Slv → ρ → Nat → Assign → Outcome Assign) (threads : Nat) (ch : Crew ρ) (p : Params)
    (st : StorageType) (pb : Problem) (csts : List Merged) : Outcome (Result × Pool ρ) := do
  let g : Setting := ⟨pb.type, pb.objective, csts, ch.bastert, ch.hash⟩
  makeCost pb.objective pb.values.length
  let storage ← Storage.make g ch.srt ch.init
  let s ← makeSlv kind csts pb.values.length
  let q ← Pool.steps g s (upd s) p ch.schedule
    ⟨storage, (List.range threads).map fun i =>
      { todo := ch.calls i, x := fun _ => false
        compute := Compute.make p.order pb.values.length }⟩
  if q.workers.all Local.finished then do
    let r ← report st pb csts.length q.storage
    .ok (r, q)
  else .error .fuel

/-- `optimize_problem` (`itm-optimizer-common.hpp:778-908`). -/
def crewProblem {ρ : Type} (kind : SolverType)
    (upd : Slv → ρ → Nat → Assign → Outcome Assign) (sorts : Sorts) (po : Order) (threads : Nat)
    (ch : Crew ρ) (p : Params) (st : StorageType) (pb : Problem) : Outcome Result := do
  let csts ← Merge.make sorts po pb
  if csts = [] ∨ pb.values = [] then
    .ok { status := .success, variableName := pb.names, affected := pb.affected
          solutions := [⟨[], pb.objective.value⟩] }
  else do
    let (r, _) ← crewMerged kind upd threads ch p st pb csts
    .ok r

/-- `baryonyx::optimize` (`lib/src/lpcore.cpp:100-132`, `lib/src/itm.hpp:155-203`) with a context,
without mode and with the default solver and method; `thread` is the parameter of this name. -/
def crewOptimize {ρ : Type} (upd : Slv → ρ → Nat → Assign → Outcome Assign) (sorts : Sorts)
    (po : Order) (preprocessing : Bool) (thread : Int) (hardware : Nat) (ch : Crew ρ) (p : Params)
    (st : StorageType) (raw : RawProblem) : Outcome Result := do
  let pb ← prepared preprocessing raw
  crewProblem pb.ptype upd sorts po (threadNumber thread hardware) ch p st pb

end Bx.Optimizer
