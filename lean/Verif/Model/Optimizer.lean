import Verif.Model.Solve

/-!
# The optimizer: its population and its worker

Models `lib/src/itm-optimizer-common.hpp`: `storage`, `best_solution_recorder`,
`optimize_functor` and `optimize_problem`, with one worker.  The interleavings of several workers
are in `Verif.Model.Population`.

As in `Verif.Model.Solve`, what the floating point values, the random engine, the clock and the
sorts decide is given by parameters and the theorems hold for all of them.  The vectors of the
initial population (`itm-optimizer-common.hpp:175-203`) and the mutation (lines 494-526) are
parameters too.  The fields `duration` and `loop` are not modelled.  An `int` is a natural number.
-/

namespace Bx.Optimizer

open Itm Merge SolverCtor Spec

/-- `raw_result` (`lib/src/result.hpp:34-93`). -/
structure Entry where
  x : Assign
  value : Rat
  hash : Nat
  remaining : Nat

/-- `raw_result::is_solution` (`result.hpp:80-83`). -/
def Entry.isSolution (e : Entry) : Bool := decide (e.remaining = 0)

/-- `storage` (`itm-optimizer-common.hpp:93-108`): `m_indices` and `m_data`; `m_size` is the
length of `m_data`. -/
structure Storage where
  indices : List Nat
  data : List Entry

/-- What does not change during a run: the direction (`Mode`), the objective (`costs` and
`cost_constant`), the constraints, `m_bastert` and the function `bit_array_hash`. -/
structure Setting where
  t : ObjType
  o : Objective
  csts : List Merged
  bastert : Assign
  hash : Assign → Nat

/-- The comparison of `sort` (`itm-optimizer-common.hpp:429-442`). -/
def better (t : ObjType) (a b : Entry) : Bool :=
  if a.remaining < b.remaining then true
  else if a.remaining = b.remaining then isBetter t a.value (some b.value)
  else false

/-- The comparison of two indices. -/
def less (t : ObjType) (data : List Entry) (i j : Nat) : Bool :=
  match data[i]?, data[j]? with
  | some a, some b => better t a b
  | _, _ => false

/-- `std::sort`, with a comparison. -/
abbrev Sorter := (Nat → Nat → Bool) → List Nat → List Nat

/-- `storage::sort` (`itm-optimizer-common.hpp:424-457`).  An index out of range is undefined. -/
def Storage.sort (t : ObjType) (srt : Sorter) (s : Storage) : Outcome Storage :=
  if s.indices.all fun i => decide (i < s.data.length) then
    .ok { s with indices := srt (less t s.data) s.indices }
  else .error (.ub "m_data[i1]")

/-- `m_indices[i]`, an unchecked read. -/
def Storage.index (s : Storage) (i : Nat) : Outcome Nat :=
  match s.indices[i]? with
  | none => .error (.ub "m_indices[i]")
  | some id => .ok id

/-- `m_data[id]`, an unchecked read. -/
def Storage.entry (s : Storage) (id : Nat) : Outcome Entry :=
  match s.data[id]? with
  | none => .error (.ub "m_data[id]")
  | some e => .ok e

/-- `replace_result` (`itm-optimizer-common.hpp:128-144`). -/
def Storage.replace (s : Storage) (id : Nat) (e : Entry) : Outcome Storage :=
  if id < s.data.length then .ok { s with data := s.data.set id e }
  else .error (.ub "m_data[id]")

/-- What the outside decides during an insertion: the result of `choose_a_bad_solution`
(`itm-optimizer-common.hpp:146-149`) and the sort. -/
structure Evict where
  pick : Nat
  srt : Sorter

/-- `insert` (`itm-optimizer-common.hpp:240-300`), both overloads. -/
def Storage.insert (t : ObjType) (c : Evict) (e : Entry) (s : Storage) : Outcome Storage := do
  let id ← s.index c.pick
  let s ← s.replace id e
  s.sort t c.srt

/-- `can_be_inserted(hash, constraints)` (`itm-optimizer-common.hpp:302-313`). -/
def canAdvance (s : Storage) (hash remaining : Nat) : Bool :=
  s.data.all fun e => !(decide (e.remaining = remaining) && decide (e.hash = hash))

/-- `can_be_inserted(hash, value)` (`itm-optimizer-common.hpp:315-326`). -/
def canUpdate (s : Storage) (hash : Nat) (value : Rat) : Bool :=
  s.data.all fun e => !(decide (e.remaining = 0) && decide (e.value = value) &&
    decide (e.hash = hash))

/-- `try_advance` (`itm-optimizer-common.hpp:556-570`) and the first `insert`. -/
def tryAdvance (g : Setting) (c : Evict) (x : Assign) (remaining : Nat) (s : Storage) :
    Outcome Storage :=
  if canAdvance s (g.hash x) remaining then
    s.insert g.t c ⟨x, results g.o x, g.hash x, remaining⟩
  else .ok s

/-- `try_update` (`itm-optimizer-common.hpp:572-585`) and the second `insert`. -/
def tryUpdate (g : Setting) (c : Evict) (x : Assign) (value : Rat) (s : Storage) :
    Outcome Storage :=
  if canUpdate s (g.hash x) value then s.insert g.t c ⟨x, value, g.hash x, 0⟩
  else .ok s

/-- `remaining_constraints` of the initial vectors (`itm-optimizer-common.hpp:208-220`). -/
def countViolated (x : Assign) : List Merged → Nat
  | [] => 0
  | c :: cs =>
    let sum := c.elems.foldl (fun s e => if x e.var then s + e.factor else s) 0
    (if c.min ≤ sum ∧ sum ≤ c.max then 0 else 1) + countViolated x cs

/-- The constructor of `storage` (`itm-optimizer-common.hpp:162-226`) for the vectors `init`. -/
def Storage.make (g : Setting) (srt : Sorter) (init : List Assign) : Outcome Storage :=
  Storage.sort g.t srt
    { indices := List.range init.length
      data := init.map fun x => ⟨x, results g.o x, g.hash x, countViolated x g.csts⟩ }

/-- `get_worst` (`itm-optimizer-common.hpp:328-338`): the position, from `last`. -/
def worstFrom (s : Storage) : List Nat → Nat → Outcome Nat
  | [], last => s.index (last - 1)
  | id :: ids, last => do
    let e ← s.entry id
    if e.isSolution then worstFrom s ids (last + 1) else .ok id

/-- `get_worst`. -/
def Storage.worst (s : Storage) : Outcome Entry := do
  let id ← worstFrom s (s.indices.drop 1) 1
  s.entry id

/-- `get_best(i)` (`itm-optimizer-common.hpp:354-357`). -/
def Storage.best (s : Storage) (i : Nat) : Outcome Entry := do
  let id ← s.index i
  s.entry id

/-- The choices of `crossover` (`itm-optimizer-common.hpp:373-421`): positions given by
`choose_a_solution`, which can be `m_size`, the words of the mixture, bit by bit, and `m_random`.
The positions of `mix` are arbitrary here; `Verif.Model.Reinit` draws them. -/
inductive Cross where
  | mix (first second : Nat) (mask : Nat → Bool)
  | mixBastert (first : Nat) (mask : Nat → Bool)
  | putBastert (first : Nat)
  | mixRandom (first : Nat) (random : Assign) (mask : Nat → Bool)
  | putRandom (first : Nat) (random : Assign)

/-- The crossover of two vectors (`itm-optimizer-common.hpp:359-371`), bit by bit; the blocks are
in `Verif.Model.BitArray`. -/
def mixture (mask : Nat → Bool) (a b : Assign) : Assign := fun i => if mask i then b i else a i

/-- `crossover` (`itm-optimizer-common.hpp:373-421`): the new vector and the new storage.  Two of
the branches write in `m_data` and leave `x` as it is. -/
def crossover (g : Setting) (c : Cross) (x : Assign) (s : Storage) : Outcome (Assign × Storage) :=
  match c with
  | .mix first second mask => do
    let id1 ← s.index first
    let id2 ← s.index second
    let a ← s.entry id1
    let b ← s.entry id2
    .ok (mixture mask a.x b.x, s)
  | .mixBastert first mask => do
    let id ← s.index first
    let a ← s.entry id
    .ok (mixture mask a.x g.bastert, s)
  | .putBastert first => do
    let id ← s.index first
    let a ← s.entry id
    let s ← s.replace id { a with x := g.bastert }
    .ok (x, s)
  | .mixRandom first random mask => do
    let id ← s.index first
    let a ← s.entry id
    .ok (mixture mask a.x random, s)
  | .putRandom first random => do
    let id ← s.index first
    let a ← s.entry id
    let s ← s.replace id { a with x := random }
    .ok (x, s)

/-! ## The worker -/

/-- What the outside decides during one turn of the loop of `optimize_functor`
(`itm-optimizer-common.hpp:658-751`).  `cross` is `none` when kappa is improved
(lines 538-543).  The three answers of `stop_task.load()` are those of the main loop, of the
push loop and of the inner loop. -/
structure Call (ρ : Type) where
  cross : Option Cross
  mutate : Assign → Assign
  pass : Nat → Pass ρ
  stopMain : Nat → Bool
  stopPush : Nat → Bool
  stopInner : Nat → Bool
  kappaOver : Nat → Bool
  evict : Nat → Evict

/-- The state of a worker and the storage.  `passes` counts the passes of the call, `trace` lists
the vectors at the end of each pass; it is only observed by the theorems. -/
structure Worker where
  storage : Storage
  x : Assign
  compute : Compute
  passes : Nat := 0
  trace : List Assign := []

/-- `reinit` (`itm-optimizer-common.hpp:528-554`). -/
def reinit {ρ : Type} (g : Setting) (c : Call ρ) (w : Worker) : Outcome Worker :=
  match c.cross with
  | none => .ok { w with x := c.mutate w.x }
  | some k => do
    let (x, s) ← crossover g k w.x w.storage
    .ok { w with x := c.mutate x, storage := s }

/-- After a pass. -/
def Worker.pass (w : Worker) (c : Compute) (x : Assign) : Worker :=
  { w with compute := c, x := x, passes := w.passes + 1, trace := w.trace ++ [x] }

/-- `best_recorder.try_update(m_local_ctx, x, original_costs.results(x, cost_constant), i)`. -/
def Worker.update {ρ : Type} (g : Setting) (c : Call ρ) (w : Worker) : Outcome Worker := do
  let s ← tryUpdate g (c.evict w.passes) w.x (results g.o w.x) w.storage
  .ok { w with storage := s }

/-- The main loop (`itm-optimizer-common.hpp:665-694`); the first argument is the number of
iterations left.  A negative limit has no end but the flag; the theorems hold for every limit.
The second component is `best_remaining`, `none` is `INT_MAX`. -/
def mainLoop {ρ : Type} (g : Setting) (s : Slv) (upd : ρ → Nat → Assign → Outcome Assign)
    (c : Call ρ) : Nat → Worker → Option Nat → Outcome (Worker × Option Nat)
  | 0, w, best => .ok (w, best)
  | n + 1, w, best =>
    if c.stopMain w.passes then .ok (w, best)
    else do
      let (remaining, cmp, x) ← run s upd (c.pass w.passes) w.compute w.x
      let w := w.pass cmp x
      if remaining = 0 then do
        let w ← w.update g c
        .ok (w, some 0)
      else
        let best := if ltInt remaining best then some remaining else best
        if c.kappaOver w.passes then .ok (w, best) else mainLoop g s upd c n w best

/-- The inner loop of the pushes (`itm-optimizer-common.hpp:724-749`). -/
def pushInner {ρ : Type} (g : Setting) (s : Slv) (upd : ρ → Nat → Assign → Outcome Assign)
    (c : Call ρ) : Nat → Worker → Outcome Worker
  | 0, w => .ok w
  | n + 1, w =>
    if c.stopInner w.passes then .ok w
    else do
      let (remaining, cmp, x) ← run s upd (c.pass w.passes) w.compute w.x
      let w := w.pass cmp x
      if remaining = 0 then w.update g c
      else if c.kappaOver w.passes then .ok w
      else pushInner g s upd c n w

/-- The pushes (`itm-optimizer-common.hpp:702-750`). -/
def pushLoop {ρ : Type} (g : Setting) (s : Slv) (upd : ρ → Nat → Assign → Outcome Assign)
    (c : Call ρ) (iters : Nat) : Nat → Worker → Outcome Worker
  | 0, w => .ok w
  | n + 1, w =>
    if c.stopPush w.passes then .ok w
    else do
      let (remaining, cmp, x) ← pushAndRun s upd (c.pass w.passes) w.compute w.x
      let w := w.pass cmp x
      let w ← if remaining = 0 then w.update g c else .ok w
      let w ← pushInner g s upd c iters w
      pushLoop g s upd c iters n w

/-- `INT_MAX`. -/
def intMax : Nat := 2 ^ 31 - 1

/-- One turn of the loop of `optimize_functor` (`itm-optimizer-common.hpp:659-750`). -/
def call {ρ : Type} (g : Setting) (s : Slv) (upd : ρ → Nat → Assign → Outcome Assign)
    (p : Params) (c : Call ρ) (w : Worker) : Outcome Worker := do
  let w ← reinit g c { w with passes := 0 }
  let cmp ← w.compute.init s w.x
  let (w, best) ← mainLoop g s upd c p.limit { w with compute := cmp } none
  if best = some 0 then pushLoop g s upd c p.pushIter p.pushes w
  else do
    let st ← tryAdvance g (c.evict w.passes) w.x (best.getD intMax) w.storage
    .ok { w with storage := st }

/-- The loop of `optimize_functor` (`itm-optimizer-common.hpp:658-751`): the turns made before
the flag is set. -/
def calls {ρ : Type} (g : Setting) (s : Slv) (upd : ρ → Nat → Assign → Outcome Assign)
    (p : Params) : List (Call ρ) → Worker → Outcome Worker
  | [], w => .ok w
  | c :: cs, w => do
    let w ← call g s upd p c w
    calls g s upd p cs w

/-! ## The result -/

/-- `solver_parameters::storage_type` (`lib/include/baryonyx/core:403-408`). -/
inductive StorageType where
  | one
  | bound
  | five
  deriving DecidableEq, Repr

/-- `convert` (`result.hpp:128-137`). -/
def convert (n : Nat) (e : Entry) : Solution :=
  ⟨(List.range n).map fun i => if e.x i then 1 else 0, e.value⟩

/-- The end of `optimize_problem` (`itm-optimizer-common.hpp:864-900`); `m` is the number of merged
constraints.  `duration` and `loop` are not modelled. -/
def report (st : StorageType) (pb : Problem) (m : Nat) (s : Storage) : Outcome Result := do
  let n := pb.values.length
  let first ← s.best 0
  let solutions ← match st with
    | .one => .ok [convert n first]
    | .bound => do
      let w ← s.worst
      .ok [convert n first, convert n w]
    | .five => do
      let b0 ← s.best 0
      let b1 ← s.best 1
      let b2 ← s.best 2
      let b3 ← s.best 3
      let b4 ← s.best 4
      .ok [convert n b0, convert n b1, convert n b2, convert n b3, convert n b4]
  .ok { status := if first.isSolution then .success else .timeLimitReached
        variableName := pb.names
        affected := pb.affected
        solutions := solutions
        remaining := first.remaining
        variableCount := n
        constraintCount := m }

/-- What the outside decides during a run: the vectors of the initial population, of length
`init_population_size`, the first sort, the bastert vector, the hash of words and the turns of
the worker. -/
structure Choices (ρ : Type) where
  init : List Assign
  srt : Sorter
  bastert : Assign
  hash : Assign → Nat
  calls : List (Call ρ)

/-- `optimize_problem` with constraints and variables (`itm-optimizer-common.hpp:796-900`): the
result and the worker at the end. -/
def optimizeMerged {ρ : Type} (kind : SolverType)
    (upd : Slv → ρ → Nat → Assign → Outcome Assign) (ch : Choices ρ) (p : Params)
    (st : StorageType) (pb : Problem) (csts : List Merged) : Outcome (Result × Worker) := do
  let g : Setting := ⟨pb.type, pb.objective, csts, ch.bastert, ch.hash⟩
  makeCost pb.objective pb.values.length
  let storage ← Storage.make g ch.srt ch.init
  let s ← makeSlv kind csts pb.values.length
  let w ← calls g s (upd s) p ch.calls
    { storage := storage, x := fun _ => false, compute := Compute.make p.order pb.values.length }
  let r ← report st pb csts.length w.storage
  .ok (r, w)

/-- `optimize_problem` (`itm-optimizer-common.hpp:778-908`) with one worker. -/
def optimizeProblem {ρ : Type} (kind : SolverType)
    (upd : Slv → ρ → Nat → Assign → Outcome Assign) (sorts : Sorts) (po : Order)
    (ch : Choices ρ) (p : Params) (st : StorageType) (pb : Problem) : Outcome Result := do
  let csts ← Merge.make sorts po pb
  if csts = [] ∨ pb.values = [] then
    .ok { status := .success, variableName := pb.names, affected := pb.affected
          solutions := [⟨[], pb.objective.value⟩] }
  else do
    let (r, _) ← optimizeMerged kind upd ch p st pb csts
    .ok r

/-- `baryonyx::optimize` (`lib/src/lpcore.cpp:100-132`, `lib/src/itm.hpp:155-203`) with a context,
without mode and with the default solver and method. -/
def optimize {ρ : Type} (upd : Slv → ρ → Nat → Assign → Outcome Assign) (sorts : Sorts)
    (po : Order) (preprocessing : Bool) (ch : Choices ρ) (p : Params) (st : StorageType)
    (raw : RawProblem) : Outcome Result := do
  let pb ← prepared preprocessing raw
  optimizeProblem pb.ptype upd sorts po ch p st pb

/-! ## Histories of the population -/

/-- A call on the population. -/
inductive Op where
  | update (c : Evict) (x : Assign) (value : Rat)
  | advance (c : Evict) (x : Assign) (remaining : Nat)
  | cross (c : Cross) (x : Assign)

/-- `try_update`, `try_advance` and `crossover`. -/
def step (g : Setting) (s : Storage) : Op → Outcome Storage
  | .update c x v => tryUpdate g c x v s
  | .advance c x k => tryAdvance g c x k s
  | .cross c x => do
    let (_, s) ← crossover g c x s
    .ok s

/-- A sequence of calls. -/
def history (g : Setting) : List Op → Storage → Outcome Storage
  | [], s => .ok s
  | o :: os, s => do
    let s ← step g s o
    history g os s

end Bx.Optimizer
