import Verif.Model.Workers
import Verif.Model.Params

/-!
# The functions registered by the user and the time limit

Models the thread that calls `optimize_problem` of `lib/src/itm-optimizer-common.hpp`: it waits,
calls `update`, looks at the clock, and stops the workers.  The three functions of
`context_register` (`lib/src/lpcore.cpp:58-69`) are registered; what they do is not modelled.
-/

namespace Bx.Optimizer

open Itm Merge SolverCtor Spec Params

/-- What the function `update` is given (`itm-optimizer-common.hpp:852-853`).  The loop and the
duration are not modelled. -/
structure Message where
  remaining : Nat
  value : Rat
  turns : Nat
  deriving DecidableEq, Repr

/-- The calls of the registered functions.  The parameters given to `start` are those of the
context. -/
inductive Event where
  | start
  | update (m : Message)
  | finish (r : Result)
  deriving DecidableEq, Repr

/-- `is_time_limit` (`lib/src/utils.hpp:193-205`); `elapsed` is the time between `begin` and `end`
in seconds. -/
def isTimeLimit (limit : D) (elapsed : Rat) : Bool :=
  if limit.le (.fin 0) then false else limit.lt (.fin elapsed)

/-- The sum of the `m_call_number` of the workers (`itm-optimizer-common.hpp:840-842`).  A worker
adds one to it at the beginning of a turn (`itm-optimizer-common.hpp:658-659`): it is the number of
its turns `calls` that it has begun. -/
def callNumber {ρ : Type} (calls : Nat → List (Call ρ)) (q : Pool ρ) : Nat :=
  (q.workers.mapIdx fun i l => (calls i).length - l.todo.length).sum

/-- What the outside decides for the thread that waits: the steps of the workers during its turn
`k`, and the time since `start` at the end of this turn. -/
structure Watch where
  steps : Nat → List Nat
  clock : Nat → Rat

/-- The loop of `optimize_problem` (`itm-optimizer-common.hpp:836-857`) from its turn `k`: the
workers, and what `update` is given, in order.  `fuel` bounds the turns; the fault `fuel` means
that more are needed. -/
def watch {ρ : Type} (g : Setting) (s : Slv) (upd : ρ → Nat → Assign → Outcome Assign)
    (p : Params) (calls : Nat → List (Call ρ)) (limit : D) (wt : Watch) :
    Nat → Nat → Pool ρ → Outcome (Pool ρ × List Message)
  | 0, _, _ => .error .fuel
  | fuel + 1, k, q => do
    let q ← Pool.steps g s upd p (wt.steps k) q
    let f ← q.storage.best 0
    let m : Message := ⟨f.remaining, f.value, callNumber calls q⟩
    if isTimeLimit limit (wt.clock k) then .ok (q, [m])
    else do
      let (q, ms) ← watch g s upd p calls limit wt fuel (k + 1) q
      .ok (q, m :: ms)

/-- `optimize_problem` with constraints and variables (`itm-optimizer-common.hpp:796-907`): the
calls after `start`, the result and the workers.  The schedule of `ch` has the steps made after the
flag is set (`itm-optimizer-common.hpp:859-862`). -/
def watchMerged {ρ : Type} (kind : SolverType)
    (upd : Slv → ρ → Nat → Assign → Outcome Assign) (threads : Nat) (ch : Crew ρ) (limit : D)
    (wt : Watch) (fuel : Nat) (p : Params) (st : StorageType) (pb : Problem)
    (csts : List Merged) : Outcome (List Event × Result × Pool ρ) := do
  let g : Setting := ⟨pb.type, pb.objective, csts, ch.bastert, ch.hash⟩
  makeCost pb.objective pb.values.length
  let storage ← Storage.make g ch.srt ch.init
  let s ← makeSlv kind csts pb.values.length
  let (q, ms) ← watch g s (upd s) p ch.calls limit wt fuel 0
    ⟨storage, (List.range threads).map fun i =>
      { todo := ch.calls i, x := fun _ => false
        compute := Compute.make p.order pb.values.length }⟩
  let q ← Pool.steps g s (upd s) p ch.schedule q
  if q.workers.all Local.finished then do
    let r ← report st pb csts.length q.storage
    .ok (ms.map .update ++ [.finish r], r, q)
  else .error .fuel

/-- `optimize_problem` (`itm-optimizer-common.hpp:778-908`): the calls and the result.  Without
constraint or variable it returns before the call of `finish`
(`itm-optimizer-common.hpp:785-794`). -/
def watchProblem {ρ : Type} (kind : SolverType)
    (upd : Slv → ρ → Nat → Assign → Outcome Assign) (sorts : Sorts) (po : Order) (threads : Nat)
    (ch : Crew ρ) (limit : D) (wt : Watch) (fuel : Nat) (p : Params) (st : StorageType)
    (pb : Problem) : Outcome (List Event × Result) := do
  let csts ← Merge.make sorts po pb
  if csts = [] ∨ pb.values = [] then
    .ok ([.start], { status := .success, variableName := pb.names, affected := pb.affected
                     solutions := [⟨[], pb.objective.value⟩] })
  else do
    let (ev, r, _) ← watchMerged kind upd threads ch limit wt fuel p st pb csts
    .ok (.start :: ev, r)

/-- `baryonyx::optimize` (`lib/src/lpcore.cpp:100-132`, `lib/src/itm.hpp:155-203`) with a context,
without mode and with the default solver and method: the calls and the result. -/
def watchOptimize {ρ : Type} (upd : Slv → ρ → Nat → Assign → Outcome Assign) (sorts : Sorts)
    (po : Order) (preprocessing : Bool) (thread : Int) (hardware : Nat) (ch : Crew ρ) (limit : D)
    (wt : Watch) (fuel : Nat) (p : Params) (st : StorageType) (raw : RawProblem) :
    Outcome (List Event × Result) := do
  let pb ← prepared preprocessing raw
  watchProblem pb.ptype upd sorts po (threadNumber thread hardware) ch limit wt fuel p st pb

end Bx.Optimizer
