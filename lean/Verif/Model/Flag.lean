import Verif.Model.Workers

/-!
# The optimizer with several workers and the flag that ends it

`Verif.Model.Workers` gives each worker its turns and the answers of `stop_task.load()` in advance.  Here each step of
a worker comes with the answer that it reads, and with what the random engine decides for it, so that runs which are
ended at different times can be compared.  The steps are those of `Verif.Model.Workers`.
-/

namespace Bx.Optimizer

open Itm Merge SolverCtor Spec

/-- A step of a worker: who makes it, what `stop_task.load()` answers in it (`itm-optimizer-common.hpp:658`, `668`,
`702` and `725`; `stop_task` is an `std::atomic_bool`), the turn that begins if one does
(`itm-optimizer-common.hpp:659-663`), and the entry that leaves if one does (`itm-optimizer-common.hpp:240-300`). -/
structure Move (ρ : Type) where
  worker : Nat
  stop : Bool
  call : Call ρ
  evict : Evict

/-- The turn of a worker with the answers of a step. -/
def Call.under {ρ : Type} (c : Call ρ) (m : Move ρ) : Call ρ :=
  { c with stopMain := fun _ => m.stop, stopPush := fun _ => m.stop, stopInner := fun _ => m.stop
           evict := fun _ => m.evict }

/-- Where a worker is, with the answers of a step. -/
def At.under {ρ : Type} (a : At ρ) (m : Move ρ) : At ρ :=
  match a with
  | .turn => .turn
  | .main c k best => .main (c.under m) k best
  | .advance c best => .advance (c.under m) best
  | .pushes c k => .pushes (c.under m) k
  | .inner c k j => .inner (c.under m) k j
  | .insert c e next => .insert (c.under m) e next

/-- The worker with the answers of a step: `while (!stop_task.load())` (`itm-optimizer-common.hpp:658`) begins a turn
unless the answer is yes. -/
def Local.under {ρ : Type} (l : Local ρ) (m : Move ρ) : Local ρ :=
  { l with pc := l.pc.under m, todo := if m.stop then [] else [m.call.under m] }

/-- A step of the pool (`itm-optimizer-common.hpp:821-831`); nothing when there is no such worker. -/
def Pool.move {ρ : Type} (g : Setting) (s : Slv) (upd : ρ → Nat → Assign → Outcome Assign)
    (p : Params) (q : Pool ρ) (m : Move ρ) : Outcome (Pool ρ) :=
  match q.workers[m.worker]? with
  | none => .ok q
  | some l => do
    let (l, st) ← (l.under m).step g s upd p q.storage
    .ok ⟨st, q.workers.set m.worker l⟩

/-- The steps of the workers, in their order. -/
def Pool.moves {ρ : Type} (g : Setting) (s : Slv) (upd : ρ → Nat → Assign → Outcome Assign)
    (p : Params) : List (Move ρ) → Pool ρ → Outcome (Pool ρ)
  | [], q => .ok q
  | m :: ms, q => do
    let q ← q.move g s upd p m
    Pool.moves g s upd p ms q

/-- A worker that is where it leaves when it reads that the flag is set (`itm-optimizer-common.hpp:658`). -/
def Local.home {ρ : Type} (l : Local ρ) : Bool :=
  match l.pc with
  | .turn => true
  | _ => false

/-- What the outside decides before the workers begin. -/
structure Begin where
  init : List Assign
  srt : Sorter
  bastert : Assign
  hash : Assign → Nat

/-- `optimize_problem` with constraints and variables (`itm-optimizer-common.hpp:796-907`): the result and the workers
after `join`.  Steps that do not bring every worker back are not a run. -/
def flagMerged {ρ : Type} (kind : SolverType)
    (upd : Slv → ρ → Nat → Assign → Outcome Assign) (threads : Nat) (b : Begin) (ms : List (Move ρ)) (p : Params)
    (st : StorageType) (pb : Problem) (csts : List Merged) : Outcome (Result × Pool ρ) := do
  let g : Setting := ⟨pb.type, pb.objective, csts, b.bastert, b.hash⟩
  makeCost pb.objective pb.values.length
  let storage ← Storage.make g b.srt b.init
  let s ← makeSlv kind csts pb.values.length
  let q ← Pool.moves g s (upd s) p ms
    ⟨storage, (List.range threads).map fun _ =>
      { todo := [], x := fun _ => false
        compute := Compute.make p.order pb.values.length }⟩
  if q.workers.all Local.home then do
    let r ← report st pb csts.length q.storage
    .ok (r, q)
  else .error .fuel

end Bx.Optimizer
