import Verif.Model.Preprocess

/-!
# `optimize` in branch mode

Models `lib/src/branch-optimizer.cpp`.  The optimizer of one problem, `itm::optimize`, is an
arbitrary function of the problem and of the number of calls made before.  A `double` is a
rational.
-/

namespace Bx.Branch

/-- What the branch optimizer reads of a `result` (`lib/include/baryonyx/core:716-748`): `success`
is `operator bool`, `first` and `last` are the values of `solutions.front()` and
`solutions.back()`. -/
structure Inner where
  success : Bool
  first : Rat := 0
  last : Rat := 0
  constraints : Int := 0
  remaining : Int := 0
  annoying : Nat := 0
  deriving DecidableEq, Repr

/-- `is_best` (`branch-optimizer.cpp:35-59`). -/
def isBest (lhs rhs : Inner) (t : ObjType) : Bool :=
  if lhs.success then
    if rhs.success then
      match t with
      | .maximize => decide (lhs.first > rhs.first)
      | .minimize => decide (lhs.first < rhs.first)
    else true
  else if rhs.success then false
  else decide (lhs.constraints < rhs.constraints)

/-- `node` (`branch-optimizer.cpp:84-102`). -/
structure Node where
  problem : Problem
  solution : Rat
  remaining : Int
  annoying : Nat

/-- `node_result_compare` (`branch-optimizer.cpp:113-134`). -/
def nodeLess (lhs rhs : Node) : Bool :=
  if lhs.remaining = 0 then
    if rhs.remaining = 0 then
      match lhs.problem.type with
      | .maximize => decide (lhs.solution > rhs.solution)
      | .minimize => decide (lhs.solution < rhs.solution)
    else true
  else if rhs.remaining = 0 then false
  else decide (lhs.remaining < rhs.remaining)

/-- `jobs.emplace` of a `std::multiset` seen as a list: before the first greater element; and the
new position of the element that was at `pos`. -/
def emplace (n : Node) (jobs : List Node) (pos : Nat) : List Node × Nat :=
  let i := jobs.findIdx (nodeLess n)
  (jobs.insertIdx i n, if i ≤ pos then pos + 1 else pos)

/-- The node of a problem (`branch-optimizer.cpp:152-155`, `174-177` and `183-186`). -/
def node (pb : Problem) (r : Inner) : Node :=
  ⟨pb, if r.success then r.last else 0, r.remaining, r.annoying⟩

/-- The body of the loop (`branch-optimizer.cpp:160-188`): the jobs and the best result.  `calls`
is the number of calls of the inner optimizer made before.  The variable is the one of the first
call, `annoying`; the name read for the message is the one of the node. -/
def body (inner : Nat → Problem → Outcome Inner) (annoying calls : Nat) (jobs : List Node)
    (best : Inner) : Outcome (List Node × Inner) :=
  match jobs with
  | [] => .error (.ub "jobs.begin()")
  | it :: _ => do
    if it.problem.names.length ≤ it.annoying then .error (.ub "vars.names[it->annoying_variable]")
    else do
      let (one, zero) ← Preprocess.split it.problem annoying
      let ret0 ← inner calls one
      let best := if isBest ret0 best it.problem.type then ret0 else best
      let (jobs, pos) := emplace (node one ret0) jobs 0
      let ret1 ← inner (calls + 1) zero
      let best := if isBest ret1 best it.problem.type then ret1 else best
      let (jobs, pos) := emplace (node zero ret1) jobs pos
      .ok (jobs.eraseIdx pos, best)

/-- The loop (`branch-optimizer.cpp:159-212`), for at most `steps` turns; `none`: it goes on. -/
def loop (inner : Nat → Problem → Outcome Inner) (annoying : Nat) :
    Nat → Nat → List Node → Inner → Option (Outcome Inner)
  | 0, _, _, _ => none
  | steps + 1, calls, jobs, best =>
    match body inner annoying calls jobs best with
    | .error f => some (.error f)
    | .ok (jobs, best) =>
      if jobs.isEmpty then some (.ok best) else loop inner annoying steps (calls + 2) jobs best

/-- `optimize` (`branch-optimizer.cpp:138-215`), for at most `steps` turns of its loop. -/
def optimize (inner : Nat → Problem → Outcome Inner) (steps : Nat) (pb : Problem) :
    Option (Outcome Inner) :=
  match inner 0 pb with
  | .error f => some (.error f)
  | .ok best => loop inner best.annoying steps 1 [node pb best] best

end Bx.Branch
