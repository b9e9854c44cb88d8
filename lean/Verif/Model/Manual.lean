import Verif.Model.Preprocess

/-!
# `optimize` in manual mode

Models `lib/src/manual-optimizer.cpp`.  The optimizer of one problem, `itm::optimize`, is an
arbitrary function of the parameters and of the number of calls made before.  A `double` is a
rational; `+HUGE_VAL` is `none`.
-/

namespace Bx.Manual

/-- The parameters that the manual mode changes. -/
structure Tuning where
  theta : Rat
  delta : Rat
  kappaMin : Rat
  kappaStep : Rat
  initPolicyRandom : Rat
  deriving DecidableEq, Repr

/-- The values of `theta` in `manual_course` (`manual-optimizer.cpp:58-59` and `73-74`). -/
def thetaAt (t : Rat) (length : Nat) : Nat → Rat
  | 0 => t
  | 1 => 1 / length
  | i + 2 => thetaAt t length (i + 1) + 1 / length

/-- The other arrays (`manual-optimizer.cpp:61-71` and `76-89`): from the index 2, they continue
`theta`. -/
def otherAt (first second increment : Rat) (theta : Nat → Rat) : Nat → Rat
  | 0 => first
  | 1 => second
  | i + 2 => theta (i + 1) + increment

/-- `manual_course::next` (`manual-optimizer.cpp:99-111`) from the right: `none` when every
iterator went back to `0`. -/
def nextRev (length : Nat) : List Nat → List Nat × Bool
  | [] => ([], false)
  | i :: is =>
    if i + 1 ≥ length then
      let (js, more) := nextRev length is
      (0 :: js, more)
    else ((i + 1) :: is, true)

/-- `manual_course::next`. -/
def next (length : Nat) (is : List Nat) : List Nat × Bool :=
  let (js, more) := nextRev length is.reverse
  (js.reverse, more)

/-- The parameters of the iterators (`manual-optimizer.cpp:131-136`), for the length 5. -/
def tuning (p : Tuning) (is : List Nat) : Tuning :=
  let l : Rat := 5
  let theta := thetaAt p.theta 5
  { theta := theta (is.getD 0 0)
    delta := otherAt p.delta ((1/10) / l) ((1/10) / (5 * l)) theta (is.getD 1 0)
    kappaMin := otherAt p.kappaMin ((1/100) / l) ((1/100) / l) theta (is.getD 2 0)
    kappaStep := otherAt p.kappaStep ((1/10000000) / l) ((1/10000000) / (5 * l)) theta (is.getD 3 0)
    initPolicyRandom := otherAt p.initPolicyRandom ((9/10) / l) ((9/10) / l) theta (is.getD 4 0) }

/-- What is read of a `result`: `operator bool` and `solutions.back().value`. -/
structure Inner where
  success : Bool
  last : Rat
  deriving DecidableEq, Repr

/-- The state of the loop: `array.iterators`, `internal.parameters`, `best`, `best_params` and the
iterators of the calls made, in order. -/
structure State where
  iterators : List Nat
  params : Tuning
  best : Option Rat := none
  bestParams : List Nat := [0, 0, 0, 0, 0]
  tried : List (List Nat) := []

/-- `best > value`. -/
def greater : Option Rat → Rat → Bool
  | none, _ => true
  | some b, v => decide (b > v)

/-- The body of the loop (`manual-optimizer.cpp:131-159`). -/
def body (inner : Nat → Tuning → Inner) (p : Tuning) (s : State) : State :=
  let t := tuning p s.iterators
  let ret := inner s.tried.length t
  let s := { s with params := t, tried := s.tried ++ [s.iterators] }
  if ret.success && greater s.best ret.last then
    { s with best := some ret.last, bestParams := s.iterators }
  else s

/-- The loop, for at most `steps` turns; `none`: it goes on. -/
def loop (inner : Nat → Tuning → Inner) (p : Tuning) : Nat → State → Option State
  | 0, _ => none
  | steps + 1, s =>
    let s := body inner p s
    let (is, more) := next 5 s.iterators
    let s := { s with iterators := is }
    if more then loop inner p steps s else some s

/-- `optimize` (`manual-optimizer.cpp:114-174`), for at most `steps` turns: the result of the
last call and the state.  The last call uses `internal.parameters` as they are. -/
def optimize (inner : Nat → Tuning → Inner) (p : Tuning) (steps : Nat) :
    Option (Inner × State) :=
  match loop inner p steps { iterators := [0, 0, 0, 0, 0], params := p } with
  | none => none
  | some s => some (inner s.tried.length s.params, s)

end Bx.Manual
