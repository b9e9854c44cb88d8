import Verif.Model.Multipliers
import Verif.Model.Solve

/-!
# The solving loop with its numbers

Models the same functions as `Verif.Model.Solve` (`lib/src/itm-common.hpp:627-915` and
`lib/src/itm-solver-common.hpp:63-225`) with the values that it leaves to the outside: the
multipliers `pi` and the preferences `P` that the updates read and write, the weight `kappa` and its
growth, and the orders that follow the multipliers or the distances to the bounds.

Simplifications: a floating point number is a rational number.  The operations on the weight `kappa`
are rounded, by an arbitrary function `rnd`; the others are exact.  `std::pow(_, alpha)` is an
arbitrary function of the share of the constraints that are not respected, so that the rounding of
this share is a part of it.  What `std::shuffle`, `std::sort` on equal values,
`std::bernoulli_distribution` and the clock decide is arbitrary.
-/

namespace Bx.Num

open Merge SolverCtor Spec Itm Mult

/-- The parameters used by `solver_functor` (`itm-solver-common.hpp:79-97`). -/
structure Cfg where
  order : COrder := .none
  limit : Nat := 1000
  pushes : Nat := 100
  pushIter : Nat := 50
  kappaMin : Rat := 0
  kappaStep : Rat := 1 / 1000
  kappaMax : Rat := 3 / 5
  theta : Rat := 1 / 2
  delta : Rat := 1
  kFactor : Rat := 9 / 10
  amplifier : Rat := 5
  w : Rat := 50
  deriving DecidableEq, Repr

/-- The parameters read by `Verif.Model.Solve`. -/
def Cfg.params (c : Cfg) : Params := ⟨c.order, c.limit, c.pushes, c.pushIter⟩

/-- What the outside decides: the initial vector, the choices of the update `i` of the pass `t` (`Ω`
is `Mult.Oracle` for the 0/1 and -1/0/1 solvers), the
shuffle of a pass, the sort of constraints by increasing keys, `std::pow(_, alpha)`, the clock and
the rounding of the operations of the type `Float`. -/
structure World (Ω : Type) where
  x0 : Assign
  oracle : Nat → Nat → Ω
  shuffle : Nat → List Nat → List Nat
  sortR : Nat → (Nat → Rat) → List Nat → List Nat
  sortO : Nat → (Nat × Int → Int) → List (Nat × Int) → List (Nat × Int)
  pow : Rat → Rat
  timeUp : Nat → Bool
  rnd : Rat → Rat := id

variable {Ω : Type}

/-- Shuffles permute, sorts permute and sort; `ok` is what the choices of an update fulfil. -/
structure World.Ok (w : World Ω) (ok : Ω → Prop) : Prop where
  oracle : ∀ t i, ok (w.oracle t i)
  shuffle : ∀ t l, (w.shuffle t l).Perm l
  sortR : ∀ t key l, (w.sortR t key l).Perm l ∧
    (w.sortR t key l).Pairwise fun a b => key a ≤ key b
  sortO : ∀ t key l, (w.sortO t key l).Perm l ∧
    (w.sortO t key l).Pairwise fun a b => key a ≤ key b

/-- A row update with its numbers: `Mult.update` or `Rand.update`. -/
abbrev Upd (Ω : Type) := Ω → Param → Nat → Assign → Mem → Outcome (Assign × Mem)

/-- The loop over the constraints of `compute_update_row` and `push_and_compute_update_row`
(`itm-solver-equalities-101.cpp:221-257` and `274-304`, and the same of the other solvers). -/
def rows (upd : Upd Ω) (o : Nat → Ω) (p : Param) :
    Nat → List Nat → Assign → Mem → Outcome (Assign × Mem)
  | _, [], x, m => .ok (x, m)
  | i, k :: ks, x, m => do
    let (x, m) ← upd (o i) p k x m
    rows upd o p (i + 1) ks x m

/-- The constraints that the pass `t` visits, in order (`itm-common.hpp:697-797` and `811-880`). -/
def visits (w : World Ω) (t : Nat) (m : Mem) (c : Compute) : List Nat :=
  match c.order with
  | .reversing => c.R.reverse
  | .randomSorting | .piSignChange => w.shuffle t c.R
  | .infeasibilityDecr => (w.sortO t (fun q => -q.2) c.mOrder).map Prod.fst
  | .infeasibilityIncr => (w.sortO t (fun q => q.2) c.mOrder).map Prod.fst
  | .lagrangianDecr => w.sortR t (fun k => -m.pi k) c.R
  | .lagrangianIncr => w.sortR t (fun k => m.pi k) c.R
  | .none | .cycle => c.R

/-- `compute_order::run` (`itm-common.hpp:800-880`) and, with the amplifier in `p`,
`compute_order::push_and_run` (`itm-common.hpp:682-798`) after the change of order. -/
def pass (s : Slv) (upd : Upd Ω) (w : World Ω) (p : Param) (t : Nat) (c : Compute) (x : Assign) (m : Mem) :
    Outcome (Nat × Compute × Assign × Mem) := do
  let (x, m1) ← rows upd (w.oracle t) p 0 (visits w t m c) x m
  match c.order with
  | .infeasibilityDecr | .infeasibilityIncr => do
    let d ← infeasibility s x
    .ok (d.length, { c with mOrder := d }, x, m1)
  | .piSignChange => do
    let n ← localViolated s x
    .ok (n, { c with R := visits w t m c }, x, m1)
  | _ => do
    let r ← violated s x
    .ok (r.length, { c with R := r }, x, m1)

/-- What a pass did: it is only observed by the theorems.  `push` tells `push_and_run` from `run`;
`kappa` and `mem` are the weight and the multipliers and preferences at its start; `compute`, `x`, `remaining`,
`compute'` and `x'` are what it read and returned; `next` is the weight after it. -/
structure Visit where
  push : Bool
  rows : List Nat
  kappa : Rat
  mem : Mem
  compute : Compute
  x : Assign
  remaining : Nat
  compute' : Compute
  x' : Assign
  next : Rat

/-- The state of the loop: the one of `Verif.Model.Solve`, `pi` and `P`, and `kappa`. -/
structure State where
  base : St
  mem : Mem
  kappa : Rat
  log : List Visit := []

/-- After a pass. -/
def State.after (st : State) (v : Visit) (m : Mem) : State where
  base := { st.base with compute := v.compute', x := v.x', passes := st.base.passes + 1,
                         trace := st.base.trace ++ [v.x'] }
  mem := m
  kappa := v.next
  log := st.log ++ [v]

/-- `kappa += kappa_step * std::pow(remaining / m, alpha)` (`itm-solver-common.hpp:152-155` and
`201-205`). -/
def grow (s : Slv) (w : World Ω) (cfg : Cfg) (late : Bool) (remaining : Nat) (kappa : Rat) : Rat :=
  if late then w.rnd (kappa + w.rnd (cfg.kappaStep * w.pow ((remaining : Rat) / s.rows.length)))
  else kappa

/-- `kappa` after the pass `i` of the main loop (`itm-solver-common.hpp:139-155`).  `i > w_limit`, where
`w_limit` is the truncated `w`, which is not negative. -/
def nextMain (s : Slv) (w : World Ω) (cfg : Cfg) (i remaining : Nat) (kappa : Rat) : Rat :=
  if remaining = 0 then kappa
  else grow s w cfg (decide (cfg.w.floor < (i : Int))) remaining kappa

/-- `kappa` after the pass `iter` of the inner loop of a push (`itm-solver-common.hpp:193-205`). -/
def nextInner (s : Slv) (w : World Ω) (cfg : Cfg) (iter remaining : Nat) (kappa : Rat) : Rat :=
  if remaining = 0 then kappa
  else grow s w cfg (decide (cfg.w < (iter : Rat))) remaining kappa

/-- The main loop (`itm-solver-common.hpp:135-166`). -/
def mainLoop (s : Slv) (upd : Upd Ω) (w : World Ω) (cfg : Cfg) (t : ObjType) (o : Objective) :
    Nat → State → Outcome (State × Exit)
  | 0, st => .ok (st, .limit)
  | n + 1, st => do
    let i := st.base.passes
    let (remaining, c, x, m) ← pass s upd w ⟨st.kappa, cfg.delta, cfg.theta, none⟩ i st.base.compute
      st.base.x st.mem
    let next := nextMain s w cfg i remaining st.kappa
    let st := st.after ⟨false, visits w i st.mem st.base.compute, st.kappa, st.mem,
      st.base.compute, st.base.x, remaining, c, x, next⟩ m
    if remaining = 0 then
      .ok ({ st with base := { st.base with best := storeValue t st.base.best x (results o x),
                                            bestRemaining := some 0 } }, .found)
    else
      let st :=
        if ltInt remaining st.base.bestRemaining then
          { st with base := { st.base with best := storeRemaining st.base.best x remaining,
                                           bestRemaining := some remaining } }
        else st
      if st.kappa > cfg.kappaMax then .ok (st, .kappa)
      else if w.timeUp st.base.passes then .ok (st, .time)
      else mainLoop s upd w cfg t o n st

/-- The inner loop of the push phase (`itm-solver-common.hpp:189-212`); `iter` is its index. -/
def pushInner (s : Slv) (upd : Upd Ω) (w : World Ω) (cfg : Cfg) (t : ObjType) (o : Objective) :
    Nat → Nat → State → Outcome State
  | 0, _, st => .ok st
  | n + 1, iter, st => do
    let i := st.base.passes
    let (remaining, c, x, m) ← pass s upd w ⟨st.kappa, cfg.delta, cfg.theta, none⟩ i st.base.compute
      st.base.x st.mem
    let next := nextInner s w cfg iter remaining st.kappa
    let st := st.after ⟨false, visits w i st.mem st.base.compute, st.kappa, st.mem,
      st.base.compute, st.base.x, remaining, c, x, next⟩ m
    if remaining = 0 then
      .ok { st with base := { st.base with best := storeValue t st.base.best x (results o x) } }
    else if st.kappa > cfg.kappaMax then .ok st
    else if w.timeUp st.base.passes then .ok st
    else pushInner s upd w cfg t o n (iter + 1) st

/-- The push phase (`itm-solver-common.hpp:171-213`). -/
def pushLoop (s : Slv) (upd : Upd Ω) (w : World Ω) (cfg : Cfg) (t : ObjType) (o : Objective) :
    Nat → State → Outcome State
  | 0, st => .ok st
  | n + 1, st => do
    let i := st.base.passes
    let cmp := if st.base.compute.useCycle then
        { st.base.compute with order := nextState st.base.compute.order } else st.base.compute
    let kappa := w.rnd (cfg.kFactor * st.kappa)
    let (remaining, c, x, m) ← pass s upd w ⟨kappa, cfg.delta, cfg.theta, some cfg.amplifier⟩ i cmp
      st.base.x st.mem
    let st := st.after ⟨true, visits w i st.mem cmp, kappa, st.mem, cmp, st.base.x, remaining,
      c, x, st.kappa⟩ m
    let st :=
      if remaining = 0 then
        { st with base := { st.base with best := storeValue t st.base.best x (results o x) } }
      else st
    if w.timeUp st.base.passes then .ok st
    else do
      let st ← pushInner s upd w cfg t o cfg.pushIter 0 st
      pushLoop s upd w cfg t o n st

/-- `pi` and `P` at the start: `std::make_unique<Float[]>` fills them with zeros. -/
def mem0 : Mem := ⟨fun _ => 0, fun _ _ => 0⟩

/-- The push phase runs only after a feasible solution (`itm-solver-common.hpp:168-214`). -/
def pushPhase (s : Slv) (upd : Upd Ω) (w : World Ω) (cfg : Cfg) (t : ObjType) (o : Objective) (e : Exit)
    (st : State) : Outcome State :=
  if e = .found then pushLoop s upd w cfg t o cfg.pushes st else .ok st

/-- `solver_functor::operator()` (`itm-solver-common.hpp:63-225`), for an initial vector. -/
def functor (kind : SolverType) (upd : Slv → Upd Ω) (w : World Ω) (cfg : Cfg) (t : ObjType)
    (o : Objective) (csts : List Merged) (nvars : Nat) : Outcome (Answer × State) := do
  let s ← makeSlv kind csts nvars
  let c ← (Compute.make cfg.order nvars).init s w.x0
  let (st, e) ← mainLoop s (upd s) w cfg t o cfg.limit
    { base := { compute := c, x := w.x0 }, mem := mem0, kappa := cfg.kappaMin }
  let st' ← pushPhase s (upd s) w cfg t o e st
  .ok ({ status := statusOf e st'.base.best.remaining
         solution := st'.base.best.x.map fun x => ((List.range nvars).map x, st'.base.best.value)
         final := st'.base
         exit := e
         mainPasses := st.base.passes }, st')

end Bx.Num
