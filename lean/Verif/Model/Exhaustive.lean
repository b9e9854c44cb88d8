import Verif.Basic

/-!
# The exhaustive sub-solver

Models `lib/src/exhaustive-solver.hpp`, used by the solver with integer
coefficients for the rows with less than ten elements.

Simplifications: the reduced costs are rational numbers (`Float` is a floating
point type) and each addition of two of them is followed by a rounding `rnd`, the
identity when the numbers are exact; the two vectors `flat_constraints` and
`constraints` are lists.
-/

namespace Bx.Exhaustive

/-- `rc_data` of the solver with integer coefficients
(`itm-solver-inequalities-Z.cpp:44-59`). -/
structure Rc where
  value : Rat
  id : Nat
  f : Int
  deriving DecidableEq, Repr

/-- `Mode` as a comparison: `is_best_solution` (`exhaustive-solver.hpp:177-183`) and
the comparison of `r` in the last sort (`228-235`). -/
def better (t : ObjType) (z old : Rat) : Bool :=
  match t with
  | .minimize => decide (z < old)
  | .maximize => decide (z > old)

/-- `exhaustive_solver::constraint` (`exhaustive-solver.hpp:59-94`). -/
structure Entry where
  k : Nat
  start : Nat
  solutions : Nat
  bmin : Int
  bmax : Int
  deriving DecidableEq, Repr

/-- `flat_constraints` and `constraints` (`exhaustive-solver.hpp:97-99`). -/
structure Ex where
  flat : List Int := []
  entries : List Entry := []
  deriving DecidableEq, Repr

/-- The two nested loops of `build_constraints` (`exhaustive-solver.hpp:128-160`)
as one loop: the list of the vectors `walkers` seen at line 132, where `i` is the
counter of line 129.  `++walkers[i]` turns 0 into 1, then the inner loop stops and
the outer one starts again with `i = length - 1`; it turns 1 into 2, which line 148
replaces by 0, then the inner loop goes on with `i - 1` or stops everything when
`i == 0`.  The first argument bounds the number of turns. -/
def walk : Nat → List Bool → Nat → Outcome (List (List Bool))
  | 0, _, _ => .error .fuel
  | fuel + 1, w, i =>
    match w[i]? with
    | none => .error (.ub "walkers[i]")
    | some false => do
      let r ← walk fuel (w.set i true) (w.length - 1)
      .ok (w :: r)
    | some true =>
      if i = 0 then .ok [w]
      else do
        let r ← walk fuel (w.set i false) (i - 1)
        .ok (w :: r)

/-- Lines 132-135: the sum of the factors whose walker is set. -/
def sumOf : List FunElem → List Bool → Int
  | e :: es, b :: w => (if b then e.factor else 0) + sumOf es w
  | _, _ => 0

/-- Lines 139-142: what is appended to `flat_constraints`. -/
def flatOf : List FunElem → List Bool → List Int
  | e :: es, b :: w => (if b then e.factor else 0) :: flatOf es w
  | _, _ => []

/-- Line 137. -/
def keep (es : List FunElem) (bmin bmax : Int) (w : List Bool) : Bool :=
  decide (bmin ≤ sumOf es w) && decide (sumOf es w ≤ bmax)

/-- Lines 124-125: the walkers are 0 except the last one.  (The vector is shared
by the calls; each call leaves it full of 0.) -/
def firstWalk (n : Nat) : List Bool := (List.replicate n false).set (n - 1) true

/-- `build_constraints` (`exhaustive-solver.hpp:111-167`).  `std::set::emplace`
does nothing when the key is present. -/
def build (ex : Ex) (k : Nat) (es : List FunElem) (bmin bmax : Int) : Outcome Ex := do
  check (decide (0 < es.length)) "constraint_size > 0"
  let ws ← walk (2 ^ (es.length + 1)) (firstWalk es.length) (es.length - 1)
  let good := ws.filter (keep es bmin bmax)
  check (decide (0 < good.length)) "nb_solution > 0"
  .ok { flat := ex.flat ++ (good.map (flatOf es)).flatten
        entries :=
          if ex.entries.any fun e => decide (e.k = k) then ex.entries
          else ex.entries ++ [⟨k, ex.flat.length, good.length, bmin, bmax⟩] }

/-- The arguments of a call of `build_constraints`. -/
structure Job where
  k : Nat
  es : List FunElem
  bmin : Int
  bmax : Int
  deriving DecidableEq, Repr

/-- The calls of `build_constraints` made by the constructor of the solver with
integer coefficients (`itm-solver-inequalities-Z.cpp:170-174`). -/
def buildAll : Ex → List Job → Outcome Ex
  | ex, [] => .ok ex
  | ex, j :: js => do
    let ex ← build ex j.k j.es j.bmin j.bmax
    buildAll ex js

/-- `flat_constraints[i]`, an unchecked read. -/
def read (ex : Ex) (i : Nat) : Outcome Int :=
  match ex.flat[i]? with
  | none => .error (.ub "flat_constraints[i]")
  | some v => .ok v

/-- Lines 203-205 and 211-213: the sum of the reduced costs of the elements
selected by the stored solution that starts at `start`, from the given value on. -/
def zOf (rnd : Rat → Rat) (ex : Ex) : Nat → Rat → List Rc → Outcome Rat
  | _, z, [] => .ok z
  | start, z, c :: cs => do
    let v ← read ex start
    zOf rnd ex (start + 1) (if v ≠ 0 then rnd (z + c.value) else z) cs

/-- Lines 207-219: `i` is the number of the next stored solution and the first
argument the number of them still to visit. -/
def search (rnd : Rat → Rat) (t : ObjType) (ex : Ex) (start : Nat) (rc : List Rc) :
    Nat → Nat → Nat → Rat → Outcome Nat
  | 0, _, best, _ => .ok best
  | m + 1, i, best, zbest => do
    let z ← zOf rnd ex (start + i * rc.length) 0 rc
    if better t z zbest then search rnd t ex start rc m (i + 1) i z
    else search rnd t ex start rc m (i + 1) best zbest

/-- Lines 222-223: `items[i].result`. -/
def marks (ex : Ex) : Nat → List Rc → Outcome (List (Rc × Bool))
  | _, [] => .ok []
  | start, c :: cs => do
    let v ← read ex start
    let r ← marks ex (start + 1) cs
    .ok ((c, decide (v ≠ 0)) :: r)

/-- The comparison given to the last `std::sort` (lines 227-235, and
`branch-and-bound-solver.hpp:508-516`). -/
def before (t : ObjType) (a b : Rc × Bool) : Bool :=
  if a.2 = b.2 then better t a.1.value b.1.value else a.2 && !b.2

/-- Lines 237-251 (and `branch-and-bound-solver.hpp:518-532`): the index of the
last selected element.  `items[0]` of an empty vector is undefined. -/
def selectedOf (items : List (Rc × Bool)) : Outcome Int :=
  match items.findIdx? fun p => !p.2 with
  | some i => .ok ((i : Int) - 1)
  | none =>
    match items with
    | [] => .error (.ub "items[0]")
    | p :: _ => .ok (if p.2 then (items.length : Int) else -1)

/-- What `std::sort` guarantees: a permutation in which no element comes after one
it should precede. -/
def SortOk (lt : Rc × Bool → Rc × Bool → Bool)
    (sort : List (Rc × Bool) → List (Rc × Bool)) : Prop :=
  ∀ l, (sort l).Perm l ∧ (sort l).Pairwise fun a b => lt b a = false

/-- `exhaustive_solver::solve` (`exhaustive-solver.hpp:185-252`): the new content of
`reduced_cost` and the returned index.  `sort` is the last `std::sort`. -/
def solve (rnd : Rat → Rat) (t : ObjType) (sort : List (Rc × Bool) → List (Rc × Bool)) (ex : Ex)
    (k : Nat) (rc : List Rc) : Outcome (List Rc × Int) :=
  match ex.entries.find? fun e => decide (e.k = k) with
  | none => .error (.contract "it_constraint != constraints.end()")
  | some e => do
    let z ← zOf rnd ex e.start 0 rc
    let best ← search rnd t ex e.start rc (e.solutions - 1) 1 0 z
    let items ← marks ex (e.start + best * rc.length) rc
    let sel ← selectedOf (sort items)
    .ok ((sort items).map Prod.fst, sel)

end Bx.Exhaustive
