import Verif.Model.Lpcore
import Verif.Model.Preprocess
import Verif.Model.ZSolver

/-!
# The same functions with a 32 bits `int`

The other modules compute with unbounded integers.  Here the functions that add, subtract or
multiply factors and right-hand sides are written again with the type of the code: an operation
whose result is not an `int` is undefined behaviour.  Each definition names the one it repeats,
which carries the rest of the comment.

Simplification: the lengths of vectors, the loop counters and the numbers of variables are not
checked; a vector of 2^31 elements does not fit in the memory that the other modules assume.
-/

namespace Bx.Checked

open Merge SolverCtor Spec Exhaustive Itm ZSolver BranchBound

/-- The result of an operation on `int`: undefined when it is out of range (C++17, [expr]/4). -/
def int32 (v : Int) : Outcome Int :=
  if intMin ≤ v ∧ v ≤ intMax then .ok v else .error (.ub "signed overflow")

/-! ## `lib/src/lpcore.cpp` -/

/-- `compute_function` (`lib/src/lpcore.cpp:134-152`): `Lpcore.computeFunction`, with the sum so
far. -/
def computeFunction (vars : List Int) : Int → List FunElem → Outcome Int
  | acc, [] => .ok acc
  | acc, f :: fs =>
    match vars[f.var]? with
    | none => .error (.ub "vars[f.variable_index]")
    | some v => do
      let p ← int32 (v * f.factor)
      let acc ← int32 (acc + p)
      computeFunction vars acc fs

/-- `lib/src/lpcore.cpp:164-180`: `Lpcore.allConstraints`. -/
def allConstraints (vars : List Int) (bad : Int → Int → Bool) :
    List Constr → Outcome Bool
  | [] => .ok true
  | c :: cs => do
    let v ← computeFunction vars 0 c.elems
    if bad v c.value then .ok false else allConstraints vars bad cs

/-- `is_valid_solution_impl` (`lib/src/lpcore.cpp:154-183`): `Lpcore.isValidSolutionImpl`. -/
def isValidSolutionImpl (pb : RawProblem) (vars : List Int) : Outcome Bool := do
  check (!vars.isEmpty) "!variable_value.empty()"
  check (vars.length == pb.names.length) "size == names.size()"
  check (vars.length == pb.values.length) "size == values.size()"
  let a ← allConstraints vars (fun v w => v != w) pb.eqs
  if !a then return false
  let b ← allConstraints vars (fun v w => decide (v > w)) pb.les
  if !b then return false
  allConstraints vars (fun v w => decide (v < w)) pb.ges

/-- `is_valid_solution` (`lib/src/lpcore.cpp:233-245`): `Lpcore.isValidSolution`. -/
def isValidSolution (pb : RawProblem) (r : Result) : Outcome Bool := do
  if r.status ≠ .success then return false
  match r.solutions.getLast? with
  | none => return false
  | some s =>
    check (pb.names.length == pb.values.length) "names/values"
    check (pb.names.length ==
      r.variableName.length + r.affected.names.length) "names/result"
    check (s.variables.length == r.variableName.length) "back/names"
    let v ← Lpcore.makeVariableValue pb.names r
    isValidSolutionImpl pb v

/-! ## `lib/src/preprocessor.cpp` -/

/-- `sum_factor` (`preprocessor.cpp:64-72`): `Preprocess.sumFactor`, with the sum so far. -/
def sumFactor : Int → List FunElem → Outcome Int
  | acc, [] => .ok acc
  | acc, e :: es => do
    let acc ← int32 (acc + e.factor)
    sumFactor acc es

/-- Loop of `reduce` (`preprocessor.cpp:164-177`): `Preprocess.reduceLoop`. -/
def reduceLoop (vars : List (Nat × Bool)) :
    List FunElem → Option FunElem → Int → Outcome (Option FunElem × Int)
  | [], rem, res => .ok (rem, res)
  | e :: es, rem, res =>
    match vars.lookup e.var with
    | none => do
      check rem.isNone "remaining_index == -1"
      reduceLoop vars es (some e) res
    | some b => do
      let p ← int32 (e.factor * (if b then 1 else 0))
      let q ← int32 (-1 * p)
      let res ← int32 (res + q)
      reduceLoop vars es rem res

/-- `preprocessor.cpp:190-263`: `Preprocess.reduceKind`. -/
def reduceKind (k : Preprocess.Kind) (vars : List (Nat × Bool)) (c : Constr) :
    Outcome (Option (Nat × Bool)) := do
  let (rem, res) ← reduceLoop vars c.elems none c.value
  match rem with
  | none => .ok none
  | some e =>
    let v0 ← int32 (e.factor * 0)
    let v1 ← int32 (e.factor * 1)
    let affect0 := Preprocess.test k v0 res
    let affect1 := Preprocess.test k v1 res
    if affect0 && affect1 then .ok none
    else if affect0 then .ok (some (e.var, false))
    else if affect1 then .ok (some (e.var, true))
    else .error (.contract "bx_reach")

/-- `preprocessor.cpp:372-429`: `Preprocess.step`. -/
def step (pb : Problem) (st : Preprocess.St) (p : Preprocess.Kind × Nat) :
    Outcome Preprocess.St :=
  let (k, i) := p
  if st.cnt k i ≤ 0 then .ok st
  else
    let c := st.cnt k i - 1
    if c = 1 then
      match (Preprocess.csts pb k)[i]? with
      | none => .error (.ub "constraints[cst]")
      | some cst => do
        let v ← reduceKind k st.vars cst
        .ok { vars := st.vars, cnt := Preprocess.setCnt st.cnt k i 0,
              lifo := Preprocess.pushOpt st.lifo v }
    else .ok { st with cnt := Preprocess.setCnt st.cnt k i c }

/-- `affects` (`preprocessor.cpp:361-431`): `Preprocess.affects`. -/
def affects (pb : Problem) : Nat → Preprocess.St → Outcome Preprocess.St
  | fuel, st =>
    match st.lifo with
    | [] => .ok st
    | top :: rest =>
      match fuel with
      | 0 => .error .fuel
      | fuel + 1 => do
        let st1 : Preprocess.St :=
          { st with vars := Preprocess.varsEmplace st.vars top.1 top.2, lifo := rest }
        let st2 ← (Preprocess.visit pb top.1).foldlM (step pb) st1
        affects pb fuel st2

/-- `preprocessor.cpp:468-486`, `502-521` and `537-554`: `Preprocess.shortcut`.  The sum is
computed where the code computes it: after the test of the value for `<=` only. -/
def shortcut (k : Preprocess.Kind) (c : Constr) : Outcome (Option (Option Bool)) :=
  if Preprocess.allFactorPositive c then
    match k with
    | .eq => do
      let s ← sumFactor 0 c.elems
      if s = c.value ∨ c.value = 0 then .ok (some (some (decide (c.value ≠ 0)))) else .ok none
    | .ge => do
      let s ← sumFactor 0 c.elems
      if s = c.value then .ok (some (some true))
      else if c.value = 0 then .ok (some none)
      else .ok none
    | .le =>
      if c.value ≤ 0 then .ok (some (some false))
      else do
        let s ← sumFactor 0 c.elems
        if s = c.value then .ok (some none) else .ok none
  else .ok none

/-- `preprocessor.cpp:456-556`: `Preprocess.tryStep`. -/
def tryStep (k : Preprocess.Kind) (st : Preprocess.St) (p : Constr × Nat) :
    Outcome Preprocess.St :=
  let (c, i) := p
  if st.cnt k i = 1 then do
    let v ← reduceKind k st.vars c
    .ok { vars := st.vars, cnt := Preprocess.setCnt st.cnt k i 0,
          lifo := Preprocess.pushOpt st.lifo v }
  else do
    match ← shortcut k c with
    | none => .ok st
    | some none => .ok { st with cnt := Preprocess.setCnt st.cnt k i 0 }
    | some (some b) =>
      .ok { vars := st.vars, cnt := Preprocess.setCnt st.cnt k i 0,
            lifo := Preprocess.pushAll st.lifo c b }

/-- `try_affect_variable` (`preprocessor.cpp:454-557`): `Preprocess.tryAffectVariable`. -/
def tryAffectVariable (pb : Problem) (st : Preprocess.St) : Outcome Preprocess.St := do
  let st ← pb.eqs.zipIdx.foldlM (tryStep .eq) st
  let st ← pb.ges.zipIdx.foldlM (tryStep .ge) st
  pb.les.zipIdx.foldlM (tryStep .le) st

/-- `preprocessor.cpp:848-857`: `Preprocess.cstElems`. -/
def cstElems (m : List Preprocess.Entry) (c : Constr) : List FunElem → Outcome Constr
  | [] => .ok c
  | e :: es =>
    match m[e.var]? with
    | none => .error (.ub "mapping[variable_index]")
    | some (.kept j) => cstElems m { c with elems := c.elems ++ [⟨e.factor, j⟩] } es
    | some (.gone true) => do
      let v ← int32 (c.value - e.factor)
      cstElems m { c with value := v } es
    | some (.gone false) => cstElems m c es

/-- `constraints_exclude_copy` (`preprocessor.cpp:828-859`): `Preprocess.cstCopy`. -/
def cstCopy (m : List Preprocess.Entry) (cnt : Nat → Int) :
    List (Constr × Nat) → Outcome (List Constr)
  | [] => .ok []
  | (c, i) :: cs =>
    if cnt i ≤ 1 then cstCopy m cnt cs
    else do
      let c' ← cstElems m { c with elems := [] } c.elems
      let r ← cstCopy m cnt cs
      .ok (c' :: r)

/-- `preprocessor::make_problem` (`preprocessor.cpp:651-716`): `Preprocess.makeProblem`. -/
def makeProblem (pb : Problem) (st : Preprocess.St) (mo : Preprocess.MergeObj) :
    Outcome Problem := do
  let m := Preprocess.mappingLoop st.vars pb.values.length 0 0
  check (Preprocess.keptCount m + st.vars.length == pb.values.length) "c == length - length"
  let obj ← Preprocess.objCopy pb m mo
  let (ns, vs, an, av) ← Preprocess.varsCopy pb st.vars pb.values 0
  check (Preprocess.namesKept m pb.names ns) "names"
  let eqs ← cstCopy m (st.cnt .eq) pb.eqs.zipIdx
  let ges ← cstCopy m (st.cnt .ge) pb.ges.zipIdx
  let les ← cstCopy m (st.cnt .le) pb.les.zipIdx
  check (Preprocess.validIndex eqs vs.length && Preprocess.validIndex ges vs.length &&
         Preprocess.validIndex les vs.length) "is_valid_variable_index"
  .ok { type := pb.type, objective := obj, eqs := eqs, ges := ges, les := les,
        names := ns, values := vs,
        affected := { names := pb.affected.names ++ an,
                      values := pb.affected.values ++ av },
        ptype := ProblemType.whichProblemType eqs ges les }

/-- `preprocessor.cpp:616-625` and `638-647`: `Preprocess.finish`. -/
def finish (pb : Problem) (st : Preprocess.St) : Outcome Problem := do
  let mo := Preprocess.bqpObjective pb st
  let st := Preprocess.removeUnused pb st
  let st ← affects pb pb.values.length st
  makeProblem pb st mo

/-- `preprocessor::operator()()` (`preprocessor.cpp:628-648`): `Preprocess.run`. -/
def run (pb : Problem) : Outcome Problem := do
  if !Preprocess.cacheInRange pb then .error (.ub "cache[elem.variable_index]") else
  let st := Preprocess.affectBounded pb { cnt := Preprocess.initCnt pb }
  let st ← tryAffectVariable pb st
  let st ← affects pb pb.values.length st
  finish pb st

/-- `preprocessor::operator()(int, bool)` (`preprocessor.cpp:607-626`) and `affect` (`883-901`):
`Preprocess.affect`. -/
def affectVariable (pb : Problem) (v : Nat) (b : Bool) : Outcome Problem := do
  check (decide (v < pb.values.length)) "variable_index < length"
  if !Preprocess.cacheInRange pb then .error (.ub "cache[elem.variable_index]") else
  let st : Preprocess.St := { cnt := Preprocess.initCnt pb, lifo := [(v, b)] }
  let st ← affects pb pb.values.length st
  finish pb st

/-- `split` (`preprocessor.cpp:866-881`): `Preprocess.split`. -/
def split (pb : Problem) (v : Nat) : Outcome (Problem × Problem) := do
  let a ← affectVariable pb v true
  let b ← affectVariable pb v false
  .ok (a, b)

/-- `preprocess` (`preprocessor.cpp:903-913`): `Preprocess.preprocess`. -/
def preprocess (pb : RawProblem) : Outcome Problem :=
  run { ProblemType.ofRaw pb with affected := {} }

/-! ## The four solvers with 0/1 and -1/0/1 coefficients -/

/-- `itm-common.hpp:82-86`: `Itm.rowValue`, with the sum so far. -/
def rowValue (t : SolverType) (x : Assign) : Int → List FunElem → Outcome Int
  | acc, [] => .ok acc
  | acc, e :: es => do
    let p ← int32 (factor t e * (if x e.var then 1 else 0))
    let acc ← int32 (acc + p)
    rowValue t x acc es

/-- `is_valid_constraint` (`itm-common.hpp:76-89`): `Itm.isValidConstraint`. -/
def isValidConstraint (s : Slv) (k : Nat) (x : Assign) : Outcome Bool := do
  let r ← rowOf s k
  let b ← boundOf s k
  let v ← rowValue s.kind x 0 r
  .ok (decide (b.min ≤ v) && decide (v ≤ b.max))

/-- `itm-common.hpp:899-911`: `Itm.infeasibilityLoop`. -/
def infeasibilityLoop (s : Slv) (x : Assign) : List Nat → Outcome (List (Nat × Int))
  | [] => .ok []
  | k :: ks => do
    let r ← rowOf s k
    let b ← boundOf s k
    let v ← rowValue s.kind x 0 r
    if b.min > v then do
      let d ← int32 (b.min - v)
      let l ← infeasibilityLoop s x ks
      .ok ((k, d) :: l)
    else if b.max < v then do
      let d ← int32 (v - b.max)
      let l ← infeasibilityLoop s x ks
      .ok ((k, d) :: l)
    else infeasibilityLoop s x ks

/-- `itm-common.hpp:893-914`: `Itm.infeasibility`. -/
def infeasibility (s : Slv) (x : Assign) : Outcome (List (Nat × Int)) :=
  infeasibilityLoop s x (List.range s.rows.length)

/-- `affect` (`itm-common.hpp:382-467`): `Itm.affect`. -/
def affect (s : Slv) (k : Nat) (row : List FunElem) (ids : List Nat) (selected : Int)
    (x : Assign) : Outcome Assign := do
  let x' ← affectX s row ids selected x
  let v ← isValidConstraint s k x'
  check v "is_valid_constraint(slv, k, x)"
  .ok x'

/-- `select_variables` (`itm-solver-equalities-01.cpp:173-182`): `Itm.selectEq01`. -/
def selectEq01 (r : Int) (bk : Int) : Outcome Int := int32 (min bk r - 1)

/-- `select_variables` (`itm-solver-equalities-101.cpp:197-206`): `Itm.selectEq101`. -/
def selectEq101 (r c : Int) (bk : Int) : Outcome Int := do
  let b ← int32 (bk + c)
  int32 (min b r - 1)

/-- `select_variables` (`itm-solver-inequalities-01.cpp:193-206`): `Itm.selectIneq01`. -/
def selectIneq01 (s : Slv) (stop : Int → Bool) (r bkmin bkmax : Int) : Outcome Int :=
  if bkmin = bkmax then int32 (min bkmin r - 1)
  else
    let lo := min bkmin r
    let hi := min bkmax r
    scan s stop (hi - 1) lo (hi - lo + 1).toNat

/-- `select_variables` (`itm-solver-inequalities-101.cpp:235-248`): `Itm.selectIneq101`. -/
def selectIneq101 (s : Slv) (stop : Int → Bool) (r c bkmin bkmax : Int) : Outcome Int :=
  if bkmin = bkmax then do
    let b ← int32 (bkmin + c)
    int32 (min b r - 1)
  else do
    let lo ← int32 (bkmin + c)
    let h ← int32 (bkmax + c)
    let hi := min h r
    scan s stop (hi - 1) lo (hi - lo + 1).toNat

/-- `select_variables` of the solver: `Itm.select`. -/
def select (s : Slv) (o : Row) (row : List FunElem) (b : Bound) : Outcome Int :=
  let r : Int := row.length
  let c : Int := cSize s.kind row
  match s.kind with
  | .equalities01 => selectEq01 r b.min
  | .equalities101 => selectEq101 r c b.min
  | .inequalities01 => selectIneq01 s o.stop r b.min b.max
  | .inequalities101 => selectIneq101 s o.stop r c b.min b.max
  | _ => .error (.contract "other solver")

/-- A turn of `compute_update_row` (for instance `itm-solver-equalities-01.cpp:233-266`):
`Itm.updateRow`. -/
def updateRow (s : Slv) (o : Row) (k : Nat) (x : Assign) : Outcome Assign := do
  let row ← rowOf s k
  let b ← boundOf s k
  let sel ← select s o row b
  affect s k row (o.sort (List.range row.length)) sel x

/-! ## The solver with integer coefficients -/

/-- The sums `lower` and `upper` of the constructor
(`itm-solver-inequalities-Z.cpp:134-147`): `SolverCtor.lowerSum` and `SolverCtor.upperSum`, with
the sums so far and the contract of line 135. -/
def sums : Int → Int → List FunElem → Outcome (Int × Int)
  | lo, up, [] => .ok (lo, up)
  | lo, up, e :: es => do
    check (decide (e.factor ≠ 0)) "cst.factor"
    if e.factor > 0 then do
      let up ← int32 (up + e.factor)
      sums lo up es
    else do
      let lo ← int32 (lo + e.factor)
      sums lo up es

/-- `itm-solver-inequalities-Z.cpp:153-168`: `ZSolver.kindOf`. -/
def kindWith (lo up : Int) (m : Merged) : ZSolver.Kind :=
  if m.min = m.max then baseKind m.elems
  else if lo ≥ m.min ∨ up ≤ m.max then
    match baseKind m.elems with
    | .branchAndBound => .unconstrainedBranchAndBound
    | .exhaustive => .unconstrainedExhaustive
    | k => k
  else baseKind m.elems

/-- `itm-solver-inequalities-Z.cpp:153-168`: `ZSolver.rowBound`. -/
def boundWith (lo up : Int) (m : Merged) : Bound :=
  if m.min = m.max then ⟨m.min, m.max, 0⟩ else ⟨max lo m.min, min up m.max, 0⟩

/-- `exhaustive-solver.hpp:132-135`: `Exhaustive.sumOf`, with the sum so far. -/
def sumOf : Int → List FunElem → List Bool → Outcome Int
  | acc, e :: es, b :: w =>
    if b then do
      let acc ← int32 (acc + e.factor)
      sumOf acc es w
    else sumOf acc es w
  | acc, _, _ => .ok acc

/-- `exhaustive-solver.hpp:131-143`: the walkers kept by `Exhaustive.build`. -/
def good (es : List FunElem) (bmin bmax : Int) : List (List Bool) → Outcome (List (List Bool))
  | [] => .ok []
  | w :: ws => do
    let s ← sumOf 0 es w
    let r ← good es bmin bmax ws
    .ok (if decide (bmin ≤ s) && decide (s ≤ bmax) then w :: r else r)

/-- `build_constraints` (`exhaustive-solver.hpp:111-167`): `Exhaustive.build`. -/
def build (ex : Ex) (k : Nat) (es : List FunElem) (bmin bmax : Int) : Outcome Ex := do
  check (decide (0 < es.length)) "constraint_size > 0"
  let ws ← walk (2 ^ (es.length + 1)) (firstWalk es.length) (es.length - 1)
  let good ← good es bmin bmax ws
  check (decide (0 < good.length)) "nb_solution > 0"
  .ok { flat := ex.flat ++ (good.map (flatOf es)).flatten
        entries :=
          if ex.entries.any fun e => decide (e.k = k) then ex.entries
          else ex.entries ++ [⟨k, ex.flat.length, good.length, bmin, bmax⟩] }

/-- The loop of the constructor (`itm-solver-inequalities-Z.cpp:126-183`):
`ZSolver.prepareAll`, with `b` and `Z`. -/
def prepareAll : Ex → Nat → List Merged → Outcome (Ex × List Bound × List ZSolver.Kind)
  | ex, _, [] => .ok (ex, [], [])
  | ex, i, m :: ms => do
    let lu ← sums 0 0 m.elems
    let kind := kindWith lu.1 lu.2 m
    let b := boundWith lu.1 lu.2 m
    let ex ← match kind with
      | .exhaustive | .unconstrainedExhaustive => build ex i m.elems b.min b.max
      | _ => .ok ex
    check (decide (b.min ≤ b.max)) "b[i].min <= b[i].max"
    let r ← prepareAll ex (i + 1) ms
    .ok (r.1, b :: r.2.1, kind :: r.2.2)

/-- The constructor (`itm-solver-inequalities-Z.cpp:98-189`): `ZSolver.makeZ`. -/
def makeZ (csts : List Merged) (nvars : Nat) : Outcome ZSlv := do
  let _ ← Sparse.make csts nvars
  let cap ← reducedCostsSize csts
  let r ← prepareAll {} 0 csts
  .ok ⟨⟨.inequalitiesZ, csts.map Merged.elems, r.2.1, cap⟩, r.2.2, r.1⟩

/-- `itm-solver-inequalities-Z.cpp:308-344`: `ZSolver.selectLoop`. -/
def selectLoop (t : ObjType) (get : Nat → Outcome Rc) (bmin bmax : Int) :
    Nat → Nat → Int → Option Int → Outcome (Option Int)
  | 0, _, _, best => .ok best
  | n + 1, j, sum, best => do
    let best := if bmin ≤ sum ∧ sum ≤ bmax then some ((j : Int) - 1) else best
    let c ← get j
    if best.isSome && stopIterating t c.value then .ok best
    else do
      let sum ← int32 (sum + c.f)
      selectLoop t get bmin bmax n (j + 1) sum best

/-- `select_variables` (`itm-solver-inequalities-Z.cpp:327-344`): `ZSolver.selectZ`. -/
def selectZ (t : ObjType) (cap : Nat) (stale : Rc) (rc : List Rc) (b : Bound) :
    Outcome (Option Int) :=
  selectLoop t (cell cap stale rc) b.min b.max (rc.length + 1) 0 0 none

/-- `make_next_equality_node` (`branch-and-bound-solver.hpp:315-353`):
`BranchBound.nextEquality`. -/
def nextEquality (rnd : Rat → Rat) (t : ObjType) (items : List Item) (bmin : Int) (st : St) : Outcome St :=
  match st.nodes with
  | [] => .error (.ub "nodes.back()")
  | n0 :: rest =>
    let level := n0.level + 1
    match items[level]? with
    | none => .ok { st with nodes := rest }
    | some it => do
      let n0 := { n0 with level := level }
      let f ← int32 (n0.sumfactor + it.factor)
      let n1 : Node := ⟨n0.bits.set level true, rnd (n0.sumr + it.r), f, level⟩
      if n1.sumfactor = bmin then
        .ok (record t { st with nodes := n0 :: rest } n1.bits n1.sumr)
      else .ok { st with nodes := n1 :: n0 :: rest }

/-- `make_next_inequality_node` (`branch-and-bound-solver.hpp:355-394`):
`BranchBound.nextInequality`. -/
def nextInequality (rnd : Rat → Rat) (t : ObjType) (items : List Item) (bmin bmax : Int) (st : St) :
    Outcome St :=
  match st.nodes with
  | [] => .error (.ub "nodes.back()")
  | n0 :: rest =>
    let level := n0.level + 1
    match items[level]? with
    | none => .ok { st with nodes := rest }
    | some it => do
      let n0 := { n0 with level := level }
      let f ← int32 (n0.sumfactor + it.factor)
      let n1 : Node := ⟨n0.bits.set level true, rnd (n0.sumr + it.r), f, level⟩
      if bmin ≤ n1.sumfactor ∧ n1.sumfactor ≤ bmax then
        .ok (record t { st with nodes := n1 :: n0 :: rest } n1.bits n1.sumr)
      else if n1.sumfactor > bmax then .ok { st with nodes := n0 :: rest }
      else .ok { st with nodes := n1 :: n0 :: rest }

/-- `solve_equality` (`branch-and-bound-solver.hpp:396-419`): `BranchBound.solveEquality`. -/
def solveEquality (rnd : Rat → Rat) (t : ObjType) (items : List Item) (bmin : Int) : Outcome (List Bool) :=
  match items with
  | [] => .error (.ub "items[0]")
  | it :: _ =>
    let n := items.length
    let n0 := init0 n
    if n0.sumfactor = bmin then .ok n0.bits
    else do
      let n1 := init1 n it
      let st : St :=
        if n1.sumfactor = bmin then ⟨[n0], none, n1.bits⟩
        else ⟨[n1, n0], none, n0.bits⟩
      let st ← loop (nextEquality rnd t items bmin) (turns n) st
      .ok st.solution

/-- `solve_inequality` (`branch-and-bound-solver.hpp:421-448`): `BranchBound.solveInequality`. -/
def solveInequality (rnd : Rat → Rat) (t : ObjType) (items : List Item) (bmin bmax : Int) :
    Outcome (List Bool) :=
  match items with
  | [] => .error (.ub "items[0]")
  | it :: _ => do
    let n := items.length
    let n0 := init0 n
    let s0 : St := if n0.sumfactor > bmax then ⟨[], none, n0.bits⟩ else ⟨[n0], none, n0.bits⟩
    let n1 := init1 n it
    let s1 : St :=
      if bmin ≤ n1.sumfactor ∧ n1.sumfactor ≤ bmax then
        { s0 with nodes := n1 :: s0.nodes, solution := n1.bits }
      else if n1.sumfactor > bmax then s0
      else { s0 with nodes := n1 :: s0.nodes }
    let st ← loop (nextInequality rnd t items bmin bmax) (turns n) s1
    .ok st.solution

/-- `branch-and-bound-solver.hpp:469-475`: `BranchBound.itemOf`, where `std::abs` of the least
`int` is undefined. -/
def itemsOf : List Rc → Outcome (List Item)
  | [] => .ok []
  | c :: cs => do
    let a ← int32 (c.f.natAbs : Int)
    let r ← itemsOf cs
    .ok (⟨c.value, a, c.f, c.id⟩ :: r)

/-- `branch-and-bound-solver.hpp:482-487`: the two bounds after `BranchBound.shift`. -/
def shifted : Int → Int → List Item → Outcome (Int × Int)
  | bmin, bmax, [] => .ok (bmin, bmax)
  | bmin, bmax, i :: is =>
    if i.original < 0 then do
      let bmin ← int32 (bmin + i.factor)
      let bmax ← int32 (bmax + i.factor)
      shifted bmin bmax is
    else shifted bmin bmax is

/-- `branch-and-bound-solver.hpp:494-497`: `BranchBound.explore`. -/
def explore (rnd : Rat → Rat) (t : ObjType) (items : List Item) (bmin bmax : Int) :
    Outcome (List Bool) :=
  if bmax = bmin then solveEquality rnd t items bmin else solveInequality rnd t items bmin bmax

/-- `branch_and_bound_solver::solve` (`branch-and-bound-solver.hpp:450-533`):
`BranchBound.solve`. -/
def solve (rnd : Rat → Rat) (t : ObjType) (sort1 : List Item → List Item)
    (sort2 : List (Rc × Bool) → List (Rc × Bool)) (rc : List Rc) (bkmin bkmax : Int) :
    Outcome (List Rc × Int) := do
  check (decide (4 ≤ rc.length)) "r_size >= 4"
  check (decide (bkmin ≤ bkmax)) "bk_min <= bk_max"
  let its ← itemsOf rc
  let items := sort1 its
  let b ← shifted bkmin bkmax items
  let sol ← explore rnd t items b.1 b.2
  let res := List.zipWith resultOf items sol
  let sel ← selectedOf (sort2 res)
  .ok ((sort2 res).map Prod.fst, sel)

/-- `local_affect` (`itm-solver-inequalities-Z.cpp:346-439`): `ZSolver.localAffect`. -/
def localAffect (s : Slv) (k : Nat) (row : List FunElem) (ids : List Nat) (selected : Int)
    (x : Assign) : Outcome Assign := do
  let x' ← localAffectX s row ids selected x
  let v ← isValidConstraint s k x'
  check v "is_valid_constraint(*this, k, x)"
  .ok x'

/-- `itm-solver-inequalities-Z.cpp:474-499` and `532-556`: `ZSolver.choose`. -/
def choose (t : ObjType) (z : ZSlv) (o : ZRow) (k : Nat) (kind : ZSolver.Kind) (b : Bound)
    (rc : List Rc) : Outcome (List Rc × Int) :=
  match kind with
  | .branchAndBound => solve o.rnd t o.sort1 o.sort2 (o.sort rc) b.min b.max
  | .exhaustive => Exhaustive.solve o.rnd t o.sort2 z.ex k rc
  | .unconstrainedBranchAndBound => do
    let sel ← selectZ t z.slv.cap o.stale (o.sort rc) b
    orElse sel (o.sort rc) (solve o.rnd t o.sort1 o.sort2 (o.sort rc) b.min b.max)
  | .unconstrainedExhaustive => do
    let sel ← selectZ t z.slv.cap o.stale (o.sort rc) b
    orElse sel (o.sort rc) (Exhaustive.solve o.rnd t o.sort2 z.ex k (o.sort rc))
  | .linear => do
    let sel ← selectZ t z.slv.cap o.stale (o.sort rc) b
    orElse sel (o.sort rc) (.ok (o.sort rc, -2))

/-- A turn of `compute_update_row` and `push_and_compute_update_row`
(`itm-solver-inequalities-Z.cpp:441-564`): `ZSolver.updateRowZ`. -/
def updateRowZ (t : ObjType) (z : ZSlv) (o : ZRow) (k : Nat) (x : Assign) : Outcome Assign := do
  let row ← rowOf z.slv k
  let b ← boundOf z.slv k
  let kind ← kindAt z k
  let out ← choose t z o k kind b (reduced o.cost row)
  localAffect z.slv k row (out.1.map Rc.id) out.2 x

end Bx.Checked
