import Verif.Model.Lpcore
import Verif.Model.Preprocess
import Verif.Model.Solve

/-!
# The values of the objective with rounded operations

The other modules add the factors of the objective exactly.  Here the functions that add, divide or
multiply them are written again with a rounding `rnd` after each operation on `double`.  Each
definition names the one it repeats, which carries the rest of the comment.

Simplification: `rnd` is a function of the rational numbers, so that overflow, subnormal numbers, NaN
and the infinities are not modelled.
-/

namespace Bx.Rounded

open Spec (Assign)
open Preprocess (Entry MergeObj St)

/-! ## `compute_solution` -/

/-- `ret += elem.factor * variable_value[…]` (`lib/src/lpcore.cpp:193-194`): `Lpcore.addLinear`. -/
def computeLinear (rnd : Rat → Rat) (vars : List Int) (acc : Rat) : List ObjElem → Outcome Rat
  | [] => .ok acc
  | e :: es =>
    match vars[e.var]? with
    | none => .error (.ub "variable_value[elem.variable_index]")
    | some v => computeLinear rnd vars (rnd (acc + rnd (e.factor * (v : Rat)))) es

/-- `lib/src/lpcore.cpp:196-198`: `Lpcore.addQuadratic`. -/
def computeQuadratic (rnd : Rat → Rat) (vars : List Int) (acc : Rat) : List QuadElem → Outcome Rat
  | [] => .ok acc
  | e :: es =>
    match vars[e.a]?, vars[e.b]? with
    | some v, some w =>
      computeQuadratic rnd vars (rnd (acc + rnd (rnd (e.factor * (v : Rat)) * (w : Rat)))) es
    | _, _ => .error (.ub "variable_value[elem.variable_index_a]")

/-- `compute_solution_impl` (`lib/src/lpcore.cpp:185-201`): `Lpcore.computeSolutionImpl`. -/
def computeSolutionImpl (rnd : Rat → Rat) (pb : RawProblem) (vars : List Int) : Outcome Rat := do
  check (!vars.isEmpty) "!variable_value.empty()"
  let r ← computeLinear rnd vars pb.objective.value pb.objective.elems
  computeQuadratic rnd vars r pb.objective.qelems

/-- `compute_solution` (`lib/src/lpcore.cpp:247-257`): `Lpcore.computeSolution`. -/
def computeSolution (rnd : Rat → Rat) (pb : RawProblem) (r : Result) : Outcome Rat := do
  check (r.status == .success && !r.solutions.isEmpty) "r && !empty"
  match r.solutions.getLast? with
  | none => .error (.ub "solutions.back()")
  | some s =>
    check (pb.names.length == pb.values.length) "names/values"
    check (pb.names.length ==
      r.affected.names.length + r.variableName.length) "names/result"
    check (s.variables.length == r.variableName.length) "back/names"
    let v ← Lpcore.makeVariableValue pb.names r
    computeSolutionImpl rnd pb v

/-! ## The value of a vector during the search -/

/-- `default_cost_type::results` (`itm-common.hpp:1140-1147`): `Solve.addLinear`. -/
def addLinear (rnd : Rat → Rat) (x : Assign) : Rat → List ObjElem → Rat
  | r, [] => r
  | r, e :: es => addLinear rnd x (if x e.var then rnd (r + e.factor) else r) es

/-- `itm-common.hpp:1433-1436`: `Solve.addQuadratic`. -/
def addQuadratic (rnd : Rat → Rat) (x : Assign) : Rat → List QuadElem → Rat
  | r, [] => r
  | r, e :: es => addQuadratic rnd x (if x e.a && x e.b then rnd (r + e.factor) else r) es

/-- `results` (`itm-common.hpp:1140-1147`, `1427-1439`): `Solve.results`. -/
def results (rnd : Rat → Rat) (o : Objective) (x : Assign) : Rat :=
  if o.qelems.isEmpty then addLinear rnd x o.value o.elems
  else addQuadratic rnd x (addLinear rnd x o.value o.elems) o.qelems

/-! ## The objective of the preprocessed problem -/

/-- `preprocessor.cpp:305-328`: `Preprocess.bqpVariable`. -/
def bqpVariable (rnd : Rat → Rat) (pb : Problem) (m : MergeObj) (i : Nat) : MergeObj :=
  (pb.objective.qelems.filter fun e => i == e.a || i == e.b).foldl (fun m e =>
    if Preprocess.chosen pb.type e.factor then
      if e.a = e.b then { m with value := rnd (m.value + rnd (e.factor / 2)) }
      else { m with elems := m.elems ++
        [⟨rnd (e.factor / 2), if e.a = i then e.b else e.a⟩] }
    else m) m

/-- `make_lp_from_bqp_objective` (`preprocessor.cpp:289-331`): `Preprocess.bqpObjective`. -/
def bqpObjective (rnd : Rat → Rat) (pb : Problem) (st : St) : MergeObj :=
  (List.range pb.values.length).foldl (fun m i =>
    if (st.vars.lookup i).isNone && Preprocess.isUnused pb st i then bqpVariable rnd pb m i
    else m) {}

/-- `preprocessor.cpp:726-735`: `Preprocess.objLinear`. -/
def objLinear (rnd : Rat → Rat) (m : List Entry) (o : Objective) : List ObjElem → Outcome Objective
  | [] => .ok o
  | e :: es =>
    match m[e.var]? with
    | none => .error (.ub "mapping[variable_index]")
    | some (.gone b) =>
      objLinear rnd m { o with value := if b then rnd (o.value + e.factor) else o.value } es
    | some (.kept j) => objLinear rnd m { o with elems := o.elems ++ [⟨e.factor, j⟩] } es

/-- `preprocessor.cpp:737-758`: `Preprocess.objQuadratic`. -/
def objQuadratic (rnd : Rat → Rat) (m : List Entry) (o : Objective) :
    List QuadElem → Outcome Objective
  | [] => .ok o
  | e :: es =>
    match m[e.a]?, m[e.b]? with
    | some (.gone va), some (.gone vb) =>
      objQuadratic rnd m
        { o with value := if va && vb then rnd (o.value + e.factor) else o.value } es
    | some (.gone _), some (.kept j) =>
      objQuadratic rnd m { o with elems := o.elems ++ [⟨e.factor, j⟩] } es
    | some (.kept j), some (.gone _) =>
      objQuadratic rnd m { o with elems := o.elems ++ [⟨e.factor, j⟩] } es
    | some (.kept i), some (.kept j) =>
      objQuadratic rnd m { o with qelems := o.qelems ++ [⟨e.factor, i, j⟩] } es
    | _, _ => .error (.ub "mapping[variable_index]")

/-- `it->factor += f` (`preprocessor.cpp:767`): `Preprocess.addToFirst`. -/
def addToFirst (rnd : Rat → Rat) (i : Nat) (f : Rat) : List ObjElem → List ObjElem
  | [] => []
  | e :: es => if e.var = i then ⟨rnd (e.factor + f), e.var⟩ :: es
               else e :: addToFirst rnd i f es

/-- `preprocessor.cpp:760-770`: `Preprocess.objMerge`. -/
def objMerge (rnd : Rat → Rat) (o : Objective) : List ObjElem → Nat → Outcome Objective
  | [], _ => .ok o
  | e :: es, i =>
    if o.elems.any (fun x => i == x.var) then
      objMerge rnd { o with elems := addToFirst rnd i e.factor o.elems } es (i + 1)
    else .error (.ub "it == end(ret.elements)")

/-- `objective_function_exclude_copy` (`preprocessor.cpp:718-773`): `Preprocess.objCopy`. -/
def objCopy (rnd : Rat → Rat) (pb : Problem) (m : List Entry) (mo : MergeObj) :
    Outcome Objective := do
  let o ← objLinear rnd m { value := rnd (pb.objective.value + mo.value) } pb.objective.elems
  let o ← objQuadratic rnd m o pb.objective.qelems
  objMerge rnd o mo.elems 0

/-- `preprocessor::make_problem` (`preprocessor.cpp:651-716`): `Preprocess.makeProblem`. -/
def makeProblem (rnd : Rat → Rat) (pb : Problem) (st : St) (mo : MergeObj) : Outcome Problem := do
  let m := Preprocess.mappingLoop st.vars pb.values.length 0 0
  check (Preprocess.keptCount m + st.vars.length == pb.values.length) "c == length - length"
  let obj ← objCopy rnd pb m mo
  let (ns, vs, an, av) ← Preprocess.varsCopy pb st.vars pb.values 0
  check (Preprocess.namesKept m pb.names ns) "names"
  let eqs ← Preprocess.cstCopy m (st.cnt .eq) pb.eqs.zipIdx
  let ges ← Preprocess.cstCopy m (st.cnt .ge) pb.ges.zipIdx
  let les ← Preprocess.cstCopy m (st.cnt .le) pb.les.zipIdx
  check (Preprocess.validIndex eqs vs.length && Preprocess.validIndex ges vs.length &&
         Preprocess.validIndex les vs.length) "is_valid_variable_index"
  .ok { type := pb.type, objective := obj, eqs := eqs, ges := ges, les := les,
        names := ns, values := vs,
        affected := { names := pb.affected.names ++ an,
                      values := pb.affected.values ++ av },
        ptype := ProblemType.whichProblemType eqs ges les }

/-- `preprocessor.cpp:638-647`: `Preprocess.finish`. -/
def finish (rnd : Rat → Rat) (pb : Problem) (st : St) : Outcome Problem := do
  let mo := bqpObjective rnd pb st
  let st := Preprocess.removeUnused pb st
  let st ← Preprocess.affects pb pb.values.length st
  makeProblem rnd pb st mo

/-- `preprocess` (`preprocessor.cpp:903-913`) and `operator()()` (`628-648`): `Preprocess.preprocess`
and `Preprocess.run`. -/
def preprocess (rnd : Rat → Rat) (pb : RawProblem) : Outcome Problem := do
  let pb : Problem := { ProblemType.ofRaw pb with affected := {} }
  if !Preprocess.cacheInRange pb then .error (.ub "cache[elem.variable_index]") else
  let st := Preprocess.affectBounded pb { cnt := Preprocess.initCnt pb }
  let st ← Preprocess.tryAffectVariable pb st
  let st ← Preprocess.affects pb pb.values.length st
  finish rnd pb st

end Bx.Rounded
