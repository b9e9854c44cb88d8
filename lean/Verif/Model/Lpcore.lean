import Verif.Basic

/-!
# Model of the solution checking of `lib/src/lpcore.cpp`
-/

namespace Bx.Lpcore

/-- `std::unordered_map<std::string_view, bool>` used as a cache
(`lib/src/lpcore.cpp:210`): the latest written value of a key. -/
abbrev Cache := List (String × Bool)

/-- `cache[k] = v` then `cache.find`: the head of the list is the most recent
write (`lib/src/lpcore.cpp:214-220`). -/
def Cache.write (c : Cache) (k : String) (v : Int) : Cache :=
  (k, decide (v ≠ 0)) :: c

/-- `compute_function` (`lib/src/lpcore.cpp:134-152`): reads outside the
vector are undefined behaviour. -/
def computeFunction (vars : List Int) : List FunElem → Outcome Int
  | [] => .ok 0
  | f :: fs =>
    match vars[f.var]? with
    | none => .error (.ub "vars[f.variable_index]")
    | some v => do
      let r ← computeFunction vars fs
      .ok (v * f.factor + r)

/-- One of the three loops of `is_valid_solution_impl`
(`lib/src/lpcore.cpp:164-180`): `false` at the first constraint whose test
`bad value rhs` holds. -/
def allConstraints (vars : List Int) (bad : Int → Int → Bool) :
    List Constr → Outcome Bool
  | [] => .ok true
  | c :: cs => do
    let v ← computeFunction vars c.elems
    if bad v c.value then .ok false else allConstraints vars bad cs

/-- `is_valid_solution_impl` (`lib/src/lpcore.cpp:154-183`). -/
def isValidSolutionImpl (pb : RawProblem) (vars : List Int) : Outcome Bool := do
  check (!vars.isEmpty) "!variable_value.empty()"
  check (vars.length == pb.names.length) "size == names.size()"
  check (vars.length == pb.values.length) "size == values.size()"
  let a ← allConstraints vars (fun v w => v != w) pb.eqs
  if !a then return false
  let b ← allConstraints vars (fun v w => decide (v > w)) pb.les
  if !b then return false
  allConstraints vars (fun v w => decide (v < w)) pb.ges

/-- Linear loop of `compute_solution_impl` (`lib/src/lpcore.cpp:193-194`). -/
def addLinear (vars : List Int) (acc : Rat) : List ObjElem → Outcome Rat
  | [] => .ok acc
  | e :: es =>
    match vars[e.var]? with
    | none => .error (.ub "variable_value[elem.variable_index]")
    | some v => addLinear vars (acc + e.factor * (v : Rat)) es

/-- Quadratic loop of `compute_solution_impl`
(`lib/src/lpcore.cpp:196-198`). -/
def addQuadratic (vars : List Int) (acc : Rat) : List QuadElem → Outcome Rat
  | [] => .ok acc
  | e :: es =>
    match vars[e.a]?, vars[e.b]? with
    | some v, some w =>
      addQuadratic vars (acc + e.factor * (v : Rat) * (w : Rat)) es
    | _, _ => .error (.ub "variable_value[elem.variable_index_a]")

/-- `compute_solution_impl` (`lib/src/lpcore.cpp:185-201`). -/
def computeSolutionImpl (pb : RawProblem) (vars : List Int) : Outcome Rat := do
  check (!vars.isEmpty) "!variable_value.empty()"
  let r ← addLinear vars pb.objective.value pb.objective.elems
  addQuadratic vars r pb.objective.qelems

/-- Loop that writes a vector of names and values in the cache
(`lib/src/lpcore.cpp:214-215` and `219-220`). -/
def writeAll : List String → List Int → Cache → Cache
  | n :: ns, v :: vs, c => writeAll ns vs (c.write n v)
  | _, _, c => c

/-- Loop over the names of the problem (`lib/src/lpcore.cpp:224-228`). -/
def readAll (c : Cache) : List String → Outcome (List Int)
  | [] => .ok []
  | n :: ns =>
    match c.lookup n with
    | none => .error (.contract "it != cache.end()")
    | some b => do
      let r ← readAll c ns
      .ok ((if b then 1 else 0) :: r)

/-- `make_variable_value` (`lib/src/lpcore.cpp:203-231`). -/
def makeVariableValue (names : List String) (r : Result) :
    Outcome (List Int) := do
  if r.status ≠ .success then return []
  match r.solutions.getLast? with
  | none => return []
  | some s =>
    check (r.affected.names.length == r.affected.values.length) "affected"
    let c := writeAll r.affected.names r.affected.values []
    check (r.variableName.length == s.variables.length) "variables"
    let c := writeAll r.variableName s.variables c
    readAll c names

/-- `is_valid_solution` (`lib/src/lpcore.cpp:233-245`). -/
def isValidSolution (pb : RawProblem) (r : Result) : Outcome Bool := do
  if r.status ≠ .success then return false
  match r.solutions.getLast? with
  | none => return false
  | some s =>
    check (pb.names.length == pb.values.length) "names/values"
    check (pb.names.length ==
      r.variableName.length + r.affected.names.length) "names/result"
    check (s.variables.length == r.variableName.length) "back/names"
    let v ← makeVariableValue pb.names r
    isValidSolutionImpl pb v

/-- `compute_solution` (`lib/src/lpcore.cpp:247-257`). -/
def computeSolution (pb : RawProblem) (r : Result) : Outcome Rat := do
  check (r.status == .success && !r.solutions.isEmpty) "r && !empty"
  match r.solutions.getLast? with
  | none => .error (.ub "solutions.back()")
  | some s =>
    check (pb.names.length == pb.values.length) "names/values"
    check (pb.names.length ==
      r.affected.names.length + r.variableName.length) "names/result"
    check (s.variables.length == r.variableName.length) "back/names"
    let v ← makeVariableValue pb.names r
    computeSolutionImpl pb v

end Bx.Lpcore
