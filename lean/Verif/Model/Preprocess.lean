import Verif.Model.ProblemType

/-!
# Model of `lib/src/preprocessor.cpp`

The class template `preprocessor<Problem>` is instantiated by the code with
`raw_problem` and `problem`; a raw problem is here a `Problem` with no affected
variable (`affected_variable_copy`, lines 775-801, has one overload for each).
The file `preprocessed.lp` written at line 711 is in `Model/PreprocessedFile`, the log
messages are not modelled here.
-/

namespace Bx.Preprocess

/-- The three families of constraints. -/
inductive Kind where
  | eq
  | ge
  | le
  deriving DecidableEq, Repr

/-- The vector of constraints of a kind. -/
def csts (pb : Problem) : Kind → List Constr
  | .eq => pb.eqs
  | .ge => pb.ges
  | .le => pb.les

/-- Members of `preprocessor` (lines 145-155).  `vars` is the
`unordered_map<int,bool>` of the affected variables, `cnt` the three vectors
of remaining lengths, `lifo` the stack (the head is the back of the vector). -/
structure St where
  vars : List (Nat × Bool) := []
  cnt : Kind → Nat → Int
  lifo : List (Nat × Bool) := []

/-- `vars.emplace(i, b)`: nothing if the key exists (line 365). -/
def varsEmplace (vars : List (Nat × Bool)) (i : Nat) (b : Bool) :
    List (Nat × Bool) :=
  match vars.lookup i with
  | some _ => vars
  | none => (i, b) :: vars

/-- `pp_lifo::emplace` (lines 100-113). -/
def lifoEmplace (lifo : List (Nat × Bool)) (i : Nat) (b : Bool) :
    List (Nat × Bool) :=
  if lifo.any (fun p => p.1 == i) then lifo else (i, b) :: lifo

/-- `is_all_factor_ge_than_zero` (lines 43-50). -/
def allFactorPositive (c : Constr) : Bool :=
  !(c.elems.any fun e => decide (e.factor ≤ 0))

/-- `sum_factor` (lines 64-72). -/
def sumFactor (c : Constr) : Int :=
  (c.elems.map FunElem.factor).foldl (· + ·) 0

/-- Loop of `reduce` (lines 164-177): the remaining element, if any, and the
updated right-hand side. -/
def reduceLoop (vars : List (Nat × Bool)) :
    List FunElem → Option FunElem → Int → Outcome (Option FunElem × Int)
  | [], rem, res => .ok (rem, res)
  | e :: es, rem, res =>
    match vars.lookup e.var with
    | none => do
      check rem.isNone "remaining_index == -1"
      reduceLoop vars es (some e) res
    | some b => reduceLoop vars es rem (res - (if b then e.factor else 0))

/-- The test of `reduce_equal_constraint` (lines 200-201),
`reduce_greater_constraint` (225-226) and `reduce_less_constraint`
(250-251). -/
def test : Kind → Int → Int → Bool
  | .eq, l, r => decide (l = r)
  | .ge, l, r => decide (l ≥ r)
  | .le, l, r => decide (l ≤ r)

/-- `reduce_equal_constraint`, `reduce_greater_constraint`,
`reduce_less_constraint` (lines 190-263), which differ by `test` only. -/
def reduceKind (k : Kind) (vars : List (Nat × Bool)) (c : Constr) :
    Outcome (Option (Nat × Bool)) := do
  let (rem, res) ← reduceLoop vars c.elems none c.value
  match rem with
  | none => .ok none
  | some e =>
    let affect0 := test k (e.factor * 0) res
    let affect1 := test k (e.factor * 1) res
    if affect0 && affect1 then .ok none
    else if affect0 then .ok (some (e.var, false))
    else if affect1 then .ok (some (e.var, true))
    else .error (.contract "bx_reach")

/-- Assignment of one counter. -/
def setCnt (cnt : Kind → Nat → Int) (k : Kind) (i : Nat) (v : Int) :
    Kind → Nat → Int :=
  fun k' i' => if k' = k ∧ i' = i then v else cnt k' i'

/-- `lifo.emplace` of an optional variable (lines 387-388 and similar). -/
def pushOpt (lifo : List (Nat × Bool)) : Option (Nat × Bool) → List (Nat × Bool)
  | none => lifo
  | some (i, b) => lifoEmplace lifo i b

/-- Body of the three inner loops of `affects` (lines 372-390, 392-410 and
412-429). -/
def step (pb : Problem) (st : St) (p : Kind × Nat) : Outcome St :=
  let (k, i) := p
  if st.cnt k i ≤ 0 then .ok st
  else
    let c := st.cnt k i - 1
    if c = 1 then
      match (csts pb k)[i]? with
      | none => .error (.ub "constraints[cst]")
      | some cst => do
        let v ← reduceKind k st.vars cst
        .ok { vars := st.vars, cnt := setCnt st.cnt k i 0,
              lifo := pushOpt st.lifo v }
    else .ok { st with cnt := setCnt st.cnt k i c }

/-- The cache of a variable for one kind (lines 592-604): the index of each
constraint, once per element naming the variable. -/
def cacheOf (cs : List Constr) (v : Nat) : List Nat :=
  cs.zipIdx.flatMap fun p =>
    (p.1.elems.filter fun e => e.var == v).map fun _ => p.2

/-- The constraints visited for a variable, in the order of `affects` (lines
372, 392 and 412). -/
def visit (pb : Problem) (v : Nat) : List (Kind × Nat) :=
  (cacheOf pb.eqs v).map (fun i => (.eq, i)) ++
  (cacheOf pb.ges v).map (fun i => (.ge, i)) ++
  (cacheOf pb.les v).map (fun i => (.le, i))

/-- `affects` (lines 361-431).  The loop is bounded by `fuel`; exhausting it
with a non empty stack is the `fuel` fault. -/
def affects (pb : Problem) : Nat → St → Outcome St
  | fuel, st =>
    match st.lifo with
    | [] => .ok st
    | top :: rest =>
      match fuel with
      | 0 => .error .fuel
      | fuel + 1 => do
        let st1 : St := { st with vars := varsEmplace st.vars top.1 top.2,
                                  lifo := rest }
        let st2 ← (visit pb top.1).foldlM (step pb) st1
        affects pb fuel st2

/-- `try_affect_bounded_variable` (lines 440-452). -/
def affectBounded (pb : Problem) (st : St) : St :=
  let lifo := pb.values.zipIdx.foldl (fun l p =>
    if p.1.min = p.1.max then lifoEmplace l p.2 (decide (p.1.max ≠ 0)) else l) st.lifo
  { st with lifo := lifo }

/-- `lifo.emplace` of every variable of a constraint with one value (lines
481-484, 514-516 and 547-549). -/
def pushAll (lifo : List (Nat × Bool)) (c : Constr) (b : Bool) :
    List (Nat × Bool) :=
  c.elems.foldl (fun l e => lifoEmplace l e.var b) lifo

/-- The shortcut for a constraint with positive factors in
`try_affect_variable`: equal (lines 468-486), greater (502-521) and less
(537-554).  `none`: nothing is done; `some none`: the constraint is removed;
`some (some b)`: it is removed and its variables are assigned `b`. -/
def shortcut (k : Kind) (c : Constr) : Option (Option Bool) :=
  if allFactorPositive c then
    match k with
    | .eq =>
      if sumFactor c = c.value ∨ c.value = 0 then some (some (decide (c.value ≠ 0)))
      else none
    | .ge =>
      if sumFactor c = c.value then some (some true)
      else if c.value = 0 then some none
      else none
    | .le =>
      if c.value ≤ 0 then some (some false)
      else if sumFactor c = c.value then some none
      else none
  else none

/-- Body of the three loops of `try_affect_variable` (lines 456-488, 490-523
and 525-556). -/
def tryStep (k : Kind) (st : St) (p : Constr × Nat) : Outcome St :=
  let (c, i) := p
  if st.cnt k i = 1 then do
    let v ← reduceKind k st.vars c
    .ok { vars := st.vars, cnt := setCnt st.cnt k i 0, lifo := pushOpt st.lifo v }
  else
    match shortcut k c with
    | none => .ok st
    | some none => .ok { st with cnt := setCnt st.cnt k i 0 }
    | some (some b) =>
      .ok { vars := st.vars, cnt := setCnt st.cnt k i 0, lifo := pushAll st.lifo c b }

/-- `try_affect_variable` (lines 454-557). -/
def tryAffectVariable (pb : Problem) (st : St) : Outcome St := do
  let st ← pb.eqs.zipIdx.foldlM (tryStep .eq) st
  let st ← pb.ges.zipIdx.foldlM (tryStep .ge) st
  pb.les.zipIdx.foldlM (tryStep .le) st

/-- `is_unused_variable` (lines 267-280). -/
def isUnused (pb : Problem) (st : St) (v : Nat) : Bool :=
  (visit pb v).all fun p => decide (st.cnt p.1 p.2 ≤ 0)

/-- `to_merge_with_objective_function` (lines 135-139). -/
structure MergeObj where
  elems : List ObjElem := []
  value : Rat := 0

/-- The value chosen for a factor: lines 306-309 and 349-353. -/
def chosen (t : ObjType) (f : Rat) : Bool :=
  match t with
  | .maximize => decide (f > 0)
  | .minimize => decide (f < 0)

/-- `make_lp_from_bqp_objective` for one variable (lines 305-328). -/
def bqpVariable (pb : Problem) (m : MergeObj) (i : Nat) : MergeObj :=
  (pb.objective.qelems.filter fun e => i == e.a || i == e.b).foldl (fun m e =>
    if chosen pb.type e.factor then
      if e.a = e.b then { m with value := m.value + e.factor / 2 }
      else { m with elems := m.elems ++
        [⟨e.factor / 2, if e.a = i then e.b else e.a⟩] }
    else m) m

/-- `make_lp_from_bqp_objective` (lines 289-331). -/
def bqpObjective (pb : Problem) (st : St) : MergeObj :=
  (List.range pb.values.length).foldl (fun m i =>
    if (st.vars.lookup i).isNone && isUnused pb st i then bqpVariable pb m i
    else m) {}

/-- The value given to an unused variable (lines 341-354). -/
def unusedValue (pb : Problem) (i : Nat) : Bool :=
  match pb.objective.elems.find? (fun e => i == e.var) with
  | none => true
  | some e => chosen pb.type e.factor

/-- `try_remove_unused_variable` (lines 337-359). -/
def removeUnused (pb : Problem) (st : St) : St :=
  (List.range pb.values.length).foldl (fun st i =>
    if (st.vars.lookup i).isNone && isUnused pb st i then
      { st with vars := (i, unusedValue pb i) :: st.vars }
    else st) st

/-- An entry of `mapping` (lines 661-670): the new index of a kept variable, or
the value of an affected one. -/
inductive Entry where
  | kept (j : Nat)
  | gone (b : Bool)
  deriving DecidableEq, Repr

/-- Construction of `mapping` (lines 664-670) for the indices `i ..`, with `c`
variables already kept. -/
def mappingLoop (vars : List (Nat × Bool)) : Nat → Nat → Nat → List Entry
  | 0, _, _ => []
  | n + 1, i, c =>
    match vars.lookup i with
    | none => .kept c :: mappingLoop vars n (i + 1) (c + 1)
    | some b => .gone b :: mappingLoop vars n (i + 1) c

/-- Number of variables kept by `mapping` (the final `c`). -/
def keptCount (m : List Entry) : Nat :=
  (m.filter fun e => match e with | .kept _ => true | .gone _ => false).length

/-- Linear loop of `objective_function_exclude_copy` (lines 726-735). -/
def objLinear (m : List Entry) (o : Objective) : List ObjElem → Outcome Objective
  | [] => .ok o
  | e :: es =>
    match m[e.var]? with
    | none => .error (.ub "mapping[variable_index]")
    | some (.gone b) =>
      objLinear m { o with value := if b then o.value + e.factor else o.value } es
    | some (.kept j) => objLinear m { o with elems := o.elems ++ [⟨e.factor, j⟩] } es

/-- Quadratic loop of `objective_function_exclude_copy` (lines 737-758): when
one variable is affected the product becomes linear in the other one, whatever
the value of the affected variable. -/
def objQuadratic (m : List Entry) (o : Objective) :
    List QuadElem → Outcome Objective
  | [] => .ok o
  | e :: es =>
    match m[e.a]?, m[e.b]? with
    | some (.gone va), some (.gone vb) =>
      objQuadratic m
        { o with value := if va && vb then o.value + e.factor else o.value } es
    | some (.gone _), some (.kept j) =>
      objQuadratic m { o with elems := o.elems ++ [⟨e.factor, j⟩] } es
    | some (.kept j), some (.gone _) =>
      objQuadratic m { o with elems := o.elems ++ [⟨e.factor, j⟩] } es
    | some (.kept i), some (.kept j) =>
      objQuadratic m { o with qelems := o.qelems ++ [⟨e.factor, i, j⟩] } es
    | _, _ => .error (.ub "mapping[variable_index]")

/-- `it->factor += f` for the first element of variable `i`. -/
def addToFirst (i : Nat) (f : Rat) : List ObjElem → List ObjElem
  | [] => []
  | e :: es => if e.var = i then ⟨e.factor + f, e.var⟩ :: es
               else e :: addToFirst i f es

/-- Merge loop of `objective_function_exclude_copy` (lines 760-770).  The
search compares the *position* `i` in the merge list with the variable index,
and dereferences `end()` when nothing is found. -/
def objMerge (o : Objective) : List ObjElem → Nat → Outcome Objective
  | [], _ => .ok o
  | e :: es, i =>
    if o.elems.any (fun x => i == x.var) then
      objMerge { o with elems := addToFirst i e.factor o.elems } es (i + 1)
    else .error (.ub "it == end(ret.elements)")

/-- `objective_function_exclude_copy` (lines 718-773). -/
def objCopy (pb : Problem) (m : List Entry) (mo : MergeObj) : Outcome Objective := do
  let o ← objLinear m { value := pb.objective.value + mo.value } pb.objective.elems
  let o ← objQuadratic m o pb.objective.qelems
  objMerge o mo.elems 0

/-- Element loop of `constraints_exclude_copy` (lines 848-857). -/
def cstElems (m : List Entry) (c : Constr) : List FunElem → Outcome Constr
  | [] => .ok c
  | e :: es =>
    match m[e.var]? with
    | none => .error (.ub "mapping[variable_index]")
    | some (.kept j) => cstElems m { c with elems := c.elems ++ [⟨e.factor, j⟩] } es
    | some (.gone b) =>
      cstElems m { c with value := if b then c.value - e.factor else c.value } es

/-- `constraints_exclude_copy` (lines 828-859). -/
def cstCopy (m : List Entry) (cnt : Nat → Int) :
    List (Constr × Nat) → Outcome (List Constr)
  | [] => .ok []
  | (c, i) :: cs =>
    if cnt i ≤ 1 then cstCopy m cnt cs
    else do
      let c' ← cstElems m { c with elems := [] } c.elems
      let r ← cstCopy m cnt cs
      .ok (c' :: r)

/-- `variables_exclude_copy` (lines 803-826), over the values from index `i`:
kept names, kept values, affected names, affected values. -/
def varsCopy (pb : Problem) (vars : List (Nat × Bool)) :
    List VarValue → Nat →
    Outcome (List String × List VarValue × List String × List Int)
  | [], _ => .ok ([], [], [], [])
  | v :: vs, i =>
    match pb.names[i]? with
    | none => .error (.ub "pb.vars.names[i]")
    | some n => do
      let (ns, ws, an, av) ← varsCopy pb vars vs (i + 1)
      match vars.lookup i with
      | none => .ok (n :: ns, v :: ws, an, av)
      | some b => .ok (ns, ws, n :: an, (if b then 1 else 0) :: av)

/-- `is_valid_variable_index` (lines 52-62). -/
def validIndex (cs : List Constr) (n : Nat) : Bool :=
  cs.all fun c => c.elems.all fun e => decide (e.var < n)

/-- The postcondition on names (lines 677-682). -/
def namesKept (m : List Entry) (names kept : List String) : Bool :=
  (m.zip names).all fun p =>
    match p.1 with
    | .kept j => kept[j]? == some p.2
    | .gone _ => true

/-- `preprocessor::make_problem` (lines 651-716). -/
def makeProblem (pb : Problem) (st : St) (mo : MergeObj) : Outcome Problem := do
  let m := mappingLoop st.vars pb.values.length 0 0
  check (keptCount m + st.vars.length == pb.values.length) "c == length - length"
  let obj ← objCopy pb m mo
  let (ns, vs, an, av) ← varsCopy pb st.vars pb.values 0
  check (namesKept m pb.names ns) "names"
  let eqs ← cstCopy m (st.cnt .eq) pb.eqs.zipIdx
  let ges ← cstCopy m (st.cnt .ge) pb.ges.zipIdx
  let les ← cstCopy m (st.cnt .le) pb.les.zipIdx
  check (validIndex eqs vs.length && validIndex ges vs.length &&
         validIndex les vs.length) "is_valid_variable_index"
  .ok { type := pb.type, objective := obj, eqs := eqs, ges := ges, les := les,
        names := ns, values := vs,
        affected := { names := pb.affected.names ++ an,
                      values := pb.affected.values ++ av },
        ptype := ProblemType.whichProblemType eqs ges les }

/-- Construction of the cache (lines 592-604): an index outside the variables
writes outside the vector. -/
def cacheInRange (pb : Problem) : Bool :=
  validIndex pb.eqs pb.values.length && validIndex pb.ges pb.values.length &&
  validIndex pb.les pb.values.length

/-- `init_constraints_length_container` (lines 559-578). -/
def initCnt (pb : Problem) : Kind → Nat → Int :=
  fun k i => match (csts pb k)[i]? with
    | none => 0
    | some c => (c.elems.length : Int)

/-- The end common to both `operator()` (lines 616-625 and 638-647). -/
def finish (pb : Problem) (st : St) : Outcome Problem := do
  let mo := bqpObjective pb st
  let st := removeUnused pb st
  let st ← affects pb pb.values.length st
  makeProblem pb st mo

/-- `preprocessor::operator()()` (lines 628-648) after the constructor (lines
581-605). -/
def run (pb : Problem) : Outcome Problem := do
  if !cacheInRange pb then .error (.ub "cache[elem.variable_index]") else
  let st := affectBounded pb { cnt := initCnt pb }
  let st ← tryAffectVariable pb st
  let st ← affects pb pb.values.length st
  finish pb st

/-- `preprocessor::operator()(int, bool)` (lines 607-626) after the constructor
and `affect` (lines 883-901). -/
def affect (pb : Problem) (v : Nat) (b : Bool) : Outcome Problem := do
  check (decide (v < pb.values.length)) "variable_index < length"
  if !cacheInRange pb then .error (.ub "cache[elem.variable_index]") else
  let st : St := { cnt := initCnt pb, lifo := [(v, b)] }
  let st ← affects pb pb.values.length st
  finish pb st

/-- `split` (lines 866-881). -/
def split (pb : Problem) (v : Nat) : Outcome (Problem × Problem) := do
  let a ← affect pb v true
  let b ← affect pb v false
  .ok (a, b)

/-- `preprocess` (lines 903-913). -/
def preprocess (pb : RawProblem) : Outcome Problem :=
  run { ProblemType.ofRaw pb with affected := {} }

/-- `unpreprocess` (lines 915-923). -/
def unpreprocess (pb : RawProblem) : Problem :=
  ProblemType.ofRaw pb

end Bx.Preprocess
