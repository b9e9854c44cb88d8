import Verif.Model.Lexer
import Verif.Model.Params

/-!
# The parser of problem files

Models `lib/src/parser.cpp:172-265, 450-1271`.

* The parser is written on a source of tokens, of which the class `stream_buffer`
  (`Verif.Model.Lexer`) is one and a list of tokens another.
* `std::sscanf(buffer, "%lf", &result)` is a function `scan`: what it returns for a
  text is not modelled.
* A `double` is a rational number, an infinity or NaN; the sums are not rounded.
* The loops have a bound; reaching it is the fault `fuel`.
-/

namespace Bx.Parser

open Params (D)

/-- `-d`. -/
def neg : D → D
  | .nan => .nan
  | .ninf => .pinf
  | .fin q => .fin (-q)
  | .pinf => .ninf

/-- `a + b`. -/
def add : D → D → D
  | .nan, _ => .nan
  | _, .nan => .nan
  | .ninf, .pinf => .nan
  | .pinf, .ninf => .nan
  | .ninf, _ => .ninf
  | _, .ninf => .ninf
  | .pinf, _ => .pinf
  | _, .pinf => .pinf
  | .fin a, .fin b => .fin (a + b)

/-- `d / 2.0`. -/
def half : D → D
  | .fin q => .fin (q / 2)
  | d => d

/-- `INT_MIN` and `INT_MAX`. -/
def intMin : Int := -2147483648

@[inherit_doc intMin] def intMax : Int := 2147483647

/-- The values of `file_format_error_tag` (`lib/include/baryonyx/core:150-167`) that the
parser uses. -/
inductive Tag where
  | badEndOfFile
  | badGeneral
  | badBinary
  | badObjectiveFunctionType
  | badObjective
  | badObjectiveQuadratic
  | badBound
  | badEnd
  | badConstraint
  | tooManyVariables
  | tooManyConstraints
  deriving DecidableEq, Repr

/-- Why the parser stops before its end: an error status that is returned, or a
fault. -/
inductive Stop where
  | status (t : Tag)
  | fault (f : Fault)
  deriving DecidableEq, Repr

/-- A computation of the parser. -/
abbrev PM (α : Type) := Except Stop α

/-- `objective_function_element` with a factor that can be infinite or NaN. -/
structure PElem where
  factor : D
  var : Nat
  deriving DecidableEq, Repr

/-- `objective_quadratic_element`. -/
structure PQuad where
  factor : D
  a : Nat
  b : Nat
  deriving DecidableEq, Repr

/-- `m_problem` (`parser.cpp:452`).  `m_cache_variable` (`parser.cpp:453`) is not a field:
it maps a name to its position in `names`. -/
structure PProblem where
  type : ObjType := .maximize
  elems : List PElem := []
  qelems : List PQuad := []
  value : D := .fin 0
  eqs : List Constr := []
  ges : List Constr := []
  les : List Constr := []
  names : List Token := []
  values : List VarValue := []
  deriving DecidableEq, Repr

/-- `static_cast<int>(d)`: undefined when the truncated value is not an `int`. -/
def toInt (d : D) : PM Int :=
  match d with
  | .fin q =>
    let t := if 0 ≤ q then q.floor else -((-q).floor)
    if intMin ≤ t ∧ t ≤ intMax then .ok t
    else .error (.fault (.ub "static_cast<int> of a value out of range"))
  | _ => .error (.fault (.ub "static_cast<int> of a value out of range"))

/-- `a + b` on `int`. -/
def addInt (a b : Int) : PM Int :=
  if intMin ≤ a + b ∧ a + b ≤ intMax then .ok (a + b)
  else .error (.fault (.ub "signed overflow"))

/-! ## `problem_parser` -/

/-- `get_variable` (`parser.cpp:481-488`). -/
def PProblem.getVariable (p : PProblem) (name : Token) : Option Nat :=
  p.names.findIdx? fun n => n == name

/-- `get_or_assign_variable` (`parser.cpp:460-479`); `none` is `-1`. -/
def PProblem.getOrAssign (p : PProblem) (name : Token) : Option (Nat × PProblem) :=
  match p.getVariable name with
  | some i => some (i, p)
  | none =>
    if (p.names.length : Int) > intMax then none
    else some (p.names.length,
      { p with
        names := p.names ++ [name]
        values := p.values ++ [⟨0, intMax, .real⟩] })

/-- The search and the update of `parser.cpp:500-508`. -/
def addObj (f : D) (id : Nat) : List PElem → List PElem
  | [] => [⟨f, id⟩]
  | e :: es => if e.var = id then ⟨add e.factor f, id⟩ :: es else e :: addObj f id es

/-- `append_to_objective` (`parser.cpp:490-512`). -/
def PProblem.appendObjective (p : PProblem) (factor : D) (name : Token) : Option PProblem :=
  if name = [] then some { p with value := add p.value factor }
  else
    match p.getOrAssign name with
    | none => none
    | some (id, p1) => some { p1 with elems := addObj factor id p1.elems }

/-- `set_boolean_variable` (`parser.cpp:514-526`). -/
def PProblem.setBoolean (p : PProblem) (name : Token) : Option PProblem :=
  match p.getVariable name with
  | none => none
  | some id => some { p with values := p.values.set id ⟨0, 1, .binary⟩ }

/-- `set_integer_variable` (`parser.cpp:528-538`). -/
def PProblem.setInteger (p : PProblem) (name : Token) : Option PProblem :=
  match p.getVariable name with
  | none => none
  | some id => some { p with values := p.values.modify id fun v => { v with type := .general } }

/-- The value of `parser.cpp:550-553`. -/
def boundMin (d : D) : PM Int := if d = .ninf then .ok intMin else toInt d

/-- The value of `parser.cpp:555-558`. -/
def boundMax (d : D) : PM Int := if d = .pinf then .ok intMax else toInt d

/-- `set_bound_variable` (`parser.cpp:540-561`). -/
def PProblem.setBound (p : PProblem) (min max : D) (name : Token) : PM (Option PProblem) :=
  match p.getVariable name with
  | none => .ok none
  | some id => do
    let lo ← boundMin min
    let hi ← boundMax max
    .ok (some { p with values := p.values.modify id fun v => { v with min := lo, max := hi } })

/-! ## Numbers, names and operators -/

/-- `operator_type`. -/
inductive Op where
  | equal
  | greater
  | less
  deriving DecidableEq, Repr

/-- `read_real(buf)` (`parser.cpp:565-584`). -/
def readReal (scan : Token → Option D) (buf : Token) : PM (Option D) :=
  if areEqual buf "inf".toList then .ok (some .pinf)
  else if buf.length > 320 then .ok none
  else if buf.length = 320 then .error (.fault (.ub "buffer[320]"))
  else .ok (scan buf)

/-- `read_real(buf_1, buf_2)` (`parser.cpp:587-613`): the value and the number of tokens. -/
def readReal2 (scan : Token → Option D) (b1 b2 : Token) : PM (D × Nat) :=
  if b1 = ['-'] then do
    match ← readReal scan b2 with
    | none => .ok (.fin (-1), 1)
    | some v => .ok (neg v, 2)
  else if b1 = ['+'] then do
    match ← readReal scan b2 with
    | none => .ok (.fin 1, 1)
    | some v => .ok (v, 2)
  else do
    match ← readReal scan b1 with
    | none => .ok (.fin 1, 0)
    | some v => .ok (v, 1)

/-- `read_name` (`parser.cpp:616-623`). -/
def readName (buf : Token) : Option Token := if buf.all isCharName then some buf else none

/-- `read_operator` (`parser.cpp:626-652`). -/
def readOperator (b1 b2 : Token) : Option (Op × Nat) :=
  if b1 = ['<'] then some (.less, if b2 = ['='] then 2 else 1)
  else if b1 = ['>'] then some (.greater, if b2 = ['='] then 2 else 1)
  else if b1 = ['='] then
    if b2 = ['<'] then some (.less, 2)
    else if b2 = ['='] then some (.equal, 2)
    else if b2 = ['>'] then some (.greater, 2)
    else some (.equal, 1)
  else none

/-- `to_read` (`parser.cpp:671-682, 797-809`). -/
def toRead (read : Nat) (b1 b2 b3 : Token) : Token :=
  match read with
  | 0 => b1
  | 1 => b2
  | _ => b3

/-- `read_quadratic_element(buf_1, buf_2, buf_3)` (`parser.cpp:662-693`): the factor
and the number of tokens.  The name is the last of these tokens. -/
def readQuad (scan : Token → Option D) (b1 b2 b3 : Token) : PM (Option (D × Nat)) := do
  let (v, read) ← readReal2 scan b1 b2
  let t := toRead read b1 b2 b3
  if isKeyword t || !startsWithName t then .ok none
  else
    match readName t with
    | none => .ok none
    | some _ => .ok (some (v, read + 1))

/-- `read_function_element` (`parser.cpp:788-822`): the factor, the name and the number
of tokens. -/
def readElem (scan : Token → Option D) (b1 b2 b3 : Token) : PM (Option (D × Token × Nat)) := do
  let (v, read) ← readReal2 scan b1 b2
  let t := toRead read b1 b2 b3
  if !isKeyword t && startsWithName t then
    match readName t with
    | none => .ok none
    | some n => .ok (some (v, n, read + 1))
  else .ok (some (v, [], read))

/-! ## Bounds -/

/-- `value * negative`. -/
def signed (negative : Bool) (v : D) : D := if negative then neg v else v

/-- `read_left_bound_token` (`parser.cpp:824-859`): the value and the number of
tokens (the operator is not used). -/
def readLeft (scan : Token → Option D) (b1 b2 b3 b4 : Token) : PM (Option (D × Nat)) :=
  if b1 = ['+'] ∨ b1 = ['-'] then do
    match ← readReal scan b2 with
    | none => .ok none
    | some v =>
      match readOperator b3 b4 with
      | none => .ok none
      | some (_, n) => .ok (some (signed (decide (b1 = ['-'])) v, n + 2))
  else do
    match ← readReal scan b1 with
    | none => .ok none
    | some v =>
      match readOperator b2 b3 with
      | none => .ok none
      | some (_, n) => .ok (some (v, n + 1))

/-- The number after an operator of `n` tokens (`parser.cpp:873-886, 888-901`). -/
def readSigned (scan : Token → Option D) (n : Nat) (b1 b2 : Token) : PM (Option (D × Nat)) :=
  if b1 = ['+'] ∨ b1 = ['-'] then do
    match ← readReal scan b2 with
    | none => .ok none
    | some v => .ok (some (signed (decide (b1 = ['-'])) v, n + 2))
  else do
    match ← readReal scan b1 with
    | none => .ok none
    | some v => .ok (some (v, n + 1))

/-- `read_right_bound_token` (`parser.cpp:861-905`). -/
def readRight (scan : Token → Option D) (b1 b2 b3 b4 : Token) : PM (Option (D × Nat)) :=
  match readOperator b1 b2 with
  | none => .ok none
  | some (_, n) => if n = 1 then readSigned scan n b2 b3 else readSigned scan n b3 b4

/-- `bound_token` (`parser.cpp:232-250`). -/
structure Bound where
  min : D
  max : D
  name : Token
  read : Nat
  deriving DecidableEq, Repr

/-- The end of `read_bound` after the left part (`parser.cpp:918-941`). -/
def readBoundLeft (scan : Token → Option D) (t : Nat → Token) (left : D) (read : Nat) :
    PM (Option Bound) :=
  match readName (t read) with
  | none => .ok none
  | some name =>
    if !startsWithOperator (t (read + 1)) then
      .ok (some ⟨left, .pinf, name, read + 1 + 1⟩)
    else do
      match ← readRight scan (t (read + 1)) (t (read + 2)) (t (read + 3)) (t (read + 4)) with
      | none => .ok none
      | some (right, n) =>
        if D.lt right left then .ok none
        else .ok (some ⟨left, right, name, read + 1 + n⟩)

/-- `parser.cpp:944-963`. -/
def readBoundName (scan : Token → Option D) (t : Nat → Token) : PM (Option Bound) :=
  match readName (t 0) with
  | none => .ok none
  | some name =>
    if startsWithOperator (t 1) then do
      match ← readRight scan (t 1) (t 2) (t 3) (t 4) with
      | none => .ok none
      | some (right, n) => .ok (some ⟨.fin 0, right, name, 1 + n⟩)
    else .ok (some ⟨.ninf, .pinf, name, 1⟩)

/-- `read_bound` (`parser.cpp:907-966`). -/
def readBound (scan : Token → Option D) (t : Nat → Token) : PM (Option Bound) :=
  if startsWithNumber (t 0) then do
    match ← readLeft scan (t 0) (t 1) (t 2) (t 3) with
    | none => .ok none
    | some (left, read) => readBoundLeft scan t left read
  else if startsWithName (t 0) then readBoundName scan t
  else .ok none

/-! ## Keywords -/

/-- `read_objective_type` (`parser.cpp:968-980`). -/
def readObjectiveType (t : Token) : Option ObjType :=
  if areEqual t "maximize".toList || areEqual t "maximum".toList || areEqual t "max".toList then
    some .maximize
  else if areEqual t "minimize".toList || areEqual t "minimum".toList ||
      areEqual t "min".toList then some .minimize
  else none

/-- `try_read_objective_label` (`parser.cpp:982-993`). -/
def readLabel (first second : Token) : Nat :=
  if isKeyword first then 0 else if areEqual second [':'] then 2 else 0

/-- `read_subject_to` (`parser.cpp:995-1013`). -/
def readSubjectTo (b1 b2 b3 : Token) : Nat :=
  if areEqual b1 "st".toList || areEqual b1 "st.".toList || areEqual b1 "s.t".toList ||
      areEqual b1 "s.t.".toList then if areEqual b2 [':'] then 2 else 1
  else if areEqual b1 "subject".toList && areEqual b2 "to".toList then
    if areEqual b3 [':'] then 3 else 2
  else if areEqual b1 "sush".toList && areEqual b2 "that".toList then
    if areEqual b3 [':'] then 3 else 2
  else 0

/-- `read_bounds`, `read_binary`, `read_general` and `read_end`
(`parser.cpp:1015-1054`): one of the words `ws`, and a colon or not. -/
def readSection (ws : List Token) (b1 b2 : Token) : Nat :=
  if ws.any fun w => areEqual b1 w then if areEqual b2 [':'] then 2 else 1 else 0

/-- The words of `read_bounds`. -/
def boundsWords : List Token := ["bounds".toList, "bound".toList]

/-- The words of `read_binary`. -/
def binaryWords : List Token := ["binary".toList, "binaries".toList, "bin".toList]

/-- The words of `read_general`. -/
def generalWords : List Token := ["general".toList, "generals".toList, "gen".toList]

/-- The word of `read_end`. -/
def endWords : List Token := ["end".toList]

/-- `starts_with_quadratic` (`parser.cpp:1056-1062`). -/
def startsWithQuadratic (b1 b2 : Token) : Bool :=
  decide (b1 = ['[']) || (decide (b1 = ['+']) && decide (b2 = ['['])) ||
    (decide (b1 = ['-']) && decide (b2 = ['[']))

/-! ## Sources of tokens -/

/-- What the parser uses of a `stream_buffer`. -/
structure Source (σ : Type) where
  /-- `buffer_ptr[i]`. -/
  tok : σ → Nat → Token
  /-- `pop_front(size)` after its test. -/
  pop : σ → Nat → σ
  /-- What the view `buffer_ptr[i]` of a state denotes in a later state. -/
  stale : σ → Nat → σ → Token

/-- The class `stream_buffer`. -/
def streamSource : Source Stream := ⟨Stream.tok, Stream.pop, Stream.stale⟩

/-- A list of tokens, the views of which are never invalidated. -/
def listSource : Source (List Token) :=
  ⟨fun s i => s.getD i [], fun s n => s.drop n, fun s i _ => s.getD i []⟩

variable {σ : Type} (src : Source σ) (scan : Token → Option D)

/-- `pop_front(size)` (`parser.cpp:300-318`). -/
def popFront (s : σ) (size : Nat) : PM σ :=
  if 1 ≤ size ∧ size < 10 then .ok (src.pop s size)
  else .error (.fault (.contract "size >= 1 && size < stream_buffer_size"))

/-- An optional value, or the end of the parser. -/
def orStop {α : Type} (o : Option α) (t : Tag) : PM α :=
  match o with
  | some a => .ok a
  | none => .error (.status t)

/-! ## The quadratic part of the objective -/

/-- The search and the update of `parser.cpp:729-744, 757-771`. -/
def addQuad (f : D) (id1 id2 : Nat) : List PQuad → List PQuad
  | [] => [⟨f, id1, id2⟩]
  | e :: es =>
    if (e.a = id1 ∧ e.b = id2) ∨ (e.a = id2 ∧ e.b = id1) then
      ⟨add e.factor f, e.a, e.b⟩ :: es
    else e :: addQuad f id1 id2 es

/-- `fct.factor * sign_factor / 2.0`. -/
def quadFactor (negative : Bool) (f : D) : D := half (signed negative f)

/-- `parser.cpp:717-746`, with the state `s` where the name was read and the state `s1`
after `pop_front(fct.read)`. -/
def quadProduct (negative : Bool) (f : D) (read : Nat) (s s1 : σ) (p : PProblem) :
    PM (σ × PProblem) := do
  let name2 ← orStop (readName (src.tok s1 1)) .badObjectiveQuadratic
  let (id1, p1) ← orStop (p.getOrAssign (src.stale s (read - 1) s1)) .tooManyVariables
  let (id2, p2) ← orStop (p1.getOrAssign name2) .tooManyVariables
  let s2 ← popFront src s1 2
  .ok (s2, { p2 with qelems := addQuad (quadFactor negative f) id1 id2 p2.qelems })

/-- `parser.cpp:747-772`. -/
def quadSquare (negative : Bool) (f : D) (read : Nat) (s s1 : σ) (p : PProblem) :
    PM (σ × PProblem) := do
  let s2 ← popFront src s1 (if src.tok s1 0 = ['^'] ∧ src.tok s1 1 = ['2'] then 2 else 1)
  let (id, p1) ← orStop (p.getOrAssign (src.stale s (read - 1) s2)) .tooManyVariables
  .ok (s2, { p1 with qelems := addQuad (quadFactor negative f) id id p1.qelems })

/-- The loop of `parser.cpp:705-773`. -/
def quadLoop (negative : Bool) : Nat → σ → PProblem → PM (σ × PProblem)
  | 0, _, _ => .error (.fault .fuel)
  | k + 1, s, p =>
    if src.tok s 0 = [] ∨ src.tok s 0 = [']'] then .ok (s, p)
    else do
      let e ← readQuad scan (src.tok s 0) (src.tok s 1) (src.tok s 2)
      let (f, read) ← orStop e .badObjectiveQuadratic
      let s1 ← popFront src s read
      if src.tok s1 0 = ['*'] then
        quadProduct src negative f read s s1 p >>= fun r => quadLoop negative k r.1 r.2
      else if src.tok s1 0 = ['^'] ∨ src.tok s1 0 = ['^', '2'] then
        quadSquare src negative f read s s1 p >>= fun r => quadLoop negative k r.1 r.2
      else quadLoop negative k s1 p

/-- `parser.cpp:775-784`. -/
def quadEnd (s : σ) : PM σ := do
  let s1 ← popFront src s 1
  if src.tok s1 0 = ['/'] ∧ src.tok s1 1 = ['2'] then popFront src s1 2
  else if src.tok s1 0 = ['/', '2'] then popFront src s1 1
  else .error (.status .badObjectiveQuadratic)

/-- `read_quadratic_element(buf, p, sign_factor)` (`parser.cpp:695-785`). -/
def readQuadratic (fuel : Nat) (negative : Bool) (s : σ) (p : PProblem) : PM (σ × PProblem) :=
  if src.tok s 0 ≠ ['['] then .error (.status .badObjectiveQuadratic)
  else do
    let s1 ← popFront src s 1
    let (s2, p2) ← quadLoop src scan negative fuel s1 p
    let s3 ← quadEnd src s2
    .ok (s3, p2)

/-! ## Objective -/

/-- `parser.cpp:1080-1093`. -/
def objQuadratic (fuel : Nat) (s : σ) (p : PProblem) : PM (σ × PProblem) :=
  if src.tok s 0 = ['-'] then popFront src s 1 >>= fun s1 => readQuadratic src scan fuel true s1 p
  else if src.tok s 0 = ['+'] then
    popFront src s 1 >>= fun s1 => readQuadratic src scan fuel false s1 p
  else readQuadratic src scan fuel false s p

/-- `parser.cpp:1095-1105`. -/
def objElem (s : σ) (p : PProblem) : PM (σ × PProblem) := do
  let e ← readElem scan (src.tok s 0) (src.tok s 1) (src.tok s 2)
  let (f, name, read) ← orStop e .badObjective
  let p1 ← orStop (p.appendObjective f name) .tooManyVariables
  let s1 ← popFront src s read
  .ok (s1, p1)

/-- The loop of `parser.cpp:1079-1106`. -/
def objLoop : Nat → σ → PProblem → PM (σ × PProblem)
  | 0, _, _ => .error (.fault .fuel)
  | k + 1, s, p =>
    if isKeyword (src.tok s 0) then .ok (s, p)
    else if startsWithQuadratic (src.tok s 0) (src.tok s 1) then
      objQuadratic src scan k s p >>= fun r => objLoop k r.1 r.2
    else objElem src scan s p >>= fun r => objLoop k r.1 r.2

/-! ## Constraints -/

/-- The search and the update of `parser.cpp:1133-1141, 1159-1170`. -/
def addFun (f : Int) (id : Nat) : List FunElem → PM (List FunElem)
  | [] => .ok [⟨f, id⟩]
  | e :: es =>
    if e.var = id then addInt e.factor f >>= fun g => .ok (⟨g, id⟩ :: es)
    else addFun f id es >>= fun r => .ok (e :: r)

/-- `parser.cpp:1123-1144, 1148-1176`: one element of a constraint.  The test of
`parser.cpp:1173` is never true. -/
def constrElem (s : σ) (p : PProblem) (es : List FunElem) : PM (σ × PProblem × List FunElem) := do
  let e ← readElem scan (src.tok s 0) (src.tok s 1) (src.tok s 2)
  let (f, name, read) ← orStop e .badConstraint
  let (id, p1) ← orStop (p.getOrAssign name) .tooManyVariables
  let v ← toInt f
  let es1 ← addFun v id es
  let s1 ← popFront src s read
  .ok (s1, p1, es1)

/-- The loop of `parser.cpp:1146-1177`. -/
def elemLoop : Nat → σ → PProblem → List FunElem → PM (σ × PProblem × List FunElem)
  | 0, _, _, _ => .error (.fault .fuel)
  | k + 1, s, p, es =>
    if src.tok s 0 = [] ∨ startsWithOperator (src.tok s 0) then .ok (s, p, es)
    else constrElem src scan s p es >>= fun r => elemLoop k r.1 r.2.1 r.2.2

/-- `parser.cpp:1190-1203`. -/
def PProblem.addConstr (p : PProblem) (op : Op) (c : Constr) : PProblem :=
  match op with
  | .equal => { p with eqs := p.eqs ++ [c] }
  | .greater => { p with ges := p.ges ++ [c] }
  | .less => { p with les := p.les ++ [c] }

/-- `parser.cpp:1118-1121`: the label. -/
def constrLabel (s : σ) : PM (σ × Token) :=
  if startsWithName (src.tok s 0) && decide (src.tok s 1 = [':']) then
    popFront src s 2 >>= fun s1 => .ok (s1, src.tok s 0)
  else .ok (s, [])

/-- `parser.cpp:1179-1188`: the operator and the value. -/
def constrEnd (s : σ) : PM (σ × Op × Int) := do
  let (op, n) ← orStop (readOperator (src.tok s 0) (src.tok s 1)) .badConstraint
  let s1 ← popFront src s n
  let (v, read) ← readReal2 scan (src.tok s1 0) (src.tok s1 1)
  let value ← toInt v
  let s2 ← popFront src s1 read
  .ok (s2, op, value)

/-- The loop of `parser.cpp:1113-1204`; `id` is `constraint_next_id`. -/
def constrLoop : Nat → Nat → σ → PProblem → PM (σ × PProblem)
  | 0, _, _, _ => .error (.fault .fuel)
  | k + 1, id, s, p =>
    if src.tok s 0 = [] ∨ isKeyword (src.tok s 0) then .ok (s, p)
    else do
      let (s1, label) ← constrLabel src s
      let (s2, p2, es2) ← constrElem src scan s1 p []
      let (s3, p3, es3) ← elemLoop src scan k s2 p2 es2
      let (s4, op, value) ← constrEnd src scan s3
      constrLoop k (id + 1) s4 (p3.addConstr op ⟨String.ofList label, es3, value, id⟩)

/-- `parser.cpp:1108-1211`. -/
def readConstraints (fuel : Nat) (s : σ) (p : PProblem) : PM (σ × PProblem) :=
  if readSubjectTo (src.tok s 0) (src.tok s 1) (src.tok s 2) = 0 then .ok (s, p)
  else do
    let s1 ← popFront src s (readSubjectTo (src.tok s 0) (src.tok s 1) (src.tok s 2))
    let (s2, p2) ← constrLoop src scan fuel 0 s1 p
    if ((p2.eqs.length + p2.ges.length + p2.les.length : Nat) : Int) > intMax then
      .error (.status .tooManyConstraints)
    else .ok (s2, p2)

/-! ## Bounds and types -/

/-- The loop of `parser.cpp:1216-1225`. -/
def boundLoop : Nat → σ → PProblem → PM (σ × PProblem)
  | 0, _, _ => .error (.fault .fuel)
  | k + 1, s, p =>
    if isKeyword (src.tok s 0) then .ok (s, p)
    else do
      let b ← readBound scan (src.tok s)
      let b ← orStop b .badBound
      let p1 ← p.setBound b.min b.max b.name
      let p1 ← orStop p1 .badBound
      let s1 ← popFront src s b.read
      boundLoop k s1 p1

/-- `parser.cpp:1213-1226`. -/
def readBounds (fuel : Nat) (s : σ) (p : PProblem) : PM (σ × PProblem) :=
  if readSection boundsWords (src.tok s 0) (src.tok s 1) = 0 then .ok (s, p)
  else do
    let s1 ← popFront src s (readSection boundsWords (src.tok s 0) (src.tok s 1))
    boundLoop src scan fuel s1 p

/-- The loops of `parser.cpp:1231-1235, 1241-1245`. -/
def typeLoop (set : PProblem → Token → Option PProblem) (tag : Tag) :
    Nat → σ → PProblem → PM (σ × PProblem)
  | 0, _, _ => .error (.fault .fuel)
  | k + 1, s, p =>
    if isKeyword (src.tok s 0) then .ok (s, p)
    else do
      let p1 ← orStop (set p (src.tok s 0)) tag
      let s1 ← popFront src s 1
      typeLoop set tag k s1 p1

/-- `parser.cpp:1228-1236`. -/
def readBinary (fuel : Nat) (s : σ) (p : PProblem) : PM (σ × PProblem) :=
  if readSection binaryWords (src.tok s 0) (src.tok s 1) = 0 then .ok (s, p)
  else do
    let s1 ← popFront src s (readSection binaryWords (src.tok s 0) (src.tok s 1))
    typeLoop src PProblem.setBoolean .badBinary fuel s1 p

/-- `parser.cpp:1238-1246`. -/
def readGeneral (fuel : Nat) (s : σ) (p : PProblem) : PM (σ × PProblem) :=
  if readSection generalWords (src.tok s 0) (src.tok s 1) = 0 then .ok (s, p)
  else do
    let s1 ← popFront src s (readSection generalWords (src.tok s 0) (src.tok s 1))
    typeLoop src PProblem.setInteger .badGeneral fuel s1 p

/-- `parser.cpp:1248-1256`. -/
def readEnd (s : σ) : PM Unit :=
  if readSection endWords (src.tok s 0) (src.tok s 1) = 0 then .error (.status .badEnd)
  else do
    let s1 ← popFront src s (readSection endWords (src.tok s 0) (src.tok s 1))
    if src.tok s1 0 = [] then .ok () else .error (.status .badEndOfFile)

/-- `parser.cpp:1069-1077`: the type of the objective and its label. -/
def readHead (s : σ) (p : PProblem) : PM (σ × PProblem) := do
  let t ← orStop (readObjectiveType (src.tok s 0)) .badObjectiveFunctionType
  let s1 ← popFront src s 1
  if readLabel (src.tok s1 0) (src.tok s1 1) = 0 then .ok (s1, { p with type := t })
  else
    popFront src s1 (readLabel (src.tok s1 0) (src.tok s1 1)) >>= fun s2 =>
      .ok (s2, { p with type := t })

/-- `parse` (`parser.cpp:1064-1257`). -/
def parse (fuel : Nat) (s : σ) : PM PProblem := do
  let (s, p) ← readHead src s {}
  let (s, p) ← objLoop src scan fuel s p
  let (s, p) ← readConstraints src scan fuel s p
  let (s, p) ← readBounds src scan fuel s p
  let (s, p) ← readBinary src fuel s p
  let (s, p) ← readGeneral src fuel s p
  readEnd src s
  .ok p

/-- `make_problem(ctx, is)` (`parser.cpp:1261-1271`) on a stream with the given
characters. -/
def makeProblem (fuel : Nat) (text : List Char) : PM PProblem :=
  parse streamSource scan fuel (Stream.open text)

/-- A finite `double`. -/
def finite : D → Option Rat
  | .fin q => some q
  | _ => none

/-- The raw problem of the other parts of the model, when every number of the objective is
finite. -/
def PProblem.toRaw (p : PProblem) : Option RawProblem := do
  let es ← p.elems.mapM fun e => (finite e.factor).map fun q => (⟨q, e.var⟩ : ObjElem)
  let qs ← p.qelems.mapM fun e => (finite e.factor).map fun q => (⟨q, e.a, e.b⟩ : QuadElem)
  let v ← finite p.value
  some { type := p.type, objective := ⟨es, qs, v⟩, eqs := p.eqs, ges := p.ges, les := p.les,
         names := p.names.map String.ofList, values := p.values }

end Bx.Parser
