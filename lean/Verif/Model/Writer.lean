import Verif.Model.Parser

/-!
# The writer of problems

Models `lib/src/problem.hpp:235-415`: the functions behind the formatters of `problem` and
`raw_problem`, for a problem as the reader gives it.  The text that `fmt` gives for a positive
finite `double` is a function `num`, which is not modelled.
-/

namespace Bx.Parser

open Params (D)

/-- A digit as a character. -/
def digitChar (d : Nat) : Char := Char.ofNat (48 + d)

/-- The decimal digits of a natural number. -/
def decimal (n : Nat) : List Char :=
  if n < 10 then [digitChar n] else decimal (n / 10) ++ [digitChar (n % 10)]

/-- `fmt::format("{}", i)` for an `int`. -/
def intText (i : Int) : List Char :=
  if i < 0 then '-' :: decimal i.natAbs else decimal i.natAbs

/-- `fmt::format("{}", d)` for a `double`. -/
def doubleText (num : Rat → List Char) : D → List Char
  | .nan => "nan".toList
  | .ninf => "-inf".toList
  | .pinf => "inf".toList
  | .fin q => if q < 0 then '-' :: num (-q) else num q

/-- `p.vars.names[i]`. -/
def PProblem.nameAt (p : PProblem) (i : Nat) : Outcome Token :=
  match p.names[i]? with
  | some n => .ok n
  | none => .error (.ub "out of range")

/-- `d < 0`. -/
def isNeg : D → Bool
  | .fin q => q < 0
  | .ninf => true
  | _ => false

/-- `d > 0`. -/
def isPos : D → Bool
  | .fin q => 0 < q
  | .pinf => true
  | _ => false

/-- The body of the loop of `write_function_element` (`problem.hpp:239-252`); `text` is the text
of the factor. -/
def writeElement (p : PProblem) (neg pos : Bool) (text : List Char) (var : Nat) :
    Outcome (List Char) := do
  if neg then
    let n ← p.nameAt var
    return ' ' :: text ++ ' ' :: n ++ [' ']
  else if pos then
    let n ← p.nameAt var
    return '+' :: ' ' :: text ++ ' ' :: n ++ [' ']
  else return [' ']

/-- `write_function_element` (`problem.hpp:235-253`) for the objective. -/
def writeObjective (num : Rat → List Char) (p : PProblem) : List PElem → Outcome (List Char)
  | [] => .ok []
  | e :: es => do
    let a ← writeElement p (isNeg e.factor) (isPos e.factor) (doubleText num e.factor) e.var
    let b ← writeObjective num p es
    return a ++ b

/-- `write_function_element` (`problem.hpp:235-253`) for a constraint. -/
def writeFunction (p : PProblem) : List FunElem → Outcome (List Char)
  | [] => .ok []
  | e :: es => do
    let a ← writeElement p (e.factor < 0) (0 < e.factor) (intText e.factor) e.var
    let b ← writeFunction p es
    return a ++ b

/-- `2.0 * d`. -/
def double : D → D
  | .fin q => .fin (2 * q)
  | d => d

/-- The loop of `write_quadratic_element` (`problem.hpp:266-278`). -/
def writeQuads (num : Rat → List Char) (p : PProblem) : List PQuad → Outcome (List Char)
  | [] => .ok []
  | e :: es => do
    let f := doubleText num (double e.factor)
    let a ← p.nameAt e.a
    let t ← if e.a = e.b then pure (' ' :: f ++ ' ' :: a ++ " ^2".toList)
      else do
        let b ← p.nameAt e.b
        pure (' ' :: f ++ ' ' :: a ++ " * ".toList ++ b)
    let r ← writeQuads num p es
    return t ++ r

/-- `write_quadratic_element` (`problem.hpp:255-281`). -/
def writeQuadratic (num : Rat → List Char) (p : PProblem) (l : List PQuad) :
    Outcome (List Char) :=
  if l = [] then .ok []
  else do
    let t ← writeQuads num p l
    return "+ [".toList ++ t ++ " ] /2".toList

/-- `write_constraint` (`problem.hpp:283-296`). -/
def writeConstraint (p : PProblem) (sep : String) (c : Constr) : Outcome (List Char) := do
  let t ← writeFunction p c.elems
  return (if c.label = "" then [] else c.label.toList ++ ": ".toList) ++ t ++
    (sep.toList ++ intText c.value ++ ['\n'])

/-- One of the loops of `write_constraints`. -/
def writeList (p : PProblem) (sep : String) : List Constr → Outcome (List Char)
  | [] => .ok []
  | c :: cs => do
    let a ← writeConstraint p sep c
    let b ← writeList p sep cs
    return a ++ b

/-- `write_constraints` (`problem.hpp:298-310`). -/
def writeConstraints (p : PProblem) : Outcome (List Char) := do
  let a ← writeList p " = " p.eqs
  let b ← writeList p " >= " p.ges
  let c ← writeList p " <= " p.les
  return a ++ b ++ c

/-- The body of the loop of `write_bounds` (`problem.hpp:316-324`). -/
def writeBound (x : Token) (v : VarValue) : List Char :=
  (if v.min ≠ 0 then x ++ " >= ".toList ++ intText v.min ++ ['\n'] else []) ++
  (if v.max ≠ intMax then x ++ " <= ".toList ++ intText v.max ++ ['\n'] else [])

/-- A loop on the names and the values of the variables; `vars.values` is as long as `vars.names`
(an access out of range is undefined). -/
def forVars (f : Token → VarValue → List Char) : List Token → List VarValue → Outcome (List Char)
  | [], _ => .ok []
  | x :: xs, v :: vs => do
    let r ← forVars f xs vs
    return f x v ++ r
  | _ :: _, [] => .error (.ub "out of range")

/-- The loop of `problem.hpp:357-367`, with its `break`s.  Returns `have_binary` and
`have_general`. -/
def haveTypes : List VarValue → Bool → Bool → Bool × Bool
  | [], b, g => (b, g)
  | v :: vs, b, g =>
    match v.type with
    | .binary => if g then (true, g) else haveTypes vs true g
    | .general => if b then (b, true) else haveTypes vs b true
    | .real => haveTypes vs b g

/-- A section of the names of a type (`problem.hpp:369-381`). -/
def writeType (have' : Bool) (head : String) (t : VarType) (p : PProblem) : Outcome (List Char) :=
  if have' then do
    let r ← forVars (fun x v => if v.type = t then ' ' :: x ++ ['\n'] else []) p.names p.values
    return head.toList ++ '\n' :: r
  else .ok []

/-- `write_problem` (`problem.hpp:327-384`). -/
def writeProblem (num : Rat → List Char) (p : PProblem) : Outcome (List Char) :=
  if p.names = [] then .ok []
  else do
    let o ← writeObjective num p p.elems
    let q ← writeQuadratic num p p.qelems
    let v := if isNeg p.value then doubleText num p.value
      else if isPos p.value then " + ".toList ++ doubleText num p.value else []
    let c ← writeConstraints p
    let b ← forVars writeBound p.names p.values
    let have' := haveTypes (p.values.take p.names.length) false false
    let x ← writeType have'.1 "binary" .binary p
    let y ← writeType have'.2 "general" .general p
    return (match p.type with
        | .maximize => "maximize\n\n".toList
        | .minimize => "minimize\n\n".toList) ++ o ++ q ++ v ++ "\nsubject to\n".toList ++ c ++
      "bounds\n".toList ++ b ++ x ++ y ++ "end\n".toList

end Bx.Parser
