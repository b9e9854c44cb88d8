import Verif.Model.Merge

/-!
# Constructors of the solvers

The bounds that each solver computes from a merged constraint, with the
contracts of its constructor.
-/

namespace Bx.SolverCtor

open Merge

/-- The `bound_factor` of the solvers: `b[k]` of the 0/1 equality solver
(`itm-solver-equalities-01.cpp:95`) and of the -1/0/1 one
(`itm-solver-equalities-101.cpp:99-110`) is the case `min = max`. -/
structure Bound where
  min : Int
  max : Int
  negative : Nat
  deriving DecidableEq, Repr

/-- `itm-solver-equalities-01.cpp:83-97`. -/
def equalities01 (m : Merged) : Outcome Bound := do
  check (m.elems.all fun e => decide (e.factor = 1)) "factor == 1"
  check (decide (m.min = m.max)) "min == max"
  .ok ⟨m.min, m.min, 0⟩

/-- Number of negative factors. -/
def negatives (es : List FunElem) : Nat := (es.filter fun e => decide (e.factor < 0)).length

/-- `itm-solver-equalities-101.cpp:97-111`. -/
def equalities101 (m : Merged) : Outcome Bound := do
  check (m.elems.all fun e => decide (e.factor.natAbs = 1)) "abs(factor) == 1"
  check (decide (m.min = m.max)) "min == max"
  .ok ⟨m.min, m.min, negatives m.elems⟩

/-- `itm-solver-inequalities-01.cpp:88-107`. -/
def inequalities01 (m : Merged) : Outcome Bound := do
  check (m.elems.all fun e => decide (e.factor = 1)) "factor == 1"
  let b : Bound :=
    if m.min = m.max then ⟨m.min, m.max, 0⟩
    else ⟨max 0 m.min, min (m.elems.length : Int) m.max, 0⟩
  check (decide (b.min ≤ b.max)) "b[i].min <= b[i].max"
  .ok b

/-- `itm-solver-inequalities-101.cpp:99-130`.  The last contract, `upper +
lower == length`, holds by construction. -/
def inequalities101 (m : Merged) : Outcome Bound := do
  check (m.elems.all fun e => decide (e.factor.natAbs = 1)) "abs(factor) == 1"
  let lower := negatives m.elems
  let upper := m.elems.length - lower
  let b : Bound :=
    if m.min = m.max then ⟨m.min, m.max, lower⟩
    else ⟨max (-(lower : Int)) m.min, min (upper : Int) m.max, lower⟩
  check (decide (b.min ≤ b.max)) "b[i].min <= b[i].max"
  .ok b

/-- Sum of the positive factors. -/
def upperSum (es : List FunElem) : Int :=
  (es.map fun e => if e.factor > 0 then e.factor else 0).sum

/-- Sum of the negative factors. -/
def lowerSum (es : List FunElem) : Int :=
  (es.map fun e => if e.factor > 0 then 0 else e.factor).sum

/-- `itm-solver-inequalities-Z.cpp:126-183`, the bounds. -/
def inequalitiesZ (m : Merged) : Outcome Bound := do
  check (m.elems.all fun e => decide (e.factor ≠ 0)) "factor"
  let b : Bound :=
    if m.min = m.max then ⟨m.min, m.max, 0⟩
    else ⟨max (lowerSum m.elems) m.min, min (upperSum m.elems) m.max, 0⟩
  check (decide (b.min ≤ b.max)) "b[i].min <= b[i].max"
  .ok b

/-- Which solver is used for a problem type (`itm.hpp:101-119` and
`162-180`). -/
def ctor : SolverType → Merged → Outcome Bound
  | .equalities01 => equalities01
  | .equalities101 => equalities101
  | .equalitiesZ => inequalitiesZ
  | .inequalities01 => inequalities01
  | .inequalities101 => inequalities101
  | .inequalitiesZ => inequalitiesZ

end Bx.SolverCtor
