import Verif.Model.Params

/-!
# Comparison functions

Models the functions given to `std::sort` and `std::multiset`.  A value is a `double`
(`Bx.Params.D`): NaN and the infinities are included.
-/

namespace Bx.Compare

open Bx.Params (D)

/-- `is_better_solution<Mode>` (`lib/src/itm-common.hpp:192-200`); `Mode` is
`minimize_tag` or `maximize_tag`. -/
def isBetter (m : ObjType) (lhs rhs : D) : Bool :=
  match m with
  | .minimize => lhs.lt rhs
  | .maximize => rhs.lt lhs

/-- The comparison of `calculator_sort<Mode>` (`itm-common.hpp:139-144`), on the reduced
costs. -/
def calculatorLess (m : ObjType) (lhs rhs : D) : Bool :=
  match m with
  | .minimize => lhs.lt rhs
  | .maximize => rhs.lt lhs

/-- What the comparisons read of an entry: the number of unsatisfied constraints and the
value. -/
structure Entry where
  remaining : Int
  value : D
  deriving DecidableEq, Repr

/-- The comparison of `storage::sort` (`lib/src/itm-optimizer-common.hpp:429-442`). -/
def storageLess (m : ObjType) (a b : Entry) : Bool :=
  if a.remaining < b.remaining then true
  else if a.remaining = b.remaining then isBetter m a.value b.value
  else false

/-- `raw_result_compare` (`lib/src/result.hpp:100-107`). -/
def rawLess (m : ObjType) (a b : Entry) : Bool :=
  if a.remaining = 0 ∧ b.remaining = 0 then isBetter m a.value b.value
  else decide (a.remaining < b.remaining)

/-- What `node_result_compare` reads of a node. -/
structure Node where
  type : ObjType
  remaining : Int
  solution : D
  deriving DecidableEq, Repr

/-- `node_result_compare` (`lib/src/branch-optimizer.cpp:115-133`). -/
def nodeLess (a b : Node) : Bool :=
  if a.remaining = 0 then
    if b.remaining = 0 then
      match a.type with
      | .maximize => b.solution.lt a.solution
      | .minimize => a.solution.lt b.solution
    else true
  else if b.remaining = 0 then false
  else decide (a.remaining < b.remaining)

/-- `operator<` on solutions (`lib/include/baryonyx/core-compare:131-135`). -/
def solutionLess (lhs rhs : D) : Bool := rhs.lt lhs

/-- `operator<` on the elements of constraints and objectives
(`core-compare:42-46`, `55-60`). -/
def elementLess (lhs rhs : Nat) : Bool := decide (lhs < rhs)

end Bx.Compare
