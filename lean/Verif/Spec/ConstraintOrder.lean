import Verif.Basic

/-!
# Specification: the order of the constraints

What the documentation of `pre_constraint_order` says, without the merge.
-/

namespace Bx.Spec

/-- The elements of a list without those that repeat an earlier one. -/
def firstsBy {α β : Type} [DecidableEq β] (key : α → β) : List α → List α
  | [] => []
  | a :: l => a :: (firstsBy key l).filter fun b => key b ≠ key a

/-- In how many terms of the constraints a variable is. -/
def timesIn (sides : List (List FunElem)) (v : Nat) : Nat :=
  ((sides.flatten).filter fun e => e.var = v).length

/-- The cost of a variable, shared between the constraints where it is; 0 for a variable that is not in
the objective.  The last term of the objective with the variable counts. -/
def share (objective : Objective) (sides : List (List FunElem)) (v : Nat) : Rat :=
  match (objective.elems.filter fun e => e.var = v).getLast? with
  | none => 0
  | some e => e.factor / (timesIn sides v : Rat)

/-- `r` is the smallest share of the variables of a left-hand side. -/
def IsSmallestShare (share : Nat → Rat) (side : List FunElem) (r : Rat) : Prop :=
  (∃ e ∈ side, share e.var = r) ∧ ∀ e ∈ side, r ≤ share e.var

end Bx.Spec
