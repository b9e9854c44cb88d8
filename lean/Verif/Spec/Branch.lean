import Verif.Model.Branch

/-!
# What the branch mode should prefer

Independent of the comparisons of the code.
-/

namespace Bx.Spec.Branch

open Bx.Branch

/-- `a` is a better value than `b`. -/
def BetterValue (t : ObjType) (a b : Rat) : Prop :=
  match t with
  | .minimize => a < b
  | .maximize => b < a

/-- `a` is a better result than `b`: a solution is better than none, two solutions are compared by
their values, two failures by their `constraints`. -/
def Better (t : ObjType) (a b : Inner) : Prop :=
  (a.success = true ∧ b.success = false) ∨
  (a.success = true ∧ b.success = true ∧ BetterValue t a.first b.first) ∨
  (a.success = false ∧ b.success = false ∧ a.constraints < b.constraints)

/-- `a` is to be split before `b`: no constraint remains and some remain for `b`, or none remains
for both and the value is better, or some remain for both, and fewer for `a`. -/
def Before (t : ObjType) (a b : Node) : Prop :=
  (a.remaining = 0 ∧ b.remaining ≠ 0) ∨
  (a.remaining = 0 ∧ b.remaining = 0 ∧ BetterValue t a.solution b.solution) ∨
  (a.remaining ≠ 0 ∧ b.remaining ≠ 0 ∧ a.remaining < b.remaining)

/-- The jobs, all of one direction, the first to be split first. -/
def Queue (t : ObjType) (jobs : List Node) : Prop :=
  (∀ n ∈ jobs, n.problem.type = t) ∧ jobs.Pairwise fun a b => ¬ Before t b a

end Bx.Spec.Branch
