import Verif.Basic

/-!
# Specification: constraints that a 32 bits `int` can hold

A condition that a user can read on the text of the problem.
-/

namespace Bx.Spec

/-- The sum of the absolute values of the factors. -/
def sumAbs (es : List FunElem) : Nat :=
  (es.map fun e => e.factor.natAbs).sum

/-- The factors and the right-hand side of the constraint, without their signs, add up to an
`int`. -/
def Small (c : Constr) : Prop := sumAbs c.elems + c.value.natAbs ≤ 2147483647

instance (c : Constr) : Decidable (Small c) := by unfold Small; infer_instance

/-- Every constraint is small. -/
def AllSmall (eqs ges les : List Constr) : Prop :=
  (∀ c ∈ eqs, Small c) ∧ (∀ c ∈ ges, Small c) ∧ (∀ c ∈ les, Small c)

instance (eqs ges les : List Constr) : Decidable (AllSmall eqs ges les) := by
  unfold AllSmall; infer_instance

end Bx.Spec
