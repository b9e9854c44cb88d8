import Verif.Basic

/-!
# Vocabulary of C139

A constant added to the objective.
-/

namespace Bx.Spec

/-- The objective `o + k`. -/
def plusConstant (k : Rat) (o : Objective) : Objective := { o with value := o.value + k }

/-- The problem with the objective `o + k`. -/
def plusConstantRaw (k : Rat) (raw : RawProblem) : RawProblem :=
  { raw with objective := plusConstant k raw.objective }

/-- The result whose values are all greater by `k`. -/
def valuesPlus (k : Rat) (r : Result) : Result :=
  { r with solutions := r.solutions.map fun s => { s with value := s.value + k } }

/-- Two results that differ by `k` in the values of their solutions.  A result that is not a success may have no value
(it is infinite in the program): it may be the same. -/
def DifferBy (k : Rat) (r r' : Result) : Prop :=
  r' = valuesPlus k r ∨ (r.status ≠ .success ∧ r' = r)

end Bx.Spec
