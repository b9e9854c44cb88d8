import Verif.Spec.Lp
import Mathlib.Data.List.Forall2

/-!
# Bounds and kinds of the variables

The same problem, whose variables have other bounds and other kinds.
-/

namespace Bx.Spec

/-- The same problem with as many variables, whose bounds and kinds are not the same. -/
structure OtherBounds (raw raw' : RawProblem) : Prop where
  rest : raw' = { raw with values := raw'.values }
  count : raw'.values.length = raw.values.length

/-- None of the two variables is fixed, or both are fixed at 0, or both are fixed at something else than 0. -/
def SameFixed (v w : VarValue) : Prop := (w.min = w.max ↔ v.min = v.max) ∧ (v.min = v.max → (w.max = 0 ↔ v.max = 0))

/-- The same problem, with the same variables fixed at 0 and the same variables fixed at something else. -/
structure SameFixedRaw (raw raw' : RawProblem) : Prop where
  rest : raw' = { raw with values := raw'.values }
  fixed : List.Forall₂ SameFixed raw.values raw'.values

end Bx.Spec
