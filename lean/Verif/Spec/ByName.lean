import Verif.Spec.Lp

/-!
# Assignments by name
-/

namespace Bx.Spec

/-- The assignment that gives to each variable the value of its name. -/
def byName (v : String → Bool) (names : List String) : Assign := fun i => (names[i]?.map v).getD false

end Bx.Spec
