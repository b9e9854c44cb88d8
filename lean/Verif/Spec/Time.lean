/-!
# What it means that a pass is made in time
-/

namespace Bx.Spec

/-- The clock is read after each pass, and `late s` tells what it says after `s` passes.  The pass `k`,
from 0, begins in time when no reading before it said that the time is over. -/
def InTime (late : Nat → Bool) (k : Nat) : Prop := ∀ s, 0 < s → s ≤ k → late s = false

end Bx.Spec
