import Verif.Model.Callbacks
import Verif.Spec.Workers

/-!
# What the registered functions have to be told
-/

namespace Bx.Spec.Optimizer

open Bx.Optimizer Bx.Params

/-- The message `b` is not worse than the message `a`: fewer constraints remain, or as many and the
value is at least as good. -/
def NoWorse (t : ObjType) (a b : Message) : Prop :=
  b.remaining < a.remaining ∨ (b.remaining = a.remaining ∧ AtLeastAsGood t b.value a.value)

/-- The thread that waits sleeps at least a second at each turn. -/
def Sleeps (wt : Watch) : Prop := ∀ k : Nat, (k + 1 : Rat) ≤ wt.clock k

/-- A time limit that is never reached: not positive, infinite or not a number. -/
def Endless (limit : D) : Prop := ∀ L : Rat, 0 < L → limit ≠ .fin L

end Bx.Spec.Optimizer
