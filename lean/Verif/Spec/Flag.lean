import Verif.Model.Flag
import Verif.Spec.Workers

/-!
# Two runs of `optimize` that are ended at different times
-/

namespace Bx.Spec.Optimizer

open Bx.Optimizer

variable {ρ : Type}

/-- What the outside guarantees: at least five initial vectors, sorts and evicted positions. -/
structure BeginOk (b : Begin) (ms : List (Move ρ)) : Prop where
  size : 5 ≤ b.init.length
  srt : SortOk b.srt
  moves : ∀ m ∈ ms, EvictOk b.init.length m.evict

/-- The steps after the flag is set: a worker may have read it just before, so that its first step is made with the
old answer; all its other steps see the flag. -/
def Ending (ms : List (Move ρ)) : Prop :=
  ms.Pairwise fun before m => m.stop = false → before.worker ≠ m.worker

/-- In these steps, the worker `i` makes a step and reads in the first one that the flag is not set. -/
def GoesOn (ms : List (Move ρ)) (i : Nat) : Prop :=
  ∃ a m b, ms = a ++ m :: b ∧ m.worker = i ∧ m.stop = false ∧ ∀ m' ∈ a, m'.worker ≠ i

end Bx.Spec.Optimizer
