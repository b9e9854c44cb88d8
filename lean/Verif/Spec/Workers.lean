import Verif.Model.Workers
import Verif.Spec.Optimizer

/-!
# What several workers have to keep
-/

namespace Bx.Spec.Optimizer

open Bx.Optimizer

variable {ρ : Type}

/-- What the outside guarantees: at least five initial vectors, sorts and evicted positions, for
each worker.  Nothing is asked of the order of the steps. -/
structure CrewOk (ch : Crew ρ) : Prop where
  size : 5 ≤ ch.init.length
  srt : SortOk ch.srt
  calls : ∀ i, ∀ c ∈ ch.calls i, CallOk ch.init.length c

/-- No turn of a worker overwrites an entry: `init_crossover_bastert_insertion` is `0`. -/
def CrewClean (ch : Crew ρ) : Prop := ∀ i, ∀ c ∈ ch.calls i, ¬ Overwrites c

/-- The vectors of a run: the initial ones, and those at the end of a pass of a worker. -/
def Seen (init : List Assign) (workers : List (Local ρ)) (y : Assign) : Prop :=
  y ∈ init ∨ ∃ l ∈ workers, y ∈ l.trace

end Bx.Spec.Optimizer
