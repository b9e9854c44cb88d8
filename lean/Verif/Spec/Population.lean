import Verif.Model.Population
import Verif.Spec.Optimizer

/-!
# What the shared population has to keep
-/

namespace Bx.Spec.Population

open Bx.Optimizer Bx.Population Bx.Spec.Optimizer

/-- What the random engine, the sort and the reads of `m_indices` guarantee for a population of
`n`. -/
def ActOk (n : Nat) : Act → Prop
  | .pick position seen => n / 5 ≤ position ∧ position < n ∧ seen < n
  | .sort srt => SortOk srt
  | .cross c _ => CrossOk n c
  | _ => True

/-- A worker has no call in progress. -/
def Idle : Pc → Prop
  | .idle => True
  | _ => False

/-- The vector comes from the initial population or from a step of the schedule. -/
def KnownVector (g : Setting) (init : List Assign) (acts : List (Nat × Act)) (x : Assign) : Prop :=
  x ∈ init ∨ ∃ t, (∃ v, (t, Act.update x v) ∈ acts) ∨ (∃ k, (t, Act.advance x k) ∈ acts) ∨
    (∃ i y, (t, Act.cross (.putRandom i x) y) ∈ acts) ∨
    (∃ i y, (t, Act.cross (.putBastert i) y) ∈ acts ∧ x = g.bastert)

/-- The value comes from the initial population or from a step of the schedule. -/
def KnownValue (g : Setting) (init : List Assign) (acts : List (Nat × Act)) (v : Rat) : Prop :=
  (∃ x ∈ init, v = objective g.o x) ∨
  ∃ t x, (t, Act.update x v) ∈ acts ∨ ∃ k, (t, Act.advance x k) ∈ acts ∧ v = objective g.o x

/-- The number of remaining constraints comes from the initial population or from a step of the
schedule. -/
def KnownRemaining (g : Setting) (init : List Assign) (acts : List (Nat × Act)) (r : Nat) : Prop :=
  (∃ x ∈ init, r = countViolated x g.csts) ∨
  ∃ t x, (∃ v, (t, Act.update x v) ∈ acts ∧ r = 0) ∨ (t, Act.advance x r) ∈ acts

end Bx.Spec.Population
