import Verif.Spec.Multipliers
import Verif.Model.Solve

/-!
# Orders of the constraints

What the option `constraint-order` promises, without the solver.
-/

namespace Bx.Spec

open Bx.Merge Bx.Itm

/-- By how much an assignment misses the bounds of the constraint `k`. -/
def gap (csts : List Merged) (x : Assign) (k : Nat) : Int :=
  match csts[k]? with
  | some c => max (c.min - lhs x c.elems) (lhs x c.elems - c.max)
  | none => 0

/-- The constraints that an assignment does not respect, in increasing order. -/
def brokenRows (csts : List Merged) (x : Assign) : List Nat :=
  (List.range csts.length).filter fun k => decide (0 < gap csts x k)

/-- The order in which constraints are visited follows the option; `pi` holds the multipliers. -/
def Follows (csts : List Merged) (ord : COrder) (x : Assign) (pi : Nat → Rat) (l : List Nat) : Prop :=
  match ord with
  | .none | .cycle => l.Pairwise (· < ·)
  | .reversing => l.Pairwise (· > ·)
  | .infeasibilityDecr => l.Pairwise fun a b => gap csts x a ≥ gap csts x b
  | .infeasibilityIncr => l.Pairwise fun a b => gap csts x a ≤ gap csts x b
  | .lagrangianDecr => l.Pairwise fun a b => pi a ≥ pi b
  | .lagrangianIncr => l.Pairwise fun a b => pi a ≤ pi b
  | .randomSorting | .piSignChange => True

/-- A sequence of updates: the update `i` of the constraint `k` leads from a state to the next one. -/
inductive Updates {S : Type} (step : Nat → Nat → S → S → Prop) : Nat → List Nat → S → S → Prop
  | nil (i : Nat) (a : S) : Updates step i [] a a
  | cons {i k : Nat} {ks : List Nat} {a b c : S} :
      step i k a b → Updates step (i + 1) ks b c → Updates step i (k :: ks) a c

end Bx.Spec
