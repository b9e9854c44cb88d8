import Verif.Model.Exhaustive

/-!
# Specification: selections of the elements of a row

A row under update is a list of elements with an identifier, a factor and a
reduced cost; a selection says which identifiers are chosen.
-/

namespace Bx.Spec

open Exhaustive (Rc)

/-- Sum of the factors of the selected elements. -/
def weight (y : Nat → Bool) (rc : List Rc) : Int :=
  (rc.map fun c => if y c.id then c.f else 0).sum

/-- Sum of the reduced costs of the selected elements. -/
def cost (y : Nat → Bool) (rc : List Rc) : Rat :=
  (rc.map fun c => if y c.id then c.value else 0).sum

/-- The same sum as a program computes it: from zero, in the order of the list, with
a rounding after each addition. -/
def summedCost (rnd : Rat → Rat) (y : Nat → Bool) (rc : List Rc) : Rat :=
  (rc.filter fun c => y c.id).foldl (fun z c => rnd (z + c.value)) 0

/-- The selection a sub-solver returns: the elements up to the returned index. -/
def chosen (out : List Rc × Int) : Nat → Bool :=
  fun i => decide (i ∈ (out.1.take (out.2 + 1).toNat).map Rc.id)

end Bx.Spec
