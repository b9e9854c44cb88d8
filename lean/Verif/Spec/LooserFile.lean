import Verif.Spec.Looser
import Verif.Spec.Grammar

/-!
# Looser copies of constraints in a file

The constraints of a file where some of those already written are written again, with the same terms once those of a
variable are added up, under any label, with a bound that they imply.
-/

namespace Bx.Looser

open Parser

/-- The second list is the first one with constraints `t` that have the operator and the terms of an earlier one and a bound
`w` in the relation `implied op v w` with its bound `v`. -/
inductive LoosensCons (ival : Token → Int) (implied : Op → Int → Int → Prop) : List Con → List Con → Prop
  | nil : LoosensCons ival implied [] []
  | new {l l' : List Con} (c : Con) (h : LoosensCons ival implied l l') :
      LoosensCons ival implied (l ++ [c]) (l' ++ [c])
  | looser {l l' : List Con} (c t : Con) (h : LoosensCons ival implied l l') (hc : c ∈ l) (ho : t.op.op = c.op.op)
      (he : collect (named ival t.terms) = collect (named ival c.terms))
      (hv : implied c.op.op (c.value.value ival) (t.value.value ival)) : LoosensCons ival implied l (l' ++ [t])

/-- The same value for `=`, at most the bound for `>=` and at least the bound for `<=`. -/
def Weaker : Op → Int → Int → Prop
  | .equal, v, w => w = v
  | .greater, v, w => w ≤ v
  | .less, v, w => v ≤ w

end Bx.Looser
