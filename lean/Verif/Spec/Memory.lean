import Verif.Basic

/-!
# How a size is read
-/

namespace Bx.Spec.Memory

/-- `t` is a number written with decimal digits, and `n` its value. -/
def Digits (t : List Char) (n : Nat) : Prop :=
  t ≠ [] ∧ (∀ c ∈ t, '0' ≤ c ∧ c ≤ '9') ∧ n = t.foldl (fun v c => 10 * v + (c.toNat - '0'.toNat)) 0

/-- The units, with their number of bytes. -/
def units : List (List Char × Nat) :=
  [("B".toList, 1), ("KB".toList, 2 ^ 10), ("MB".toList, 2 ^ 20), ("GB".toList, 2 ^ 30)]

/-- `text` is a number with two decimals, a space and a unit, and it stands for `v` bytes. -/
def Says (text : List Char) (v : Rat) : Prop :=
  ∃ (a b u : List Char) (n m w : Nat), text = a ++ '.' :: b ++ ' ' :: u ∧ Digits a n ∧ Digits b m ∧
    b.length = 2 ∧ (u, w) ∈ units ∧ v = ((n : Rat) + m / 100) * w

end Bx.Spec.Memory
