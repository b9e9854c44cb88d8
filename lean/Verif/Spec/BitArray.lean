import Verif.Model.BitArray

/-! The plain array of booleans that a `bit_array` must behave like. -/

namespace Bx.Spec

/-- One call on a plain array. -/
def bitStep (a : Nat → Bool) : BitArray.Op → (Nat → Bool)
  | .set i => fun j => if j = i then true else a j
  | .unset i => fun j => if j = i then false else a j
  | .invert i => fun j => if j = i then !a j else a j
  | .zeros => fun _ => false
  | .ones => fun _ => true

/-- A history on a plain array. -/
def bitRun (a : Nat → Bool) (ops : List BitArray.Op) : Nat → Bool := ops.foldl bitStep a

/-- The index used by a call is below `n`. -/
def bitInRange (n : Nat) : BitArray.Op → Prop
  | .set i => i < n
  | .unset i => i < n
  | .invert i => i < n
  | .zeros => True
  | .ones => True

/-- `b` is an array of `n` bits with the contents `a`: every in-range read
returns the element of `a`. -/
def BitsAre (n : Nat) (b : BitArray.Bits) (a : Nat → Bool) : Prop :=
  b.size = n ∧ ∀ i, i < n → BitArray.get b i = .ok (a i)

end Bx.Spec
