import Verif.Model.Utils
import Verif.Spec.Lp

/-!
# Specification of the utilities
-/

namespace Bx.Utils

/-- A type has a value: between its least and its greatest value. -/
def IntType.Has (t : IntType) (v : Int) : Prop :=
  if t.signed then -2 ^ (t.bits - 1) ≤ v ∧ v < 2 ^ (t.bits - 1) else 0 ≤ v ∧ v < 2 ^ t.bits

instance (t : IntType) (v : Int) : Decidable (t.Has v) := by
  unfold IntType.Has; infer_instance

/-- A blank: space, tabulations, new line, form feed, carriage return. -/
def Blank (c : Char) : Prop :=
  c = ' ' ∨ c = '\t' ∨ c = '\n' ∨ c = Char.ofNat 11 ∨ c = Char.ofNat 12 ∨ c = '\r'

/-- The first character, if any, is not a blank. -/
def NoBlankStart (s : List Char) : Prop := ∀ c, s.head? = some c → ¬ Blank c

/-- The last character, if any, is not a blank. -/
def NoBlankEnd (s : List Char) : Prop := ∀ c, s.getLast? = some c → ¬ Blank c

/-- A cell of a matrix stored row by row. -/
def Array2.WellFormed {α : Type} (a : Array2 α) : Prop := a.buffer.length = a.rows * a.columns

end Bx.Utils
