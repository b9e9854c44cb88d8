import Mathlib.Algebra.BigOperators.Group.Finset.Basic
import Verif.Model.NQueens

/-!
# Specification: queens on a board
-/

namespace Bx.NQueens

/-- A placement: is there a queen at row `i` and column `j`? -/
abbrev Board := Int → Int → Bool

/-- The number of queens on a list of squares. -/
def queensOn (x : Board) (cells : List (Int × Int)) : Nat :=
  (cells.map fun p => if x p.1 p.2 then 1 else 0).sum

/-- A constraint of the linear problem is met. -/
def Line.Holds (l : Line) (x : Board) : Prop :=
  match l.rel with
  | .eqOne => queensOn x l.cells = 1
  | .leOne => queensOn x l.cells ≤ 1

/-- The square is on the board. -/
def OnBoard (n : Nat) (i j : Int) : Prop := 0 ≤ i ∧ i < n ∧ 0 ≤ j ∧ j < n

/-- A queen at `(i, j)` attacks another one at `(k, l)`: same row, same column or same
diagonal. -/
def Attacks (i j k l : Int) : Prop := i = k ∨ j = l ∨ i - j = k - l ∨ i + j = k + l

/-- The number of queens on the board. -/
def queens (n : Nat) (x : Board) : Nat :=
  ∑ i ∈ Finset.range n, ∑ j ∈ Finset.range n, if x i j then 1 else 0

/-- `n` queens are on the board and no two of them attack each other. -/
def Solution (n : Nat) (x : Board) : Prop :=
  queens n x = n ∧
    ∀ i j k l, OnBoard n i j → OnBoard n k l → x i j = true → x k l = true →
      Attacks i j k l → i = k ∧ j = l

/-- The name of the variable of a square. -/
def squareName (i j : Nat) : String := "x_" ++ toString i ++ "_" ++ toString j

/-- The placement of an assignment of `n * n` variables, numbered a row after another. -/
def placement (n : Nat) (x : Nat → Bool) : Board := fun i j => x (i.toNat * n + j.toNat)

end Bx.NQueens
