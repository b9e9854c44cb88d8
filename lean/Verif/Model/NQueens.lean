import Verif.Model.Writer

/-!
# The n-queens example

Models `example::n_queens` (`lib/include/baryonyx/core-test:31-117`): the terms of the
constraints that it writes, and the text.  The variable `x_i_j` is the pair `(i, j)`.
-/

namespace Bx.NQueens

/-- The relation written at the end of a constraint. -/
inductive Rel where
  | eqOne
  | leOne
  deriving DecidableEq, Repr

/-- A constraint: the variables written with `+`, and the relation. -/
structure Line where
  cells : List (Int × Int)
  rel : Rel
  deriving DecidableEq, Repr

/-- `while (cond(i) && j < n) os << "+ x_" << i << '_' << j; i += step; j++`
(`core-test:74-75`, `83-84`, `93-94`, `102-103`); `left` is `n - j`. -/
def walk (cond : Int → Bool) (step : Int) : Nat → Int → Int → List (Int × Int)
  | 0, _, _ => []
  | left + 1, i, j => if cond i then (i, j) :: walk cond step left (i + step) (j + 1) else []

/-- `for (i = first; i != last; ++i)`, for `first <= last`. -/
def upTo (first last : Nat) : List Int := (List.range (last - first)).map fun k => ↑(first + k)

/-- The rows (`core-test:56-61`). -/
def rowLines (n : Nat) : List Line :=
  (upTo 0 n).map fun i => ⟨(upTo 0 n).map fun j => (i, j), .eqOne⟩

/-- The columns (`core-test:63-68`). -/
def columnLines (n : Nat) : List Line :=
  (upTo 0 n).map fun j => ⟨(upTo 0 n).map fun i => (i, j), .eqOne⟩

/-- The diagonals from the left edge (`core-test:71-78`). -/
def diagLeft (n : Nat) : List Line :=
  (upTo 1 (n - 1)).map fun diag => ⟨walk (fun i => decide (i < n)) 1 n diag 0, .leOne⟩

/-- The diagonals from the upper edge (`core-test:80-87`). -/
def diagTop (n : Nat) : List Line :=
  (upTo 0 (n - 1)).map fun diag =>
    ⟨walk (fun i => decide (0 ≤ i)) 1 (n - diag.toNat) 0 diag, .leOne⟩

/-- The other diagonals, from the left edge (`core-test:90-97`). -/
def antiLeft (n : Nat) : List Line :=
  (upTo 1 n).map fun diag => ⟨walk (fun i => decide (0 ≤ i)) (-1) n diag 0, .leOne⟩

/-- The other diagonals, from the lower edge (`core-test:99-106`). -/
def antiBottom (n : Nat) : List Line :=
  (upTo 1 (n - 1)).map fun diag =>
    ⟨walk (fun i => decide (0 ≤ i)) (-1) (n - diag.toNat) (n - 1) diag, .leOne⟩

/-- The constraints of `n_queens(n)` (`core-test:35-40`, `43-106`). -/
def lines (n : Nat) : Outcome (List Line) :=
  if n < 3 then .error (.exn "n_queens_problem")
  else .ok (rowLines n ++ columnLines n ++ diagLeft n ++ diagTop n ++ antiLeft n ++ antiBottom n)

/-! ## The text -/

/-- `os << "x_" << i << '_' << j`. -/
def cellName (p : Int × Int) : List Char :=
  "x_".toList ++ Parser.intText p.1 ++ '_' :: Parser.intText p.2

/-- The text of a constraint (`core-test:57-60`, `64-67`, `74-77`, `83-86`, `93-96`,
`102-105`). -/
def lineText (l : Line) : List Char :=
  (l.cells.flatMap fun p => "+ ".toList ++ cellName p ++ [' ']) ++
    (match l.rel with
      | .eqOne => " = 1\n".toList
      | .leOne => " <= 1\n".toList)

/-- The names of the squares, each after `sep`, a row by line (`core-test:48-52`, `109-114`). -/
def boardText (sep : String) (n : Nat) : List Char :=
  (upTo 0 n).flatMap fun i =>
    ((upTo 0 n).flatMap fun j => sep.toList ++ cellName (i, j)) ++ ['\n']

/-- `os << n_queens(n)` (`core-test:35-40`, `43-117`). -/
def text (n : Nat) : Outcome (List Char) :=
  if n < 3 then .error (.exn "n_queens_problem")
  else .ok ("minimize\n".toList ++ boardText " + " n ++ "\nsubject to\n".toList ++
    (rowLines n ++ columnLines n).flatMap lineText ++ ['\n'] ++
    (diagLeft n ++ diagTop n).flatMap lineText ++ ['\n'] ++
    (antiLeft n ++ antiBottom n).flatMap lineText ++ "\nbinary\n".toList ++
    boardText "  " n ++ "\nend\n".toList)

end Bx.NQueens
