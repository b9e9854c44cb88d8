import Verif.Model.Merge

/-!
# `lib/src/sparse-matrix.hpp`

Indices are natural numbers; an access outside an array is the outcome `ub`.
-/

namespace Bx.Sparse

open Merge

/-- `row_value` (`sparse-matrix.hpp:57-68`). -/
structure RowValue where
  value : Nat
  column : Nat
deriving DecidableEq, Repr

/-- `col_value` (`sparse-matrix.hpp:44-55`). -/
structure ColValue where
  value : Nat
  row : Nat
deriving DecidableEq, Repr

/-- `sparse_matrix` (`sparse-matrix.hpp:75-78`). -/
structure Matrix where
  rowsAccess : List Nat
  colsAccess : List Nat
  rowsValues : List RowValue
  colsValues : List ColValue
deriving DecidableEq, Repr

/-- `access` (`sparse-matrix.hpp:110-124`), without the copy of the element,
which is never read. -/
structure Access where
  row : Nat
  col : Nat
  id : Nat
deriving DecidableEq, Repr

/-- `accessors` (`sparse-matrix.hpp:126-130`), with the ids given by line 143. -/
def accessors (csts : List Merged) : List Access :=
  (csts.zipIdx.flatMap fun p => p.1.elems.map fun e => (p.2, e.var)).zipIdx.map
    fun p => ⟨p.1.1, p.1.2, p.2⟩

/-- `rinit[row] = nb_row` (`sparse-matrix.hpp:137,147`) and
`cinit[col] = nb_col` (lines 166 and 176). -/
def store (acc : List Nat) (k n : Nat) : Outcome (List Nat) :=
  if k < acc.length then .ok (acc.set k n) else .error (.ub "init[index]")

/-- The counting loops (`sparse-matrix.hpp:135-147` and `164-176`): `keys` are
the rows, or the columns, of the accessors. -/
def runLoop : List Nat → Nat → Nat → List Nat → Outcome (List Nat)
  | [], cur, nb, acc => store acc cur nb
  | k :: ks, cur, nb, acc =>
    if cur ≠ k then do
      let acc ← store acc cur nb
      runLoop ks k 1 acc
    else runLoop ks cur (nb + 1) acc

/-- The counters of `n` rows or columns (`sparse-matrix.hpp:132-147`,
`160-177`); reading `accessors[0]` of an empty vector is undefined. -/
def counts (keys : List Nat) (n : Nat) : Outcome (List Nat) :=
  match keys with
  | [] => .error (.ub "accessors[0]")
  | k :: _ => runLoop keys k 0 (List.replicate n 0)

/-- Insertion before the first accessor whose column is not smaller. -/
def insertCol (a : Access) : List Access → List Access
  | [] => [a]
  | b :: l => if a.col ≤ b.col then a :: b :: l else b :: insertCol a l

/-- `std::stable_sort` by column (`sparse-matrix.hpp:155-158`).  A stable sort
has only one result, so any stable algorithm is the same function. -/
def stableSort (l : List Access) : List Access := l.foldr insertCol []

/-- `m_rows_access`, `m_cols_access` (`sparse-matrix.hpp:179-185`). -/
def prefixSums : Nat → List Nat → List Nat
  | s, [] => [s]
  | s, n :: l => s :: prefixSums (s + n) l

/-- The constructor (`sparse-matrix.hpp:86-186`), for the callers' value of
`rows`, which is the number of constraints. -/
def make (csts : List Merged) (cols : Nat) : Outcome Matrix := do
  let acc := accessors csts
  let rinit ← counts (acc.map Access.row) csts.length
  let rowsValues : List RowValue := acc.map fun a => ⟨a.id, a.col⟩
  check (decide (rinit = csts.map fun c => c.elems.length))
    "rinit[i] == static_cast<int>(csts[i].elements.size())"
  let sorted := stableSort acc
  let cinit ← counts (sorted.map Access.col) cols
  let colsValues ← sorted.mapM fun a =>
    match rowsValues[a.id]? with
    | some v => Except.ok ⟨v.value, a.row⟩
    | none => Except.error (.ub "m_rows_values[accessors[i].id]")
  .ok ⟨prefixSums 0 rinit, prefixSums 0 cinit, rowsValues, colsValues⟩

/-- `m_is_valid_index` (`sparse-matrix.hpp:243-249`). -/
def validIndex (m : Matrix) (row col : Nat) : Bool :=
  decide (col < m.colsAccess.length - 1) && decide (row < m.rowsAccess.length - 1)

/-- The elements between two iterators. -/
def slice {α : Type} (l : List α) (a b : Nat) : List α := (l.drop a).take (b - a)

/-- What iterating from `begin` to `end` of `row(k)` visits
(`sparse-matrix.hpp:188-196`, `208-218`). -/
def row (m : Matrix) (k : Nat) : Outcome (List RowValue) := do
  check (validIndex m k 0) "m_is_valid_index(row, 0)"
  match m.rowsAccess[k]?, m.rowsAccess[k + 1]? with
  | some a, some b => .ok (slice m.rowsValues a b)
  | _, _ => .error (.ub "m_rows_access[row]")

/-- What iterating from `begin` to `end` of `column(j)` visits
(`sparse-matrix.hpp:198-206`, `220-230`). -/
def column (m : Matrix) (j : Nat) : Outcome (List ColValue) := do
  check (validIndex m 0 j) "m_is_valid_index(0, col)"
  match m.colsAccess[j]?, m.colsAccess[j + 1]? with
  | some a, some b => .ok (slice m.colsValues a b)
  | _, _ => .error (.ub "m_cols_access[col]")

/-- `size`, `length` (`sparse-matrix.hpp:232-240`). -/
def length (m : Matrix) : Nat := m.rowsValues.length

end Bx.Sparse
