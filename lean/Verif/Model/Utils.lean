import Verif.Basic

/-!
# Utilities

Models `lib/src/utils.hpp` (integer conversions, trimming),
`compute_min_max_objective_function` (`lib/include/baryonyx/core-utils:41-60`),
`string_buffer` (`lib/include/baryonyx/core:49-98`) and the assignment of
`fixed_2darray` (`lib/src/fixed-2darray.hpp`).
-/

namespace Bx.Utils

/-! ## Integers -/

/-- An integer type of C++ other than `bool`: two's complement, `bits` bits with the
sign. -/
structure IntType where
  bits : Nat
  signed : Bool
  deriving DecidableEq, Repr

/-- `std::numeric_limits<T>::digits`. -/
def IntType.digits (t : IntType) : Nat := if t.signed then t.bits - 1 else t.bits

/-- `std::numeric_limits<T>::min()`. -/
def IntType.min (t : IntType) : Int := if t.signed then -2 ^ (t.bits - 1) else 0

/-- `std::numeric_limits<T>::max()`. -/
def IntType.max (t : IntType) : Int := if t.signed then 2 ^ (t.bits - 1) - 1 else 2 ^ t.bits - 1

/-- `static_cast<T>(v)`: modulo `2 ^ bits`. -/
def IntType.cast (t : IntType) (v : Int) : Int :=
  if t.signed then (v + 2 ^ (t.bits - 1)) % 2 ^ t.bits - 2 ^ (t.bits - 1) else v % 2 ^ t.bits

/-- `is_numeric_castable<Target>(arg)` (`utils.hpp:225-247`). -/
def isNumericCastable (target source : IntType) (arg : Int) : Bool :=
  if target.digits = source.digits ∧ target.signed = source.signed then true
  else if target.digits > source.digits then target.signed || decide (arg ≥ 0)
  else if source.signed ∧ arg < source.cast target.min then false
  else decide (arg ≤ source.cast target.max)

/-- `numeric_cast<Target>(s)` (`utils.hpp:264-272`). -/
def numericCast (target source : IntType) (s : Int) : Outcome Int :=
  if !isNumericCastable target source s then .error (.exn "numeric_cast_failure")
  else .ok (target.cast s)

/-! ## Trimming -/

/-- The characters `" \t\n\v\f\r"`. -/
def blanks : List Char := [' ', '\t', '\n', '\x0b', '\x0c', '\r']

def isBlank (c : Char) : Bool := blanks.contains c

/-- `left_trim` (`utils.hpp:57-66`). -/
def leftTrim (s : List Char) : List Char :=
  match s.findIdx? fun c => !isBlank c with
  | none => []
  | some found => s.drop found

/-- `s.find_last_not_of(blanks)`. -/
def findLastNot (s : List Char) : Option Nat :=
  (s.reverse.findIdx? fun c => !isBlank c).map fun i => s.length - 1 - i

/-- `right_trim` (`utils.hpp:75-84`). -/
def rightTrim (s : List Char) : List Char :=
  match findLastNot s with
  | none => []
  | some found => s.take (found + 1)

/-- `trim` (`utils.hpp:94-98`). -/
def trim (s : List Char) : List Char := leftTrim (rightTrim s)

/-! ## Range of an objective function -/

/-- A turn of the loops of `core-utils:47-57`. -/
def addFactor (acc : Rat × Rat) (f : Rat) : Rat × Rat :=
  if f < 0 then (acc.1 + f, acc.2) else (acc.1, acc.2 + f)

/-- `compute_min_max_objective_function` (`core-utils:41-60`); rounding is not
modelled. -/
def minMax (o : Objective) : Rat × Rat :=
  (o.qelems.map QuadElem.factor).foldl addFactor
    ((o.elems.map ObjElem.factor).foldl addFactor (o.value, o.value))

/-! ## String buffer -/

/-- `string_buffer_node_length` (`core:51`). -/
def nodeLength : Nat := 1024 * 1024

/-- `string_buffer` (`core:49-98`): the nodes, the last allocated first, and
`m_position`. -/
structure Buffer where
  nodes : List (List Char) := []
  position : Nat := 0

/-- A `std::string_view` on a node; a node is designated by the number of nodes
allocated before it, since a node of a `forward_list` does not move. -/
structure View where
  node : Nat
  offset : Nat
  size : Nat
  deriving DecidableEq, Repr

/-- The characters that a view denotes. -/
def Buffer.read (b : Buffer) (v : View) : Option (List Char) :=
  (b.nodes.reverse[v.node]?).map fun n => (n.drop v.offset).take v.size

/-- `do_alloc` (`core:90-94`): a new node holds arbitrary characters, here 0. -/
def Buffer.alloc (b : Buffer) : Buffer :=
  { nodes := List.replicate nodeLength (Char.ofNat 0) :: b.nodes, position := 0 }

/-- The copy of `append` (`core:70-78`) on the first node.  Writing past its end is
undefined. -/
def Buffer.write (b : Buffer) (str : List Char) : Outcome (Buffer × View) :=
  match b.nodes with
  | [] => .error (.ub "front() of an empty list")
  | n :: rest =>
    if b.position + str.length > n.length then .error (.ub "copy past the end of a node")
    else .ok ({ nodes := (n.take b.position ++ str ++ n.drop (b.position + str.length)) :: rest
                position := b.position + str.length },
              ⟨rest.length, b.position, str.length⟩)

/-- `append` (`core:64-78`). -/
def Buffer.append (b : Buffer) (str : List Char) : Outcome (Buffer × View) :=
  if b.nodes = [] ∨ str.length + b.position > nodeLength then b.alloc.write str else b.write str

/-- A sequence of calls of `append`: the views, in the order of the calls. -/
def Buffer.appendAll : Buffer → List (List Char) → Outcome (Buffer × List View)
  | b, [] => .ok (b, [])
  | b, s :: ss => do
    let (b1, v) ← b.append s
    let (b2, vs) ← b1.appendAll ss
    .ok (b2, v :: vs)

/-! ## Two-dimensional array -/

/-- `fixed_2darray` (`fixed-2darray.hpp:45-128`). -/
structure Array2 (α : Type) where
  buffer : List α
  rows : Nat
  columns : Nat

/-- `fixed_2darray(rows, columns, def)` (`fixed-2darray.hpp:143-152`). -/
def Array2.make {α : Type} (rows columns : Nat) (d : α) : Array2 α :=
  ⟨List.replicate (columns * rows) d, rows, columns⟩

/-- `operator=` (`fixed-2darray.hpp:163-176`).  The new buffer has
`columns * columns` cells of value `d`, and `rows * columns` cells are copied. -/
def Array2.copyAssign {α : Type} (d : α) (o : Array2 α) : Outcome (Array2 α) :=
  if o.columns * o.rows > o.columns * o.columns then .error (.ub "copy past the end of the buffer")
  else
    .ok ⟨o.buffer.take (o.columns * o.rows) ++
      (List.replicate (o.columns * o.columns) d).drop (o.columns * o.rows), o.rows, o.columns⟩

/-- `operator()` (`fixed-2darray.hpp:390-406`). -/
def Array2.get {α : Type} (a : Array2 α) (row col : Nat) : Outcome α :=
  if col < a.columns ∧ row < a.rows then
    match a.buffer[row * a.columns + col]? with
    | some x => .ok x
    | none => .error (.ub "m_buffer[row * m_columns + column]")
  else .error (.contract "m_is_valid(row, column)")

/-- `set` (`fixed-2darray.hpp:360-367`). -/
def Array2.set {α : Type} (a : Array2 α) (row col : Nat) (x : α) : Outcome (Array2 α) :=
  if col < a.columns ∧ row < a.rows then
    if row * a.columns + col < a.buffer.length then
      .ok { a with buffer := a.buffer.set (row * a.columns + col) x }
    else .error (.ub "m_buffer[row * m_columns + column]")
  else .error (.contract "m_is_valid(row, column)")

end Bx.Utils
