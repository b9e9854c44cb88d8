import Verif.Basic

/-!
# The sub-vector allocator

Models `shared_subvector` (`lib/src/branch-and-bound-solver.hpp:48-190`): blocks of
`m_element_size` bytes in one vector, with the list of the free blocks kept in the
first four bytes of each free block.

Simplifications: a byte is a natural number under 256 (`int8_t` values are seen
through their bit pattern); a 32-bit integer is stored least significant byte first;
the access through `reinterpret_cast` is assumed to work at every address (for an
element size that is not a multiple of 4 it is not aligned).
-/

namespace Bx.Subvector

/-- `m_container`, `m_element_size` and `m_free_list_head`
(`branch-and-bound-solver.hpp:57-62`). -/
structure Sub where
  mem : List Nat
  esize : Nat
  head : Nat
  deriving DecidableEq, Repr

/-- `npos` (`branch-and-bound-solver.hpp:62`). -/
def npos : Nat := 2 ^ 32 - 1

/-- `*(reinterpret_cast<size_type*>(&m_container[p]))` read. -/
def read32 (mem : List Nat) (p : Nat) : Outcome Nat :=
  match mem.drop p with
  | a :: b :: c :: d :: _ => .ok (a + 256 * b + 65536 * c + 16777216 * d)
  | _ => .error (.ub "m_container[new_position]")

/-- The bytes of a 32-bit integer. -/
def bytes32 (v : Nat) : List Nat :=
  [v % 256, v / 256 % 256, v / 65536 % 256, v / 16777216 % 256]

/-- Writes of consecutive bytes from `p`, undefined out of range. -/
def splice (mem : List Nat) (p : Nat) (bs : List Nat) : Outcome (List Nat) :=
  if p + bs.length ≤ mem.length then .ok (mem.take p ++ bs ++ mem.drop (p + bs.length))
  else .error (.ub "m_container[i]")

/-- `check_index` (`branch-and-bound-solver.hpp:179-183`); the sum is a 32-bit
one. -/
def checkIndex (s : Sub) (i : Nat) : Outcome Unit := do
  check (decide ((i + s.esize) % 2 ^ 32 ≤ s.mem.length)) "i + m_element_size <= m_container.size()"
  check (decide (i % s.esize = 0)) "i % m_element_size == 0"

/-- `init` (`branch-and-bound-solver.hpp:75-87`); the boolean is its result. -/
def init (esize : Nat) : Outcome (Sub × Bool) := do
  check (decide (0 < esize)) "element_size > 0"
  .ok (⟨[], esize, npos⟩, decide (4 ≤ esize))

/-- `emplace` (`branch-and-bound-solver.hpp:89-107`), lines 93-103. -/
def emplaceRaw (s : Sub) : Outcome (Sub × Nat) :=
  if s.head ≠ npos then do
    let next ← read32 s.mem s.head
    .ok ({ s with head := next }, s.head)
  else
    .ok ({ s with mem := s.mem ++ List.replicate s.esize 0 }, s.mem.length % 2 ^ 32)

/-- `emplace` (`branch-and-bound-solver.hpp:89-107`). -/
def emplace (s : Sub) : Outcome (Sub × Nat) := do
  let r ← emplaceRaw s
  checkIndex r.1 r.2
  .ok r

/-- `remove` (`branch-and-bound-solver.hpp:145-151`). -/
def remove (s : Sub) (i : Nat) : Outcome Sub := do
  checkIndex s i
  let mem ← splice s.mem i (bytes32 s.head)
  .ok { s with mem := mem, head := i }

/-- `fill` (`branch-and-bound-solver.hpp:163-166`). -/
def fill (s : Sub) (i v : Nat) : Outcome Sub := do
  let mem ← splice s.mem i (List.replicate s.esize v)
  .ok { s with mem := mem }

/-- `copy` (`branch-and-bound-solver.hpp:168-172`). -/
def copy (s : Sub) (src dst : Nat) : Outcome Sub :=
  if src + s.esize ≤ s.mem.length then do
    let mem ← splice s.mem dst ((s.mem.drop src).take s.esize)
    .ok { s with mem := mem }
  else .error (.ub "m_container[source]")

/-- `operator[](i) = v` (`branch-and-bound-solver.hpp:116-121`). -/
def put (s : Sub) (i v : Nat) : Outcome Sub := do
  check (decide (i < s.mem.length)) "i < m_container.size()"
  let mem ← splice s.mem i [v]
  .ok { s with mem := mem }

/-- `invert` (`branch-and-bound-solver.hpp:174-177`). -/
def invert (s : Sub) (i e : Nat) : Outcome Sub :=
  match s.mem[i + e]? with
  | none => .error (.ub "m_container[i + element]")
  | some b => do
    let mem ← splice s.mem (i + e) [if b ≠ 0 then 0 else 1]
    .ok { s with mem := mem }

end Bx.Subvector
