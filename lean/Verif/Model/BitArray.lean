import Verif.Basic

/-!
# `lib/src/bit-array.hpp`

`std::size_t` is taken to be 64 bits wide (`BitVec 64`), sizes and indices are
natural numbers.  An access outside `m_data` is the outcome `ub`, a failed
`bx_assert` the outcome `contract`.
-/

namespace Bx.BitArray

/-- `underlying_type` (`bit-array.hpp:45`). -/
abbrev Word := BitVec 64

/-- `bit_array_impl` (`bit-array.hpp:42-310`): `m_size` and `m_data`;
`m_block_size` is the length of `data`. -/
structure Bits where
  size : Nat
  data : List Word
deriving DecidableEq, Repr

/-- `bit_array_impl(int size)` (`bit-array.hpp:60-66`). -/
def make (n : Nat) : Bits := ⟨n, List.replicate (n / 64 + 1) 0#64⟩

/-- `b_index` (`bit-array.hpp:301-304`). -/
def bIndex (i : Nat) : Nat := i / 64

/-- `b_offset` (`bit-array.hpp:306-309`). -/
def bOffset (i : Nat) : Nat := i % 64

/-- `k_one << b_offset(index)`. -/
def mask (i : Nat) : Word := 1#64 <<< bOffset i

/-- A read-modify-write of `m_data[j]`; outside the array it is undefined. -/
def modify (b : Bits) (j : Nat) (f : Word → Word) : Outcome Bits :=
  match b.data[j]? with
  | some w => .ok { b with data := b.data.set j (f w) }
  | none => .error (.ub "m_data[index]")

/-- `block` (`bit-array.hpp:119-124`). -/
def block (b : Bits) (j : Nat) : Outcome Word :=
  match b.data[j]? with
  | some w => .ok w
  | none => .error (.contract "index >= 0 && index < m_block_size")

/-- `set_block` (`bit-array.hpp:126-129`). -/
def setBlock (b : Bits) (j : Nat) (w : Word) : Outcome Bits := modify b j fun _ => w

/-- `set(int)` (`bit-array.hpp:136-141`). -/
def set (b : Bits) (i : Nat) : Outcome Bits := do
  check (decide (i < b.size)) "index >= 0 && index < m_size"
  modify b (bIndex i) fun w => w ||| mask i

/-- `set(int, bool)` (`bit-array.hpp:143-148`): `underlying_type(val)` is the
word 0 or 1, not a word of 64 copies of `val`. -/
def setVal (b : Bits) (i : Nat) (v : Bool) : Outcome Bits :=
  modify b (bIndex i) fun w => w ^^^ (((if v then 1#64 else 0#64) ^^^ w) &&& mask i)

/-- `unset` (`bit-array.hpp:155-160`). -/
def unset (b : Bits) (i : Nat) : Outcome Bits := do
  check (decide (i < b.size)) "index >= 0 && index < m_size"
  modify b (bIndex i) fun w => w &&& ~~~ (mask i)

/-- `invert` (`bit-array.hpp:162-167`). -/
def invert (b : Bits) (i : Nat) : Outcome Bits := do
  check (decide (i < b.size)) "index >= 0 && index < m_size"
  modify b (bIndex i) fun w => w ^^^ mask i

/-- `bit_array::get`, `operator[]` (`bit-array.hpp:328-336`), without the check
of the base class (`bit-array.hpp:169-181`). -/
def get (b : Bits) (i : Nat) : Outcome Bool :=
  match b.data[bIndex i]? with
  | some w => .ok (decide (w &&& mask i ≠ 0#64))
  | none => .error (.ub "m_data[b_index(index)]")

/-- `ones` (`bit-array.hpp:236-239`). -/
def ones (b : Bits) : Bits := { b with data := List.replicate b.data.length (BitVec.allOnes 64) }

/-- `zeros` (`bit-array.hpp:241-245`). -/
def zeros (b : Bits) : Bits := { b with data := List.replicate b.data.length 0#64 }

/-- The first part of `assign` (`bit-array.hpp:190-208`), with `loop_min`. -/
def assignFrom (b other : Bits) (start : Nat) : Outcome (Bits × Nat) :=
  let index := bIndex start
  let offset := bOffset start
  if offset > 0 then
    match other.data[index]? with
    | none => .error (.ub "other.m_data[index]")
    | some n => do
      let b ← modify b index fun o =>
        ((n <<< offset) >>> offset) ||| ((o >>> (64 - offset)) <<< (64 - offset))
      .ok (b, index + 1)
  else .ok (b, index)

/-- The second part of `assign` (`bit-array.hpp:210-228`), with `loop_max`,
which can be -1. -/
def assignTo (b other : Bits) (stop : Nat) : Outcome (Bits × Int) :=
  let index := bIndex stop
  let offset := bOffset stop
  if offset > 0 then
    match other.data[index]? with
    | none => .error (.ub "other.m_data[index]")
    | some n => do
      let b ← modify b index fun o =>
        ((n >>> (64 - offset)) <<< (64 - offset)) ||| ((o <<< offset) >>> offset)
      .ok (b, (index : Int) - 1)
  else .ok (b, index)

/-- `assign` (`bit-array.hpp:183-234`); the copy (lines 230-233) writes the
blocks from `loop_min` up to `loop_max`. -/
def assign (b other : Bits) (start stop : Nat) : Outcome Bits := do
  check (decide (other.size = b.size)) "other.size() == size()"
  check (decide (start < stop ∧ start < b.size ∧ stop ≤ b.size))
    "from >= 0 && from < to && from < size() && to <= size()"
  let (b, lo) ← assignFrom b other start
  let (b, hi) ← assignTo b other stop
  if hi > lo then
    if hi ≤ b.data.length ∧ hi ≤ other.data.length then
      .ok { b with data := b.data.take lo ++ (other.data.drop lo).take (hi.toNat - lo) ++
              b.data.drop hi.toNat }
    else .error (.ub "copy_n")
  else .ok b

/-- `operator==` (`bit-array.hpp:269-282`); the shortcut `this == &other` gives
the same answer. -/
def eq (a b : Bits) : Bool := decide (a.size = b.size) && decide (a.data = b.data)

/-- `operator!=` (`bit-array.hpp:284-294`). -/
def ne (a b : Bits) : Bool := if a.size ≠ b.size then true else decide (a.data ≠ b.data)

/-- `bit_array_hash` (`bit-array.hpp:410-423`); `h` is `std::hash<std::size_t>`. -/
def hash (h : Word → Word) (b : Bits) : Word :=
  b.data.foldl (fun ret w => ret ^^^ (h w + 0x9e3779b9#64 + (ret <<< 6) + (ret >>> 2))) 0#64

/-- The block crossover of two solutions (`itm-optimizer-common.hpp:359-371`);
`r i` is the random word drawn for block `i`. -/
def crossover (r : Nat → Word) (x first second : Bits) : Outcome Bits :=
  (List.range x.data.length).foldlM (fun x i => do
    let x1 ← block first i
    let x2 ← block second i
    setBlock x i (((x1 ^^^ x2) &&& r i) ^^^ x1)) x

/-- The calls of a history. -/
inductive Op
  | set (i : Nat) | unset (i : Nat) | invert (i : Nat) | zeros | ones
deriving DecidableEq, Repr

/-- One call. -/
def step (b : Bits) : Op → Outcome Bits
  | .set i => set b i
  | .unset i => unset b i
  | .invert i => invert b i
  | .zeros => .ok (zeros b)
  | .ones => .ok (ones b)

/-- A history. -/
def run (b : Bits) (ops : List Op) : Outcome Bits := ops.foldlM step b

end Bx.BitArray
