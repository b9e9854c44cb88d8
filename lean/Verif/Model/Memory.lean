import Verif.Model.Preprocess
import Verif.Model.Utils
import Verif.Model.Writer
import Verif.Spec.Rounding

/-!
# The sizes that are printed

Models `lib/src/memory.hpp` and `lib/src/memory.cpp`: the size of a problem, the unit of a size and its
text; and the messages of `preprocess` that hold a size (`lib/src/preprocessor.cpp`).

Simplifications: `std::size_t` is not bounded.  The capacity of a vector is not in the other models, it
is an argument here.  `fmt` prints the nearest number of two decimals, as the standard asks of `printf`.
-/

namespace Bx.Memory

open Spec (nearest)
open Parser (decimal digitChar)

/-- `show_size_type` (`memory.hpp:34-40`). -/
inductive Unit where
  | gb
  | mb
  | kb
  | b
  deriving DecidableEq, Repr

/-- `memory_consumed_size` (`memory.hpp:42-64`); `rnd` is the rounding of `double`. -/
def consumedSize (rnd : Rat → Rat) (size : Nat) : Rat × Unit :=
  let kb := rnd (rnd size / 1024)
  let mb := rnd (kb / 1024)
  let gb := rnd (mb / 1024)
  if gb > 1 / 2 then (gb, .gb)
  else if mb > 1 / 2 then (mb, .mb)
  else if kb > 1 / 2 then (kb, .kb)
  else (rnd size, .b)

/-- `fmt::format("{:.2f}", v)` for `v` positive or null. -/
def fixed2 (v : Rat) : List Char :=
  let h := (nearest (100 * v)).toNat
  decimal (h / 100) ++ '.' :: [digitChar (h / 10 % 10), digitChar (h % 10)]

/-- The end of the text (`memory.cpp:83-92`). -/
def Unit.text : Unit → List Char
  | .gb => " GB".toList
  | .mb => " MB".toList
  | .kb => " KB".toList
  | .b => " B".toList

/-- `to_string` (`memory.cpp:80-93`). -/
def toString (m : Rat × Unit) : List Char := fixed2 m.1 ++ m.2.text

/-- `sizeof` of the types (`memory.cpp:35-62, 98, 113`). -/
structure SizeOf where
  problem : Nat
  vars : Nat
  varValue : Nat
  constraint : Nat
  element : Nat
  objective : Nat
  objElement : Nat
  quadElement : Nat
  affected : Nat

/-- The capacities of the vectors of a problem (`memory.cpp:36, 44, 53, 55, 62`), one number for each
constraint. -/
structure Capacities where
  vars : Nat
  objective : Nat
  quadratic : Nat
  equal : List Nat
  greater : List Nat
  less : List Nat
  affected : Nat := 0

/-- `memory_consumed` of a vector of constraints (`memory.cpp:39-45, 65-74`). -/
def constraints (z : SizeOf) (l : List Nat) : Nat :=
  l.foldl (fun size c => size + (z.constraint + c * z.element)) 0

/-- `memory_consumed(const raw_problem&)` (`memory.cpp:95-108`); `strings` is the number of nodes of the
string buffer, `none` when the pointer is null. -/
def raw (z : SizeOf) (strings : Option Nat) (c : Capacities) : Outcome Nat :=
  match strings with
  | none => .error (.ub "pb.strings->size()")
  | some nodes =>
    .ok (z.problem + nodes * Utils.nodeLength +
      (z.objective + c.objective * z.objElement + c.quadratic * z.quadElement) +
      constraints z c.equal + constraints z c.greater + constraints z c.less +
      (z.vars + c.vars * z.varValue))

/-- `memory_consumed(const problem&)` (`memory.cpp:110-124`). -/
def problem (z : SizeOf) (strings : Option Nat) (c : Capacities) : Outcome Nat := do
  let ret ← raw z strings c
  .ok (ret + (z.affected + c.affected))

/-- The text of a size in a message: `to_string(memory_consumed_size(size))`. -/
def text (rnd : Rat → Rat) (size : Nat) : List Char := toString (consumedSize rnd size)

/-- The sizes in the messages of `preprocess` (`preprocessor.cpp:903-913, 642-645, 706-708`), in order,
and the problem.  `c` has the capacities of the raw problem, which is the `pb` of lines 645 and 908, and
`copy` those of the problem that is made. -/
def preprocess (rnd : Rat → Rat) (z : SizeOf) (strings : Option Nat) (c copy : Capacities)
    (pb : RawProblem) : Outcome (List (List Char) × Problem) := do
  let starts ← raw z strings c
  let p ← Preprocess.preprocess pb
  let finish ← raw z strings c
  let finishes ← problem z strings copy
  .ok ([text rnd starts, text rnd finish, text rnd finishes], p)

/-- The size in the message of `unpreprocess` (`preprocessor.cpp:915-925`) and the problem. -/
def unpreprocess (rnd : Rat → Rat) (z : SizeOf) (strings : Option Nat) (c : Capacities)
    (pb : RawProblem) : Outcome (List Char × Problem) := do
  let size ← raw z strings c
  .ok (text rnd size, Preprocess.unpreprocess pb)

end Bx.Memory
