import Verif.Basic

/-!
# The seed of the random numbers

Models `init_random_generator_seed` (`lib/src/itm-common.hpp:1442-1452`), the type `random_engine`
(`lib/src/itm-common.hpp:45`), the engine of `solve` (`lib/src/itm-solver-common.hpp:277`), the one of
`optimize` (`lib/src/itm-optimizer-common.hpp:796`) and those of its workers
(`lib/src/itm-optimizer-common.hpp:56` and `70-73`).

`std::default_random_engine` is the choice of the standard library: `minstd_rand0` (factor 16807) in
libstdc++, `minstd_rand` (factor 48271) in libc++.  Both are defined by the C++ standard as
`std::linear_congruential_engine` with the increment 0 and the modulus 2147483647.
-/

namespace Bx.Seed

/-- The modulus of the engine. -/
def modulus : Nat := 2147483647

/-- The factors of `std::default_random_engine` (`itm-common.hpp:45`) in the two standard libraries. -/
def Factor (g : Nat) : Prop := g = 16807 ∨ g = 48271

/-- The constructor of the engine with a seed: the seed modulo the modulus, 1 instead of 0. -/
def start (seed : Nat) : Nat := if seed % modulus = 0 then 1 else seed % modulus

/-- A call of the engine: the new state, which is the number it returns. -/
def next (g x : Nat) : Nat := g * x % modulus

/-- The state after `k` calls. -/
def after (g x : Nat) : Nat → Nat
  | 0 => x
  | k + 1 => next g (after g x k)

/-- The number returned by the call number `k` of an engine made with a seed; 0 is the first call. -/
def number (g seed k : Nat) : Nat := after g (start seed) (k + 1)

/-- `init_random_generator_seed` (`itm-common.hpp:1442-1452`).  The parameter is an `unsigned int`, so that
`param <= 0` is `param == 0`; `epoch` is the clock and `bits` the number of bits of `result_type`, at least
32. -/
def initSeed (bits : Nat) (param : Nat) (epoch : Int) : Nat :=
  if param = 0 then (epoch % 2 ^ bits).toNat else param % 2 ^ bits

/-- The numbers that a run draws: those of an engine made with `init_random_generator_seed`
(`itm-solver-common.hpp:277`, `itm-optimizer-common.hpp:796`). -/
def runNumber (g bits param : Nat) (epoch : Int) (k : Nat) : Nat := number g (initSeed bits param epoch) k

end Bx.Seed
