import Verif.Model.Multipliers

/-!
# The sort of the reduced costs

Models `random_shuffle_unique` and `calculator_sort` of `lib/src/itm-common.hpp`, of which
`Verif.Model.Multipliers` keeps the result.  `std::sort` and `std::shuffle` are arguments.  Numbers
are exact, and none of them is a NaN, for which the comparison is not an order.
-/

namespace Bx.Mult

/-- The loop of `random_shuffle_unique` (`itm-common.hpp:123-131`): `run` is the range from `ret` to
`begin`, `n` is the number of calls of `std::shuffle` so far. -/
def shuffleRuns (shuffle : Nat → List RC → List RC) (n : Nat) (run : List RC) : List RC → List RC
  | [] => shuffle n run
  | b :: rest =>
    match run.head? with
    | none => shuffle n run
    | some ret =>
      if ret.value ≠ b.value then shuffle n run ++ shuffleRuns shuffle (n + 1) [b] rest
      else shuffleRuns shuffle n (run ++ [b]) rest

/-- `random_shuffle_unique` (`itm-common.hpp:117-132`).  Incrementing the beginning of an empty range
is undefined. -/
def shuffleUnique (shuffle : Nat → List RC → List RC) : List RC → Outcome (List RC)
  | [] => .error (.ub "begin++")
  | a :: l => .ok (shuffleRuns shuffle 0 [a] l)

/-- The comparison that `calculator_sort` gives to `std::sort` (`itm-common.hpp:139-144`). -/
def cellLess (mode : ObjType) (a b : RC) : Bool :=
  match mode with
  | .minimize => decide (a.value < b.value)
  | .maximize => decide (b.value < a.value)

/-- `calculator_sort` (`itm-common.hpp:134-148`). -/
def calculatorSort (mode : ObjType) (sort : (RC → RC → Bool) → List RC → List RC)
    (shuffle : Nat → List RC → List RC) (l : List RC) : Outcome (List RC) :=
  if l.length > 1 then shuffleUnique shuffle (sort (cellLess mode) l) else .ok l

end Bx.Mult
