import Verif.Model.Callbacks

/-!
# What the program prints during and after a run

Models `solver_updated_cb` and `solver_finished_cb` of `app/src/main.cpp`, the functions that `main`
registers (`app/src/main.cpp:1196-1197`).  They print on the standard output; the model gives the
text.
-/

namespace Bx.Messages

/-- The texts that `fmt` gives to numbers: `{:f}`, `{:.10g}` and `{}` of a `double`, `{}` of an
integer. -/
structure Texts where
  fixed : Rat → String
  g10 : Rat → String
  plain : Rat → String
  int : Int → String

/-- `solver_updated_cb` (`main.cpp:148-177`). -/
def updated (t : Texts) (remaining : Int) (value : Rat) (loop : Int) (duration : Rat)
    (reinit : Int) : String :=
  if remaining > 0 then
    "  - Constraints remaining: " ++ t.int remaining ++ " (loop: " ++ t.int loop ++ " t: " ++
      t.plain duration ++ "s reinit: " ++ t.int reinit ++ ")\n"
  else if loop ≥ 0 then
    "  - Solution found: " ++ t.fixed value ++ " (loop: " ++ t.int loop ++ " t: " ++
      t.plain duration ++ "s reinit: " ++ t.int reinit ++ ")\n"
  else
    "  - Solution found via push: " ++ t.fixed value ++ " (loop: " ++ t.int (-loop) ++ " t: " ++
      t.plain duration ++ "s reinit: " ++ t.int reinit ++ ")\n"

/-- `solver_finished_cb` (`main.cpp:179-228`).  The fields `loop` and `duration` of the result are
arguments: the models of `optimize` do not have them. -/
def finished (t : Texts) (loop : Int) (duration : Rat) (r : Result) : String :=
  "Solver finished\n" ++
  match r.status with
  | .success =>
    match r.solutions.getLast? with
    | none => ""
    | some s =>
      if s.variables = [] then
        "Best solution found via preprocessor: " ++ t.g10 s.value ++ " in " ++ t.plain duration ++ "s\n"
      else if loop ≥ 0 then
        "Best solution found: " ++ t.g10 s.value ++ " in " ++ t.int loop ++ " loop and " ++
          t.plain duration ++ "s\n"
      else
        "Best solution found via push: " ++ t.g10 s.value ++ " in " ++ t.int (-loop) ++ " loop and " ++
          t.plain duration ++ "s\n"
  | .internalError => "No solution. Internal error\n"
  | .uninitialized => "No solution. Uninitialized error\n"
  | .kappaMaxReached =>
    "No solution. Constraint remaining: " ++ t.int r.remaining ++ ". Kappa reached in " ++
      t.plain duration ++ "s.\n"
  | .timeLimitReached =>
    "No solution. Constraint remaining: " ++ t.int r.remaining ++ ". Time limit reached at " ++
      t.plain duration ++ "s.\n"
  | .limitReached =>
    "No solution. Constraint remaining: " ++ t.int r.remaining ++ ". Loop limit reached in " ++
      t.plain duration ++ "s.\n"
  | .emptyContext => "Context uninitialized\n"

/-- What is printed of a run of `solve` that returns `r`: `ret` has the initial values of `loop` and
`duration`, `solver_functor` does not set them (`itm-solver-common.hpp:68, 216-224, 309-316`,
`lib/include/baryonyx/core:732-733`). -/
def solved (t : Texts) (r : Result) : String := finished t 0 0 r

end Bx.Messages
