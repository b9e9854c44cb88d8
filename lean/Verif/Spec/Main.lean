import Verif.Model.Main
import Verif.Spec.ResultFile

/-!
# What a command has to leave
-/

namespace Bx.Spec.MainProgram

open Bx.MainProgram

/-- The texts of the numbers are on one line. -/
structure NumbersOneLine (t : Texts) : Prop where
  fixed : ∀ q, '\n' ∉ t.fixed q
  plain : ∀ q, '\n' ∉ t.plain q
  nat : ∀ n, '\n' ∉ t.nat n

/-- The other texts of a result are on one line. -/
structure InfoOneLine (i : Info) : Prop where
  method : '\n' ∉ i.method
  constraints : '\n' ∉ i.constraints
  vars : '\n' ∉ i.vars
  fixedDuration : '\n' ∉ i.fixedDuration
  duration : '\n' ∉ i.duration

/-- The line of a problem in the file of several problems: its name, and the value of the best
solution, the duration and the values of all the solutions, or that there is none. -/
def line (t : Texts) (file : String) (r : Result) (i : Info) : List Char :=
  file.toList ++ ' ' ::
    match r.status, r.solutions.getLast? with
    | .success, some s => t.fixed s.value ++ ' ' :: i.duration ++ ['s', ' '] ++
        (r.solutions.flatMap fun s => t.plain s.value ++ [' '])
    | _, _ => "No solution found.".toList

/-- What has to be said of a problem file: nothing when it is read and solved without exception. -/
def report (read : String → Outcome (Option RawProblem))
    (run : RawProblem → Outcome (Result × Info)) (file : String) : Option Msg :=
  match read file with
  | .ok none => some (.unreadable file)
  | .ok (some pb) =>
    match run pb with
    | .error (.exn e) => some (.failure e)
    | _ => none
  | .error _ => none

end Bx.Spec.MainProgram
