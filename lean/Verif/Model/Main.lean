import Verif.Model.CommandLine
import Verif.Model.ResultFile

/-!
# The program

Models `main` and its functions (`app/src/main.cpp:1010-1368`) after the command line
(`Verif.Model.CommandLine`).

* Reading a problem, running the solver and the benchmark mode are parameters: they are modelled
  in `Verif.Model.Parser`, `Verif.Model.Dispatch` and `Verif.Model.Benchmark`.
* What is printed on the standard output is not modelled, nor the option `--check`, whose flag is
  never set (`C65`).
* A file that cannot be opened loses what is written to it, without an error.
* When the process is killed, the text of a file is what was printed to its stream: a part of it
  can be lost.
-/

namespace Bx.MainProgram

open CommandLine (Main Conv CStatus)
open Params (SolverParams)
open ResultFile (commentLine writeValues)

/-- The texts that `fmt` gives to numbers: `{:f}` and `{}` of a `double`, `{}` of an integer. -/
structure Texts where
  fixed : Rat → List Char
  plain : Rat → List Char
  nat : Nat → List Char

/-- The fields of `result` that are printed and are not in `Result`, as texts: `method`,
`constraints`, `variables` and `duration` (`{:f}` and `{}`). -/
structure Info where
  method : List Char := []
  constraints : List Char := []
  vars : List Char := []
  fixedDuration : List Char := []
  duration : List Char := []
  deriving DecidableEq, Repr

/-- What the program meets outside. -/
structure World where
  texts : Texts
  /-- `get_pid()`. -/
  pid : List Char
  /-- `std::put_time(...)`, the same text twice since `now` is not read again
  (`main.cpp:1245, 1254`). -/
  time : List Char
  /-- `make_problem(ctx, filename)`; `none` is a status that is not a success. -/
  read : String → Outcome (Option RawProblem)
  /-- `optimize` (`true`) or `solve` with a context that received these parameters
  (`main.cpp:1161-1168, 1192-1194`).  The context is the same for all the problems of a command and a
  run does not change its parameters. -/
  run : SolverParams → Bool → RawProblem → Outcome (Result × Info)
  /-- `benchmark(ctx, filename, name)`. -/
  bench : SolverParams → String → String → Outcome Bool
  /-- The file can be opened for writing. -/
  writable : String → Bool

/-- What is printed on the standard error. -/
inductive Msg where
  | refused (arg : Nat)
  | missing
  | benchFailed (file : String)
  | unreadable (file : String)
  | failure (what : String)
  deriving DecidableEq, Repr

/-- How the process ends. -/
inductive Ending where
  | exit (code : Nat)
  | killed (f : Fault)
  deriving DecidableEq, Repr

/-- What the process leaves. -/
structure Proc where
  files : List (String × List Char) := []
  err : List Msg := []
  ending : Ending := .exit 0
  deriving DecidableEq, Repr

/-- The number of variables of a type (`main.cpp:1050-1062`). -/
def countType (pb : RawProblem) (t : VarType) : Nat := (pb.values.filter fun v => v.type = t).length

/-- `a/b/c` and a comment. -/
def triple (t : Texts) (a b c : Nat) (what : String) : List Char :=
  t.nat a ++ '/' :: t.nat b ++ '/' :: t.nat c ++ what.toList

/-- `resume(pb, os)` (`main.cpp:1045-1079`). -/
def resumeProblem (t : Texts) (pb : RawProblem) : List Char :=
  commentLine "\\ objective : "
    (match pb.type with | .maximize => "maximize" | .minimize => "minimize").toList ++
  commentLine "\\ mode: "
    (if pb.objective.qelems = [] then "linear" else "quadratic").toList ++
  commentLine "\\ variables: " (triple t (countType pb .real) (countType pb .general)
    (countType pb .binary) " (real/general/binary)") ++
  commentLine "\\ constraints: " (triple t pb.eqs.length pb.ges.length pb.les.length
    " (equal/greater/less)")

/-- The loop on the variables of the solution (`main.cpp:1128-1134`): it reads
`variable_name[i]`. -/
def writeVariables : List Int → List String → Outcome (List Char)
  | [], _ => .ok []
  | v :: vs, n :: ns => do
    let r ← writeVariables vs ns
    return n.toList ++ '=' :: (if v ≠ 0 then '1' else '0') :: '\n' :: r
  | _ :: _, [] => .error (.ub "variable_name[i]")

/-- `resume(result, os)` (`main.cpp:1081-1159`). -/
def resumeResult (t : Texts) (i : Info) (r : Result) : Outcome (List Char) := do
  let head :=
    commentLine "\\ solver................: " i.method ++
    commentLine "\\ constraints...........: " i.constraints ++
    commentLine "\\ variables.............: " i.vars ++
    commentLine "\\ duration..............: " i.fixedDuration ++
    commentLine "\\ loop..................: " (t.nat r.loop)
  let status (s : String) := head ++ commentLine "\\ status................: " s.toList
  let remaining := commentLine "\\ remaining constraints.: " (t.nat r.remaining)
  match r.status with
  | .internalError => return status "internal error reported"
  | .uninitialized => return status "uninitialized"
  | .success =>
    match r.solutions.getLast? with
    | none => return status "solution found"
    | some s =>
      let a ← writeValues r.affected.names r.affected.values
      let b ← writeVariables s.variables r.variableName
      return status "solution found" ++
        commentLine "\\ value.................: " (t.fixed s.value) ++
        commentLine "\\ other value...........: "
          (r.solutions.flatMap fun s => t.plain s.value ++ [' ']) ++
        commentLine "\\ variables.............: " [] ++ a ++ b
  | .timeLimitReached => return status "time limit reached" ++ remaining
  | .kappaMaxReached => return status "kappa max reached" ++ remaining
  | .limitReached => return status "limit reached" ++ remaining
  | .emptyContext => return status "context uninitialized"

/-- The text of the solution file (`main.cpp:1246-1271`) and the fault that stops it. -/
def solutionText (t : Texts) (time : List Char) (pb : RawProblem)
    (o : Outcome (Result × Info)) : List Char × Option Fault :=
  let start := resumeProblem t pb ++ commentLine "\\ solver starts: " []
  match o with
  | .error f => (start, some f)
  | .ok (r, i) =>
    let start := start ++ commentLine "\\ solver finishes: " time
    if r.status = .success then
      match r.solutions.getLast? with
      | none => (start, some (.ub "solutions.back()"))
      | some s =>
        let start := start ++ commentLine "\\ Solution found: " (t.fixed s.value)
        match resumeResult t i r with
        | .error f => (start, some f)
        | .ok x => (start ++ x, none)
    else
      (start ++ commentLine "\\ Solution not found. Missing constraints: " (t.nat r.remaining), none)

/-- The handlers of `main.cpp:1272-1301, 1333-1362`: an exception is reported; the other faults
are not exceptions. -/
def caught : Option Fault → List Msg × Option Fault
  | none => ([], none)
  | some (.exn e) => ([.failure e], none)
  | some f => ([], some f)

/-- How the process ends with a fault, or without. -/
def ending : Option Fault → Ending
  | none => .exit 0
  | some f => .killed f

/-- The file, when it can be opened. -/
def World.file (w : World) (name : String) (text : List Char) : List (String × List Char) :=
  if w.writable name then [(name, text)] else []

/-- The name of the solution file (`main.cpp:1223-1224`). -/
def World.solName (w : World) (f : String) : String :=
  String.ofList (f.toList ++ '-' :: w.pid ++ ".sol".toList)

/-- The name of the file of several problems (`main.cpp:1304`). -/
def World.resName (w : World) : String :=
  String.ofList ("baryonyx-".toList ++ w.pid ++ ".res".toList)

/-- One problem (`main.cpp:1218-1302`). -/
def single (w : World) (m : Main) (f : String) : Proc :=
  match w.read f with
  | .error e => { ending := .killed e }
  | .ok none => { err := [.unreadable f] }
  | .ok (some pb) =>
    let r := solutionText w.texts w.time pb (w.run m.parameters m.optimize pb)
    let c := caught r.2
    { files := w.file (w.solName f) r.1, err := c.1, ending := ending c.2 }

/-- The text of the file of several problems for one of them, after its name (`main.cpp:1315-1332`),
and the fault that stops it. -/
def problemText (t : Texts) (o : Outcome (Result × Info)) : List Char × Option Fault :=
  match o with
  | .error f => ([], some f)
  | .ok (r, i) =>
    if r.status = .success then
      match r.solutions.getLast? with
      | none => ([], some (.ub "solutions.back()"))
      | some s => (t.fixed s.value ++ ' ' :: i.duration ++ "s ".toList ++
          (r.solutions.flatMap fun s => t.plain s.value ++ [' ']) ++ ['\n'], none)
    else ("No solution found.\n".toList, none)

/-- The loop on the problems (`main.cpp:1307-1363`): the text of the file, the messages and the fault
that stops it.  `make_problem` is not in the `try`. -/
def several (w : World) (m : Main) : List String → List Char × List Msg × Option Fault
  | [] => ([], [], none)
  | f :: fs =>
    match w.read f with
    | .error e => ([], [], some e)
    | .ok none =>
      let r := several w m fs
      (r.1, .unreadable f :: r.2.1, r.2.2)
    | .ok (some pb) =>
      let p := problemText w.texts (w.run m.parameters m.optimize pb)
      let text := f.toList ++ ' ' :: p.1
      match caught p.2 with
      | (e, some g) => (text, e, some g)
      | (e, none) =>
        let r := several w m fs
        (text ++ r.1, e ++ r.2.1, r.2.2)

/-- The name of the benchmark (`main.cpp:1201-1203`); the version is that of
`app/CMakeLists.txt`. -/
def benchName (version : String) (m : Main) : String :=
  if m.benchName = "" then "bx-" ++ version else m.benchName

/-- The loop on the benchmark files (`main.cpp:1200-1215`). -/
def benches (w : World) (version : String) (m : Main) : List String → List Msg × Option Fault
  | [] => ([], none)
  | f :: fs =>
    match w.bench m.parameters f (benchName version m) with
    | .error e => ([], some e)
    | .ok ok =>
      let r := benches w version m fs
      (if ok then r.1 else .benchFailed f :: r.1, r.2)

/-- `main` after `parse` (`main.cpp:1175-1368`). -/
def afterParse (w : World) (version : String) (m : Main) : Proc :=
  if m.status ≠ .success then { err := [.refused m.parseArg], ending := .exit 1 }
  else if m.filenames = [] then { err := [.missing] }
  else if m.bench then
    let r := benches w version m m.filenames
    { err := r.1, ending := ending r.2 }
  else
    match m.filenames with
    | [f] => single w m f
    | fs =>
      let r := several w m fs
      { files := w.file w.resName r.1, err := r.2.1, ending := ending r.2.2 }

/-- `main` (`main.cpp:1170-1368`) on the arguments after the name of the program. -/
def main (c : Conv) (w : World) (version : String) (args : List String) : Proc :=
  afterParse w version (CommandLine.parse c args)

end Bx.MainProgram
