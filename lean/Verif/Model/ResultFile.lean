import Verif.Model.Lexer
import Verif.Model.Utils

/-!
# The files of results

Models `operator>>` and `to_int` (`lib/src/result.cpp:55-123`) and the formatter of `result`
(`lib/src/result.hpp:156-224`).  A text is a list of characters.  `string_buffer::append`
returns a copy of its argument, or overflows when it is longer than a node (`Verif.Model.Utils`,
`C55`), so a name is a value here.
-/

namespace Bx.ResultFile

open Parser (isSpace isDigitC)

/-! ## Reading -/

/-- `std::sscanf(buffer, "%d", &result)` on a buffer that ends at the first NUL.  The outer
`none` is the result `0` (no number), `some 0` is also the result `EOF` when there is nothing to
read, since `result` is `0` then.  The overflow of an `int` is not modelled. -/
def scanInt (s : List Char) : Option Int :=
  let t := (s.takeWhile fun c => c ≠ '\x00').dropWhile isSpace
  let digits (u : List Char) : Option Int :=
    match u.takeWhile isDigitC with
    | [] => none
    | ds => some (ds.foldl (fun n c => 10 * n + (c.toNat - 48 : Nat)) 0 : Int)
  match t with
  | [] => some 0
  | '-' :: u => (digits u).map fun i => -i
  | '+' :: u => digits u
  | _ => digits t

/-- `to_int` (`result.cpp:55-75`). -/
def toInt (s : List Char) : Option Int :=
  if s.length > 512 then none else scanInt s

/-- What a line of the file is. -/
inductive Line where
  | comment
  | value (name : List Char) (v : Bool)
  deriving DecidableEq, Repr

/-- The body of the loop of `operator>>` (`result.cpp:93-118`).  `right` has one more character
than the rest of the line: the terminator of the buffer. -/
def readLine (buffer : List Char) : Outcome Line :=
  match buffer.dropWhile isSpace with
  | '\\' :: _ => .ok .comment
  | _ =>
    if '=' ∈ buffer then
      let left := buffer.takeWhile fun c => c ≠ '='
      let right := buffer.drop (left.length + 1) ++ ['\x00']
      match toInt right with
      | some v =>
        if left.length > Utils.nodeLength then .error (.ub "copy past the end of a node")
        else .ok (.value left (v ≠ 0))
      | none => .error (.exn "bad_name")
    else .error (.exn "bad_name")

/-- The state of `ret`. -/
structure State where
  names : List String := []
  values : List Int := []
  deriving DecidableEq, Repr

/-- `emplace_back` of a name and of a value (`result.cpp:112-114`). -/
def State.push (s : State) : Line → State
  | .comment => s
  | .value n v => ⟨s.names ++ [String.ofList n], s.values ++ [if v then 1 else 0]⟩

/-- The loop of `operator>>` (`result.cpp:87-120`): `std::getline` takes the characters up to a
newline; without a newline the stream is at its end. -/
def readLines (t : List Char) (s : State) : Outcome State :=
  let buffer := t.takeWhile fun c => c ≠ '\n'
  match _h : t.dropWhile fun c => c ≠ '\n' with
  | [] =>
    if buffer = [] then .ok s
    else do
      let l ← readLine buffer
      return s.push l
  | _ :: rest => do
    let l ← readLine buffer
    readLines rest (s.push l)
termination_by t.length
decreasing_by
  have := (List.dropWhile_suffix (l := t) fun c => decide (c ≠ '\n')).length_le
  rw [_h] at this
  simp only [List.length_cons] at this
  omega

/-- `operator>>` (`result.cpp:77-123`) on a new result; `none` is a stream that is not good, as
that of a file that does not exist. -/
def readResult (t : Option (List Char)) : Outcome Result := do
  let s ← match t with
    | none => .ok {}
    | some t => readLines t {}
  return { status := .success, variableName := s.names, solutions := [⟨s.values, 0⟩] }

/-! ## Writing -/

/-- The texts of the fields that are written in comments: `method`, the numbers, `status` and the
values of the solutions. -/
structure Header where
  method : List Char
  constraints : List Char
  vars : List Char
  duration : List Char
  loop : List Char
  status : List Char
  values : List (List Char)
  remaining : List Char

/-- A line of comment. -/
def commentLine (label : String) (v : List Char) : List Char := label.toList ++ v ++ ['\n']

/-- One of the loops on names and values (`result.hpp:196-210`).  An access out of range is
undefined. -/
def writeValues : List String → List Int → Outcome (List Char)
  | [], _ => .ok []
  | n :: ns, v :: vs => do
    let r ← writeValues ns vs
    return n.toList ++ '=' :: (if v ≠ 0 then '1' else '0') :: '\n' :: r
  | _ :: _, [] => .error (.ub "values[i]")

/-- `format` (`result.hpp:164-223`).  `h` has the texts of the fields. -/
def writeResult (h : Header) (r : Result) : Outcome (List Char) := do
  let head :=
    commentLine "\\ solver................: " h.method ++
    commentLine "\\ constraints...........: " h.constraints ++
    commentLine "\\ variables.............: " h.vars ++
    commentLine "\\ duration..............: " (h.duration ++ ['s']) ++
    commentLine "\\ loop..................: " h.loop ++
    commentLine "\\ status................: " h.status
  match r.status with
  | .success =>
    match r.solutions.getLast? with
    | none => return head
    | some s =>
      let a ← writeValues r.affected.names r.affected.values
      let b ← writeValues r.variableName s.variables
      return head ++ commentLine "\\ value.................: " (h.values.getLastD []) ++
        (if r.solutions.length > 1 then
          commentLine "\\ other value...........: " (h.values.flatMap fun v => v ++ [' ']) else []) ++
        commentLine "\\ variables.............: " [] ++ a ++ b
  | .timeLimitReached | .kappaMaxReached | .limitReached =>
    return head ++ commentLine "\\ remaining constraints.: " h.remaining
  | _ => return head

end Bx.ResultFile
