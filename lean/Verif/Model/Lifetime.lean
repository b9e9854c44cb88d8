import Verif.Model.Utils
import Verif.Spec.Lifetime

/-!
# Who owns the names

A name of a problem or of a result is a `std::string_view` on a `string_buffer` that the
object shares through `strings`, a `std::shared_ptr` (`lib/include/baryonyx/core:100, 673,
718`, `lib/src/problem.hpp:124`).  This file models who holds which buffer during a
program.  The types `raw_problem`, `problem` and `result` have one model, `Obj`: a raw
problem has no fixed variable and a result no label.  The texts that the operations
receive, the positions that a reduction removes and the splits are arbitrary.
-/

namespace Bx.Life

/-- A `std::string_view` on a buffer, designated by the number of the buffers made before
it. -/
structure Ref where
  buffer : Nat
  view : Utils.View
  deriving DecidableEq, Repr

/-- A `raw_problem`, a `problem` or a `result` (`core:666-690, 716-748`,
`problem.hpp:124-136`): the shared pointer and the views. -/
structure Obj where
  strings : Option Nat := none
  shown : Shown Ref := {}
  deriving Repr

/-- The buffers made since the beginning, and the objects, `none` after the end of their
life. -/
structure State where
  heap : List Utils.Buffer := []
  objs : List (Option Obj) := []

/-- The object `i`. -/
def State.obj (s : State) (i : Nat) : Option Obj := (s.objs[i]?).join

/-- Whether a buffer has an owner: a `shared_ptr` frees it with its last owner. -/
def State.owned (s : State) (b : Nat) : Bool :=
  s.objs.any fun o => (o.bind Obj.strings) == some b

/-- The characters that a view denotes; `none` for a view on a buffer that was freed. -/
def State.read (s : State) (r : Ref) : Option Text :=
  if s.owned r.buffer then (s.heap[r.buffer]?).bind fun b => b.read r.view else none

/-- A new object. -/
def State.push (s : State) (o : Obj) : State := { s with objs := s.objs ++ [some o] }

/-- `make_problem` (`parser.cpp:455-458, 470-474, 1119, 1261-1271`): the words are appended
in their order to a new buffer.  A refused file gives a `raw_problem` without strings. -/
def State.readProblem (s : State) (words : List Word) (accepted : Bool) : Outcome State := do
  let (b, vs) ← Utils.Buffer.appendAll {} (words.map Word.text)
  let refs := (words.zip vs).map fun p => (p.1, (⟨s.heap.length, p.2⟩ : Ref))
  let o : Obj :=
    if accepted then
      { strings := some s.heap.length
        shown :=
          { names := (refs.filter fun p => p.1.isName).map Prod.snd
            labels := (refs.filter fun p => !p.1.isName).map Prod.snd } }
    else {}
  .ok (State.push { s with heap := s.heap ++ [b] } o)

/-- `operator>>(std::istream&, result&)` (`result.cpp:77-123`): a new buffer replaces the
old one, and the names are added to those of the object. -/
def State.readResult (s : State) (i : Nat) (names : List Text) : Outcome State := do
  match s.obj i with
  | none => .ok s
  | some o =>
    let (b, vs) ← Utils.Buffer.appendAll {} names
    let refs := vs.map fun v => (⟨s.heap.length, v⟩ : Ref)
    .ok { heap := s.heap ++ [b]
          objs := s.objs.set i (some
            { strings := some s.heap.length
              shown := { o.shown with names := o.shown.names ++ refs } }) }

/-- The copy constructors and assignments, which the compiler makes: the pointer and the
views are copied. -/
def Obj.copy (o : Obj) : Obj := ⟨o.strings, o.shown⟩

/-- `make_problem()` of the preprocessor (`preprocessor.cpp:651-675`) with
`affected_variable_copy` (`preprocessor.cpp:775-801`), `variables_exclude_copy`
(`preprocessor.cpp:803-826`) and the labels of `constraints_exclude_copy`
(`preprocessor.cpp:828-859`). -/
def Obj.reduce (o : Obj) (c : Cut) : Obj := ⟨o.strings, o.shown.reduce c⟩

/-- The problem that is solved: `preprocess` or `problem(raw_pb)`
(`preprocessor.cpp:903-923`, `problem.hpp:47-57`), then the splits of
`branch-optimizer.cpp:167-186`. -/
def Obj.prepare (o : Obj) (cuts : List Cut) : Obj := cuts.foldl Obj.reduce o.copy

/-- The strings and the names of a result (`itm-solver-common.hpp:309-311`,
`itm-optimizer-common.hpp:790-792, 864-866`). -/
def Obj.toResult (o : Obj) : Obj := ⟨o.strings, o.shown.toResult⟩

/-- A new object that depends on the object `i`, if it lives. -/
def State.derive (s : State) (i : Nat) (f : Obj → Obj) : State :=
  match s.obj i with
  | none => s
  | some o => s.push (f o)

/-- One operation. -/
def step (s : State) : Op → Outcome State
  | .readProblem words accepted => s.readProblem words accepted
  | .newResult => .ok (s.push {})
  | .readResult i names => s.readResult i names
  | .copy i => .ok (s.derive i Obj.copy)
  | .assign i j =>
    match s.obj i, s.obj j with
    | some _, some o => .ok { s with objs := s.objs.set i (some o.copy) }
    | _, _ => .ok s
  | .move i =>
    match s.obj i with
    | none => .ok s
    | some o => .ok (State.push { s with objs := s.objs.set i (some {}) } o.copy)
  | .solve i cut => .ok (s.derive i fun o => (o.prepare cut.toList).toResult)
  | .optimize i cut splits =>
    .ok (s.derive i fun o => (o.prepare (cut.toList ++ splits)).toResult)
  | .destroy i => .ok { s with objs := s.objs.set i none }

/-- A program: the operations, one after the other. -/
def run : State → List Op → Outcome State
  | s, [] => .ok s
  | s, op :: ops => do
    let s1 ← step s op
    run s1 ops

/-- What an object shows in a state. -/
def State.shows (s : State) (o : Obj) : Shown (Option Text) where
  names := o.shown.names.map s.read
  affected := o.shown.affected.map s.read
  labels := o.shown.labels.map s.read

end Bx.Life
