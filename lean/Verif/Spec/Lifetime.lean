import Verif.Basic

/-!
# The names of the objects of a program

A program that uses the library holds problems and results.  `Op` lists what it can do
with them, and `idealStep` says which texts each object should show: as if an object held
its texts itself, copies holding copies of them.
-/

namespace Bx.Life

/-- The characters of a name. -/
abbrev Text := List Char

/-- A name that a problem file contains: of a variable when it is met for the first time,
or of a constraint. -/
inductive Word where
  | name (t : Text)
  | label (t : Text)
  deriving DecidableEq, Repr

/-- The characters of a word. -/
def Word.text : Word → Text
  | .name t => t
  | .label t => t

/-- Whether the word is the name of a variable. -/
def Word.isName : Word → Bool
  | .name _ => true
  | .label _ => false

/-- What a reduction removes: the variables at some positions are fixed, and only the
constraints at some positions remain. -/
structure Cut where
  fixed : Nat → Bool
  kept : Nat → Bool

/-- The elements of a list at the positions that satisfy `p`, in their order. -/
def pickFrom {α : Type} (p : Nat → Bool) : Nat → List α → List α
  | _, [] => []
  | k, a :: l => if p k then a :: pickFrom p (k + 1) l else pickFrom p (k + 1) l

/-- The elements of a list at the positions that satisfy `p`, in their order. -/
def pick {α : Type} (p : Nat → Bool) (l : List α) : List α := pickFrom p 0 l

/-- What a program can do.  The objects are numbered in the order of their creation. -/
inductive Op where
  /-- `make_problem`: a new problem, from a file with these words; `false` when the file
  is refused after them. -/
  | readProblem (words : List Word) (accepted : Bool)
  /-- `result r;`. -/
  | newResult
  /-- `is >> r`: the names of the lines that are read. -/
  | readResult (i : Nat) (names : List Text)
  /-- A new object, copy of another one. -/
  | copy (i : Nat)
  /-- The object `i` receives a copy of the object `j`. -/
  | assign (i j : Nat)
  /-- A new object, to which the object `i` gives what it holds. -/
  | move (i : Nat)
  /-- `solve`, a new result: `none` without preprocessing. -/
  | solve (i : Nat) (cut : Option Cut)
  /-- `optimize`, a new result: `none` without preprocessing; the best result may be that of
  a problem obtained by some splits. -/
  | optimize (i : Nat) (cut : Option Cut) (splits : List Cut)
  /-- The end of the life of the object `i`. -/
  | destroy (i : Nat)

/-- The texts that an object shows: the names of its variables, those of its fixed
variables and the labels of its constraints. -/
structure Shown (α : Type) where
  names : List α := []
  affected : List α := []
  labels : List α := []
  deriving DecidableEq, Repr

/-- What remains after a reduction. -/
def Shown.reduce {α : Type} (o : Shown α) (c : Cut) : Shown α where
  names := pick (fun k => !c.fixed k) o.names
  affected := o.affected ++ pick c.fixed o.names
  labels := pick c.kept o.labels

/-- A result shows variables and no constraint. -/
def Shown.toResult {α : Type} (o : Shown α) : Shown α := { o with labels := [] }

/-- The result of `solve` or `optimize` after the reductions `cuts`. -/
def Shown.solved {α : Type} (o : Shown α) (cuts : List Cut) : Shown α :=
  (cuts.foldl Shown.reduce o).toResult

/-- The objects of a program, `none` after the end of their life. -/
abbrev Ideal := List (Option (Shown Text))

/-- The object `i`. -/
def Ideal.obj (s : Ideal) (i : Nat) : Option (Shown Text) := (s[i]?).join

/-- A new object that depends on the object `i`, if it lives. -/
def Ideal.derive (s : Ideal) (i : Nat) (f : Shown Text → Shown Text) : Ideal :=
  match s.obj i with
  | none => s
  | some o => s ++ [some (f o)]

/-- What each operation should do.  An operation on an object that does not live does
nothing. -/
def idealStep (s : Ideal) : Op → Ideal
  | .readProblem words accepted =>
    s ++ [some (if accepted then
      { names := (words.filter Word.isName).map Word.text
        labels := (words.filter fun w => !w.isName).map Word.text } else {})]
  | .newResult => s ++ [some {}]
  | .readResult i names =>
    match s.obj i with
    | none => s
    | some o => s.set i (some { o with names := o.names ++ names })
  | .copy i => s.derive i id
  | .assign i j =>
    match s.obj i, s.obj j with
    | some _, some o => s.set i (some o)
    | _, _ => s
  | .move i =>
    match s.obj i with
    | none => s
    | some o => s.set i (some {}) ++ [some o]
  | .solve i cut => s.derive i fun o => o.solved cut.toList
  | .optimize i cut splits => s.derive i fun o => o.solved (cut.toList ++ splits)
  | .destroy i => s.set i none

/-- What the operations should do, one after the other. -/
def ideal (ops : List Op) : Ideal := ops.foldl idealStep []

/-- The strings that an operation reads. -/
def Op.strings : Op → List Text
  | .readProblem words _ => words.map Word.text
  | .readResult _ names => names
  | _ => []

/-- A result is read in an object that shows no text yet. -/
def Op.Fresh (s : Ideal) : Op → Prop
  | .readResult i _ => ∀ o, s.obj i = some o → o = {}
  | _ => True

/-- Each operation that reads a result reads it in an object that shows nothing. -/
def FreshReads : Ideal → List Op → Prop
  | _, [] => True
  | t, op :: ops => op.Fresh t ∧ FreshReads (idealStep t op) ops

end Bx.Life
