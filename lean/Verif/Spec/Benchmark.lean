import Verif.Model.Benchmark

/-!
# What a benchmark file is, and what ranks and averages are

Independent of the code that reads and writes the files.
-/

namespace Bx.Spec.Benchmark

open Bx.Params Bx.Benchmark

/-- A line of a csv file. -/
def line (first : Text) (others : List Text) : Text :=
  first ++ others.flatMap (fun f => ',' :: f) ++ ['\n']

/-- The results of solvers on models: for each model, a value per solver. -/
structure Table where
  solvers : List Text
  rows : List (Text × List D)

/-- The text of a table; `txt` writes a number. -/
def csv (txt : D → Text) (t : Table) : Text :=
  line "file".toList t.solvers ++ t.rows.flatMap fun r => line r.1 (r.2.map txt)

/-- The characters that end a word: the comma, the tabulation and the ends of lines. -/
def Separator (c : Char) : Prop := c ∈ [',', '\t', '\n', '\x0b', '\x0c', '\r']

/-- A text that can be a cell: it has no separator and is not made of spaces only. -/
def Word (w : Text) : Prop := (∀ c ∈ w, ¬ Separator c) ∧ ∃ c ∈ w, c ≠ ' '

/-- A text that can be the name of a solver. -/
def SolverName (w : Text) : Prop := (∀ c ∈ w, c ≠ ',' ∧ c ≠ '\n') ∧ ∃ c ∈ w, c ∉ Utils.blanks

/-- The number `v` is written as a word that is read as `v`. -/
def Faithful (num : Text → Option D) (txt : D → Text) (v : D) : Prop :=
  Word (txt v) ∧ (txt v).length ≤ 512 ∧ num (Utils.trim (txt v)) = some v

/-- The names of the solvers, and no name of one letter before another one. -/
def Solvers (l : List Text) : Prop :=
  (∀ s ∈ l, SolverName s) ∧ ∀ s ∈ l.dropLast, s.length ≠ 1

/-- A table that can be written and read again. -/
structure Table.Ok (num : Text → Option D) (txt : D → Text) (t : Table) : Prop where
  solvers : Solvers t.solvers
  names : ∀ r ∈ t.rows, Word r.1
  widths : ∀ r ∈ t.rows, r.2.length = t.solvers.length
  cells : ∀ r ∈ t.rows, ∀ v ∈ r.2, Faithful num txt v

/-- The table with one more column. -/
def Table.add (t : Table) (name : Text) (column : List D) : Table :=
  ⟨t.solvers ++ [name], (t.rows.zip column).map fun p => (p.1.1, p.1.2 ++ [p.2])⟩

/-- The value of the new column for a model: infinity unless a solution is found. -/
def valueOf : Attempt → D
  | .solved _ v => v
  | _ => .pinf

/-- The direction in which the results of a model are compared. -/
def typeOf : Attempt → ObjType
  | .solved t _ | .unsolved t | .thrown t => t
  | .unreadable => .minimize

/-- `a` is a better result than `b`; infinity is no result. -/
def better (t : ObjType) (a b : D) : Bool :=
  match a, b with
  | .fin a, .fin b =>
    match t with
    | .minimize => decide (a < b)
    | .maximize => decide (b < a)
  | .fin _, .pinf => true
  | _, _ => false

/-- The rank of `v` among `vs`: one more than the number of distinct better values. -/
def denseRank (t : ObjType) (vs : List D) (v : D) : Nat :=
  (vs.filter fun w => better t w v).dedup.length + 1

/-- A number of the line that is not greater than any other number of the line. -/
def Lowest (vs : List D) (v : D) : Prop := ∃ q, v = .fin q ∧ ∀ p, .fin p ∈ vs → q ≤ p

/-- A number of the line that is not less than any other number of the line. -/
def Highest (vs : List D) (v : D) : Prop := ∃ q, v = .fin q ∧ ∀ p, .fin p ∈ vs → p ≤ q

/-- A value or no result. -/
def Proper : D → Prop
  | .fin _ | .pinf => True
  | _ => False

/-- What `std::sort` guarantees for the three sorts. -/
structure SortsOk (s : Sorts) : Prop where
  value_perm : ∀ t l, (s.value t l).Perm l
  value_sorted : ∀ t l, (∀ r ∈ l, r.value ≠ .nan) →
    (s.value t l).Pairwise fun a b => before t b a = false
  mean_perm : ∀ l, (s.mean l).Perm l
  mean_sorted : ∀ l, (∀ r ∈ l, Proper r.value) →
    (s.mean l).Pairwise fun a b => D.lt b.value a.value = false
  position_perm : ∀ l, (s.position l).Perm l
  position_sorted : ∀ l, (s.position l).Pairwise fun a b => a.position ≤ b.position

/-- The sizes at which the array is full: 512, 768, 1152... -/
def full : Nat → Nat
  | 0 => 512
  | n + 1 => full n * 3 / 2

/-- The mean of numbers. -/
def mean (l : List Rat) : Rat := l.sum / l.length

/-- The distance, in percents of `a`, from `a` to `c`. -/
def percent (a c : Rat) : Rat := (a - c) / a * 100

/-- The values of the new column, for the models of a table. -/
def newColumn (attempt : Text → Attempt) (t : Table) : List D :=
  t.rows.map fun r => valueOf (attempt r.1)

/-- A solution was found. -/
def isSolved : Attempt → Bool
  | .solved _ _ => true
  | _ => false

/-- `optimize` returned no solution. -/
def isUnsolved : Attempt → Bool
  | .unsolved _ => true
  | _ => false

/-- The pairs of finite numbers. -/
def comparable : List (D × D) → List (Rat × Rat)
  | [] => []
  | (.fin a, .fin c) :: l => (a, c) :: comparable l
  | _ :: l => comparable l

end Bx.Spec.Benchmark
