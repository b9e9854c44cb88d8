import Verif.Basic

/-!
# What a file of results has to keep
-/

namespace Bx.Spec.ResultFile

/-- The characters that `std::isspace` skips. -/
def Blank (c : Char) : Prop := c ∈ [' ', '\t', '\n', '\x0b', '\x0c', '\r']

/-- A name that a file of results can hold: no newline, no `=`, and it does not look like a
comment, that is, a backslash after blanks; its length is at most 1 MiB. -/
def Readable (n : String) : Prop :=
  n.toList.length ≤ 1024 * 1024 ∧ '\n' ∉ n.toList ∧ '=' ∉ n.toList ∧
  ∀ u v, n.toList = u ++ '\\' :: v → ∃ c ∈ u, ¬ Blank c

/-- The assignment that a result reports: each name, of the affected variables and then of the
variables of the last solution, with whether its value is not `0`. -/
def assignment (r : Result) : List (String × Bool) :=
  (r.affected.names.zip r.affected.values ++
    r.variableName.zip ((r.solutions.getLast?.map (·.variables)).getD [])).map
    fun p => (p.1, decide (p.2 ≠ 0))

/-- A successful result with a solution and a value for each name. -/
structure Complete (r : Result) : Prop where
  success : r.status = .success
  affected : r.affected.names.length = r.affected.values.length
  solved : ∃ s, r.solutions.getLast? = some s ∧ r.variableName.length = s.variables.length

/-- A line of a file of results: a comment, or a name, `=`, blanks, a sign, digits and anything. -/
inductive Item where
  | comment (blanks text : List Char)
  | value (name : String) (blanks sign digits tail : List Char)

/-- The text of a line. -/
def Item.text : Item → List Char
  | .comment blanks text => blanks ++ '\\' :: text
  | .value name blanks sign digits tail =>
    name.toList ++ '=' :: (blanks ++ sign ++ digits ++ tail)

/-- The digits. -/
def Digit (c : Char) : Prop := '0' ≤ c ∧ c ≤ '9'

/-- The line is on one line, its name can be read, and it has one to nine digits: longer numbers can
overflow an `int`, for which `sscanf` is undefined. -/
def Item.Ok : Item → Prop
  | .comment blanks text => (∀ c ∈ blanks, Blank c) ∧ '\n' ∉ blanks ++ text
  | .value name blanks sign digits tail =>
    Readable name ∧ (∀ c ∈ blanks, Blank c) ∧ sign ∈ [[], ['-'], ['+']] ∧ digits ≠ [] ∧
    digits.length ≤ 9 ∧ (∀ c ∈ digits, Digit c) ∧ (∀ c ∈ tail.head?, ¬ Digit c) ∧ '\n' ∉ blanks ++ tail ∧
    (blanks ++ sign ++ digits ++ tail).length ≤ 511

/-- What a line says: the variable and whether its value is not `0`. -/
def Item.meaning : Item → Option (String × Bool)
  | .comment _ _ => none
  | .value name _ _ digits _ => some (name, digits.any (· ≠ '0'))

end Bx.Spec.ResultFile
