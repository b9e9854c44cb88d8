import Verif.Basic

/-!
# Specification: the words and the tokens of a problem file

From the LP file format: a text is a sequence of words separated by white space, a
word that begins with `\` begins a comment that ends with the line, and a word is cut
at the symbols and after the numbers.
-/

namespace Bx.Parser

/-- The parts of a text between the characters that satisfy `p`. -/
def pieces (p : Char → Bool) : List Char → List (List Char)
  | [] => [[]]
  | c :: t =>
    if p c then [] :: pieces p t
    else
      match pieces p t with
      | [] => [[c]]
      | w :: r => (c :: w) :: r

/-- White space. -/
def blank (c : Char) : Bool := [' ', '\t', '\n', '\x0b', '\x0c', '\r'].contains c

/-- The words of a line with those of its comment. -/
def lineAll (line : List Char) : List (List Char) := (pieces blank line).filter (· ≠ [])

/-- A word that begins a comment. -/
def opens (w : List Char) : Bool := w.head? == some '\\'

/-- The words of a line, without its comment. -/
def lineWords (line : List Char) : List (List Char) := (lineAll line).takeWhile fun w => !opens w

/-- The lines of a text. -/
def linesOf (text : List Char) : List (List Char) := pieces (· == '\n') text

/-- The words of a text, without the comments. -/
def wordsOf (text : List Char) : List (List Char) := (linesOf text).flatMap lineWords

/-- The symbols, which are tokens by themselves. -/
def symbol (c : Char) : Bool := ['<', '=', '>', ':', '-', '+', '[', ']', '*', '^'].contains c

/-- A digit. -/
def digit (c : Char) : Bool := ['0', '1', '2', '3', '4', '5', '6', '7', '8', '9'].contains c

/-- The characters of the names. -/
def nameChar (c : Char) : Bool :=
  ['a', 'b', 'c', 'd', 'e', 'f', 'g', 'h', 'i', 'j', 'k', 'l', 'm', 'n', 'o', 'p', 'q', 'r', 's',
    't', 'u', 'v', 'w', 'x', 'y', 'z', 'A', 'B', 'C', 'D', 'E', 'F', 'G', 'H', 'I', 'J', 'K', 'L',
    'M', 'N', 'O', 'P', 'Q', 'R', 'S', 'T', 'U', 'V', 'W', 'X', 'Y', 'Z', '0', '1', '2', '3', '4',
    '5', '6', '7', '8', '9', '!', '"', '#', '$', '%', '&', '(', ')', ',', '.', ';', '?', '@', '_',
    '{', '}', '~'].contains c

/-- A token that begins with `c` goes on with `d`: a number has digits, points and
exponents. -/
def continues (c d : Char) : Bool :=
  !symbol d && (if digit c || c == '.' then digit d || d == '.' || d == 'e' || d == 'E' else true)

/-- Cuts a word in tokens; `n` is at least the number of characters. -/
def cutWord : Nat → List Char → List (List Char)
  | _, [] => []
  | 0, _ => []
  | n + 1, c :: t =>
    if symbol c then [c] :: cutWord n t
    else (c :: t.takeWhile (continues c)) :: cutWord n (t.dropWhile (continues c))

/-- The tokens of a text. -/
def tokensOf (text : List Char) : List (List Char) :=
  (wordsOf text).flatMap fun w => cutWord w.length w

/-- For each token of a word, whether there is one before it. -/
def inside : List (List Char) → List Bool
  | [] => []
  | _ :: r => false :: r.map fun _ => true

/-- For each token of the text, whether it is in the same word as the token before it. -/
def gluedOf (text : List Char) : List Bool :=
  (wordsOf text).flatMap fun w => inside (cutWord w.length w)

/-- The names of the quadratic terms are not written too far apart: one at least of the ten tokens
from a `*`, and three at least of the twelve tokens from a `^`, are in the same word as the token
before them.  A file that has no blank before `*`, before `^`, before the exponent and
after it is written so. -/
def Compact (text : List Char) : Prop :=
  ∀ i < (tokensOf text).length,
    ((tokensOf text).getD i [] = ['*'] → 1 ≤ (((gluedOf text).drop i).take 10).count true) ∧
    (((tokensOf text).getD i []).head? = some '^' →
      3 ≤ (((gluedOf text).drop i).take 12).count true)

instance (text : List Char) : Decidable (Compact text) := by
  unfold Compact; infer_instance

/-- The words of each line that has some, with those of the comments. -/
def linesAll (text : List Char) : List (List (List Char)) :=
  ((linesOf text).map lineAll).filter (· ≠ [])

/-- The last line that has a word has no comment. -/
def NoFinalComment (text : List Char) : Prop :=
  ∀ ws ∈ (linesAll text).getLast?, ∀ w ∈ ws, opens w = false

instance (text : List Char) : Decidable (NoFinalComment text) := by
  unfold NoFinalComment; infer_instance

/-- A text that the reader does not cut elsewhere than at white space: it has no NUL
character and no word of 512 characters. -/
def ShortWords (text : List Char) : Prop :=
  '\x00' ∉ text ∧ ∀ w ∈ wordsOf text, w.length ≤ 511

instance (text : List Char) : Decidable (ShortWords text) := by
  unfold ShortWords; infer_instance

/-- A text that is read as it is written. -/
def Readable (text : List Char) : Prop := NoFinalComment text ∧ ShortWords text

instance (text : List Char) : Decidable (Readable text) := by
  unfold Readable; infer_instance

end Bx.Parser
