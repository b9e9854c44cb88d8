import Verif.Spec.Grammar

/-!
# The lines of the bounds, as the reader takes them

A line of the bounds in any of its forms, with any operator, and what it gives to its variable.
-/

namespace Bx.Parser

open Params (D)

/-- A line of the bounds. -/
inductive AnyLine where
  /-- `x op b` -/
  | one (name : Token) (op : OpWord) (b : Number)
  /-- `a op x op' b` -/
  | two (a : Number) (op : OpWord) (name : Token) (op' : OpWord) (b : Number)
  /-- `x` -/
  | bare (name : Token)
  /-- `a op x`, with the word that follows: the reader drops it -/
  | left (a : Number) (op : OpWord) (name : Token) (lost : Token)
  deriving DecidableEq, Repr

namespace AnyLine

/-- The variable of a line. -/
def name : AnyLine → Token
  | one x _ _ => x
  | two _ _ x _ _ => x
  | bare x => x
  | left _ _ x _ => x

/-- The tokens of a line. -/
def tokens : AnyLine → List Token
  | one x op b => x :: (op.tokens ++ b.tokens)
  | two a op x op' b => a.tokens ++ op.tokens ++ x :: (op'.tokens ++ b.tokens)
  | bare x => [x]
  | left a op x lost => a.tokens ++ op.tokens ++ [x, lost]

/-- The bounds that a line gives, whatever its operators. -/
def range (ival : Token → Int) : AnyLine → Int × Int
  | one _ _ b => (0, b.value ival)
  | two a _ _ _ b => (a.value ival, b.value ival)
  | bare _ => (intMin, intMax)
  | left a _ _ _ => (a.value ival, intMax)

/-- A line that the reader takes.  The numbers are `int`, a name that begins the line does not begin as
a number, the two numbers of a line do not decrease, and the word after `a op x` is not an operator. -/
def Ok (scan : Token → Option D) (ival : Token → Int) (names : List Token) : AnyLine → Prop
  | one x _ b => x ∈ names ∧ NameOk scan x ∧ ¬ LikeNumber x ∧ IntOk scan ival b.num
  | two a _ x _ b => x ∈ names ∧ NameOk scan x ∧ IntOk scan ival a.num ∧ IntOk scan ival b.num ∧
      a.value ival ≤ b.value ival
  | bare x => x ∈ names ∧ NameOk scan x ∧ ¬ LikeNumber x
  | left a _ x lost => x ∈ names ∧ NameOk scan x ∧ IntOk scan ival a.num ∧
      ∀ c ∈ lost.head?, c ≠ '<' ∧ c ≠ '>' ∧ c ≠ '='

/-- Two lines that differ by their operators only. -/
def SameButOperators : AnyLine → AnyLine → Prop
  | one x _ b, one y _ c => x = y ∧ b = c
  | two a _ x _ b, two c _ y _ d => a = c ∧ x = y ∧ b = d
  | bare x, bare y => x = y
  | left a _ x l, left c _ y m => a = c ∧ x = y ∧ l = m
  | _, _ => False

end AnyLine

/-- The tokens of a file that has the lines `ls` in its bounds.  Its own bounds are left out. -/
def File.tokensWith (f : File) (ls : List AnyLine) : List Token :=
  typeWord f.type :: (labelTokens f.label ++ objTokens f.obj f.more ++
    (sectionTokens ["subject".toList, "to".toList] Con.tokens f.cons ++
    ("bounds".toList :: (ls.flatMap AnyLine.tokens ++
    (sectionTokens ["binary".toList] (fun n => [n]) f.binary ++
    (sectionTokens ["general".toList] (fun n => [n]) f.general ++ ["end".toList]))))))

/-- The bounds of the last line about a variable, or those of a variable without a line. -/
def lastRange (ival : Token → Int) (ls : List AnyLine) (x : Token) : Int × Int :=
  match (ls.filter fun l => l.name = x).getLast? with
  | some l => l.range ival
  | none => (0, intMax)

/-- The bounds and the type of a variable of a file with the lines `ls`. -/
def File.valueWith (ival : Token → Int) (f : File) (ls : List AnyLine) (x : Token) : VarValue :=
  let r := lastRange ival ls x
  let v : VarValue := if x ∈ f.binary.getD [] then ⟨0, 1, .binary⟩ else ⟨r.1, r.2, .real⟩
  if x ∈ f.general.getD [] then { v with type := .general } else v

end Bx.Parser
