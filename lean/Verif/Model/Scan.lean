import Verif.Model.Parser

/-!
# A reading of numbers

A function with the behaviour of `std::sscanf(buffer, "%lf", &result)` in the GNU C
library on the tokens of a problem file, which have no sign: the longest prefix that
is a number.  Hexadecimal numbers and rounding are not modelled.  The theorems hold
for every function that reads some texts as they must be read
(`Verif.Spec.Parser`); this one is used by the examples.
-/

namespace Bx.Parser

open Params (D)

/-- The value of a digit. -/
def digitVal (c : Char) : Nat := c.toNat - 48

/-- The digits at the beginning of a text. -/
def digitsOf (t : Token) : Token := t.takeWhile isDigitC

/-- The number that a list of digits denotes. -/
def natOf (ds : Token) : Nat := ds.foldl (fun n c => 10 * n + digitVal c) 0

/-- The exponent of a number after its digits. -/
def exponentOf (t : Token) : Nat :=
  match t with
  | c :: t => if c == 'e' || c == 'E' then natOf (digitsOf t) else 0
  | [] => 0

/-- Digits, a fraction and an exponent. -/
def scanDecimal (t : Token) : Option D :=
  let whole := digitsOf t
  let rest := t.drop whole.length
  let frac := if rest.head? = some '.' then digitsOf (rest.drop 1) else []
  if whole = [] ∧ frac = [] then none
  else
    let rest1 := if rest.head? = some '.' then rest.drop (frac.length + 1) else rest
    some (.fin ((natOf (whole ++ frac) : Rat) / 10 ^ frac.length * 10 ^ exponentOf rest1))

/-- `sscanf(buffer, "%lf", &result)` in the GNU C library. -/
def scanf (t : Token) : Option D :=
  match scanDecimal t with
  | some d => some d
  | none =>
    if areEqual (t.take 3) "inf".toList then some .pinf
    else if areEqual (t.take 3) "nan".toList then some .nan
    else none

end Bx.Parser
