import Mathlib.Data.Rat.Floor
import Verif.Model.Params
import Verif.Model.Merge

/-!
# Images

A scale of colours, the bytes of an image and the places of the elements of constraints.
-/

namespace Bx.Observer.Spec

open Params (D)
open Merge (Merged)

/-- The number between -1 and 1 that is nearest to a number; NaN has none. -/
def nearest : D → Option Rat
  | .nan => none
  | .ninf => some (-1)
  | .fin q => some (max (-1) (min 1 q))
  | .pinf => some 1

/-- A colour: red, green and blue. -/
abbrev Colour := Nat × Nat × Nat

def black : Colour := (0, 0, 0)

/-- The colour of a number between -1 and 1, on the scale blue, cyan, green, yellow, red. -/
def shade (q : Rat) : Colour :=
  let t := 2 * (q + 1)
  (⌊255 * max 0 (min 1 (t - 2))⌋₊, ⌊255 * min 1 (min t (4 - t))⌋₊, ⌊255 * max 0 (min 1 (2 - t))⌋₊)

/-- The number that a colour of the scale stands for. -/
def told : Colour → Rat
  | (r, g, b) =>
    let t : Rat := if b = 255 then g / 255 else if b ≠ 0 then 2 - b / 255
      else if r ≠ 255 then 2 + r / 255 else 4 - g / 255
    t / 2 - 1

/-- The colour of a number. -/
def colourOf (v : D) : Colour := ((nearest v).map shade).getD black

/-- The bytes of an image with `w` columns and `h` rows, in the format P6: `px k j` is the pixel of
the row `k` and of the column `j`. -/
def image (w h : Nat) (px : Nat → Nat → Colour) : List Nat :=
  (s!"P6 {w} {h} 255 ".toList.map Char.toNat) ++
    (List.range h).flatMap fun k => (List.range w).flatMap fun j =>
      [(px k j).1, (px k j).2.1, (px k j).2.2]

/-- The places of the elements of constraints, in order: the constraint and the variable. -/
def places (csts : List Merged) : List (Nat × Nat) :=
  csts.zipIdx.flatMap fun c => c.1.elems.map fun e => (c.2, e.var)

/-- The preference of the variable `j` in the constraint `k`, if it is in it. -/
def preference (csts : List Merged) (P : List D) (k j : Nat) : Option D :=
  if (k, j) ∈ places csts then P[(places csts).idxOf (k, j)]? else none

/-- The pixels of an observation. -/
def pixel (csts : List Merged) (P : List D) (k j : Nat) : Colour :=
  (preference csts P k j).elim black colourOf

/-- The observation has a number for each element and for each constraint. -/
def Seen (csts : List Merged) (o : List D × List D) : Prop :=
  o.1.length = (places csts).length ∧ o.2.length = csts.length ∧ D.nan ∉ o.1 ∧ D.nan ∉ o.2

/-- The bytes of a table of the preferences: a line for each constraint, with a number for each
variable, 0 when it is not in the constraint.  `num` is the text of a number. -/
def table (num : D → String) (csts : List Merged) (n : Nat) (P : List D) : List Nat :=
  (List.range csts.length).flatMap fun k =>
    ((List.range n).flatMap fun j =>
      (num ((preference csts P k j).getD (.fin 0)) ++ " ").toList.map Char.toNat) ++
    ("\n".toList.map Char.toNat)

/-- The files of a run: one for each observation, numbered from 0, except those that cannot be
opened. -/
def frames (opens : String → Bool) (name : Nat → String) (content : List D → List Nat)
    (os : List (List D × List D)) : List (String × List Nat) :=
  os.zipIdx.flatMap fun o => if opens (name o.2) then [(name o.2, content o.1.1)] else []

/-- The multipliers that the row `r` of an image shows: those of the pass `r`, or those of the last
pass. -/
def shown (os : List (List D × List D)) (r : Nat) : List D :=
  ((os.map Prod.snd)[min r (os.length - 1)]?).getD []

end Bx.Observer.Spec
