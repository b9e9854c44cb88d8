import Verif.Model.Setup

/-!
# Specification: an objective multiplied by a number
-/

namespace Bx.Spec

open Costs Itm

/-- The objective multiplied by `a`: its linear terms, its quadratic terms and its constant. -/
def times (a : Rat) (o : Objective) : Objective where
  elems := o.elems.map fun e => { e with factor := a * e.factor }
  qelems := o.qelems.map fun e => { e with factor := a * e.factor }
  value := a * o.value

/-- Two runs do the same search: the same passes with the same vectors, the same status and the same solution,
whose value is multiplied by `a`.  Two runs that fail fail in the same way. -/
def SameSearch (a : Rat) : Outcome (Answer × Num.State) → Outcome (Answer × Num.State) → Prop
  | .ok r, .ok r' => r'.1.status = r.1.status ∧ r'.1.exit = r.1.exit ∧ r'.1.mainPasses = r.1.mainPasses ∧
      r'.1.final.trace = r.1.final.trace ∧
      r'.1.solution = r.1.solution.map fun s => (s.1, s.2.map (a * ·))
  | .error f, .error f' => f = f'
  | _, _ => False

/-- What a norm divides the costs by: the sum of the absolute values, the sum of the squares (without its
square root) or the greatest cost. -/
def divisor (n : Norm) (c : Cost) : Rat :=
  let l := c.linear ++ c.quads.map Prod.fst
  match n with
  | .none => 1
  | .l1 => (l.map (|·|)).sum
  | .l2 => (l.map fun v => v * v).sum
  | .loo =>
    match l with
    | [] => 0
    | v :: vs => vs.foldl max v

/-- The costs of the objective can be divided: the divisor is a normal number of the floating point type. -/
def Divides (e : Setup.Env) (o : Objective) (n : Nat) : Prop :=
  ∃ c, Setup.makeCosts o n = .ok c ∧ e.float.isNormal (divisor e.norm c) = true

/-- The cost of a variable, or of a product, is not null. -/
def HasCost (o : Objective) (n : Nat) : Prop :=
  ∃ c, Setup.makeCosts o n = .ok c ∧ ((∃ v ∈ c.linear, v ≠ 0) ∨ ∃ q ∈ c.quads, q.1 ≠ 0)

/-- What the normalised costs are multiplied by when the objective is multiplied by `a`. -/
def shrink (m : Norm) (a : Rat) : Rat :=
  match m with
  | .none => a
  | .l1 | .loo => 1
  | .l2 => a⁻¹

/-- The same choices of the outside when the reduced costs are multiplied by `b`: what was left in the array
of the reduced costs is multiplied, and the sorts return the same orders. -/
structure SameChoices (b : Rat) (w w' : Num.World Mult.Oracle) : Prop where
  sort : ∀ t i l, (w'.oracle t i).sort (l.map fun r => { r with value := b * r.value }) =
    ((w.oracle t i).sort l).map fun r => { r with value := b * r.value }
  coin : ∀ t i j, (w'.oracle t i).coin j = (w.oracle t i).coin j
  stale : ∀ t i j, (w'.oracle t i).stale j = b * (w.oracle t i).stale j
  sortR : ∀ t key l, w'.sortR t (fun k => b * key k) l = w.sortR t key l
  shuffle : w'.shuffle = w.shuffle
  sortO : w'.sortO = w.sortO
  pow : w'.pow = w.pow
  timeUp : w'.timeUp = w.timeUp
  rnd : w'.rnd = w.rnd

/-- The other direction. -/
def opposite : ObjType → ObjType
  | .minimize => .maximize
  | .maximize => .minimize

/-- The same choices of the outside when the reduced costs have the opposite sign: the sorts return the same orders,
which are decreasing for one run and increasing for the other. -/
structure OppositeChoices (w w' : Num.World Mult.Oracle) : Prop where
  sort : ∀ t i l, (w'.oracle t i).sort (l.map fun r => { r with value := -1 * r.value }) =
    ((w.oracle t i).sort l).map fun r => { r with value := -1 * r.value }
  coin : ∀ t i j, (w'.oracle t i).coin j = (w.oracle t i).coin j
  stale : ∀ t i j, (w'.oracle t i).stale j = -1 * (w.oracle t i).stale j
  shuffle : w'.shuffle = w.shuffle
  sortO : w'.sortO = w.sortO
  pow : w'.pow = w.pow
  timeUp : w'.timeUp = w.timeUp
  rnd : w'.rnd = w.rnd

end Bx.Spec
