import Verif.Model.Reinit

/-!
# Specification: what the random engine guarantees at the start of a turn
-/

namespace Bx.Spec.Reinit

open Bx.Optimizer

/-- A normal distribution: without deviation, every value is the mean (in the C++ standard the
deviation must be positive; the usual libraries compute `mean + deviation * z`).  With one, any value
can come. -/
def Normal (mean dev : Rat) (s : Nat → Rat) : Prop := dev = 0 → ∀ k, s k = mean

/-- The draws of a turn: the three normal distributions; an event of probability 0 does not occur,
one of probability 1 does. -/
structure DrawsOk (t : Tuning) (d : Draws) : Prop where
  sel : Normal t.selMean t.selDev d.sel
  var : Normal t.varMean t.varDev d.var
  val : Normal t.valMean t.valDev d.val
  never : t.insertion = 0 → d.insert = false
  always : t.insertion = 1 → d.insert = true
  unset : ∀ i, d.value 0 i = false
  set : ∀ i, d.value 1 i = true

/-- A population of `n`: the ranking holds each of the numbers below `n` once. -/
def Population (n : Nat) (st : Storage) : Prop :=
  st.data.length = n ∧ st.indices.Perm (List.range n)

/-- Usual draws for a population of `n`: the number 1 does not come, and each rank comes again and
again. -/
structure Usual (n : Nat) (s : Nat → Rat) : Prop where
  notOne : ∀ k, s k ≠ 1
  again : ∀ i < n, ∀ k, ∃ j, k ≤ j ∧ (i : Rat) ≤ n * s j ∧ n * s j < i + 1

/-- Usual draws for the mutation: a probability over 0 and under 1 comes for the variables, a
probability for their values. -/
def UsualMutation (var val : Nat → Rat) : Prop :=
  (∃ k, 0 < var k ∧ var k < 1) ∧ ∃ k, 0 ≤ val k ∧ val k ≤ 1

/-- The vector `y` is a mutation of `x`, of `n` variables: each one is kept, or it was chosen and its
value was drawn. -/
def MutationOf (d : Draws) (n : Nat) (x y : Nat → Bool) : Prop :=
  ∃ p q, 0 < p ∧ p < 1 ∧ 0 ≤ q ∧ q ≤ 1 ∧ (∃ k, d.var k = p) ∧ (∃ k, d.val k = q) ∧
    ∀ i, y i = if i < n ∧ d.flip p i = true then d.value q i else x i

/-- The vector `y` that the mutation gives for `x`: with both parameters of the values at 0 it is
`x`. -/
def Mutated (t : Tuning) (d : Draws) (n : Nat) (x y : Nat → Bool) : Prop :=
  if t.valMean = 0 ∧ t.valDev = 0 then y = x else MutationOf d n x y

/-- The member `p` of a population of `n` was chosen: a draw `v` between 0 and 1 gives its rank, the
integer part of `n * v`. -/
def Chosen (n : Nat) (st : Storage) (d : Draws) (p : Nat) : Prop :=
  ∃ k r : Nat, 0 ≤ d.sel k ∧ d.sel k ≤ 1 ∧ (r : Rat) ≤ n * d.sel k ∧ n * d.sel k < r + 1 ∧
    st.indices[r]? = some p

end Bx.Spec.Reinit
