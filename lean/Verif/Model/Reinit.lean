import Verif.Model.Optimizer
import Verif.Model.Params

/-!
# The start of a turn of the optimizer

Models `local_context`, `choose_a_solution`, the loops of `crossover`, `mutation` and `reinit` of
`lib/src/itm-optimizer-common.hpp`: what the parameters of the distributions decide at the start of
a turn of a worker.  `Verif.Model.Optimizer` takes it as given (`Call.cross` and `Call.mutate`).

Simplifications: a finite `double` is a rational number and its operations are exact; each
distribution has its own sequence of values, which is arbitrary except for the laws of
`Verif.Spec.Reinit`.  `fuel` bounds the turns of each loop; the fault `fuel` means that more are
needed.
-/

namespace Bx.Optimizer

open Itm Merge SolverCtor Spec
open Params (SolverParams D)

/-- The parameters that `local_context` (`itm-optimizer-common.hpp:54-91`) and `reinit` read. -/
structure Tuning where
  insertion : Rat
  selMean : Rat
  selDev : Rat
  varMean : Rat
  varDev : Rat
  valMean : Rat
  valDev : Rat
  start : Rat
  increase : Rat
  stop : Rat
  kappaMin : Rat
  kappaMax : Rat
  deriving DecidableEq, Repr

/-- A number, when it is finite. -/
def number : D → Option Rat
  | .fin q => some q
  | _ => none

/-- The constructor of `local_context` (`itm-optimizer-common.hpp:70-90`) and the arguments of
`reinit` (`itm-optimizer-common.hpp:660-661`); `none` when one of the numbers is not finite. -/
def Tuning.ofParams (p : SolverParams) : Option Tuning := do
  let insertion ← number p.crossoverBastertInsertion
  let selMean ← number p.crossoverSelectionMean
  let selDev ← number p.crossoverSelectionStddev
  let varMean ← number p.mutationVariableMean
  let varDev ← number p.mutationVariableStddev
  let valMean ← number p.mutationValueMean
  let valDev ← number p.mutationValueStddev
  let start ← number p.kappaImproveStart
  let increase ← number p.kappaImproveIncrease
  let stop ← number p.kappaImproveStop
  let kappaMin ← number p.kappaMin
  let kappaMax ← number p.kappaMax
  return { insertion, selMean, selDev, varMean, varDev, valMean, valDev, start, increase, stop,
           kappaMin, kappaMax }

/-- What the random engine gives during a turn: the values of the three normal distributions, of the
four bernoulli distributions and of the words of the crossover, and the vector `m_random`. -/
structure Draws where
  /-- `choose_sol_dist`. -/
  sel : Nat → Rat
  /-- `variable_p_dist`. -/
  var : Nat → Rat
  /-- `value_p_dist`. -/
  val : Nat → Rat
  /-- `crossover_bastert_insertion`. -/
  insert : Bool
  /-- The first `b(ctx.rng)` of `crossover`. -/
  coin1 : Bool
  /-- The second one. -/
  coin2 : Bool
  mask : Nat → Bool
  random : Assign
  /-- `dist_var_p` of a probability, for each variable. -/
  flip : Rat → Nat → Bool
  /-- `dist_value_p` of a probability, for each variable. -/
  value : Rat → Nat → Bool

/-- The loops `do value = dist(rng) while (bad)` (`itm-optimizer-common.hpp:153-156, 501-507`), from
the draw `k`: the value, and the next draw. -/
def draw (bad : Rat → Bool) (s : Nat → Rat) : Nat → Nat → Outcome (Rat × Nat)
  | 0, _ => .error .fuel
  | fuel + 1, k => if bad (s k) then draw bad s fuel (k + 1) else .ok (s k, k + 1)

/-- `choose_a_solution` (`itm-optimizer-common.hpp:151-159`) in a population of `n`: the position,
and the next draw. -/
def choose (n : Nat) (s : Nat → Rat) (fuel k : Nat) : Outcome (Nat × Nat) := do
  let (v, k) ← draw (fun v => decide (v < 0) || decide (1 < v)) s fuel k
  .ok (((n : Rat) * v).floor.toNat, k)

/-- `second` (`itm-optimizer-common.hpp:407-409`): drawn again while it is the entry `id`. -/
def chooseOther (st : Storage) (n id : Nat) (s : Nat → Rat) (inner : Nat) :
    Nat → Nat → Outcome Nat
  | 0, _ => .error .fuel
  | fuel + 1, k => do
    let (j, k) ← choose n s inner k
    let id' ← st.index j
    if id = id' then chooseOther st n id s inner fuel k else .ok j

/-- The draws of `crossover` (`itm-optimizer-common.hpp:373-421`). -/
def drawCross (st : Storage) (d : Draws) (fuel : Nat) : Outcome Cross :=
  if d.insert then do
    let (i, _) ← choose st.data.length d.sel fuel 0
    .ok (match d.coin1, d.coin2 with
      | true, true => .mixBastert i d.mask
      | true, false => .putBastert i
      | false, true => .mixRandom i d.random d.mask
      | false, false => .putRandom i d.random)
  else do
    let (i, k) ← choose st.data.length d.sel fuel 0
    let id ← st.index i
    let j ← chooseOther st st.data.length id d.sel fuel fuel k
    .ok (.mix i j d.mask)

/-- `mutation` (`itm-optimizer-common.hpp:494-526`) of a vector of `n` variables. -/
def mutation (t : Tuning) (d : Draws) (n fuel : Nat) : Outcome (Assign → Assign) :=
  if t.valMean = 0 ∧ t.valDev = 0 then .ok id
  else do
    let (p, _) ← draw (fun v => decide (v ≤ 0) || decide (1 ≤ v)) d.var fuel 0
    let (q, _) ← draw (fun v => decide (v < 0) || decide (1 < v)) d.val fuel 0
    .ok fun x i => if decide (i < n) && d.flip p i then d.value q i else x i

/-- The start of a turn: the worker, the weight kappa of the turn, `m_kappa_append` of the worker and
whether it was a crossover. -/
structure Start where
  worker : Worker
  kappa : Rat
  append : Rat
  crossed : Bool

/-- `reinit` (`itm-optimizer-common.hpp:528-554`); `append` is `m_kappa_append` of the worker,
`n` the number of variables. -/
def startTurn (g : Setting) (t : Tuning) (n : Nat) (d : Draws) (fuel : Nat) (append : Rat)
    (w : Worker) : Outcome Start :=
  if append < t.stop then do
    let m ← mutation t d n fuel
    .ok { worker := { w with x := m w.x }
          kappa := t.kappaMin + (t.kappaMax - t.kappaMin) * (append + t.increase)
          append := append + t.increase
          crossed := false }
  else do
    let c ← drawCross w.storage d fuel
    let (x, s) ← crossover g c w.x w.storage
    let m ← mutation t d n fuel
    .ok { worker := { w with x := m x, storage := s }
          kappa := t.kappaMin
          append := t.start
          crossed := true }

/-- The first turns of a worker (`itm-optimizer-common.hpp:658-661`), and the state before the next
one.  `after k` is the rest of turn `k`, and what the other workers do: here it is arbitrary.
`m_kappa_append` is 0 before the first turn (`itm-optimizer-common.hpp:476`). -/
def turns (g : Setting) (t : Tuning) (n : Nat) (d : Nat → Draws) (fuel : Nat)
    (after : Nat → Worker → Worker) (w : Worker) : Nat → Outcome (List Start × Rat × Worker)
  | 0 => .ok ([], 0, w)
  | k + 1 => do
    let (l, a, w) ← turns g t n d fuel after w k
    let s ← startTurn g t n (d k) fuel a w
    .ok (l ++ [s], s.append, after k s.worker)

end Bx.Optimizer
