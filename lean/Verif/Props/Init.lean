import Verif.Proofs.Init
import Verif.Proofs.Rounded
import Verif.Props.Costs
import Verif.Props.Solve
import Verif.Props.Optimizer

/-!
# C77, C78, C79: the initial vectors and the step `delta`
-/

namespace Bx.Init

open Merge Spec Itm Costs SolverCtor Mult

/-! ## C77 -/

/-- The costs of a linear objective, by variables. -/
theorem linear_costs {o : Objective} {n : Nat} (h : InRange o n) (hq : o.qelems = []) {c : Cost}
    (hc : makeDefault o n = .ok c) :
    (∀ j < n, costAt o c j = .ok (factorOf o.elems j)) ∧
    ∀ y, objective o y = o.value + ((List.range n).map fun j =>
      if y j then factorOf o.elems j else 0).sum := by
  constructor
  · intro j hj
    obtain ⟨c', h1, h2⟩ := C57_linear_cost_is_marginal o n h hq
    obtain rfl : c' = c := Except.ok.inj (h1.symm.trans hc)
    unfold costAt
    rw [hq, if_pos (by rfl), h2 j hj]
    congr 1
    unfold marginal objective
    rw [hq, ← linear_diff o.elems _ j]
    simp only [List.map_nil, List.sum_nil]
    ring
  · intro y
    unfold objective
    rw [hq, linear_by_vars n y o.elems h.1]
    simp

/-- C77: for a linear objective the bastert vector, which forgets the constraints, is at least as
good as every assignment. -/
theorem C77_bastert_is_optimal_partial (mode : ObjType) (o : Objective) (n : Nat) (h : InRange o n)
    (hq : o.qelems = []) (c : Cost) (hc : makeDefault o n = .ok c) :
    ∃ x, bastert mode (costAt o c) n 0 (fun _ => false) = .ok x ∧ (∀ j, n ≤ j → x j = false) ∧
      ∀ y, AtLeastAsGood mode (objective o x) (objective o y) := by
  obtain ⟨h1, h2⟩ := linear_costs h hq hc
  refine ⟨_, bastert_eq mode n 0 _ fun j _ hj => h1 j (by omega), fun j hj => if_neg (by omega),
    fun y => ?_⟩
  rw [h2, h2, good_iff, mul_add, mul_add, ← sum_mul_left, ← sum_mul_left]
  refine add_le_add (le_refl _) (sum_le_of fun j hj => ?_)
  have hj := List.mem_range.mp hj
  have e : (if 0 ≤ j ∧ j < 0 + n then initX mode (factorOf o.elems j) false else false) =
      initX mode (factorOf o.elems j) false := if_pos (by omega)
  simp only [e]
  exact initX_best mode _ _ _

/-- The linear objective `2 x0 - x1 + 0 x2 - x1` (`x1` twice). -/
def exLin : Objective := ⟨[⟨2, 0⟩, ⟨-1, 1⟩, ⟨0, 2⟩, ⟨-1, 1⟩], [], 5⟩

example : (makeDefault exLin 3 >>= fun c => bastert .minimize (costAt exLin c) 3 0 fun _ => false).map
    (fun x => (List.range 3).map x) = .ok [false, true, false] := by decide +kernel

example : ∃ c, makeDefault exLin 3 = .ok c ∧ ∃ x,
    bastert .minimize (costAt exLin c) 3 0 (fun _ => false) = .ok x ∧
    ∀ y, objective exLin x ≤ objective exLin y := by
  obtain ⟨c, h1, _⟩ := C57_linear_cost_is_marginal exLin 3 ⟨by decide, by decide⟩ rfl
  obtain ⟨x, h2, _, h3⟩ := C77_bastert_is_optimal_partial .minimize exLin 3 ⟨by decide, by decide⟩ rfl c h1
  exact ⟨c, h1, x, h2, h3⟩

/-- C77 does not hold for a quadratic objective, whose costs are those of a vector of ones: to
maximise `x0 + x1 - 3 x0 x1` the bastert vector has no variable at 1 and its objective is 0, that of
`x0` alone is 1. -/
theorem C77_quadratic_is_not_optimal :
    let o : Objective := ⟨[⟨1, 0⟩, ⟨1, 1⟩], [⟨-3, 0, 1⟩], 0⟩
    (makeQuadratic o 2 >>= fun c => bastert .maximize (costAt o c) 2 0 fun _ => false).map
        (fun x => ((List.range 2).map x, objective o x)) = .ok ([false, false], 0) ∧
      objective o (fun j => j == 0) = 1 := by decide +kernel

/-! ## C78: the pre-solve -/

/-- C78: a turn of the pre-solve on a constraint whose coefficients are 1.  Only the variables of the
constraint change.  The constraint is respected afterwards when it can be.  The optimistic choice
has the best cost of all those that respect the constraint.  The pessimistic one has the fewest
variables at 1, and the best cost of those that have as few.  The costs are those of the objective
converted to `float`. -/
theorem C78_turn_partial (mode : ObjType) (cv : Nat → Rat) (c : Merged)
    (hf : ∀ e ∈ c.elems, e.factor = 1) (hnd : (c.elems.map FunElem.var).Nodup) (d : Draws)
    (hd : d.Ok mode) (k : Nat) (hk : d.visit k = true) (x y : Assign) :
    ∃ p o, preSolve mode (fun j => .ok (cv j)) d k [c] (some x) (some y) = .ok (some p, some o) ∧
      (∀ j, (∀ e ∈ c.elems, e.var ≠ j) → p j = x j ∧ o j = y j) ∧
      ∀ z, Respects c z → Respects c p ∧ Respects c o ∧
        AtLeastAsGood mode (priceOf (fun j => toFloat (cv j)) c.elems o) (priceOf (fun j => toFloat (cv j)) c.elems z) ∧
        lhs p c.elems ≤ lhs z c.elems ∧
        (lhs z c.elems = lhs p c.elems →
          AtLeastAsGood mode (priceOf (fun j => toFloat (cv j)) c.elems p) (priceOf (fun j => toFloat (cv j)) c.elems z)) := by
  obtain ⟨o1, o2⟩ := order_sorted hd k (cellsOf (fun j => toFloat (cv j)) c.elems)
  have h1 := visitRow_spec (optimistic := false) hf hnd o1 o2 x
  have h2 := visitRow_spec (optimistic := true) hf hnd o1 o2 y
  refine ⟨_, _, ?_, fun j hj => ⟨h1.frame j hj, h2.frame j hj⟩, fun z hz => ?_⟩
  · unfold preSolve
    rw [if_pos hk, cells_eq (c := cv) c.elems fun _ _ => rfl, ok_bind]
    rfl
  · exact ⟨h1.fits ⟨z, hz⟩, h2.fits ⟨z, hz⟩, h2.cheapest rfl z hz, (h1.fewest rfl z hz).1,
      (h1.fewest rfl z hz).2⟩

/-- A sort for the examples. -/
def exDraws (mode : ObjType) : Draws :=
  ⟨fun _ => true, fun _ l => l.insertionSort fun a b => sg mode * a.value ≤ sg mode * b.value⟩

theorem exDraws_ok (mode : ObjType) : (exDraws mode).Ok mode := by
  intro k l
  refine ⟨List.perm_insertionSort _ _, ?_⟩
  have : Std.Total fun a b : Cell => sg mode * a.value ≤ sg mode * b.value :=
    ⟨fun a b => le_total _ _⟩
  have : IsTrans Cell fun a b => sg mode * a.value ≤ sg mode * b.value :=
    ⟨fun a b c h1 h2 => le_trans h1 h2⟩
  refine (List.pairwise_insertionSort (fun a b : Cell => sg mode * a.value ≤ sg mode * b.value) l).imp ?_
  intro a b hab
  cases mode <;> simp only [sg] at hab ⊢ <;> linarith

/-- `1 <= x0 + x1 + x2 + x3 <= 3` with the costs `-1, 2, -2, 1`: the pessimistic vector has `x2`, the
optimistic one has `x2` and `x0`. -/
def exRow : Merged := ⟨[⟨1, 0⟩, ⟨1, 1⟩, ⟨1, 2⟩, ⟨1, 3⟩], 1, 3, 0⟩

example : (preSolve .minimize (fun j => .ok ([-1, 2, -2, 1].getD j 0)) (exDraws .minimize) 0 [exRow]
      (some fun _ => false) (some fun _ => true)).map
    (fun r => (r.1.map fun x => (List.range 5).map x, r.2.map fun x => (List.range 5).map x)) =
    .ok (some [false, false, true, false, false], some [true, false, true, false, true]) := by
  decide +kernel

example : ∃ p o, preSolve .minimize (fun j => .ok ([-1, 2, -2, 1].getD j 0)) (exDraws .minimize) 0
      [exRow] (some fun _ => false) (some fun _ => true) = .ok (some p, some o) ∧
    Respects exRow p ∧ Respects exRow o := by
  obtain ⟨p, o, h1, _, h2⟩ := C78_turn_partial .minimize (fun j => [-1, 2, -2, 1].getD j 0) exRow (by decide)
    (by decide) (exDraws .minimize) (exDraws_ok _) 0 rfl (fun _ => false) fun _ => true
  have h3 := h2 (fun j => j == 0) (by unfold Respects; decide)
  exact ⟨p, o, h1, h3.1, h3.2.1⟩

/-- C78 does not hold with a negative coefficient: the prefixes of `x1, x0` never satisfy
`x0 - x1 = 1`, then every variable is unset, although `x0` alone satisfies it. -/
theorem C78_negative_coefficient :
    let c : Merged := ⟨[⟨1, 0⟩, ⟨-1, 1⟩], 1, 1, 0⟩
    (preSolve .minimize (fun j => .ok ([2, 1].getD j 0)) (exDraws .minimize) 0 [c]
        (some fun j => j == 0) (some fun j => j == 0)).map
      (fun r => (r.1.map fun x => (List.range 2).map x, r.2.map fun x => (List.range 2).map x)) =
      .ok (some [false, false], some [false, false]) ∧ Respects c fun j => j == 0 := by
  refine ⟨by decide +kernel, ?_⟩
  unfold Respects
  decide

/-- The constraints have coefficients 1, and no two of them share a variable. -/
structure Disjoint (n : Nat) (csts : List Merged) : Prop where
  unit : ∀ c ∈ csts, ∀ e ∈ c.elems, e.factor = 1
  lt : ∀ c ∈ csts, ∀ e ∈ c.elems, e.var < n
  nodup : ∀ c ∈ csts, (c.elems.map FunElem.var).Nodup
  apart : csts.Pairwise fun c d => ∀ e ∈ c.elems, ∀ f ∈ d.elems, e.var ≠ f.var

/-- C78: the initial vector of `solve` with a pre-solve policy and no mutation, when the constraints
have coefficients 1 and share no variable: it respects every constraint when an assignment does. -/
theorem C78_initial_is_feasible_partial (mode : ObjType) (o : Objective) (n : Nat) (h : InRange o n)
    (hq : o.qelems = []) (c : Cost) (hc : makeDefault o n = .ok c) (d : Draws) (hd : d.Ok mode)
    (csts : List Merged) (hcs : Disjoint n csts) (pol : Policy) (hp : pol ≠ .bastert)
    (hy : ∃ y, Within y csts) :
    ∃ x, initial mode (costAt o c) d (fun _ => false) pol n csts = .ok x ∧ Within x csts := by
  obtain ⟨h1, _⟩ := linear_costs h hq hc
  obtain ⟨y, hy⟩ := hy
  have hcost : ∀ c' ∈ csts, ∀ e ∈ c'.elems, costAt o c e.var = .ok (factorOf o.elems e.var) :=
    fun c' hc' e he => h1 _ (hcs.lt c' hc' e he)
  have hd' : ({ d with visit := fun _ => true } : Draws).Ok mode := hd
  have hes := preSolve_eq (mode := mode) (cost := costAt o c) (cv := factorOf o.elems) (d := { d with visit := fun _ => true }) (fun _ => rfl) csts 0
  have hw : ∀ b, Within (turns mode b (fun j => toFloat (factorOf o.elems j)) { d with visit := fun _ => true } 0 csts
      fun _ => false) csts := by
    intro b c' hc'
    obtain ⟨x0, ht⟩ := (turns_spec (optimistic := b) (cv := fun j => toFloat (factorOf o.elems j)) hd' csts 0
      (fun _ => false) (fun c hc => ⟨hcs.unit c hc, hcs.nodup c hc⟩) hcs.apart).1 c' hc'
    exact ht.fits ⟨y, hy c' hc'⟩
  have hid : ∀ x : Assign, (fun j => if j < n then xor false (x j) else x j) = x := by
    intro x; funext j; simp
  unfold initial
  cases pol with
  | bastert => exact absurd rfl hp
  | pessimisticSolve =>
    refine ⟨_, ?_, hw false⟩
    simp only [hes (some fun _ => false) none hcost, ok_bind, hid]
    rfl
  | optimisticSolve =>
    refine ⟨_, ?_, hw true⟩
    simp only [hes none (some fun _ => false) hcost, ok_bind, hid]
    rfl

theorem toFloat_zero : toFloat 0 = 0 := binary_zero 24

/-- The optimistic policy for the costs converted to `float`. -/
theorem optimistic_float (mode : ObjType) (o : Objective) (n : Nat) (h : InRange o n)
    (hq : o.qelems = []) (c : Cost) (hc : makeDefault o n = .ok c) (d : Draws) (hd : d.Ok mode)
    (csts : List Merged) (hcs : Disjoint n csts)
    (hall : ∀ e ∈ o.elems, ∃ c ∈ csts, ∃ f ∈ c.elems, f.var = e.var) :
    ∃ x, initial mode (costAt o c) d (fun _ => false) .optimisticSolve n csts = .ok x ∧
      ∀ y, Within y csts → Within x csts ∧
        sg mode * ((List.range n).map fun j => if x j then toFloat (factorOf o.elems j) else 0).sum ≤
        sg mode * ((List.range n).map fun j => if y j then toFloat (factorOf o.elems j) else 0).sum := by
  obtain ⟨h1, _⟩ := linear_costs h hq hc
  have hcost : ∀ c' ∈ csts, ∀ e ∈ c'.elems, costAt o c e.var = .ok (factorOf o.elems e.var) :=
    fun c' hc' e he => h1 _ (hcs.lt c' hc' e he)
  have hd' : ({ d with visit := fun _ => true } : Draws).Ok mode := hd
  have hes := preSolve_eq (mode := mode) (cost := costAt o c) (cv := factorOf o.elems) (d := { d with visit := fun _ => true }) (fun _ => rfl) csts 0
    none (some fun _ => false) hcost
  have ht := (turns_spec (optimistic := true) (cv := fun j => toFloat (factorOf o.elems j)) hd' csts 0
      (fun _ => false) (fun c hc => ⟨hcs.unit c hc, hcs.nodup c hc⟩) hcs.apart).1
  have hid : ∀ x : Assign, (fun j => if j < n then xor false (x j) else x j) = x := by
    intro x; funext j; simp
  refine ⟨turns mode true (fun j => toFloat (factorOf o.elems j)) { d with visit := fun _ => true } 0 csts fun _ => false,
    ?_, fun y hy => ⟨?_, ?_⟩⟩
  · unfold initial
    simp only [hes, ok_bind, hid]
    rfl
  · intro c' hc'
    obtain ⟨x0, ht⟩ := ht c' hc'
    exact ht.fits ⟨y, hy c' hc'⟩
  · generalize turns mode true (fun j => toFloat (factorOf o.elems j)) { d with visit := fun _ => true } 0 csts
      (fun _ => false) = x at ht
    have hsplit := fun z : Assign => objective_split (n := n) (cv := fun j => toFloat (factorOf o.elems j)) (y := z)
      (csts := csts) (fun c hc => ⟨hcs.lt c hc, hcs.nodup c hc⟩) hcs.apart
    have hrest : ∀ z : Assign, ((List.range n).map fun j =>
        if (∃ c ∈ csts, ∃ e ∈ c.elems, e.var = j) then 0
        else if z j then toFloat (factorOf o.elems j) else 0).sum = 0 := by
      intro z
      rw [List.map_congr_left (g := fun _ => (0 : Rat))]
      · simp
      · intro j _
        by_cases hj : ∃ c ∈ csts, ∃ e ∈ c.elems, e.var = j
        · exact if_pos hj
        · rw [if_neg hj]
          have : factorOf o.elems j = 0 := by
            unfold factorOf
            rw [List.map_congr_left (g := fun _ => (0 : Rat))]
            · simp
            · intro e he
              refine if_neg fun hv => hj ?_
              obtain ⟨c, hc, f, hf, hfv⟩ := hall e he
              exact ⟨c, hc, f, hf, hfv.trans hv⟩
          rw [this, toFloat_zero, ite_self]
    rw [hsplit, hsplit, hrest, hrest]
    simp only [add_zero, ← sum_mul_left]
    refine sum_le_of fun c' hc' => ?_
    obtain ⟨x0, ht⟩ := ht c' hc'
    exact good_iff.1 (ht.cheapest rfl y (hy c' hc'))

/-- C78: with the optimistic policy, when moreover every variable of the objective is in a
constraint and the costs are `float` numbers, the initial vector is at least as good as every
assignment that respects the constraints. -/
theorem C78_optimistic_is_optimal_partial (mode : ObjType) (o : Objective) (n : Nat) (h : InRange o n)
    (hq : o.qelems = []) (c : Cost) (hc : makeDefault o n = .ok c) (d : Draws) (hd : d.Ok mode)
    (csts : List Merged) (hcs : Disjoint n csts)
    (hall : ∀ e ∈ o.elems, ∃ c ∈ csts, ∃ f ∈ c.elems, f.var = e.var)
    (hfl : ∀ j < n, binary 24 (factorOf o.elems j) = factorOf o.elems j) :
    ∃ x, initial mode (costAt o c) d (fun _ => false) .optimisticSolve n csts = .ok x ∧
      ∀ y, Within y csts → Within x csts ∧ AtLeastAsGood mode (objective o x) (objective o y) := by
  obtain ⟨x, hx, hb⟩ := optimistic_float mode o n h hq c hc d hd csts hcs hall
  refine ⟨x, hx, fun y hy => ⟨(hb y hy).1, ?_⟩⟩
  have hs : ∀ z : Assign,
      ((List.range n).map fun j => if z j then toFloat (factorOf o.elems j) else 0) =
      (List.range n).map fun j => if z j then factorOf o.elems j else 0 := by
    intro z
    refine List.map_congr_left fun j hj => ?_
    rw [show toFloat (factorOf o.elems j) = factorOf o.elems j from hfl j (List.mem_range.1 hj)]
  have hg := (hb y hy).2
  rw [hs, hs] at hg
  rw [(linear_costs h hq hc).2, (linear_costs h hq hc).2, good_iff, mul_add, mul_add]
  exact add_le_add (le_refl _) hg

/-- C78: for any costs, the optimistic initial vector is as good as every assignment that respects the
constraints, but for the error of the conversion to `float`: at most 2^-24 times the sum of the costs
without their signs. -/
theorem C78_optimistic_is_nearly_optimal_partial (mode : ObjType) (o : Objective) (n : Nat)
    (h : InRange o n) (hq : o.qelems = []) (c : Cost) (hc : makeDefault o n = .ok c) (d : Draws)
    (hd : d.Ok mode) (csts : List Merged) (hcs : Disjoint n csts)
    (hall : ∀ e ∈ o.elems, ∃ c ∈ csts, ∃ f ∈ c.elems, f.var = e.var) :
    ∃ x, initial mode (costAt o c) d (fun _ => false) .optimisticSolve n csts = .ok x ∧
      ∀ y, Within y csts → Within x csts ∧
        match mode with
        | .minimize => objective o x ≤
            objective o y + 1 / 2 ^ 24 * ((List.range n).map fun j => |factorOf o.elems j|).sum
        | .maximize => objective o y ≤
            objective o x + 1 / 2 ^ 24 * ((List.range n).map fun j => |factorOf o.elems j|).sum := by
  obtain ⟨x, hx, hb⟩ := optimistic_float mode o n h hq c hc d hd csts hcs hall
  refine ⟨x, hx, fun y hy => ⟨(hb y hy).1, ?_⟩⟩
  have hg := (hb y hy).2
  have key : ∀ l : List Nat,
      sg mode * (l.map fun j => if x j then factorOf o.elems j else 0).sum -
        sg mode * (l.map fun j => if y j then factorOf o.elems j else 0).sum ≤
      sg mode * (l.map fun j => if x j then toFloat (factorOf o.elems j) else 0).sum -
        sg mode * (l.map fun j => if y j then toFloat (factorOf o.elems j) else 0).sum +
        1 / 2 ^ 24 * (l.map fun j => |factorOf o.elems j|).sum := by
    intro l
    induction l with
    | nil => simp
    | cons j l ih =>
      simp only [List.map_cons, List.sum_cons]
      have he : |toFloat (factorOf o.elems j) - factorOf o.elems j| ≤
          1 / 2 ^ 24 * |factorOf o.elems j| := binary_error_abs 24 _
      rw [abs_le] at he
      have hn := abs_nonneg (factorOf o.elems j)
      have hsg : sg mode = 1 ∨ sg mode = -1 := by cases mode <;> simp [sg]
      rcases hsg with e | e <;> rw [e] at ih ⊢ <;> cases x j <;> cases y j <;>
        simp only [if_true, Bool.false_eq_true, if_false] <;> nlinarith [he.1, he.2]
  have hk := key (List.range n)
  rw [(linear_costs h hq hc).2 x, (linear_costs h hq hc).2 y]
  cases mode <;> simp only [sg] at hk hg ⊢ <;> linarith

/-- C78 does not hold for costs that are not `float` numbers: 16777216 and 16777217 are the same in
`float`.  To minimise `16777217 x0 + 16777216 x1` under `x0 + x1 = 1` a sort that keeps the order of
equal cells makes the optimistic policy set `x0`. -/
theorem C78_float_costs_tie :
    (exDraws .minimize).Ok .minimize ∧
    let o : Objective := ⟨[⟨16777217, 0⟩, ⟨16777216, 1⟩], [], 0⟩
    let c : Merged := ⟨[⟨1, 0⟩, ⟨1, 1⟩], 1, 1, 0⟩
    (makeDefault o 2 >>= fun k => initial .minimize (costAt o k) (exDraws .minimize) (fun _ => false)
        .optimisticSolve 2 [c]).map (fun x => ((List.range 2).map x, objective o x)) =
      .ok ([true, false], 16777217) ∧
    lhs (fun j => j == 1) c.elems = 1 ∧ objective o (fun j => j == 1) = 16777216 :=
  ⟨exDraws_ok _, by decide +kernel⟩

/-- The bound for these costs: the objective of the initial vector is at most
`16777216 + 33554433 / 16777216`. -/
example : ∃ c x, makeDefault ⟨[⟨16777217, 0⟩, ⟨16777216, 1⟩], [], 0⟩ 2 = .ok c ∧
    initial .minimize (costAt ⟨[⟨16777217, 0⟩, ⟨16777216, 1⟩], [], 0⟩ c) (exDraws .minimize)
      (fun _ => false) .optimisticSolve 2 [⟨[⟨1, 0⟩, ⟨1, 1⟩], 1, 1, 0⟩] = .ok x ∧
    objective ⟨[⟨16777217, 0⟩, ⟨16777216, 1⟩], [], 0⟩ x ≤ 16777216 + 33554433 / 16777216 := by
  have hr : InRange ⟨[⟨16777217, 0⟩, ⟨16777216, 1⟩], [], 0⟩ 2 := ⟨by decide, by decide⟩
  obtain ⟨c, hc, _⟩ := C57_linear_cost_is_marginal _ 2 hr rfl
  obtain ⟨x, hx, hb⟩ := C78_optimistic_is_nearly_optimal_partial .minimize _ 2 hr rfl c hc
    (exDraws .minimize) (exDraws_ok _) [⟨[⟨1, 0⟩, ⟨1, 1⟩], 1, 1, 0⟩]
    ⟨by decide, by decide, by decide, by simp⟩ (by decide)
  refine ⟨c, x, hc, hx, le_trans (hb (fun j => j == 1) (by intro m hm; simp at hm; subst hm; decide)).2
    (by decide +kernel)⟩

/-! ## C79: what the initial vectors become -/

section

variable {ρ : Type} {kind : SolverType} {upd : Slv → ρ → Nat → Assign → Outcome Assign}

/-- A pass from a vector that respects every constraint does not move. -/
theorem run_still {csts : List Merged} {n : Nat} {s : Slv} (hs : makeSlv kind csts n = .ok s)
    {u : ρ → Nat → Assign → Outcome Assign} {p : Pass ρ} (hp : p.Ok) {c : Compute} {x : Assign}
    (hf : Fresh csts c x) (hw : Within x csts) :
    ∃ c', run s u p c x = .ok (0, c', x) ∧ Fresh csts c' x := by
  have hnil := vset_nil.mpr hw
  have hv : violated s x = .ok [] := by rw [(violated_eq hs x).1]; exact congrArg _ hnil
  have hp1 : p.perm [] = [] := (hp.1 []).eq_nil
  have hp2 : p.permO [] = [] := (hp.2 []).eq_nil
  have hd : infeasibility s x = .ok [] := by
    obtain ⟨d, g1, g2⟩ := (violated_eq hs x).2.2
    have hn : d.map Prod.fst = [] := g2.trans hnil
    rw [List.map_eq_nil_iff] at hn
    rw [g1, hn]
  obtain ⟨h1, h2, h3, h4⟩ := hf
  rw [hnil] at h3 h4
  unfold run
  cases ho : c.order <;> simp only [ho] at h1 h3 h4 <;>
    simp only [ne_eq, not_true_eq_false, not_false_eq_true, reduceCtorEq, true_or, or_true,
      forall_const, false_or] at h1 h3 h4
  case infeasibilityDecr =>
    rw [List.map_eq_nil_iff] at h3
    refine ⟨{ c with mOrder := [] }, ?_, ⟨by simp [ho], h2, fun _ => hnil.symm, by simp [ho]⟩⟩
    simp only [h3, hp2, List.map_nil, updateRows, ok_bind, hd, List.length_nil, ho]
  case infeasibilityIncr =>
    rw [List.map_eq_nil_iff] at h3
    refine ⟨{ c with mOrder := [] }, ?_, ⟨by simp [ho], h2, fun _ => hnil.symm, by simp [ho]⟩⟩
    simp only [h3, hp2, List.map_nil, updateRows, ok_bind, hd, List.length_nil, ho]
  all_goals
    refine ⟨{ c with R := [] }, ?_, ⟨by simp [ho], h2, by simp [ho], fun _ _ => hnil.symm⟩⟩
    simp only [h4, hp1, List.reverse_nil, updateRows, ok_bind, hv, List.length_nil, ho]

theorem pushInner_still {csts : List Merged} {n : Nat} {s : Slv} (hs : makeSlv kind csts n = .ok s)
    {u : ρ → Nat → Assign → Outcome Assign} {r : Run ρ} (hr : r.Ok) {t : ObjType} {o : Objective}
    (k : Nat) {st : St} (hf : Fresh csts st.compute st.x) (hw : Within st.x csts) :
    ∃ st', pushInner s u r t o k st = .ok st' ∧ Fresh csts st'.compute st'.x ∧ st'.x = st.x := by
  cases k with
  | zero => exact ⟨st, rfl, hf, rfl⟩
  | succ k =>
    obtain ⟨c', h1, h2⟩ := run_still (u := u) hs (hr st.passes) hf hw
    unfold pushInner
    rw [h1, ok_bind]
    exact ⟨_, if_pos rfl, h2, rfl⟩

theorem pushLoop_still {csts : List Merged} {n : Nat} {s : Slv} (hs : makeSlv kind csts n = .ok s)
    {u : ρ → Nat → Assign → Outcome Assign} {r : Run ρ} (hr : r.Ok) {t : ObjType} {o : Objective}
    (iters : Nat) : ∀ (k : Nat) (st : St), Fresh csts st.compute st.x → Within st.x csts →
    ∃ st', pushLoop s u r t o iters k st = .ok st'
  | 0, st, _, _ => ⟨st, rfl⟩
  | k + 1, st, hf, hw => by
    obtain ⟨c', h1, h2⟩ := run_still (u := u) hs (hr st.passes) hf hw
    have h3 : pushAndRun s u (r.pass st.passes) st.compute st.x = .ok (0, c', st.x) := by
      unfold pushAndRun
      rw [if_neg (by rw [hf.noCycle]; simp)]
      exact h1
    unfold pushLoop
    rw [h3, ok_bind]
    simp only [if_true]
    split
    · exact ⟨_, rfl⟩
    · obtain ⟨st', g1, g2, g3⟩ := pushInner_still (u := u) hs hr (t := t) (o := o) iters
        (st := { st with compute := c', passes := st.passes + 1, trace := st.trace ++ [st.x]
                         best := storeValue t st.best st.x (results o st.x) }) h2 hw
      rw [g1, ok_bind]
      exact pushLoop_still hs hr iters k st' g2 (by rw [g3]; exact hw)

/-- C79: with every order except `pi_sign_change` and `cycle`, when the initial vector respects every
constraint, `solve` returns, succeeds, and its solution is the initial vector.  Neither the loop nor
the push phase improves it. -/
theorem C79_feasible_start_is_the_answer_partial (r : Run ρ) (hr : r.Ok) (p : Params) (hl : p.limit ≠ 0)
    (h1 : p.order ≠ .piSignChange) (h2 : p.order ≠ .cycle) (t : ObjType) (o : Objective)
    (csts : List Merged) (n : Nat) (s : Slv) (hs : makeSlv kind csts n = .ok s)
    (hw : Within r.x0 csts) :
    ∃ a, functor kind upd r p t o csts n = .ok a ∧ a.status = .success ∧
      a.solution = some ((List.range n).map r.x0, some (objective o r.x0)) := by
  have hex : ∃ a, functor kind upd r p t o csts n = .ok a ∧ r.x0 ∈ a.final.trace := by
    have hinit : ∃ c, (Compute.make p.order n).init s r.x0 = .ok c := by
      unfold Compute.init
      split
      · obtain ⟨d, g1, _⟩ := (violated_eq hs r.x0).2.2
        rw [g1]; exact ⟨_, rfl⟩
      · obtain ⟨d, g1, _⟩ := (violated_eq hs r.x0).2.2
        rw [g1]; exact ⟨_, rfl⟩
      · exact ⟨_, rfl⟩
      · rw [(violated_eq hs r.x0).1]; exact ⟨_, rfl⟩
    obtain ⟨c, hc⟩ := hinit
    have hf := init_fresh hs hc h1 h2
    obtain ⟨l, hl⟩ := Nat.exists_eq_succ_of_ne_zero hl
    obtain ⟨c', g1, g2⟩ := run_still (u := upd s) hs (hr 0) hf hw
    have hmain : mainLoop s (upd s) r t o p.limit { compute := c, x := r.x0 } =
        .ok ({ compute := c', x := r.x0, best := storeValue t {} r.x0 (results o r.x0),
               bestRemaining := some 0, passes := 1, trace := [r.x0] }, .found) := by
      rw [hl]
      unfold mainLoop
      rw [g1, ok_bind]
      exact if_pos rfl
    obtain ⟨st', hpush⟩ := pushLoop_still (u := upd s) hs hr (t := t) (o := o) p.pushIter p.pushes
      { compute := c', x := r.x0, best := storeValue t {} r.x0 (results o r.x0),
        bestRemaining := some 0, passes := 1, trace := [r.x0] } g2 hw
    have hok : functor kind upd r p t o csts n = .ok
        { status := statusOf .found st'.best.remaining
          solution := st'.best.x.map fun x => ((List.range n).map x, st'.best.value)
          final := st'
          exit := .found
          mainPasses := 1 } := by
      unfold functor
      rw [hs, ok_bind, hc, ok_bind, hmain, ok_bind]
      unfold pushPhase
      simp only [if_true, hpush, ok_bind]
    refine ⟨_, hok, ?_⟩
    obtain ⟨x, e1, _, _⟩ := (functor_spec hok).2.2.2.2.2.2.2.2.2.2.1 rfl
    obtain ⟨s', _, hlink⟩ := (functor_spec hok).2.2.2.2.2.2.2.2.2.2.2 hr h1 h2
    obtain ⟨l', q1, q2⟩ := hlink 0 r.x0 x rfl e1
    rw [vset_nil.mpr hw] at q1
    rw [q1.eq_nil] at q2
    obtain rfl : r.x0 = x := Except.ok.inj q2
    exact List.mem_of_getElem? e1
  obtain ⟨a, ha, hmem⟩ := hex
  have hsucc := (C29_best_of_the_run r p t o csts n a ha).1.mpr ⟨_, hmem, hw⟩
  obtain ⟨x, hx, _, hsol, _⟩ := (C29_best_of_the_run r p t o csts n a ha).2 hsucc
  obtain ⟨s', _, hlink⟩ := (functor_spec ha).2.2.2.2.2.2.2.2.2.2.2 hr h1 h2
  have hall : ∀ (i : Nat) (y : Assign), a.final.trace[i]? = some y → y = r.x0 := by
    intro i
    induction i with
    | zero =>
      intro y hy
      obtain ⟨l', q1, q2⟩ := hlink 0 r.x0 y rfl hy
      rw [vset_nil.mpr hw] at q1
      rw [q1.eq_nil] at q2
      exact (Except.ok.inj q2).symm
    | succ i ih =>
      intro y hy
      have hlt := (List.getElem?_eq_some_iff.mp hy).1
      have hz : a.final.trace[i]? = some a.final.trace[i] := List.getElem?_eq_getElem (by omega)
      have hzx := ih _ hz
      rw [hzx] at hz
      obtain ⟨l', q1, q2⟩ := hlink (i + 1) r.x0 y (by rw [List.getElem?_cons_succ]; exact hz) hy
      rw [vset_nil.mpr hw] at q1
      rw [q1.eq_nil] at q2
      exact (Except.ok.inj q2).symm
  obtain ⟨i, hi⟩ := List.getElem?_of_mem hx
  obtain rfl := hall i x hi
  exact ⟨a, ha, hsucc, hsol⟩

/-- C79: `solve` with the optimistic policy and no mutation, for a problem with a linear objective
whose merged constraints have coefficients 1 and share no variable, every variable of the objective
being in one of them and its costs being `float` numbers: when the problem has a solution, `solve`
reports an optimal one. -/
theorem C79_optimistic_solve_is_optimal_partial (sorts : Sorts) (hso : sorts.Ok) (po : Order) (pb : Problem)
    (hi : IntSums pb) (hv : pb.values ≠ []) (hrange : InRange pb.objective pb.values.length)
    (hq : pb.objective.qelems = []) (csts : List Merged) (hm : Merge.make sorts po pb = .ok csts)
    (hne : csts ≠ []) (hcs : Disjoint pb.values.length csts)
    (hall : ∀ e ∈ pb.objective.elems, ∃ c ∈ csts, ∃ f ∈ c.elems, f.var = e.var)
    (hfl : ∀ j < pb.values.length,
      binary 24 (factorOf pb.objective.elems j) = factorOf pb.objective.elems j)
    (s : Slv) (hs : makeSlv kind csts pb.values.length = .ok s)
    (c : Cost) (hc : makeDefault pb.objective pb.values.length = .ok c)
    (d : Draws) (hd : d.Ok pb.type) (r : Run ρ) (hr : r.Ok)
    (hx : initial pb.type (costAt pb.objective c) d (fun _ => false) .optimisticSolve
      pb.values.length csts = .ok r.x0)
    (p : Params) (hl : p.limit ≠ 0) (h1 : p.order ≠ .piSignChange) (h2 : p.order ≠ .cycle)
    (hy : ∃ y, Satisfies pb.eqs pb.ges pb.les y) :
    ∃ res x, solveProblem kind upd sorts po r p pb = .ok res ∧ res.status = .success ∧
      res.solutions = [⟨(List.range pb.values.length).map fun i => if x i then 1 else 0,
        objective pb.objective x⟩] ∧
      Satisfies pb.eqs pb.ges pb.les x ∧
      ∀ y, Satisfies pb.eqs pb.ges pb.les y →
        AtLeastAsGood pb.type (objective pb.objective x) (objective pb.objective y) := by
  obtain ⟨x, hx', hbest⟩ := C78_optimistic_is_optimal_partial pb.type pb.objective pb.values.length hrange hq c
    hc d hd csts hcs hall hfl
  obtain rfl : x = r.x0 := Except.ok.inj (hx'.symm.trans hx)
  have hsat := C13_merge_preserves_solutions sorts hso po pb hi csts hm
  obtain ⟨y, hy⟩ := hy
  have hw := (hbest y ((hsat y).mpr hy)).1
  obtain ⟨a, ha, hst, hsol⟩ := C79_feasible_start_is_the_answer_partial (upd := upd) r hr p hl h1 h2 pb.type
    pb.objective csts pb.values.length s hs hw
  have hmk : makeCost pb.objective pb.values.length = .ok () := by
    unfold makeCost
    rw [show (pb.objective.elems.all fun e => decide (e.var < pb.values.length)) = true from
        List.all_eq_true.mpr fun e he => decide_eq_true (hrange.1 e he),
      show (pb.objective.qelems.all fun e => decide (e.a < pb.values.length) &&
        decide (e.b < pb.values.length)) = true by rw [hq]; rfl]
    rfl
  refine ⟨{ toResult a with
            variableName := pb.names, affected := pb.affected,
            variableCount := pb.values.length, constraintCount := csts.length }, r.x0, ?_, hst, ?_,
    (hsat _).mp hw, fun y hy => (hbest y ((hsat y).mpr hy)).2⟩
  · unfold solveProblem
    rw [hm, ok_bind]
    unfold solveMerged
    rw [if_pos ⟨hne, hv⟩, hmk, ok_bind, ha, ok_bind, ok_bind]
  · show (toResult a).solutions = _
    simp only [toResult, hsol, List.map_map, Option.getD_some]
    rfl

/-- Refutation: `solve` does not improve a feasible initial vector.  With the pessimistic policy it
minimises `- x0 - x1` under `1 <= x0 + x1 <= 2` to `-1`, whatever the limits and the draws, although
the optimum is `-2`. -/
theorem C79_pessimistic_is_not_improved (d : Draws) (hd : d.Ok .minimize) (r : Run ρ) (hr : r.Ok)
    (hx : initial .minimize (fun j => .ok ([-1, -1].getD j 0)) d (fun _ => false) .pessimisticSolve 2
      [⟨[⟨1, 0⟩, ⟨1, 1⟩], 1, 2, 0⟩] = .ok r.x0)
    (p : Params) (hl : p.limit ≠ 0) (h1 : p.order ≠ .piSignChange) (h2 : p.order ≠ .cycle) :
    ∃ a x, functor .inequalities01 upd r p .minimize ⟨[⟨-1, 0⟩, ⟨-1, 1⟩], [], 0⟩
        [⟨[⟨1, 0⟩, ⟨1, 1⟩], 1, 2, 0⟩] 2 = .ok a ∧ a.status = .success ∧
      a.solution = some (x, some (-1)) ∧
      Within (fun _ => true) [⟨[⟨1, 0⟩, ⟨1, 1⟩], 1, 2, 0⟩] ∧
      objective ⟨[⟨-1, 0⟩, ⟨-1, 1⟩], [], 0⟩ (fun _ => true) = -2 := by
  obtain ⟨q, o, e1, _, e2⟩ := C78_turn_partial .minimize (fun j => [-1, -1].getD j 0)
    ⟨[⟨1, 0⟩, ⟨1, 1⟩], 1, 2, 0⟩ (by decide) (by decide) { d with visit := fun _ => true } hd 0 rfl
    (fun _ => false) fun _ => false
  have e3 := e2 (fun j => j == 0) (by unfold Respects; decide)
  have hone : lhs q [⟨1, 0⟩, ⟨1, 1⟩] = 1 := le_antisymm e3.2.2.2.1 e3.1.1
  have hq : r.x0 = q := by
    have g := preSolve_eq (mode := .minimize) (cost := fun j => .ok ([-1, -1].getD j 0))
      (cv := fun j => [-1, -1].getD j 0) (d := { d with visit := fun _ => true }) (fun _ => rfl)
      [⟨[⟨1, 0⟩, ⟨1, 1⟩], 1, 2, 0⟩] 0
    have g1 := g (some fun _ => false) none (fun _ _ _ _ => rfl)
    have g2 := g (some fun _ => false) (some fun _ => false) (fun _ _ _ _ => rfl)
    have g3 := Option.some.inj (congrArg Prod.fst (Except.ok.inj (g2.symm.trans e1)))
    unfold initial at hx
    simp only [g1, ok_bind] at hx
    have hx := Except.ok.inj hx
    rw [← hx, ← g3]
    funext j
    simp
  have hw : Within r.x0 [⟨[⟨1, 0⟩, ⟨1, 1⟩], 1, 2, 0⟩] := by
    intro m hm
    rw [List.mem_singleton] at hm
    subst hm
    rw [hq, hone]
    decide
  have hmk : ∃ s, makeSlv .inequalities01 [⟨[⟨1, 0⟩, ⟨1, 1⟩], 1, 2, 0⟩] 2 = .ok s := by
    have : (makeSlv .inequalities01 [⟨[⟨1, 0⟩, ⟨1, 1⟩], 1, 2, 0⟩] 2).isOk = true := by decide +kernel
    cases h : makeSlv .inequalities01 [⟨[⟨1, 0⟩, ⟨1, 1⟩], 1, 2, 0⟩] 2 with
    | ok s => exact ⟨s, rfl⟩
    | error f => rw [h] at this; cases this
  obtain ⟨s, hs⟩ := hmk
  obtain ⟨a, ha, hst, hsol⟩ := C79_feasible_start_is_the_answer_partial (upd := upd) r hr p hl h1 h2 .minimize
    ⟨[⟨-1, 0⟩, ⟨-1, 1⟩], [], 0⟩ _ 2 s hs hw
  refine ⟨a, (List.range 2).map r.x0, ha, hst, hsol.trans ?_, ?_, by decide +kernel⟩
  · have : objective ⟨[⟨-1, 0⟩, ⟨-1, 1⟩], [], 0⟩ r.x0 = -1 := by
      rw [hq]
      unfold lhs at hone
      unfold objective
      simp only [List.map_cons, List.map_nil, List.sum_cons, List.sum_nil] at hone ⊢
      cases h0 : q 0 <;> cases h1 : q 1 <;> simp [h0, h1] at hone ⊢
    rw [this]
  · intro m hm
    rw [List.mem_singleton] at hm
    subst hm
    decide

/-- C79: the population of `optimize` holds the bastert vector. -/
theorem population_bastert {mode : ObjType} {cost : Nat → Outcome Rat} {d : PopDraws}
    (hd : d.Ok mode) {n : Nat} {csts : List Merged} {size : Nat} (h5 : 2 ≤ size)
    {init : List Assign} {b : Assign} (h : population mode cost d n csts size = .ok (init, b)) :
    bastert mode cost n 0 (fun _ => false) = .ok b ∧ b ∈ init := by
  unfold population at h
  obtain ⟨b', hb, h⟩ := bind_eq_ok.mp h
  obtain ⟨rest, _, h⟩ := bind_eq_ok.mp h
  have h := Except.ok.inj h
  simp only [Prod.mk.injEq] at h
  obtain ⟨h1, rfl⟩ := h
  refine ⟨hb, ?_⟩
  rw [← h1]
  refine List.mem_append_left _ (List.mem_map.mpr ⟨0, List.mem_range.mpr (by omega), ?_⟩)
  funext j
  simp [hd.1 j]

/-- C79: with one worker and a linear objective, when the bastert vector respects every constraint
`optimize` succeeds, and the value of its first solution is the optimum: that of an assignment that
respects every constraint, and none that does is better. -/
theorem C79_optimize_feasible_bastert_partial (ch : Optimizer.Choices ρ)
    (hch : Spec.Optimizer.ChoicesOk ch) (p : Params) (st : Optimizer.StorageType) (pb : Problem)
    (csts : List Merged) (hrange : InRange pb.objective pb.values.length)
    (hq : pb.objective.qelems = []) (c : Cost)
    (hc : makeDefault pb.objective pb.values.length = .ok c) (d : PopDraws) (hd : d.Ok pb.type)
    (size : Nat) (h5 : 5 ≤ size)
    (hpop : population pb.type (costAt pb.objective c) d pb.values.length csts size =
      .ok (ch.init, ch.bastert))
    (hw : Within ch.bastert csts) (res : Result) (w : Optimizer.Worker)
    (h : Optimizer.optimizeMerged kind upd ch p st pb csts = .ok (res, w)) :
    res.status = .success ∧ ∃ sol x, res.solutions.head? = some sol ∧ Within x csts ∧
      sol.value = objective pb.objective x ∧
      ∀ y, Within y csts → AtLeastAsGood pb.type sol.value (objective pb.objective y) := by
  obtain ⟨hb, hmem⟩ := population_bastert hd (by omega) hpop
  obtain ⟨b, hb', _, hbest⟩ := C77_bastert_is_optimal_partial pb.type pb.objective pb.values.length hrange hq c hc
  obtain rfl : b = ch.bastert := Except.ok.inj (hb'.symm.trans hb)
  obtain ⟨g1, g2⟩ := Optimizer.C48_best_value_partial ch hch p st pb csts res w h
  have hst := g1.mpr ⟨_, List.mem_append_left _ hmem, hw⟩
  obtain ⟨sol, x, e1, _, e3, e4, e5⟩ := g2 hst
  refine ⟨hst, sol, x, e1, e3, e4, fun y _ => ?_⟩
  have h6 := e5 _ (List.mem_append_left _ hmem) hw
  have h7 := hbest y
  rw [good_iff] at h6 h7 ⊢
  exact le_trans h6 h7

end

/-! ### Examples -/

/-- To maximise `3 x0 + 2 x1 - x2 + 4 x3 + 8` under `x0 + x1 = 1` and `x2 + x3 <= 1`. -/
def exPb : Problem where
  type := .maximize
  objective := { elems := [⟨3, 0⟩, ⟨2, 1⟩, ⟨-1, 2⟩, ⟨4, 3⟩], value := 8 }
  eqs := [{ label := "c1", elems := [⟨1, 0⟩, ⟨1, 1⟩], value := 1, id := 0 }]
  ges := []
  les := [{ label := "c2", elems := [⟨1, 2⟩, ⟨1, 3⟩], value := 1, id := 1 }]
  names := ["a", "b", "c", "e"]
  values := [⟨0, 1, .binary⟩, ⟨0, 1, .binary⟩, ⟨0, 1, .binary⟩, ⟨0, 1, .binary⟩]
  ptype := .inequalities01

def exMerged : List Merged :=
  [⟨[⟨1, 0⟩, ⟨1, 1⟩], 1, 1, 0⟩, ⟨[⟨1, 2⟩, ⟨1, 3⟩], -2147483648, 1, 1⟩]

theorem exMerged_eq : Merge.make stdSorts .none exPb = .ok exMerged := by decide +kernel

theorem exMerged_disjoint : Disjoint 4 exMerged := by
  refine ⟨by decide, by decide, by decide, ?_⟩
  simp [exMerged]

theorem ok_of_isOk {α : Type} {r : Outcome α} (h : r.isOk = true) : ∃ a, r = .ok a := by
  cases r with
  | ok a => exact ⟨a, rfl⟩
  | error f => cases h

/-- `solve` with the optimistic policy finds the optimum of `exPb`. -/
example : ∃ r : Run Row, ∃ res x,
    solveProblem .inequalities01 updateRow stdSorts .none r exParams exPb = .ok res ∧
    res.status = .success ∧
    res.solutions = [⟨(List.range 4).map fun i => if x i then 1 else 0, objective exPb.objective x⟩] ∧
    ∀ y, Satisfies exPb.eqs exPb.ges exPb.les y →
      objective exPb.objective y ≤ objective exPb.objective x := by
  have hr : InRange exPb.objective exPb.values.length := ⟨by decide, by decide⟩
  obtain ⟨c, hc, _⟩ := C57_linear_cost_is_marginal exPb.objective exPb.values.length hr rfl
  obtain ⟨x0, hx, _⟩ := C78_optimistic_is_optimal_partial .maximize exPb.objective exPb.values.length hr rfl c hc
    (exDraws .maximize) (exDraws_ok _) exMerged exMerged_disjoint (by decide) (by decide +kernel)
  obtain ⟨s, hs⟩ := ok_of_isOk
    (show (makeSlv .inequalities01 exMerged exPb.values.length).isOk = true by decide +kernel)
  obtain ⟨res, x, h1, h2, h3, _, h5⟩ := C79_optimistic_solve_is_optimal_partial (upd := updateRow) stdSorts
    stdSorts_ok .none exPb (ints_of_sums (by decide +kernel)) (by decide) hr rfl exMerged exMerged_eq
    (by decide) exMerged_disjoint (by decide) (by decide +kernel) s hs c hc (exDraws .maximize) (exDraws_ok _)
    { exRun with x0 := x0 } exRun_ok hx exParams (by decide) (by decide) (by decide)
    ⟨fun j => j == 0, by decide⟩
  exact ⟨_, res, x, h1, h2, h3, h5⟩

/-- The vector of the pessimistic policy of `C79_pessimistic_is_not_improved` exists. -/
example : (initial .minimize (fun j => .ok ([-1, -1].getD j 0)) (exDraws .minimize) (fun _ => false)
    .pessimisticSolve 2 [⟨[⟨1, 0⟩, ⟨1, 1⟩], 1, 2, 0⟩]).map (fun x => (List.range 2).map x) =
    .ok [true, false] := by decide +kernel

/-- The draws of a population of six vectors. -/
def exPop : PopDraws :=
  ⟨fun i v => decide (i = 2) && decide (v = 1), fun _ v => decide (v = 3), fun _ v => decide (v ≠ 2),
    fun _ => exDraws .maximize⟩

def exPopPb : Problem := { exPb with les := [{ label := "c2", elems := [⟨1, 2⟩, ⟨1, 3⟩], value := 1, id := 1 }]
                                     eqs := [{ label := "c1", elems := [⟨1, 0⟩, ⟨1, 1⟩], value := 2, id := 0 }] }

def exPopMerged : List Merged :=
  [⟨[⟨1, 0⟩, ⟨1, 1⟩], 2, 2, 0⟩, ⟨[⟨1, 2⟩, ⟨1, 3⟩], -2147483648, 1, 1⟩]

def exPopResult : Outcome (List Assign × Assign) :=
  makeDefault exPopPb.objective 4 >>= fun c =>
    population .maximize (costAt exPopPb.objective c) exPop 4 exPopMerged 6

/-- The bastert vector of `exPopPb` respects its constraints, and it is the first of the population. -/
example : exPopResult.map (fun r => (r.1.map fun x => (List.range 4).map x, (List.range 4).map r.2)) =
    .ok ([[true, true, false, true], [true, true, false, true], [true, false, false, true],
      [true, true, false, false], [true, true, false, true], [false, false, false, false]],
      [true, true, false, true]) := by decide +kernel

def exPopChoices : Optimizer.Choices Row :=
  ⟨((exPopResult.toOption).getD ([], fun _ => false)).1, Optimizer.stdSorter,
    ((exPopResult.toOption).getD ([], fun _ => false)).2, Optimizer.exHash,
    [Optimizer.exCall (some (.mix 0 2 fun i => i == 1)) 4, Optimizer.exCall none 2]⟩

/-- `optimize` with this population reports the optimum. -/
example : ∃ res w, Optimizer.optimizeMerged .inequalities01 updateRow exPopChoices exParams .one exPopPb
      exPopMerged = .ok (res, w) ∧ res.status = .success ∧
    ∃ sol, res.solutions.head? = some sol ∧
      ∀ y, Within y exPopMerged → objective exPopPb.objective y ≤ sol.value := by
  have hr : InRange exPopPb.objective exPopPb.values.length := ⟨by decide, by decide⟩
  obtain ⟨c, hc, _⟩ := C57_linear_cost_is_marginal exPopPb.objective exPopPb.values.length hr rfl
  obtain ⟨q, hq⟩ := ok_of_isOk (show exPopResult.isOk = true by decide +kernel)
  have hq' : population .maximize (costAt exPopPb.objective c) exPop 4 exPopMerged 6 = .ok q := by
    have : exPopResult = population .maximize (costAt exPopPb.objective c) exPop 4 exPopMerged 6 := by
      unfold exPopResult
      rw [show makeDefault exPopPb.objective 4 = .ok c from hc, ok_bind]
    rw [← this, hq]
  have hi : (exPopChoices.init, exPopChoices.bastert) = q := by
    unfold exPopChoices
    rw [hq]
    rfl
  have h6 : exPopChoices.init.length = 6 := by decide +kernel
  obtain ⟨⟨res, w⟩, h⟩ := ok_of_isOk (show (Optimizer.optimizeMerged .inequalities01 updateRow
    exPopChoices exParams .one exPopPb exPopMerged).isOk = true by decide +kernel)
  have hch : Spec.Optimizer.ChoicesOk exPopChoices := by
    refine ⟨by rw [h6]; decide, Optimizer.stdSorter_ok, ?_⟩
    intro c hc k
    rw [h6]
    simp only [exPopChoices, List.mem_cons, List.not_mem_nil, or_false] at hc
    rcases hc with rfl | rfl
    · exact ⟨show 6 / 5 ≤ 4 by decide, show 4 < 6 by decide, Optimizer.stdSorter_ok⟩
    · exact ⟨show 6 / 5 ≤ 2 by decide, show 2 < 6 by decide, Optimizer.stdSorter_ok⟩
  obtain ⟨g1, sol, x, g2, _, _, g5⟩ := C79_optimize_feasible_bastert_partial (upd := updateRow) exPopChoices hch
    exParams .one exPopPb exPopMerged hr rfl c hc exPop ⟨fun _ => rfl, fun _ => exDraws_ok _⟩ 6 (by decide)
    (by rw [hi]; exact hq') (by unfold Within; decide +kernel) res w h
  exact ⟨res, w, h, g1, sol, g2, g5⟩

/-! ## C80: delta -/

/-- The smallest absolute value of the nonzero numbers. -/
theorem least_spec : ∀ l : List Rat,
    (least l = none ∧ ∀ v ∈ l, v = 0) ∨
    ∃ v ∈ l, v ≠ 0 ∧ least l = some |v| ∧ ∀ w ∈ l, w ≠ 0 → |v| ≤ |w|
  | [] => Or.inl ⟨rfl, by simp⟩
  | a :: l => by
    unfold least
    by_cases ha : a = 0
    · rw [if_pos ha]
      rcases least_spec l with ⟨h1, h2⟩ | ⟨v, h1, h2, h3, h4⟩
      · exact Or.inl ⟨h1, by simpa [ha] using h2⟩
      · refine Or.inr ⟨v, by simp [h1], h2, h3, fun w hw hw0 => ?_⟩
        rcases List.mem_cons.mp hw with rfl | hw
        · exact absurd ha hw0
        · exact h4 w hw hw0
    · rw [if_neg ha]
      rcases least_spec l with ⟨h1, h2⟩ | ⟨v, h1, h2, h3, h4⟩
      · rw [h1]
        refine Or.inr ⟨a, by simp, ha, rfl, fun w hw hw0 => ?_⟩
        rcases List.mem_cons.mp hw with rfl | hw
        · exact le_refl _
        · exact absurd (h2 w hw) hw0
      · rw [h3]
        refine Or.inr ?_
        by_cases hle : |a| ≤ |v|
        · refine ⟨a, by simp, ha, by simp [hle], fun w hw hw0 => ?_⟩
          rcases List.mem_cons.mp hw with rfl | hw
          · exact le_refl _
          · exact le_trans hle (h4 w hw hw0)
        · refine ⟨v, by simp [h1], h2, by simp [hle], fun w hw hw0 => ?_⟩
          rcases List.mem_cons.mp hw with rfl | hw
          · exact le_of_lt (not_le.mp hle)
          · exact h4 w hw hw0

/-- C80: when `delta` is negative the step is computed: `(1 - theta)` times the smallest absolute
value of the nonzero costs, linear and quadratic.  It is not negative for `theta` from 0 to 1, and
it is null only for `theta = 1`. -/
theorem C80_delta_partial (big : Rat) (c : Cost) (theta : Rat)
    (hne : ∃ v ∈ c.linear ++ c.quads.map Prod.fst, v ≠ 0) :
    ∃ v ∈ c.linear ++ c.quads.map Prod.fst, v ≠ 0 ∧
      (∀ w ∈ c.linear ++ c.quads.map Prod.fst, w ≠ 0 → |v| ≤ |w|) ∧
      computeDelta id big c theta = (1 - theta) * |v| ∧
      (theta ≤ 1 → 0 ≤ computeDelta id big c theta) ∧
      (computeDelta id big c theta = 0 ↔ theta = 1) := by
  rcases least_spec (c.linear ++ c.quads.map Prod.fst) with ⟨_, h2⟩ | ⟨v, h1, h2, h3, h4⟩
  · obtain ⟨v, hv, h0⟩ := hne
    exact absurd (h2 v hv) h0
  · have e : computeDelta id big c theta = (1 - theta) * |v| := by
      unfold computeDelta
      rw [h3]
      simp only [Option.getD_some, id_eq]
      ring
    have hpos : 0 < |v| := abs_pos.mpr h2
    refine ⟨v, h1, h2, h4, e, fun ht => ?_, ?_⟩
    · rw [e]
      exact mul_nonneg (by linarith) (le_of_lt hpos)
    · rw [e, mul_eq_zero]
      constructor
      · rintro (h | h)
        · linarith
        · exact absurd h (ne_of_gt hpos)
      · intro h
        exact Or.inl (by linarith)

example : computeDelta id 1000 ⟨[3, 0, -1 / 2], [(-1, 0)], []⟩ (1 / 4) = 3 / 8 := by decide +kernel

example : ∃ v ∈ ([3, 0, -1 / 2] : List Rat) ++ [(-1, 0)].map Prod.fst, v ≠ 0 := ⟨3, by simp, by decide⟩

/-- The numbers of `p` digits below 1 are at most `1 - 2 ^ -p`. -/
theorem below_one {p : Nat} (hp : 0 < p) {q : Rat} (hq : binary p q = q) (h1 : q < 1) :
    q ≤ 1 - 1 / 2 ^ p := by
  by_cases hh : q < 1 / 2
  · have : (1 : Rat) / 2 ^ p ≤ 1 / 2 := by
      apply one_div_le_one_div_of_le (by norm_num)
      calc (2 : Rat) = 2 ^ 1 := by norm_num
        _ ≤ 2 ^ p := pow_le_pow_right₀ (by norm_num) hp
    linarith
  · have h2 : 1 / 2 ≤ q := not_lt.mp hh
    have hlog : Int.log 2 |q| = -1 := by
      rw [abs_of_nonneg (by linarith)]
      apply le_antisymm
      · have : Int.log 2 q < 0 := by
          rw [← Int.lt_zpow_iff_log_lt (by norm_num) (by linarith)]
          simpa using h1
        omega
      · rw [← Int.zpow_le_iff_le_log (by norm_num) (by linarith)]
        norm_num
        linarith
    have hu : ulp p q = 1 / 2 ^ p := by
      unfold ulp
      rw [hlog]
      have : (-1 + 1 - (p : Int)) = -(p : Int) := by ring
      rw [this, zpow_neg, zpow_natCast, one_div]
    have h3 : q = (nearest (q / ulp p q) : Rat) * (1 / 2 ^ p) := by
      conv_lhs => rw [← hq]
      unfold binary
      rw [hu]
    generalize nearest (q / ulp p q) = k at h3
    have hpos : (0 : Rat) < 2 ^ p := by positivity
    have hk : k < 2 ^ p := by
      have h4 : (k : Rat) < 2 ^ p := by
        rw [h3] at h1
        rw [mul_one_div, div_lt_one hpos] at h1
        exact h1
      exact_mod_cast h4
    have hk2 : (k : Rat) ≤ 2 ^ p - 1 := by
      have : k ≤ 2 ^ p - 1 := by omega
      exact_mod_cast this
    calc q = (k : Rat) * (1 / 2 ^ p) := h3
      _ ≤ (2 ^ p - 1) * (1 / 2 ^ p) := mul_le_mul_of_nonneg_right hk2 (by positivity)
      _ = 1 - 1 / 2 ^ p := by field_simp

/-- C80, in floating point: with the numbers of `p` digits, when a cost is not null, the computed step
is positive for `theta` from 0 to the last number before 1, null for `theta = 1`, and at most twice
the rounding of one operation away from `(1 - theta)` times the smallest absolute value of the nonzero
costs.  What is missing: the null objective. -/
theorem C80_rounded_delta_partial (p : Nat) (hp : 0 < p) (big : Rat) (c : Cost) (theta : Rat)
    (hne : ∃ v ∈ c.linear ++ c.quads.map Prod.fst, v ≠ 0) (h0 : 0 ≤ theta) (ht : binary p theta = theta) :
    (theta < 1 → 0 < computeDelta (binary p) big c theta) ∧
    (theta = 1 → (∀ v ∈ c.linear ++ c.quads.map Prod.fst, binary p |v| = |v|) →
      computeDelta (binary p) big c theta = 0) ∧
    ∃ v ∈ c.linear ++ c.quads.map Prod.fst, v ≠ 0 ∧
      (∀ w ∈ c.linear ++ c.quads.map Prod.fst, w ≠ 0 → |v| ≤ |w|) ∧
      abs (computeDelta (binary p) big c theta - (1 - theta) * abs v) ≤
        1 / 2 ^ p * (abs (1 - theta) + theta + theta / 2 ^ p) * abs v := by
  rcases least_spec (c.linear ++ c.quads.map Prod.fst) with ⟨_, h2⟩ | ⟨v, h1, h2, h3, h4⟩
  · obtain ⟨v, hv, h0⟩ := hne
    exact absurd (h2 v hv) h0
  have hpos : 0 < |v| := abs_pos.mpr h2
  have e : computeDelta (binary p) big c theta = binary p (|v| - binary p (theta * |v|)) := by
    unfold computeDelta
    rw [h3]
    rfl
  have hu0 : (0 : Rat) < 1 / 2 ^ p := by positivity
  have hu1 : (1 : Rat) / 2 ^ p < 1 := by
    rw [div_lt_one (by positivity)]
    exact one_lt_pow₀ (by norm_num) (by omega)
  rw [e]
  have hA := binary_error_abs p (theta * |v|)
  have hB := binary_error_abs p (|v| - binary p (theta * |v|))
  have hn : 0 ≤ theta * |v| := mul_nonneg h0 hpos.le
  rw [abs_of_nonneg hn] at hA
  generalize hr : binary p (theta * |v|) = r at hA hB ⊢
  generalize hs : binary p (|v| - r) = s at hB ⊢
  have hd : ((1 : Rat) / 2 ^ p) = 1 / 2 ^ p := rfl
  generalize hu : (1 : Rat) / 2 ^ p = u at hu0 hu1 hA hB
  rw [abs_le] at hA
  refine ⟨fun h => ?_, fun h hrep => ?_, v, h1, h2, h4, ?_⟩
  · have hb := below_one hp ht h
    rw [hu] at hb
    have hlt : r < |v| := by
      have : r ≤ (1 + u) * (theta * |v|) := by linarith [hA.2]
      have h5 : (1 + u) * (theta * |v|) ≤ (1 + u) * ((1 - u) * |v|) := by
        apply mul_le_mul_of_nonneg_left _ (by linarith)
        exact mul_le_mul_of_nonneg_right hb hpos.le
      nlinarith [mul_pos (mul_pos hu0 hu0) hpos]
    rw [abs_of_pos (sub_pos.mpr hlt)] at hB
    rw [abs_le] at hB
    have := mul_pos (sub_pos.mpr hu1) (sub_pos.mpr hlt)
    nlinarith [hB.1]
  · subst h
    rw [one_mul, hrep v h1] at hr
    subst hr
    rw [sub_self] at hs
    rw [← hs]
    exact binary_zero p
  · have h6 : abs (s - (|v| - r)) ≤ u * (|1 - theta| * |v| + u * (theta * |v|)) := by
      refine le_trans hB (mul_le_mul_of_nonneg_left ?_ hu0.le)
      have : |v| - r = (1 - theta) * |v| + (theta * |v| - r) := by ring
      rw [this]
      refine le_trans (abs_add_le _ _) ?_
      rw [abs_mul, abs_abs]
      have : abs (theta * |v| - r) ≤ u * (theta * |v|) := by
        rw [abs_le]; constructor <;> linarith [hA.1, hA.2]
      linarith
    have h7 : abs ((|v| - r) - (1 - theta) * |v|) ≤ u * (theta * |v|) := by
      rw [abs_le]; constructor <;> linarith [hA.1, hA.2]
    have h8 := abs_add_le (s - (|v| - r)) ((|v| - r) - (1 - theta) * |v|)
    have e2 : s - (|v| - r) + ((|v| - r) - (1 - theta) * |v|) = s - (1 - theta) * |v| := by ring
    rw [e2] at h8
    have e3 : u * (|1 - theta| + theta + theta / 2 ^ p) * |v| =
        u * (|1 - theta| * |v| + u * (theta * |v|)) + u * (theta * |v|) := by
      rw [← hu]
      ring
    rw [e3]
    linarith

/-- In `float`, with the costs 3, 0 and -1/2 and `theta = 1/4`: 3/8. -/
example : computeDelta (binary 24) 1000 ⟨[3, 0, -1 / 2], [(-1, 0)], []⟩ (1 / 4) = 3 / 8 ∧
    binary 24 (1 / 4) = 1 / 4 := by decide +kernel

/-- The parameter `theta` is a `double`, which the solver converts first: for the type `float` the step
is null already for `theta = 1 - 2 ^ -30`. -/
theorem C80_theta_converted :
    computeDelta (binary 24) 1000 ⟨[3, 0, -1 / 2], [], []⟩ (binary 24 (1 - 1 / 2 ^ 30)) = 0 ∧
    0 < computeDelta (binary 53) 1000 ⟨[3, 0, -1 / 2], [], []⟩ (binary 53 (1 - 1 / 2 ^ 30)) := by
  decide +kernel

/-- C80 does not hold for a null objective: the step is then `(1 - theta)` times the largest
floating-point number. -/
theorem C80_null_objective (big : Rat) (c : Cost) (theta : Rat)
    (h0 : ∀ v ∈ c.linear ++ c.quads.map Prod.fst, v = 0) :
    computeDelta id big c theta = (1 - theta) * big := by
  rcases least_spec (c.linear ++ c.quads.map Prod.fst) with ⟨h1, _⟩ | ⟨v, h1, h2, _, _⟩
  · unfold computeDelta
    rw [h1]
    simp only [Option.getD_none, id_eq]
    ring
  · exact absurd (h0 v h1) h2

end Bx.Init
