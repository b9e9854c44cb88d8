import Verif.Proofs.ZSolver
import Verif.Props.Subsolvers
import Verif.Props.Solve

/-!
# C64: the update of a row with integer coefficients

`ZRow` holds what is decided outside the model during one update: the reduced costs,
the order in which they are sorted, the cell after the row.  `satM` is the meaning of
a merged constraint (`Verif.Spec.Lp`).
-/

namespace Bx.ZSolver

open Merge SolverCtor Spec Exhaustive Itm

private theorem kindOf_hard {c : Merged} (hbig : ∃ e ∈ c.elems, e.factor < -1 ∨ 1 < e.factor)
    (hside : 10 ≤ c.elems.length ∨ c.min = c.max ∨
      ((∃ y, lhs y c.elems < c.min) ∧ ∃ y, c.max < lhs y c.elems)) :
    kindOf c = .branchAndBound ∨ kindOf c = .unconstrainedBranchAndBound ∨
      kindOf c = .exhaustive := by
  have hany : (c.elems.any fun e => decide (e.factor < -1) || decide (e.factor > 1)) = true := by
    obtain ⟨e, he, h⟩ := hbig
    exact List.any_eq_true.mpr ⟨e, he, by simpa using h⟩
  have hbase : baseKind c.elems = if c.elems.length < 10 then .exhaustive else .branchAndBound := by
    unfold baseKind; rw [if_pos hany]
  unfold kindOf
  rw [hbase]
  by_cases hl : c.elems.length < 10
  · rw [if_pos hl]
    rcases hside with h | h | ⟨⟨y, hy⟩, w, hw⟩
    · omega
    · simp [h]
    · have h1 := lhs_ge_lower y c.elems
      have h2 := lhs_le_upper w c.elems
      have : ¬ (lowerSum c.elems ≥ c.min ∨ upperSum c.elems ≤ c.max) := by omega
      simp [this]
  · rw [if_neg hl]
    by_cases hm : c.min = c.max
    · simp [hm]
    · by_cases hx : lowerSum c.elems ≥ c.min ∨ upperSum c.elems ≤ c.max <;> simp [hm, hx]

/-- C64 (partial): consider a constraint that some assignment satisfies, with a
coefficient other than 1 and -1, and with ten elements or more, or an equality, or
violated from below by some assignment and from above by another.  Whatever the
reduced costs and their order, updating it gives an assignment that satisfies it,
except that for a longest constraint of the problem the update may read past the end
of the buffer of the reduced costs.

Missing: the other constraints, for which the claim is false
(`C64_linear_row_aborts`, `C64_one_sided_row_aborts`) and only
`C64_prefix_update_partial` holds; and the read past the end
(`C64_reads_past_the_end`). -/
theorem C64_integer_update_partial (t : ObjType) (csts : List Merged) (n : Nat) (z : ZSlv)
    (hz : makeZ csts n = .ok z) (k : Nat) (c : Merged) (hk : csts[k]? = some c)
    (hnd : (c.elems.map FunElem.var).Nodup) (hsat : ∃ y, satM y c)
    (hbig : ∃ e ∈ c.elems, e.factor < -1 ∨ 1 < e.factor)
    (hside : 10 ≤ c.elems.length ∨ c.min = c.max ∨
      ((∃ y, lhs y c.elems < c.min) ∧ ∃ y, c.max < lhs y c.elems))
    (o : ZRow) (ho : o.Ok t) (x : Assign) :
    (∃ x', updateRowZ t z o k x = .ok x' ∧ satM x' c) ∨
    (updateRowZ t z o k x = .error (.ub "R[i]") ∧
      ∀ d ∈ csts, d.elems.length ≤ c.elems.length) := by
  have hkind := kindOf_hard hbig hside
  rcases updateRowZ_spec hz hk hsat hnd ho (by tauto) x with h | ⟨h1, h2⟩
  · exact Or.inl h
  · exact Or.inr ⟨h1, fun d hd => le_trans ((makeZ_facts hz).2.2.1 d hd) h2⟩

/-- C64 (partial): for every constraint, if selecting the first elements of the sorted
row, for some number of them, respects the constraint, then the update gives an
assignment that satisfies it, with the same exception. -/
theorem C64_prefix_update_partial (t : ObjType) (csts : List Merged) (n : Nat) (z : ZSlv)
    (hz : makeZ csts n = .ok z) (k : Nat) (c : Merged) (hk : csts[k]? = some c)
    (hnd : (c.elems.map FunElem.var).Nodup) (o : ZRow) (ho : o.Ok t)
    (i : Nat) (hi : i ≤ c.elems.length)
    (hmin : c.min ≤ (((o.sort (reduced o.cost c.elems)).take i).map Rc.f).sum)
    (hmax : (((o.sort (reduced o.cost c.elems)).take i).map Rc.f).sum ≤ c.max) (x : Assign) :
    (∃ x', updateRowZ t z o k x = .ok x' ∧ satM x' c) ∨
    (updateRowZ t z o k x = .error (.ub "R[i]") ∧
      ∀ d ∈ csts, d.elems.length ≤ c.elems.length) := by
  have hct := ((makeZ_facts hz).2.2.2 k c hk).2.2.2.1
  have hsp := ho.1 (reduced o.cost c.elems)
  have hid : ((o.sort (reduced o.cost c.elems)).map Rc.id).Nodup :=
    ((hsp.map Rc.id).nodup_iff).mpr (by rw [reduced_id]; exact List.nodup_range)
  classical
  -- the assignment that the prefix describes
  let sel : Int := (i : Int) - 1
  have hw := weight_chosen hid sel
  rw [show (sel + 1).toNat = i by omega, weight_perm hsp] at hw
  obtain ⟨y, hy⟩ : ∃ y : Assign, y = fun v => decide (∃ (j : Nat) (e : FunElem),
      c.elems[j]? = some e ∧ e.var = v ∧
        chosen (o.sort (reduced o.cost c.elems), sel) j = true) := ⟨_, rfl⟩
  have hinj : ∀ (j : Nat) (e : FunElem), c.elems[j]? = some e →
      y e.var = chosen (o.sort (reduced o.cost c.elems), sel) j := by
    intro j e he
    cases hc : chosen (o.sort (reduced o.cost c.elems), sel) j with
    | true => simp only [hy, decide_eq_true_eq]; exact ⟨j, e, he, rfl, hc⟩
    | false =>
      simp only [hy, decide_eq_false_iff_not]
      rintro ⟨j', e', he', hv, hc'⟩
      have := pos_inj hnd he' he hv
      subst this
      rw [hc] at hc'; exact absurd hc' (by simp)
  have hl := reduced_weight (cost := o.cost) (x := y) hinj
  rw [hw] at hl
  have hsat : ∃ y, satM y c := ⟨_, by
    unfold satM
    rw [← hl]
    exact ⟨hmin, hmax⟩⟩
  have hb : (rowBound c).min ≤ psum (o.sort (reduced o.cost c.elems)) i ∧
      psum (o.sort (reduced o.cost c.elems)) i ≤ (rowBound c).max := by
    rw [hl]
    refine (ctor_exact hct _).mpr ?_
    unfold satM
    rw [← hl]
    exact ⟨hmin, hmax⟩
  rcases updateRowZ_spec hz hk hsat hnd ho (Or.inr (Or.inr (Or.inr ⟨i, hi, hb⟩))) x with
    h | ⟨h1, h2⟩
  · exact Or.inl h
  · exact Or.inr ⟨h1, fun d hd => le_trans ((makeZ_facts hz).2.2.1 d hd) h2⟩

/-- C64: when the update of a constraint returns, the new assignment satisfies this
constraint and only the variables of the constraint changed.  No hypothesis on the
sorts and the reduced costs. -/
theorem C64_returned_row_is_satisfied (t : ObjType) (csts : List Merged) (n : Nat) (z : ZSlv)
    (hz : makeZ csts n = .ok z) (k : Nat) (c : Merged) (hk : csts[k]? = some c) (o : ZRow)
    (x x' : Assign) (h : updateRowZ t z o k x = .ok x') :
    satM x' c ∧ ∀ j, (∀ e ∈ c.elems, e.var ≠ j) → x' j = x j :=
  updateRowZ_ok hz hk h

/-! ### Witnesses -/

/-- The outside of an update: the reduced costs are `cost`, the sorts are insertion
sorts. -/
def plainRow (t : ObjType) (cost : Nat → Rat) : ZRow :=
  { cost := cost
    sort := isort fun a b => match t with
      | .minimize => decide (a.value < b.value)
      | .maximize => decide (b.value < a.value)
    stale := ⟨0, 0, 0⟩
    sort1 := isort (BranchBound.itemBefore t)
    sort2 := isort (before t) }

theorem plainRow_ok (t : ObjType) (cost : Nat → Rat) : (plainRow t cost).Ok t :=
  ⟨isort_perm _, isort_perm _, before_sort t⟩

private theorem error_of_map {α β : Type} {m : Outcome α} {f : α → β} {e : Fault}
    (h : m.map f = .error e) : m = .error e := by
  cases m with
  | error e' => simpa [Except.map] using h
  | ok a => simp [Except.map] at h

private theorem ok_of_map {α β : Type} {m : Outcome α} {f : α → β} {b : β}
    (h : m.map f = .ok b) : ∃ a, m = .ok a ∧ f a = b := by
  cases m with
  | error e' => simp [Except.map] at h
  | ok a => exact ⟨a, rfl, by simpa [Except.map] using h⟩

/-- The row `2 x0 + 3 x1 + 4 x2 <= 8`. -/
def longRow : Merged := ⟨[⟨2, 0⟩, ⟨3, 1⟩, ⟨4, 2⟩], 0, 8, 0⟩

private theorem make_linear : makeZ [⟨[⟨1, 0⟩, ⟨-1, 1⟩], 1, 1, 0⟩, longRow] 3 = .ok
    ⟨⟨.inequalitiesZ, [[⟨1, 0⟩, ⟨-1, 1⟩], longRow.elems], [⟨1, 1, 0⟩, ⟨0, 8, 0⟩], 3⟩,
      [.linear, .unconstrainedExhaustive],
      ⟨[0, 0, 4, 0, 0, 0, 0, 3, 0, 0, 3, 4, 0, 3, 0, 0, 0, 0, 2, 0, 0, 2, 0, 4, 2, 0, 0, 2, 3, 0,
        2, 3, 0, 2, 0, 0], [⟨1, 0, 12, 0, 8⟩]⟩⟩ := by decide +kernel

/-- Refutation: `x0 - x1 = 1` is satisfied by x0 = 1, x1 = 0, but when the reduced cost
of x1 is the lowest the update aborts: the rows with coefficients 1 and -1 have no
sub-solver. -/
theorem C64_linear_row_aborts : ∃ z,
    makeZ [⟨[⟨1, 0⟩, ⟨-1, 1⟩], 1, 1, 0⟩, longRow] 3 = .ok z ∧
    (∃ y, satM y ⟨[⟨1, 0⟩, ⟨-1, 1⟩], 1, 1, 0⟩) ∧
    updateRowZ .minimize z (plainRow .minimize fun i => -(i : Rat)) 0 (fun _ => false) =
      .error (.contract "is_valid_constraint(*this, k, x)") := by
  refine ⟨_, make_linear, ⟨fun v => decide (v = 0), by decide⟩, ?_⟩
  exact error_of_map (f := fun _ => ()) (by decide +kernel)

private theorem make_sided : makeZ [⟨[⟨2, 0⟩, ⟨-3, 1⟩], 1, 100, 0⟩, longRow] 3 = .ok
    ⟨⟨.inequalitiesZ, [[⟨2, 0⟩, ⟨-3, 1⟩], longRow.elems], [⟨1, 2, 0⟩, ⟨0, 8, 0⟩], 3⟩,
      [.unconstrainedExhaustive, .unconstrainedExhaustive],
      ⟨[2, 0, 2, 0, 0, 0, 4, 0, 0, 0, 0, 3, 0, 0, 3, 4, 0, 3, 0, 0, 0, 0, 2, 0, 0, 2, 0, 4, 2, 0,
        0, 2, 3, 0, 2, 3, 0, 2, 0, 0], [⟨0, 0, 2, 1, 2⟩, ⟨1, 4, 12, 0, 8⟩]⟩⟩ := by decide +kernel

/-- Refutation: `2 x0 - 3 x1 >= 1` is satisfied by x0 = 1, x1 = 0, but when the reduced
cost of x1 is the lowest the update aborts: the exhaustive sub-solver applies the
selections it stored, in the order of the row, to the sorted row. -/
theorem C64_one_sided_row_aborts : ∃ z,
    makeZ [⟨[⟨2, 0⟩, ⟨-3, 1⟩], 1, 100, 0⟩, longRow] 3 = .ok z ∧
    (∃ y, satM y ⟨[⟨2, 0⟩, ⟨-3, 1⟩], 1, 100, 0⟩) ∧
    updateRowZ .minimize z (plainRow .minimize fun i => -(i : Rat)) 0 (fun _ => false) =
      .error (.contract "is_valid_constraint(*this, k, x)") := by
  refine ⟨_, make_sided, ⟨fun v => decide (v = 0), by decide⟩, ?_⟩
  exact error_of_map (f := fun _ => ()) (by decide +kernel)

/-- Refutation: the update of a longest row can read past the end of the reduced
costs. -/
theorem C64_reads_past_the_end : ∃ z,
    makeZ [⟨[⟨2, 0⟩, ⟨-3, 1⟩], 1, 100, 0⟩, longRow] 3 = .ok z ∧ (∃ y, satM y longRow) ∧
    updateRowZ .minimize z (plainRow .minimize fun i => -(i : Rat)) 1 (fun _ => false) =
      .error (.ub "R[i]") := by
  refine ⟨_, make_sided, ⟨fun _ => false, by decide⟩, ?_⟩
  exact error_of_map (f := fun _ => ()) (by decide +kernel)

/-- Refutation: the constructor aborts on the satisfiable row `2 x0 <= 1`. -/
theorem C64_one_variable_row_aborts :
    (∃ y, satM y ⟨[⟨2, 0⟩], -10, 1, 0⟩) ∧
    makeZ [⟨[⟨2, 0⟩], -10, 1, 0⟩] 1 = .error (.contract "nb_solution > 0") :=
  ⟨⟨fun _ => false, by decide⟩, by decide +kernel⟩

/-! ### The hypotheses are met -/

/-- The row `2 x0 - 3 x1 + 4 x2` between 1 and 3, with a longer row. -/
def midRow : Merged := ⟨[⟨2, 0⟩, ⟨-3, 1⟩, ⟨4, 2⟩], 1, 3, 0⟩

/-- A longer row. -/
def fourRow : Merged := ⟨[⟨1, 0⟩, ⟨1, 1⟩, ⟨1, 2⟩, ⟨1, 3⟩], 1, 1, 0⟩

/-- The solver of these two rows. -/
def midZ : ZSlv :=
    ⟨⟨.inequalitiesZ, [midRow.elems, fourRow.elems], [⟨1, 3, 0⟩, ⟨1, 1, 0⟩], 4⟩,
      [.exhaustive, .linear],
      ⟨[0, -3, 4, 2, 0, 0, 2, 0, 0, 2, -3, 4, 2, 0, 0], [⟨0, 0, 5, 1, 3⟩]⟩⟩

private theorem make_mid : makeZ [midRow, fourRow] 4 = .ok midZ := by decide +kernel

example : ∃ z, makeZ [midRow, fourRow] 4 = .ok z ∧
    ∀ (o : ZRow), o.Ok .minimize → ∀ x, ∃ x', updateRowZ .minimize z o 0 x = .ok x' ∧
      satM x' midRow := by
  refine ⟨_, make_mid, fun o ho x => ?_⟩
  rcases C64_integer_update_partial .minimize [midRow, fourRow] 4 _ make_mid 0 midRow rfl
    (by decide) ⟨fun v => decide (v = 0), by decide⟩ (by decide)
    (Or.inr (Or.inr ⟨⟨fun v => decide (v = 1), by decide⟩, ⟨fun v => decide (v = 2), by decide⟩⟩))
    o ho x with h | ⟨_, h⟩
  · exact h
  · exact absurd (h fourRow (by simp)) (by decide)

example : ∃ z x', makeZ [midRow, fourRow] 4 = .ok z ∧
    updateRowZ .minimize z (plainRow .minimize fun i => -(i : Rat)) 0 (fun _ => true) = .ok x' ∧
    (x' 0, x' 1, x' 2, x' 3) = (false, true, true, true) := by
  obtain ⟨x', h1, h2⟩ := ok_of_map (f := fun x' : Assign => (x' 0, x' 1, x' 2, x' 3))
    (m := updateRowZ .minimize midZ (plainRow .minimize fun i => -(i : Rat)) 0 (fun _ => true))
    (b := (false, true, true, true)) (by decide +kernel)
  exact ⟨_, x', make_mid, h1, h2⟩

example : ∃ z x', makeZ [midRow, fourRow] 4 = .ok z ∧
    updateRowZ .maximize z (plainRow .maximize fun i => if i = 2 then 1 else -1) 1 (fun _ => true) = .ok x' ∧
    satM x' fourRow := by
  refine ⟨midZ, ?_⟩
  rcases C64_prefix_update_partial .maximize [midRow, fourRow] 4 _ make_mid 1 fourRow rfl
    (by decide) (plainRow .maximize fun i => if i = 2 then 1 else -1) (plainRow_ok _ _) 1 (by decide)
    (by decide +kernel) (by decide +kernel) (fun _ => true) with ⟨x', h⟩ | ⟨h, _⟩
  · exact ⟨x', make_mid, h⟩
  · exfalso
    have : (updateRowZ .maximize midZ (plainRow .maximize fun i => if i = 2 then 1 else -1) 1
      (fun _ => true)).map (fun _ => ()) = (Except.error (.ub "R[i]") : Outcome Unit) := by
      rw [h]; rfl
    revert this
    decide +kernel

end Bx.ZSolver
