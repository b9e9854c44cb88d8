import Verif.Proofs.OverflowZ
import Verif.Proofs.OverflowInit
import Verif.Props.Parser
import Verif.Props.Merge

/-!
# C108: arithmetic on `int`

`Checked.f` is the function `f` of the other modules computed with the 32 bits `int` of the code:
an operation whose result is out of range is undefined behaviour.  The theorems tell for which
problems the two are the same.
-/

namespace Bx.Checked

open Merge SolverCtor Spec Exhaustive Itm ZSolver

/-- C108: on a problem with small constraints `is_valid_solution` computes with `int` what it would
compute with unbounded integers, for every result. -/
theorem C108_check_is_exact {pb : RawProblem} (h : AllSmall pb.eqs pb.ges pb.les) (r : Result) :
    Checked.isValidSolution pb r = Lpcore.isValidSolution pb r :=
  isValidSolution_eq h r

/-- C108: so does the preprocessing, and the constraints that it leaves are small. -/
theorem C108_preprocess_is_exact {pb : RawProblem} (h : AllSmall pb.eqs pb.ges pb.les) :
    Checked.preprocess pb = Preprocess.preprocess pb ∧
    ∀ red, Preprocess.preprocess pb = .ok red → AllSmall red.eqs red.ges red.les :=
  ⟨preprocess_eq h, fun _ hr => run_small (pb := { ProblemType.ofRaw pb with affected := {} }) h hr⟩

/-- C108: so does the assignment of one variable in a problem that is already reduced, as the
branching optimizer does again and again, and the constraints stay small. -/
theorem C108_split_is_exact {pb : Problem} (h : AllSmall pb.eqs pb.ges pb.les) (v : Nat) :
    Checked.split pb v = Preprocess.split pb v ∧
    ∀ a b, Preprocess.split pb v = .ok (a, b) →
      AllSmall a.eqs a.ges a.les ∧ AllSmall b.eqs b.ges b.les := by
  refine ⟨split_eq h v, fun a b hs => ?_⟩
  unfold Preprocess.split at hs
  obtain ⟨a', ha, hs⟩ := bind_eq_ok.1 hs
  obtain ⟨b', hb, hs⟩ := bind_eq_ok.1 hs
  cases hs
  exact ⟨affect_small h ha, affect_small h hb⟩

/-- C108: with 0/1 and -1/0/1 coefficients, every check of a row, every distance to a bound and
every update of a row of the solver of a problem with small constraints computes with `int` what it
would compute with unbounded integers: whatever the order of the constraints, the reduced costs,
the row and the assignment. -/
theorem C108_rows_are_exact {pb : Problem} (h : AllSmall pb.eqs pb.ges pb.les) {s : Sorts}
    (hs : s.Ok) {o : Order} {csts : List Merged} (hm : Merge.make s o pb = .ok csts)
    {t : SolverType} {n : Nat} {slv : Slv} (hv : makeSlv t csts n = .ok slv) :
    (∀ k x, Checked.isValidConstraint slv k x = Itm.isValidConstraint slv k x) ∧
    (∀ x, Checked.infeasibility slv x = Itm.infeasibility slv x) ∧
    ∀ row k x, Checked.updateRow slv row k x = Itm.updateRow slv row k x := by
  have ok := makeSlv_ok (make_fit hs h hm) hv
  exact ⟨isValidConstraint_eq ok, infeasibility_eq ok, updateRow_eq ok⟩

/-- C108 (partial): with integer coefficients, so do the construction of the solver, with the
enumeration of the exhaustive sub-solver, and every update of a row, with its branch-and-bound,
provided that the cell that `select_variables` reads after the row is small too. -/
theorem C108_integer_rows_are_exact_partial {pb : Problem} (h : AllSmall pb.eqs pb.ges pb.les)
    {s : Sorts} (hs : s.Ok) {o : Order} {csts : List Merged} (hm : Merge.make s o pb = .ok csts)
    (n : Nat) :
    Checked.makeZ csts n = ZSolver.makeZ csts n ∧
    ∀ z, ZSolver.makeZ csts n = .ok z →
      (∀ k x, Checked.isValidConstraint z.slv k x = Itm.isValidConstraint z.slv k x) ∧
      (∀ x, Checked.infeasibility z.slv x = Itm.infeasibility z.slv x) ∧
      ∀ t (r : ZRow) k x, r.Ok t →
        (∀ row, z.slv.rows[k]? = some row →
          sumAbs row + r.stale.f.natAbs ≤ 2147483647) →
        Checked.updateRowZ t z r k x = ZSolver.updateRowZ t z r k x := by
  have hf := make_fit hs h hm
  refine ⟨makeZ_eq hf n, fun z hz => ?_⟩
  have ok := makeZ_ok hf hz
  exact ⟨isValidConstraint_eq ok, infeasibility_eq ok,
    fun t r k x hr hst => updateRowZ_eq t ok hr hst x⟩

/-- C108: so do the initial vector of `solve`, for every policy, the initial population of `optimize`
and the number of violated constraints that it counts for each vector. -/
theorem C108_initialization_is_exact {pb : Problem} (h : AllSmall pb.eqs pb.ges pb.les) {s : Sorts}
    (hs : s.Ok) {o : Order} {csts : List Merged} (hm : Merge.make s o pb = .ok csts)
    (mode : ObjType) (cost : Nat → Outcome Rat) (n : Nat) :
    (∀ (d : Init.Draws) (flip : Nat → Bool) (p : Init.Policy), d.Ok mode →
      Checked.initial mode cost d flip p n csts = Init.initial mode cost d flip p n csts) ∧
    (∀ (d : Init.PopDraws) (size : Nat), d.Ok mode →
      Checked.population mode cost d n csts size = Init.population mode cost d n csts size) ∧
    ∀ x, Checked.countViolated x csts = .ok (Optimizer.countViolated x csts) := by
  have hf := make_fit hs h hm
  exact ⟨fun d flip p hd => initial_same cost hd flip p n hf,
    fun d size hd => population_same cost hd.2 n hf size, fun x => countViolated_same x hf⟩

/-! ## Without the condition -/

/-- A constraint with a factor that is an `int`. -/
def exBigText : List Char := Parser.lines [
  "maximize",
  " obj: x + y + z",
  "subject to",
  " c: 2147483647 x + y + z <= 5",
  "binary",
  " x y z",
  "end"]

/-- What it is read as. -/
def exBig : RawProblem where
  type := .maximize
  objective := { elems := [⟨1, 0⟩, ⟨1, 1⟩, ⟨1, 2⟩] }
  eqs := []
  ges := []
  les := [⟨"c", [⟨2147483647, 0⟩, ⟨1, 1⟩, ⟨1, 2⟩], 5, 0⟩]
  names := ["x", "y", "z"]
  values := [⟨0, 1, .binary⟩, ⟨0, 1, .binary⟩, ⟨0, 1, .binary⟩]

/-- A result that sets the three variables. -/
def exBigResult : Result where
  status := .success
  variableName := ["x", "y", "z"]
  solutions := [⟨[1, 1, 1], 3⟩]

theorem exBig_read :
    ((Parser.makeProblem Parser.scanf 100 exBigText).toOption.bind fun p => p.toRaw) =
      some exBig := by decide +kernel

/-- C108: a text that is read without error, and whose numbers are all `int`, makes
`is_valid_solution` and the preprocessing overflow, where unbounded integers would give an
answer. -/
theorem C108_accepted_problem_overflows :
    Checked.isValidSolution exBig exBigResult = .error (.ub "signed overflow") ∧
    Lpcore.isValidSolution exBig exBigResult = .ok false ∧
    Checked.preprocess exBig = .error (.ub "signed overflow") ∧
    ∃ red, Preprocess.preprocess exBig = .ok red := by
  refine ⟨by decide +kernel, by decide +kernel, by decide +kernel, ?_⟩
  have : (Preprocess.preprocess exBig).toOption.isSome = true := by decide +kernel
  cases h : Preprocess.preprocess exBig with
  | error e => rw [h] at this; cases this
  | ok red => exact ⟨red, rfl⟩

/-- C108: a variable named twice makes the reading itself overflow. -/
theorem C108_reading_overflows :
    Parser.makeProblem Parser.scanf 100 (Parser.lines [
      "maximize",
      " obj: x + y",
      "subject to",
      " c: 2147483647 x + y + x <= 5",
      "binary",
      " x y",
      "end"]) = .error (.fault (.ub "signed overflow")) := by decide +kernel

/-- `x - y + z = 2147483647`. -/
def exLarge : List Merged :=
  [⟨[⟨1, 0⟩, ⟨-1, 1⟩, ⟨1, 2⟩], 2147483647, 2147483647, 0⟩]

/-- Its solver. -/
def exLargeSlv : Slv :=
  ⟨.equalities101, [[⟨1, 0⟩, ⟨-1, 1⟩, ⟨1, 2⟩]], [⟨2147483647, 2147483647, 1⟩], 3⟩

/-- C108: a right-hand side that is an `int` makes the update of a row overflow although every
coefficient is 1 or -1: the number of negative coefficients is added to it. -/
theorem C108_row_overflows (o : Row) (x : Assign) :
    makeSlv .equalities101 exLarge 3 = .ok exLargeSlv ∧
    Checked.updateRow exLargeSlv o 0 x = .error (.ub "signed overflow") :=
  ⟨by decide +kernel, rfl⟩

/-- `3 x + 3 y + 1200000000 z <= 3` and `3 x + 1200000000 y <= 3`. -/
def exTwo : Problem where
  type := .minimize
  les := [⟨"a", [⟨3, 0⟩, ⟨3, 1⟩, ⟨1200000000, 2⟩], 3, 0⟩,
          ⟨"b", [⟨3, 0⟩, ⟨1200000000, 1⟩], 3, 1⟩]
  names := ["x", "y", "z"]
  values := [⟨0, 1, .binary⟩, ⟨0, 1, .binary⟩, ⟨0, 1, .binary⟩]

/-- Reduced costs that are all negative, and the cell after the row. -/
def exRow (c : Rc) : ZRow where
  cost := fun _ => -1
  sort := id
  stale := c
  sort1 := id
  sort2 := fun l => l.mergeSort fun a b => !before .minimize b a

/-- The solver of the two constraints. -/
def exTwoZ : ZSlv :=
  ⟨⟨.inequalitiesZ, [[⟨3, 0⟩, ⟨3, 1⟩, ⟨1200000000, 2⟩], [⟨3, 0⟩, ⟨1200000000, 1⟩]],
    [⟨0, 3, 0⟩, ⟨0, 3, 0⟩], 3⟩,
   [.unconstrainedExhaustive, .unconstrainedExhaustive],
   (ZSolver.makeZ [⟨[⟨3, 0⟩, ⟨3, 1⟩, ⟨1200000000, 2⟩], intMin, 3, 0⟩,
     ⟨[⟨3, 0⟩, ⟨1200000000, 1⟩], intMin, 3, 1⟩] 3).toOption.elim {} ZSlv.ex⟩

theorem exTwo_made : (Merge.make stdSorts .none exTwo >>= fun csts => ZSolver.makeZ csts 3) =
    .ok exTwoZ := by decide +kernel

/-- C108: the condition on the cell after the row cannot be left out.  Both constraints are small.
With the same reduced costs, an update of the first row leaves the factor of `z` in the third cell,
and the update of the second row adds it to the sum of its own factors.  The unbounded sum is not
used: the update gives an assignment. -/
theorem C108_next_cell_overflows (c : Rc) :
    AllSmall exTwo.eqs exTwo.ges exTwo.les ∧
    ((exRow c).sort (reduced (exRow c).cost [⟨3, 0⟩, ⟨3, 1⟩, ⟨1200000000, 2⟩]))[2]? =
      some ⟨-1, 2, 1200000000⟩ ∧
    Checked.updateRowZ .minimize exTwoZ (exRow ⟨-1, 2, 1200000000⟩) 1 (fun _ => false) =
      .error (.ub "signed overflow") ∧
    (ZSolver.updateRowZ .minimize exTwoZ (exRow ⟨-1, 2, 1200000000⟩) 1
      (fun _ => false)).toOption.isSome := by
  refine ⟨by decide +kernel, by rfl, ?_, by decide +kernel⟩
  have h : ∀ r : Outcome Assign, (match r with
      | .error (.ub "signed overflow") => true
      | _ => false) = true → r = .error (.ub "signed overflow") := by
    intro r hr
    split at hr
    · rfl
    · cases hr
  exact h _ (by decide +kernel)

/-- `1 <= 2147483647 x + 2147483647 y <= 5`. -/
def exHuge : List Merged := [⟨[⟨2147483647, 0⟩, ⟨2147483647, 1⟩], 1, 5, 0⟩]

/-- The draws of the examples: every constraint is visited and no cell moves. -/
def exStill : Init.Draws := ⟨fun _ => true, fun _ l => l⟩

/-- C108: without the condition the initialization overflows too: the pre-solve, when no prefix of the
row respects the constraint, and the count of the violated constraints. -/
theorem C108_initialization_overflows :
    Checked.initial .minimize (fun _ => .ok 0) exStill (fun _ => false) .pessimisticSolve 2 exHuge =
      .error (.ub "signed overflow") ∧
    Checked.countViolated (fun _ => true) exHuge = .error (.ub "signed overflow") ∧
    Optimizer.countViolated (fun _ => true) exHuge = 1 := by
  have h : ∀ r : Outcome Assign, (match r with
      | .error (.ub "signed overflow") => true
      | _ => false) = true → r = .error (.ub "signed overflow") := by
    intro r hr
    split at hr
    · rfl
    · cases hr
  exact ⟨h _ (by decide +kernel), by decide +kernel, by decide +kernel⟩

/-! ## The hypotheses are met -/

/-- The draws keep the cells when their costs are the same. -/
example : (Checked.initial .minimize (fun _ => .ok 0) exStill (fun _ => false) .optimisticSolve 3
      [⟨[⟨3, 0⟩, ⟨3, 1⟩, ⟨1200000000, 2⟩], intMin, 3, 0⟩]).map (fun x => (List.range 3).map x) =
    .ok [true, false, false] := by decide +kernel

/-- The initialization of the two constraints. -/
example : AllSmall exTwo.eqs exTwo.ges exTwo.les ∧
    ∃ csts, Merge.make stdSorts .none exTwo = .ok csts ∧ csts.length = 2 ∧
      Checked.countViolated (fun j => j == 1) csts = .ok 1 := by
  have h : (Merge.make stdSorts .none exTwo >>= fun csts =>
      (Checked.countViolated (fun j => j == 1) csts).map fun k => (csts.length, k)) = .ok (2, 1) := by
    decide +kernel
  refine ⟨by decide +kernel, ?_⟩
  obtain ⟨csts, h1, h2⟩ := bind_eq_ok.1 h
  refine ⟨csts, h1, ?_⟩
  cases hc : Checked.countViolated (fun j => j == 1) csts with
  | error e => rw [hc] at h2; cases h2
  | ok k =>
    rw [hc] at h2
    have h3 := Except.ok.inj h2
    simp only [Prod.mk.injEq] at h3
    exact ⟨h3.1, by rw [h3.2]⟩

/-- The two constraints, with the cell that the first row leaves when `x` is the last. -/
example : AllSmall exTwo.eqs exTwo.ges exTwo.les ∧
    (∃ csts, Merge.make stdSorts .none exTwo = .ok csts ∧ ZSolver.makeZ csts 3 = .ok exTwoZ) ∧
    (∀ row, exTwoZ.slv.rows[1]? = some row → sumAbs row + (3 : Int).natAbs ≤ 2147483647) ∧
    ∃ x, Checked.updateRowZ .minimize exTwoZ (exRow ⟨-1, 0, 3⟩) 1 (fun _ => false) = .ok x := by
  refine ⟨by decide +kernel, bind_eq_ok.1 exTwo_made, ?_, ?_⟩
  · intro row hr
    cases hr
    decide
  · have h : (Checked.updateRowZ .minimize exTwoZ (exRow ⟨-1, 0, 3⟩) 1
        (fun _ => false)).toOption.isSome = true := by decide +kernel
    cases hh : Checked.updateRowZ .minimize exTwoZ (exRow ⟨-1, 0, 3⟩) 1 (fun _ => false) with
    | error e => rw [hh] at h; cases h
    | ok x => exact ⟨x, rfl⟩

/-- `x - y + z = 1` and `x + y <= 2147483640`. -/
def exOnes : RawProblem where
  type := .minimize
  objective := { elems := [⟨1, 0⟩, ⟨1, 1⟩, ⟨1, 2⟩] }
  eqs := [⟨"a", [⟨1, 0⟩, ⟨-1, 1⟩, ⟨1, 2⟩], 1, 0⟩]
  ges := []
  les := [⟨"b", [⟨1, 0⟩, ⟨1, 1⟩], 2147483640, 1⟩]
  names := ["x", "y", "z"]
  values := [⟨0, 1, .binary⟩, ⟨0, 1, .binary⟩, ⟨0, 1, .binary⟩]

/-- The check and the preprocessing do their work on it. -/
example : AllSmall exOnes.eqs exOnes.ges exOnes.les ∧
    Checked.isValidSolution exOnes exBigResult = .ok true ∧
    (Checked.preprocess exOnes).toOption.isSome ∧
    (Checked.split (Preprocess.unpreprocess exOnes) 0).toOption.isSome := by decide +kernel

/-- The solver is built and its row is updated. -/
example : AllSmall exOnes.eqs exOnes.ges exOnes.les ∧
    ∃ csts slv, Merge.make stdSorts .none (Preprocess.unpreprocess exOnes) = .ok csts ∧
      makeSlv .inequalities101 csts 3 = .ok slv ∧ slv.rows.length = 2 := by
  refine ⟨by decide, ?_⟩
  have h : (Merge.make stdSorts .none (Preprocess.unpreprocess exOnes) >>= fun csts =>
      makeSlv .inequalities101 csts 3).toOption.map (fun s => s.rows.length) = some 2 := by
    decide +kernel
  cases hh : Merge.make stdSorts .none (Preprocess.unpreprocess exOnes) with
  | error e => rw [hh] at h; cases h
  | ok csts =>
    rw [hh] at h
    change (makeSlv .inequalities101 csts 3).toOption.map (fun s => s.rows.length) = some 2 at h
    cases hs : makeSlv .inequalities101 csts 3 with
    | error e => rw [hs] at h; cases h
    | ok slv =>
      rw [hs] at h
      exact ⟨csts, slv, rfl, hs, by simpa [Except.toOption] using h⟩

end Bx.Checked
