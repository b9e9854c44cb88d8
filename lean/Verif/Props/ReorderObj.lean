import Verif.Proofs.ReorderObjPre
import Verif.Props.Reorder
import Verif.Props.Constant

/-!
# C141: the order of the terms of the objective

The same objective, whose linear terms are written in another order.
-/

namespace Bx.Reorder

open Spec Merge SolverCtor Itm Dispatch

variable {ρ : Type}

/-- C141 for the objective and the search of `solve`, with its costs, its multipliers and its preferences: in exact
arithmetic the order of the linear terms changes nothing, be it the initial vector, a vector, a weight, a multiplier or
the end of the run.  Missing: the products in another order, and rounded numbers. -/
theorem C141_objective_search_partial {o o' : Objective} (hl : o'.elems.Perm o.elems)
    (h : o' = { o with elems := o'.elems }) (kind : SolverType) (e : Setup.Env) (w : Num.World Mult.Oracle)
    (cfg : Num.Cfg) (t : ObjType) (csts : List Merged) (n : Nat) :
    Setup.solve kind e w cfg t o' csts n = Setup.solve kind e w cfg t o csts n := by
  unfold Setup.solve
  simp only [head_perm hl h, costFun_perm h, numFunctor_results _ _ t (results_perm hl h)]

/-- C141 for the objective and the search of `solve` with the solver of integer coefficients. -/
theorem C141_objective_search_integer_partial {o o' : Objective} (hl : o'.elems.Perm o.elems)
    (h : o' = { o with elems := o'.elems }) (e : Setup.Env) (w : Num.World ZNum.ZOracle)
    (cfg : Num.Cfg) (t : ObjType) (csts : List Merged) (n : Nat) :
    Setup.solveZ e w cfg t o' csts n = Setup.solveZ e w cfg t o csts n := by
  unfold Setup.solveZ ZNum.functor
  simp only [head_perm hl h, costFun_perm h, numFunctor_results _ _ t (results_perm hl h)]

/-- C141 for the costs of a linear objective in floating point, where no variable is twice: they do not depend on the
order of the terms, whatever the rounding. -/
theorem C141_objective_rounded_costs (rnd : Rat → Rat) {o o' : Objective} (hl : o'.elems.Perm o.elems)
    (hd : (o.elems.map ObjElem.var).Nodup) (n : Nat) :
    Rounded.makeDefault rnd o' n = Rounded.makeDefault rnd o n := by
  unfold Rounded.makeDefault
  rw [roundedElements_perm rnd n hl hd]

/-- Refutation for the values in floating point: with `double`, the order of the terms changes the value of a solution.
`a + b + 2^53 c` is `2^53 + 2` where all the variables are 1; `2^53 c + b + a` is `2^53` there. -/
theorem C141_rounding_changes_the_value :
    let o : Objective := { elems := [⟨1, 0⟩, ⟨1, 1⟩, ⟨2 ^ 53, 2⟩] }
    let o' : Objective := { elems := [⟨2 ^ 53, 2⟩, ⟨1, 1⟩, ⟨1, 0⟩] }
    o'.elems.Perm o.elems ∧ Rounded.results (binary 53) o (fun _ => true) = 2 ^ 53 + 2 ∧
      Rounded.results (binary 53) o' (fun _ => true) = 2 ^ 53 := by
  refine ⟨List.reverse_perm ([⟨1, 0⟩, ⟨1, 1⟩, ⟨2 ^ 53, 2⟩] : List ObjElem), ?_, ?_⟩ <;> decide +kernel

/-- C141 for the objective and `solve` without preprocessing, in exact arithmetic: with the same choices of the outside,
the order of the terms of an objective where no linear term is twice does not change the result, whatever the order of the
constraints.  Missing: the preprocessing. -/
theorem C141_objective_solve_partial (upd : Engine → Slv → ρ → Nat → Assign → Outcome Assign) (w : World ρ) (c : Ctx)
    (hc : c.preprocessing = false) (raw : RawProblem) {o : Objective} (h : SameObjective raw.objective o)
    (hn : (raw.objective.elems.map ObjElem.var).Nodup) :
    Dispatch.solve (execute upd w) (some c) { raw with objective := o } =
      Dispatch.solve (execute upd w) (some c) raw := by
  show (prepared _ _ >>= _) = (prepared _ _ >>= _)
  rw [hc]
  exact itm_obj (pb := ProblemType.ofRaw raw) (pb' := ProblemType.ofRaw { raw with objective := o }) rfl h hn upd w c false

/-- C141 for the objective and `optimize` without preprocessing, in the modes none, manual and nlopt. -/
theorem C141_objective_optimize_partial (upd : Engine → Slv → ρ → Nat → Assign → Outcome Assign) (s : Setting ρ) (c : Ctx)
    (hc : c.preprocessing = false) (hm : hasFlag c.mode 4 = false) (raw : RawProblem) {o : Objective}
    (h : SameObjective raw.objective o) (hn : (raw.objective.elems.map ObjElem.var).Nodup) :
    Dispatch.optimize (execute upd s.untuned) (s.tuners upd c) (some c) { raw with objective := o } =
      Dispatch.optimize (execute upd s.untuned) (s.tuners upd c) (some c) raw := by
  show (prepared _ _ >>= _) = (prepared _ _ >>= _)
  rw [hc, show prepared false { raw with objective := o } = .ok (ProblemType.ofRaw { raw with objective := o }) from rfl,
    show prepared false raw = .ok (ProblemType.ofRaw raw) from rfl, ok_bind, ok_bind]
  have hi : ∀ t k, itm (execute upd (s.world t k)) c true (ProblemType.ofRaw { raw with objective := o }) =
      itm (execute upd (s.world t k)) c true (ProblemType.ofRaw raw) :=
    fun t k => itm_obj (pb := ProblemType.ofRaw raw) (pb' := ProblemType.ofRaw { raw with objective := o }) rfl h hn upd
      (s.world t k) c true
  have h1 : (s.tuners upd c).manual (ProblemType.ofRaw { raw with objective := o }) =
      (s.tuners upd c).manual (ProblemType.ofRaw raw) := by
    simp only [Setting.tuners, hi]
  have h2 : (s.tuners upd c).nlopt (ProblemType.ofRaw { raw with objective := o }) =
      (s.tuners upd c).nlopt (ProblemType.ofRaw raw) := by
    simp only [Setting.tuners, hi, withoutNlopt]
  simp only [hm, h1, h2]
  rw [show execute upd s.untuned = execute upd (s.world s.first 0) from rfl, hi]
  rfl

/-- C141 for the objective and `optimize` with any number of workers, without preprocessing. -/
theorem C141_objective_workers_partial (upd : Slv → ρ → Nat → Assign → Outcome Assign) (sorts : Merge.Sorts)
    (po : Merge.Order) (thread : Int) (hardware : Nat) (ch : Optimizer.Crew ρ) (p : Params) (st : Optimizer.StorageType)
    (raw : RawProblem) {o : Objective} (h : SameObjective raw.objective o)
    (hn : (raw.objective.elems.map ObjElem.var).Nodup) :
    Optimizer.crewOptimize upd sorts po false thread hardware ch p st { raw with objective := o } =
      Optimizer.crewOptimize upd sorts po false thread hardware ch p st raw :=
  crewProblem_obj (pb := ProblemType.ofRaw raw) (pb' := ProblemType.ofRaw { raw with objective := o }) rfl h hn _ upd sorts
    po _ ch p st

/-- C141 for a linear objective and the preprocessing, in exact arithmetic: both problems are refused for the same reason, or
they become problems that only differ by the order of the terms of the objective. -/
theorem C141_linear_preprocess (raw : RawProblem) {o : Objective} (h : SameObjective raw.objective o)
    (hq : raw.objective.qelems = []) (hn : (raw.objective.elems.map ObjElem.var).Nodup) :
    (∃ f, Preprocess.preprocess raw = .error f ∧ Preprocess.preprocess { raw with objective := o } = .error f) ∨
    ∃ pb o', Preprocess.preprocess raw = .ok pb ∧
      Preprocess.preprocess { raw with objective := o } = .ok { pb with objective := o' } ∧
      SameObjective pb.objective o' := by
  rcases prepared_obj true raw h hq hn with h' | ⟨pb, pb', h1, h2, h3⟩
  · exact .inl h'
  · exact .inr ⟨pb, pb'.objective, h1, h3.rest ▸ h2, h3.same⟩

/-- C141 for a linear objective and `solve`, with or without preprocessing, in exact arithmetic: with the same choices of
the outside the result is the same. -/
theorem C141_linear_solve (upd : Engine → Slv → ρ → Nat → Assign → Outcome Assign) (w : World ρ) (c : Option Ctx)
    (raw : RawProblem) {o : Objective} (h : SameObjective raw.objective o) (hq : raw.objective.qelems = [])
    (hn : (raw.objective.elems.map ObjElem.var).Nodup) :
    Dispatch.solve (execute upd w) c { raw with objective := o } = Dispatch.solve (execute upd w) c raw := by
  cases c with
  | none => rfl
  | some c =>
    show (prepared _ _ >>= _) = (prepared _ _ >>= _)
    rcases prepared_obj c.preprocessing raw h hq hn with ⟨e, h1, h2⟩ | ⟨pb, pb', h1, h2, h3⟩
    · rw [h1, h2]
    · rw [h1, h2]
      exact itm_obj h3.rest h3.same h3.distinct upd w c false

/-- C141 for a linear objective and `optimize`, with or without preprocessing, in all the modes. -/
theorem C141_linear_optimize (upd : Engine → Slv → ρ → Nat → Assign → Outcome Assign) (s : Setting ρ) (c : Ctx)
    (raw : RawProblem) {o : Objective} (h : SameObjective raw.objective o) (hq : raw.objective.qelems = [])
    (hn : (raw.objective.elems.map ObjElem.var).Nodup) :
    Dispatch.optimize (execute upd s.untuned) (s.tuners upd c) (some c) { raw with objective := o } =
      Dispatch.optimize (execute upd s.untuned) (s.tuners upd c) (some c) raw := by
  show (prepared _ _ >>= _) = (prepared _ _ >>= _)
  rcases prepared_obj c.preprocessing raw h hq hn with ⟨e, h1, h2⟩ | ⟨pb, pb', h1, h2, h3⟩
  · rw [h1, h2]
  · rw [h1, h2, ok_bind, ok_bind]
    have hc : ∀ t k pb pb', RelO pb pb' → itm (execute upd (s.world t k)) c true pb' =
        itm (execute upd (s.world t k)) c true pb :=
      fun t k pb pb' h => itm_obj h.rest h.same h.distinct upd (s.world t k) c true
    have hb : (s.tuners upd c).branch pb' = (s.tuners upd c).branch pb :=
      branch_obj (fun k q q' hq => hc s.first k q q' hq) h3
    have hm : (s.tuners upd c).manual pb' = (s.tuners upd c).manual pb := by
      simp only [Setting.tuners, fun t k => hc t k pb pb' h3]
    have hn : (s.tuners upd c).nlopt pb' = (s.tuners upd c).nlopt pb := by
      simp only [Setting.tuners, fun t k => hc t k pb pb' h3, withoutNlopt]
    have hi := hc s.first 0 pb pb' h3
    simp only [hb, hm, hn]
    rw [show execute upd s.untuned = execute upd (s.world s.first 0) from rfl, hi]

/-- C141 for a linear objective and `optimize` with any number of workers, with or without preprocessing. -/
theorem C141_linear_workers (upd : Slv → ρ → Nat → Assign → Outcome Assign) (sorts : Merge.Sorts)
    (po : Merge.Order) (pre : Bool) (thread : Int) (hardware : Nat) (ch : Optimizer.Crew ρ) (p : Params)
    (st : Optimizer.StorageType) (raw : RawProblem) {o : Objective} (h : SameObjective raw.objective o)
    (hq : raw.objective.qelems = []) (hn : (raw.objective.elems.map ObjElem.var).Nodup) :
    Optimizer.crewOptimize upd sorts po pre thread hardware ch p st { raw with objective := o } =
      Optimizer.crewOptimize upd sorts po pre thread hardware ch p st raw := by
  show (prepared _ _ >>= _) = (prepared _ _ >>= _)
  rcases prepared_obj pre raw h hq hn with ⟨e, h1, h2⟩ | ⟨pb, pb', h1, h2, h3⟩
  · rw [h1, h2]
  · rw [h1, h2, ok_bind, ok_bind, crewProblem_obj h3.rest h3.same h3.distinct,
      show pb'.ptype = pb.ptype by rw [h3.rest]]

/-- a + 4 b + [ 6 c a + 2 c b ] under a + b <= 1, maximized. -/
def exProducts : RawProblem where
  type := .maximize
  objective := { elems := [⟨1, 0⟩, ⟨4, 1⟩], qelems := [⟨6, 2, 0⟩, ⟨2, 2, 1⟩] }
  les := [{ label := "l", elems := [⟨1, 0⟩, ⟨1, 1⟩], value := 1, id := 0 }]
  names := ["a", "b", "c"]
  values := [⟨0, 1, .binary⟩, ⟨0, 1, .binary⟩, ⟨0, 1, .binary⟩]

/-- Refutation for the products and the preprocessing: with a + 4 b + [ 6 c a + 2 c b ] the preprocessed problem has a greater
value for a = 1 than for b = 1, and with a + 4 b + [ 2 c b + 6 c a ] it has a smaller one. -/
theorem C141_products_order_changes_the_preprocessing :
    ∃ (raw : RawProblem) (o : Objective), SameObjective raw.objective o ∧
      (Preprocess.preprocess raw).map (fun pb => (pb.names, results pb.objective (fun i => decide (i = 0)),
        results pb.objective (fun i => decide (i = 1)))) = .ok (["a", "b"], 10, 7) ∧
      (Preprocess.preprocess { raw with objective := o }).map (fun pb => (pb.names,
        results pb.objective (fun i => decide (i = 0)), results pb.objective (fun i => decide (i = 1)))) =
        .ok (["a", "b"], 8, 9) :=
  ⟨exProducts, { elems := [⟨1, 0⟩, ⟨4, 1⟩], qelems := [⟨2, 2, 1⟩, ⟨6, 2, 0⟩] }, ⟨.refl _, .swap _ _ _, rfl⟩,
    by decide +kernel, by decide +kernel⟩

/-- Refutation for an objective where a variable is twice, which a file cannot give: in 3 a - 5 a, maximized, where a is in no
constraint, the preprocessing gives 1 to a, which has the value -2; in - 5 a + 3 a it gives 0. -/
theorem C141_repeated_terms_change_the_preprocessing :
    ∃ (raw : RawProblem) (o : Objective), SameObjective raw.objective o ∧ raw.objective.qelems = [] ∧
      (Preprocess.preprocess raw).map (fun pb => (pb.affected.names, pb.affected.values, pb.objective.value)) =
        .ok (["a"], [1], -2) ∧
      (Preprocess.preprocess { raw with objective := o }).map
        (fun pb => (pb.affected.names, pb.affected.values, pb.objective.value)) = .ok (["a"], [0], 0) :=
  ⟨{ exProducts with objective := { elems := [⟨3, 0⟩, ⟨-5, 0⟩] }, les := [], names := ["a"]
                     values := [⟨0, 1, .binary⟩] },
    { elems := [⟨-5, 0⟩, ⟨3, 0⟩] }, ⟨.swap _ _ _, .nil, rfl⟩, rfl, by decide +kernel, by decide +kernel⟩

/-! ## Examples -/

/-- The objective of the example of the search, with its terms from the last to the first. -/
def exObjTurned : Objective := { Scaling.exObj with elems := Scaling.exObj.elems.reverse }

/-- The terms are not in the same order. -/
example : exObjTurned.elems ≠ Scaling.exObj.elems := by decide +kernel

/-- The search finds the same solution. -/
example : ∃ a st, Setup.solve .inequalities01 (Scaling.exEnv .l1) Num.exWorld (Scaling.exCfg 1) .minimize
      exObjTurned Scaling.exCsts 4 = .ok (a, st) ∧
    a.status = .success ∧ a.solution = some ([false, true, true, false], some 3) := by
  obtain ⟨r, st, h, h1, h2, _⟩ := Num.of_report (n := 4)
    (r := Setup.solve .inequalities01 (Scaling.exEnv .l1) Num.exWorld (Scaling.exCfg 1) .minimize Scaling.exObj
      Scaling.exCsts 4)
    (v := ⟨.success, some ([false, true, true, false], some 3),
      [[false, true, false, false], [false, true, true, false]]⟩) (by decide +kernel)
  refine ⟨r, st, ?_, h1, h2⟩
  rw [C141_objective_search_partial (o := Scaling.exObj) (List.reverse_perm _) rfl]
  exact h

/-- The costs of this objective are rounded the same way. -/
example : Rounded.makeDefault (binary 24) exObjTurned 4 =
    Rounded.makeDefault (binary 24) Scaling.exObj 4 :=
  C141_objective_rounded_costs _ (List.reverse_perm _) (by decide +kernel) 4

theorem exObjective_same : SameObjective exTerms.objective exObjective.objective :=
  ⟨List.reverse_perm exTerms.objective.elems, .nil, rfl⟩

/-- The random solver with the constraints as written and the objective 2 c + b + a. -/
example : Dispatch.solve (execute (fun _ => Rand.updRow) Dispatch.exWorld)
    (some { solver := .random, preprocessing := false }) exObjective = .ok exAnswer := by
  show Dispatch.solve _ _ { exTerms with objective := exObjective.objective } = _
  rw [C141_objective_solve_partial _ _ _ rfl exTerms exObjective_same (by decide +kernel)]
  decide +kernel

/-- Two workers with this objective. -/
example : (Optimizer.crewOptimize updateRow stdSorts .none false 2 8
    (Optimizer.exCrew Optimizer.exTurns (Optimizer.exSchedule 40)) exParams .one exObjective).map Result.status =
      .ok .success := by
  show (Optimizer.crewOptimize _ _ _ _ _ _ _ _ _ { exTerms with objective := exObjective.objective }).map _ = _
  rw [C141_objective_workers_partial _ _ _ _ _ _ _ _ exTerms exObjective_same (by decide +kernel)]
  decide +kernel

/-- The objective of the example of the preprocessing, with its terms from the last to the first. -/
def exRawTurned : Objective := { Preprocess.exRaw.objective with elems := Preprocess.exRaw.objective.elems.reverse }

theorem exRawTurned_same : SameObjective Preprocess.exRaw.objective exRawTurned :=
  ⟨List.reverse_perm _, .refl _, rfl⟩

/-- The terms are not in the same order. -/
example : exRawTurned.elems ≠ Preprocess.exRaw.objective.elems := by decide +kernel

/-- The random solver after the preprocessing. -/
example : Dispatch.solve (execute (fun _ => Rand.updRow) Dispatch.exWorld) (some { solver := .random })
    { Preprocess.exRaw with objective := exRawTurned } = .ok (Optimizer.exResult [⟨[1, 0, 0, 1], 11⟩]) := by
  rw [C141_linear_solve _ _ _ Preprocess.exRaw exRawTurned_same rfl (by decide +kernel)]
  exact Dispatch.exWorld_runs

end Bx.Reorder
