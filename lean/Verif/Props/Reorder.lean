import Verif.Proofs.Reorder
import Verif.Props.Looser

/-!
# C141: the order of the terms of a constraint

Two problems with the same constraints, whose terms are written in another order.
-/

namespace Bx.Reorder

open Spec Merge Twice Itm Dispatch

variable {ρ : Type}

/-- C141 for the class of the solver: the type of the problem does not depend on the order of the terms. -/
theorem C141_class {raw raw' : RawProblem} (h : SameConstrs raw raw') :
    (ProblemType.ofRaw raw').ptype = (ProblemType.ofRaw raw).ptype := by
  exact type_same h.eqs h.ges h.les

/-- C141 for the merge, with an order of the constraints that sorts the terms: it stops for the same reason, or the merged
constraints are the same, with their terms in the same order. -/
theorem C141_merge_partial {s : Sorts} (hs : s.Ok) {o : Merge.Order}
    (ho : o ≠ .none ∧ o ≠ .p1 ∧ o ≠ .p2 ∧ o ≠ .p3 ∧ o ≠ .p4) {raw raw' : RawProblem} (h : SameConstrs raw raw')
    (hg : SameGroups raw raw') (hv : DistinctTerms raw) (hd : DistinctNumbers raw.eqs raw.ges raw.les) :
    (Merge.make s o (ProblemType.ofRaw raw')).map (List.map fun m => (m.elems, m.min, m.max)) =
      (Merge.make s o (ProblemType.ofRaw raw)).map (List.map fun m => (m.elems, m.min, m.max)) := by
  obtain ⟨r, hr⟩ := reorders_of_same h hg
  rcases (merge hs hr hv hd ho).make with ⟨e, h1, h2⟩ | ⟨a, b, h1, h2, h3⟩
  · rw [h1, h2]
  · rw [h1, h2]
    have := congrArg (List.map fun m : Merge.Merged => (m.elems, m.min, m.max)) (show b.map strip = a.map strip from h3)
    rw [List.map_map, List.map_map] at this
    exact congrArg Except.ok this

/-- C141 for `solve` without preprocessing and with an order of the constraints that sorts the terms: with the same choices
of the outside, the result is the same, and the run that stops the process stops it for the same reason.  Missing: the
preprocessing, and the other orders, with which the claim is false (`C141_default_order_changes_the_search`). -/
theorem C141_solve_partial (upd : Engine → Slv → ρ → Nat → Assign → Outcome Assign) (w : World ρ) (hw : w.sorts.Ok)
    (ho : w.order ≠ .none ∧ w.order ≠ .p1 ∧ w.order ≠ .p2 ∧ w.order ≠ .p3 ∧ w.order ≠ .p4) (c : Ctx)
    (hc : c.preprocessing = false) {raw raw' : RawProblem} (h : SameConstrs raw raw') (hg : SameGroups raw raw') (hv : DistinctTerms raw)
    (hd : DistinctNumbers raw.eqs raw.ges raw.les) :
    Dispatch.solve (execute upd w) (some c) raw' = Dispatch.solve (execute upd w) (some c) raw := by
  obtain ⟨r, hr⟩ := reorders_of_same h hg
  show (prepared _ _ >>= _) = (prepared _ _ >>= _)
  rw [hc]
  exact itm_same (merge hw hr hv hd ho) rfl rfl c false

/-- C141 for `optimize` without preprocessing and with an order of the constraints that sorts the terms, in the modes none,
manual and nlopt.  Missing: the preprocessing, the mode branch, which affects variables with it, and the other orders. -/
theorem C141_optimize_partial (upd : Engine → Slv → ρ → Nat → Assign → Outcome Assign) (s : Setting ρ)
    (hs : ∀ t k, (s.world t k).sorts.Ok)
    (ho : ∀ t k, (s.world t k).order ≠ .none ∧ (s.world t k).order ≠ .p1 ∧ (s.world t k).order ≠ .p2 ∧
      (s.world t k).order ≠ .p3 ∧ (s.world t k).order ≠ .p4) (c : Ctx) (hc : c.preprocessing = false)
    (hm : hasFlag c.mode 4 = false) {raw raw' : RawProblem} (h : SameConstrs raw raw') (hg : SameGroups raw raw') (hv : DistinctTerms raw)
    (hd : DistinctNumbers raw.eqs raw.ges raw.les) :
    Dispatch.optimize (execute upd s.untuned) (s.tuners upd c) (some c) raw' =
      Dispatch.optimize (execute upd s.untuned) (s.tuners upd c) (some c) raw := by
  obtain ⟨r, hr⟩ := reorders_of_same h hg
  show (prepared _ _ >>= _) = (prepared _ _ >>= _)
  rw [hc, show prepared false raw' = .ok (ProblemType.ofRaw raw') from rfl,
    show prepared false raw = .ok (ProblemType.ofRaw raw) from rfl, ok_bind, ok_bind]
  have hi : ∀ t k, itm (execute upd (s.world t k)) c true (ProblemType.ofRaw raw') =
      itm (execute upd (s.world t k)) c true (ProblemType.ofRaw raw) :=
    fun t k => itm_same (merge (hs t k) hr hv hd (ho t k)) rfl rfl c true
  have h1 : (s.tuners upd c).manual (ProblemType.ofRaw raw') = (s.tuners upd c).manual (ProblemType.ofRaw raw) := by
    simp only [Setting.tuners, hi]
  have h2 : (s.tuners upd c).nlopt (ProblemType.ofRaw raw') = (s.tuners upd c).nlopt (ProblemType.ofRaw raw) := by
    simp only [Setting.tuners, hi, withoutNlopt]
  simp only [hm, h1, h2]
  rw [show execute upd s.untuned = execute upd (s.world s.first 0) from rfl, hi]
  rfl

/-- C141 for `optimize` with any number of workers, without preprocessing and with an order of the constraints that sorts
the terms. -/
theorem C141_workers_partial (upd : Slv → ρ → Nat → Assign → Outcome Assign) {sorts : Merge.Sorts} (hs : sorts.Ok)
    {po : Merge.Order} (ho : po ≠ .none ∧ po ≠ .p1 ∧ po ≠ .p2 ∧ po ≠ .p3 ∧ po ≠ .p4) (thread : Int) (hardware : Nat)
    (ch : Optimizer.Crew ρ) (p : Params) (st : Optimizer.StorageType) {raw raw' : RawProblem}
    (h : SameConstrs raw raw') (hg : SameGroups raw raw') (hv : DistinctTerms raw) (hd : DistinctNumbers raw.eqs raw.ges raw.les) :
    Optimizer.crewOptimize upd sorts po false thread hardware ch p st raw' =
      Optimizer.crewOptimize upd sorts po false thread hardware ch p st raw := by
  show Optimizer.crewProblem (ProblemType.ofRaw raw').ptype _ _ _ _ _ _ _ _ =
    Optimizer.crewProblem (ProblemType.ofRaw raw).ptype _ _ _ _ _ _ _ _
  rw [C141_class h]
  obtain ⟨r, hr⟩ := reorders_of_same h hg
  exact crewProblem_same (merge hs hr hv hd ho) _ upd _ ch p st

/-- C141 for the check of a solution. -/
theorem C141_check {raw raw' : RawProblem} (h : SameConstrs raw raw') (res : Result) :
    Lpcore.isValidSolution raw' res = Lpcore.isValidSolution raw res := by
  have hn : raw'.names = raw.names := by rw [h.rest]
  have hv : raw'.values = raw.values := by rw [h.rest]
  unfold Lpcore.isValidSolution Lpcore.isValidSolutionImpl
  simp only [hn, hv, fun vars bad => allConstraints_same vars bad h.eqs, fun vars bad => allConstraints_same vars bad h.les,
    fun vars bad => allConstraints_same vars bad h.ges]

/-- C141 for the value of a solution. -/
theorem C141_value {raw raw' : RawProblem} (h : SameConstrs raw raw') (res : Result) :
    Lpcore.computeSolution raw' res = Lpcore.computeSolution raw res := by
  rw [h.rest]
  rfl

/-- C141 for the objective, in exact arithmetic: the order of its terms does not change the value of a solution. -/
theorem C141_objective_value_partial {raw raw' : RawProblem} {o : Objective}
    (h : raw' = { raw with objective := o }) (hl : o.elems.Perm raw.objective.elems)
    (hq : o.qelems.Perm raw.objective.qelems) (hc : o.value = raw.objective.value) (res : Result) :
    Lpcore.computeSolution raw' res = Lpcore.computeSolution raw res := by
  subst h
  unfold Lpcore.computeSolution Lpcore.computeSolutionImpl
  simp only [addLinear_perm _ hl, addQuadratic_perm _ hq, hc]

/-! ## Examples and the other orders -/

/-- a + b = 1, - b + c <= 0 and a + b + c >= 1. -/
def exTerms : RawProblem where
  type := .minimize
  objective := { elems := [⟨1, 0⟩, ⟨1, 1⟩, ⟨2, 2⟩] }
  eqs := [{ label := "e", elems := [⟨1, 0⟩, ⟨1, 1⟩], value := 1, id := 0 }]
  les := [{ label := "l", elems := [⟨-1, 1⟩, ⟨1, 2⟩], value := 0, id := 1 }]
  ges := [{ label := "g", elems := [⟨1, 0⟩, ⟨1, 1⟩, ⟨1, 2⟩], value := 1, id := 2 }]
  names := ["a", "b", "c"]
  values := [⟨0, 1, .binary⟩, ⟨0, 1, .binary⟩, ⟨0, 1, .binary⟩]

/-- b + a = 1, c - b <= 0 and c + b + a >= 1. -/
def exOther : RawProblem := { exTerms with
  eqs := [{ label := "e", elems := [⟨1, 1⟩, ⟨1, 0⟩], value := 1, id := 0 }]
  les := [{ label := "l", elems := [⟨1, 2⟩, ⟨-1, 1⟩], value := 0, id := 1 }]
  ges := [{ label := "g", elems := [⟨1, 2⟩, ⟨1, 1⟩, ⟨1, 0⟩], value := 1, id := 2 }] }

theorem exOther_same : SameConstrs exTerms exOther :=
  ⟨rfl, .cons ⟨rfl, by decide⟩ .nil, .cons ⟨rfl, by decide⟩ .nil, .cons ⟨rfl, by decide⟩ .nil⟩

theorem exOther_groups : SameGroups exTerms exOther := by
  unfold SameGroups
  decide

theorem exTerms_distinct : DistinctTerms exTerms := by
  unfold DistinctTerms
  decide

theorem exTerms_numbers : DistinctNumbers exTerms.eqs exTerms.ges exTerms.les := by
  unfold DistinctNumbers
  decide

/-- Without sorting, two constraints with the same terms in another order are not merged, and the conflict of a + b = 1
with b + a = 2 is not seen; written in the same order, it is. -/
theorem C141_order_hides_a_conflict : ∃ (raw raw' : RawProblem),
    SameConstrs raw raw' ∧
    Merge.make stdSorts .memory (ProblemType.ofRaw raw) = .error (.exn "multiple_constraint") ∧
    (Merge.make stdSorts .memory (ProblemType.ofRaw raw')).map (List.map fun m => (m.elems, m.min, m.max)) =
      .ok [([⟨1, 0⟩, ⟨1, 1⟩], 1, 1), ([⟨1, 0⟩, ⟨1, 1⟩], 2, 2)] :=
  ⟨{ exTerms with eqs := [{ label := "e", elems := [⟨1, 0⟩, ⟨1, 1⟩], value := 1, id := 0 },
      { label := "f", elems := [⟨1, 0⟩, ⟨1, 1⟩], value := 2, id := 1 }], les := [], ges := [] },
    { exTerms with eqs := [{ label := "e", elems := [⟨1, 0⟩, ⟨1, 1⟩], value := 1, id := 0 },
      { label := "f", elems := [⟨1, 1⟩, ⟨1, 0⟩], value := 2, id := 1 }], les := [], ges := [] },
    ⟨rfl, .cons ⟨rfl, .refl _⟩ (.cons ⟨rfl, .swap _ _ _⟩ .nil), .nil, .nil⟩, by decide +kernel, by decide +kernel⟩

/-- With the order of the constraints as written, the order of the terms changes the solution: the random solver ends with
a = 1 for a + b = 1, and with b = c = 1 for b + a = 1. -/
theorem C141_default_order_changes_the_search : ∃ raw raw', SameConstrs raw raw' ∧ SameGroups raw raw' ∧
    DistinctTerms raw ∧
    DistinctNumbers raw.eqs raw.ges raw.les ∧ Dispatch.exWorld.order = .none ∧
    (Dispatch.solve (execute (fun _ => Rand.updRow) Dispatch.exWorld)
      (some { solver := .random, preprocessing := false }) raw).map Result.solutions = .ok [⟨[1, 0, 0], 1⟩] ∧
    (Dispatch.solve (execute (fun _ => Rand.updRow) Dispatch.exWorld)
      (some { solver := .random, preprocessing := false }) raw').map Result.solutions = .ok [⟨[0, 1, 1], 3⟩] :=
  ⟨exTerms, exOther, exOther_same, exOther_groups, exTerms_distinct, exTerms_numbers, rfl, by decide +kernel, by decide +kernel⟩

def exSorted : World Rand.Choice := { Dispatch.exWorld with order := .memory }

def exAnswer : Result := { status := .success, variableName := ["a", "b", "c"], solutions := [⟨[1, 0, 0], 1⟩]
                           remaining := 0, variableCount := 3, constraintCount := 3 }

/-- The merged constraints of the problem in the other order. -/
example : (Merge.make stdSorts .memory (ProblemType.ofRaw exOther)).map (List.map fun m => (m.elems, m.min, m.max)) =
    .ok [([⟨1, 0⟩, ⟨1, 1⟩], 1, 1), ([⟨-1, 1⟩, ⟨1, 2⟩], intMin, 0), ([⟨1, 0⟩, ⟨1, 1⟩, ⟨1, 2⟩], 1, intMax)] := by
  rw [C141_merge_partial stdSorts_ok (by decide) exOther_same exOther_groups exTerms_distinct exTerms_numbers]
  decide +kernel

/-- The random solver with sorted terms. -/
example : Dispatch.solve (execute (fun _ => Rand.updRow) exSorted)
    (some { solver := .random, preprocessing := false }) exOther = .ok exAnswer := by
  rw [C141_solve_partial _ _ stdSorts_ok (by decide) _ rfl exOther_same exOther_groups exTerms_distinct exTerms_numbers]
  decide +kernel

/-- Two workers with sorted terms. -/
example : (Optimizer.crewOptimize updateRow stdSorts .memory false 2 8
    (Optimizer.exCrew Optimizer.exTurns (Optimizer.exSchedule 40)) exParams .one exOther).map Result.status =
      .ok .success := by
  rw [C141_workers_partial _ stdSorts_ok (by decide) _ _ _ _ _ exOther_same exOther_groups exTerms_distinct exTerms_numbers]
  decide +kernel

/-- With the objective 2 c + b + a. -/
def exObjective : RawProblem := { exTerms with objective := { elems := [⟨2, 2⟩, ⟨1, 1⟩, ⟨1, 0⟩] } }

/-- The value of the answer. -/
example : Lpcore.computeSolution exObjective exAnswer = .ok 1 := by
  rw [C141_objective_value_partial (raw := exTerms) (raw' := exObjective) rfl
    (List.reverse_perm exTerms.objective.elems) .nil rfl]
  decide +kernel

/-- The check of the answer. -/
example : Lpcore.isValidSolution exOther exAnswer = .ok true := by
  rw [C141_check exOther_same]
  decide +kernel

end Bx.Reorder
