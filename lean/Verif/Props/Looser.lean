import Verif.Proofs.Looser
import Verif.Props.CrewSame

/-!
# C140: a looser copy of a constraint changes nothing without preprocessing

Two problems, the second with constraints that have the terms of an earlier one of the same type and a bound implied by
its bound.
-/

namespace Bx.Looser

open Spec Merge Twice Itm Dispatch

variable {φ : Int → Int} {ρ : Type}

/-- C140 for the merge: it stops for the same reason, or the merged constraints are the same, in the same order. -/
theorem C140_merge {s : Sorts} (hs : s.Ok) (hφ : StrictMono φ) (o : Merge.Order) {raw raw' : RawProblem}
    (h : LoosensRaw φ raw raw') (hd : DistinctNumbers raw.eqs raw.ges raw.les) :
    (Merge.make s o (ProblemType.ofRaw raw')).map (List.map fun m => (m.elems, m.min, m.max)) =
      (Merge.make s o (ProblemType.ofRaw raw)).map (List.map fun m => (m.elems, m.min, m.max)) := by
  rcases (merge hs hφ h hd o).make with ⟨e, h1, h2⟩ | ⟨a, b, h1, h2, h3⟩
  · rw [h1, h2]
  · rw [h1, h2]
    have := congrArg (List.map fun m : Merge.Merged => (m.elems, m.min, m.max)) (show b.map strip = a.map strip from h3)
    rw [List.map_map, List.map_map] at this
    exact congrArg Except.ok this

/-- C140 for `solve` without preprocessing: with the same choices of the outside, the result is the same, and the run
that stops the process stops it for the same reason.  Missing: the preprocessing, with which the claim is false of the
values it finds (`C140_preprocessing_keeps_the_copy`). -/
theorem C140_solve_partial (upd : Engine → Slv → ρ → Nat → Assign → Outcome Assign) (w : World ρ) (hw : w.sorts.Ok)
    (hφ : StrictMono φ) (c : Ctx) (hc : c.preprocessing = false) {raw raw' : RawProblem} (h : LoosensRaw φ raw raw')
    (hd : DistinctNumbers raw.eqs raw.ges raw.les) :
    Dispatch.solve (execute upd w) (some c) raw' = Dispatch.solve (execute upd w) (some c) raw := by
  show (prepared _ _ >>= _) = (prepared _ _ >>= _)
  rw [hc]
  exact itm_same (merge hw hφ h hd _) rfl rfl c false

/-- C140 for `optimize` without preprocessing, in the modes none, manual and nlopt.  Missing: the preprocessing, and the
mode branch, which affects variables with it. -/
theorem C140_optimize_partial (upd : Engine → Slv → ρ → Nat → Assign → Outcome Assign) (s : Setting ρ)
    (hs : ∀ t k, (s.world t k).sorts.Ok) (hφ : StrictMono φ) (c : Ctx) (hc : c.preprocessing = false)
    (hm : hasFlag c.mode 4 = false) {raw raw' : RawProblem} (h : LoosensRaw φ raw raw')
    (hd : DistinctNumbers raw.eqs raw.ges raw.les) :
    Dispatch.optimize (execute upd s.untuned) (s.tuners upd c) (some c) raw' =
      Dispatch.optimize (execute upd s.untuned) (s.tuners upd c) (some c) raw := by
  show (prepared _ _ >>= _) = (prepared _ _ >>= _)
  rw [hc, show prepared false raw' = .ok (ProblemType.ofRaw raw') from rfl,
    show prepared false raw = .ok (ProblemType.ofRaw raw) from rfl, ok_bind, ok_bind]
  have hi : ∀ t k, itm (execute upd (s.world t k)) c true (ProblemType.ofRaw raw') =
      itm (execute upd (s.world t k)) c true (ProblemType.ofRaw raw) :=
    fun t k => itm_same (merge (hs t k) hφ h hd _) rfl rfl c true
  have h1 : (s.tuners upd c).manual (ProblemType.ofRaw raw') = (s.tuners upd c).manual (ProblemType.ofRaw raw) := by
    simp only [Setting.tuners, hi]
  have h2 : (s.tuners upd c).nlopt (ProblemType.ofRaw raw') = (s.tuners upd c).nlopt (ProblemType.ofRaw raw) := by
    simp only [Setting.tuners, hi, withoutNlopt]
  simp only [hm, h1, h2]
  rw [show execute upd s.untuned = execute upd (s.world s.first 0) from rfl, hi]
  rfl

/-- C140 for `optimize` with any number of workers, without preprocessing. -/
theorem C140_workers_partial (upd : Slv → ρ → Nat → Assign → Outcome Assign) {sorts : Merge.Sorts} (hs : sorts.Ok)
    (hφ : StrictMono φ) (po : Merge.Order) (thread : Int) (hardware : Nat) (ch : Optimizer.Crew ρ) (p : Params)
    (st : Optimizer.StorageType) {raw raw' : RawProblem} (h : LoosensRaw φ raw raw')
    (hd : DistinctNumbers raw.eqs raw.ges raw.les) :
    Optimizer.crewOptimize upd sorts po false thread hardware ch p st raw' =
      Optimizer.crewOptimize upd sorts po false thread hardware ch p st raw := by
  have hm := merge hs hφ h hd po
  show Optimizer.crewProblem (ProblemType.ofRaw raw').ptype _ _ _ _ _ _ _ _ =
    Optimizer.crewProblem (ProblemType.ofRaw raw).ptype _ _ _ _ _ _ _ _
  rw [show (ProblemType.ofRaw raw').ptype = (ProblemType.ofRaw raw).ptype by rw [hm.rest]]
  exact crewProblem_same hm _ upd _ ch p st

/-- C140 for the check of a solution. -/
theorem C140_check {raw raw' : RawProblem} (h : LoosensRaw φ raw raw') (r : Result) :
    Lpcore.isValidSolution raw' r = Lpcore.isValidSolution raw r := by
  unfold Lpcore.isValidSolution Lpcore.isValidSolutionImpl
  have he := fun vars => allConstraints_mem vars (fun v w => v != w)
    (fun x v w hvw hb => by rw [show w = v from hvw]; exact hb) h.eqs
  have hl := fun vars => allConstraints_mem vars (fun v w => decide (v > w))
    (fun x v w (hvw : v ≤ w) hb => by
      have := of_decide_eq_false hb
      exact decide_eq_false (by omega)) h.les
  have hg := fun vars => allConstraints_mem vars (fun v w => decide (v < w))
    (fun x v w (hvw : w ≤ v) hb => by
      have := of_decide_eq_false hb
      exact decide_eq_false (by omega)) h.ges
  simp only [h.names, h.values, he, hl, hg]

/-- C140 for the value of a solution. -/
theorem C140_value {raw raw' : RawProblem} (h : LoosensRaw φ raw raw') (r : Result) :
    Lpcore.computeSolution raw' r = Lpcore.computeSolution raw r := by
  unfold Lpcore.computeSolution Lpcore.computeSolutionImpl
  simp only [h.names, h.values, h.objective]

/-! ## Examples and the preprocessing -/

/-- a + b <= 2 and c + d = 1. -/
def exTight : RawProblem where
  type := .minimize
  objective := { elems := [⟨1, 0⟩, ⟨-1, 1⟩, ⟨2, 2⟩, ⟨3, 3⟩] }
  eqs := [{ label := "e", elems := [⟨1, 2⟩, ⟨1, 3⟩], value := 1, id := 0 }]
  les := [{ label := "l", elems := [⟨1, 0⟩, ⟨1, 1⟩], value := 2, id := 1 }]
  names := ["a", "b", "c", "d"]
  values := [⟨0, 1, .binary⟩, ⟨0, 1, .binary⟩, ⟨0, 1, .binary⟩, ⟨0, 1, .binary⟩]

/-- With a + b <= 3. -/
def exLoose : RawProblem := { exTight with
  les := [{ label := "l", elems := [⟨1, 0⟩, ⟨1, 1⟩], value := 2, id := 1 },
          { label := "m", elems := [⟨1, 0⟩, ⟨1, 1⟩], value := 3, id := 2 }] }

theorem exLoose_looser : LoosensRaw id exTight exLoose := by
  refine ⟨rfl, rfl, rfl, rfl, ?_, .nil, ?_⟩
  · exact .new (l := []) (l' := []) _ .nil
  · exact .looser (l' := [_]) { label := "l", elems := [⟨1, 0⟩, ⟨1, 1⟩], value := 2, id := 1 } _
      (.new (l := []) (l' := []) _ .nil) List.mem_cons_self rfl (show (2 : Int) ≤ 3 by decide)

theorem exTight_distinct : DistinctNumbers exTight.eqs exTight.ges exTight.les := by
  unfold DistinctNumbers
  decide

/-- With the preprocessing the copy is seen: a + b <= 2 is always satisfied and is removed, so that a and b get their
values from the objective; a + b <= 3 is not removed, and a and b stay. -/
theorem C140_preprocessing_keeps_the_copy : ∃ raw raw', LoosensRaw id raw raw' ∧
    DistinctNumbers raw.eqs raw.ges raw.les ∧
    (Preprocess.preprocess raw).map (fun q => (q.names, q.affected.names)) = .ok (["c", "d"], ["a", "b"]) ∧
    (Preprocess.preprocess raw').map (fun q => (q.names, q.affected.names)) = .ok (["a", "b", "c", "d"], []) :=
  ⟨exTight, exLoose, exLoose_looser, exTight_distinct, by decide +kernel, by decide +kernel⟩

/-- Without the preprocessing there are two merged constraints in both cases. -/
example : (Merge.make stdSorts .none (ProblemType.ofRaw exLoose)).map (List.map fun m => (m.elems, m.min, m.max)) =
    .ok [([⟨1, 2⟩, ⟨1, 3⟩], 1, 1), ([⟨1, 0⟩, ⟨1, 1⟩], intMin, 2)] := by
  rw [C140_merge stdSorts_ok strictMono_id .none exLoose_looser exTight_distinct]
  decide +kernel

def exAnswer : Result := { status := .success, variableName := ["a", "b", "c", "d"]
                           solutions := [⟨[0, 1, 1, 0], 1⟩], remaining := 0, variableCount := 4, constraintCount := 2 }

/-- The random solver on the problem with the copy. -/
example : Dispatch.solve (execute (fun _ => Rand.updRow) Dispatch.exWorld)
    (some { solver := .random, preprocessing := false }) exLoose = .ok exAnswer := by
  rw [C140_solve_partial _ _ stdSorts_ok strictMono_id _ rfl exLoose_looser exTight_distinct]
  decide +kernel

/-- Two workers on the problem with the copy. -/
example : Optimizer.crewOptimize updateRow stdSorts .none false 2 8
    (Optimizer.exCrew Optimizer.exTurns (Optimizer.exSchedule 40)) exParams .one exLoose = .ok exAnswer := by
  rw [C140_workers_partial _ stdSorts_ok strictMono_id _ _ _ _ _ _ exLoose_looser exTight_distinct]
  decide +kernel

/-- The check of the answer with the copy. -/
example : Lpcore.isValidSolution exLoose exAnswer = .ok true := by
  rw [C140_check exLoose_looser]
  decide +kernel

end Bx.Looser
