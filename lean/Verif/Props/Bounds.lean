import Verif.Proofs.Bounds
import Verif.Props.Reorder

/-!
# C142: the bounds and the kinds of the variables

Only the preprocessing reads them, and only for the variables whose two bounds are equal.
-/

namespace Bx.Bounds

open Spec Merge Itm Dispatch

variable {ρ : Type}

/-- C142 for `solve`: without preprocessing, the bounds and the kinds of the variables change neither the result nor the
reason why a run stops the process. -/
theorem C142_solve (upd : Engine → Slv → ρ → Nat → Assign → Outcome Assign) (w : World ρ) (c : Ctx)
    (hc : c.preprocessing = false) {raw raw' : RawProblem} (h : OtherBounds raw raw') :
    Dispatch.solve (execute upd w) (some c) raw' = Dispatch.solve (execute upd w) (some c) raw := by
  show (prepared _ _ >>= _) = (prepared _ _ >>= _)
  rw [hc]
  exact itm_bounds (raw_bounds h) h.count upd w c false

theorem optimize_bounds (upd : Engine → Slv → ρ → Nat → Assign → Outcome Assign) (s : Setting ρ) (c : Ctx)
    {raw raw' : RawProblem} (h : Twice.Both RelV (prepared c.preprocessing raw) (prepared c.preprocessing raw')) :
    Dispatch.optimize (execute upd s.untuned) (s.tuners upd c) (some c) raw' =
      Dispatch.optimize (execute upd s.untuned) (s.tuners upd c) (some c) raw := by
  show (prepared _ _ >>= _) = (prepared _ _ >>= _)
  rcases h with ⟨e, h1, h2⟩ | ⟨pb, pb', h1, h2, h3⟩
  · rw [h1, h2]
  · rw [h1, h2, ok_bind, ok_bind]
    have hc : ∀ t k pb pb', RelV pb pb' → itm (execute upd (s.world t k)) c true pb' =
        itm (execute upd (s.world t k)) c true pb :=
      fun t k pb pb' h => itm_bounds h.rest h.count upd (s.world t k) c true
    have hb : (s.tuners upd c).branch pb' = (s.tuners upd c).branch pb :=
      branch_bounds (fun k q q' hq => hc s.first k q q' hq) h3
    have hm : (s.tuners upd c).manual pb' = (s.tuners upd c).manual pb := by
      simp only [Setting.tuners, fun t k => hc t k pb pb' h3]
    have hn : (s.tuners upd c).nlopt pb' = (s.tuners upd c).nlopt pb := by
      simp only [Setting.tuners, fun t k => hc t k pb pb' h3, withoutNlopt]
    have hi := hc s.first 0 pb pb' h3
    simp only [hb, hm, hn]
    rw [show execute upd s.untuned = execute upd (s.world s.first 0) from rfl, hi]

/-- C142 for `optimize` without preprocessing, in all the modes. -/
theorem C142_optimize (upd : Engine → Slv → ρ → Nat → Assign → Outcome Assign) (s : Setting ρ) (c : Ctx)
    (hc : c.preprocessing = false) {raw raw' : RawProblem} (h : OtherBounds raw raw') :
    Dispatch.optimize (execute upd s.untuned) (s.tuners upd c) (some c) raw' =
      Dispatch.optimize (execute upd s.untuned) (s.tuners upd c) (some c) raw := by
  refine optimize_bounds upd s c ?_
  rw [hc]
  exact .inr ⟨_, _, rfl, rfl, raw_bounds h, h.count⟩

/-- C142 for `optimize` with any number of workers, without preprocessing. -/
theorem C142_workers (upd : Slv → ρ → Nat → Assign → Outcome Assign) (sorts : Merge.Sorts)
    (po : Merge.Order) (thread : Int) (hardware : Nat) (ch : Optimizer.Crew ρ) (p : Params) (st : Optimizer.StorageType)
    {raw raw' : RawProblem} (h : OtherBounds raw raw') :
    Optimizer.crewOptimize upd sorts po false thread hardware ch p st raw' =
      Optimizer.crewOptimize upd sorts po false thread hardware ch p st raw := by
  show Optimizer.crewProblem (ProblemType.ofRaw raw').ptype _ _ _ _ _ _ _ _ =
    Optimizer.crewProblem (ProblemType.ofRaw raw).ptype _ _ _ _ _ _ _ _
  rw [show (ProblemType.ofRaw raw').ptype = (ProblemType.ofRaw raw).ptype by rw [raw_bounds h]]
  exact crewProblem_bounds (raw_bounds h) h.count _ upd sorts po _ ch p st

/-- C142 for `solve`, with or without preprocessing: the bounds and the kinds of the variables count only for the variables
whose two bounds are equal, and there it only counts whether the bounds are 0. -/
theorem C142_fixed_solve (upd : Engine → Slv → ρ → Nat → Assign → Outcome Assign) (w : World ρ) (c : Option Ctx)
    {raw raw' : RawProblem} (h : SameFixedRaw raw raw') :
    Dispatch.solve (execute upd w) c raw' = Dispatch.solve (execute upd w) c raw := by
  cases c with
  | none => rfl
  | some c =>
    show (prepared _ _ >>= _) = (prepared _ _ >>= _)
    rcases prepared_bounds c.preprocessing h with ⟨e, h1, h2⟩ | ⟨pb, pb', h1, h2, h3⟩
    · rw [h1, h2]
    · rw [h1, h2]
      exact itm_bounds h3.rest h3.count upd w c false

/-- C142 for `optimize`, with or without preprocessing, in all the modes. -/
theorem C142_fixed_optimize (upd : Engine → Slv → ρ → Nat → Assign → Outcome Assign) (s : Setting ρ) (c : Ctx)
    {raw raw' : RawProblem} (h : SameFixedRaw raw raw') :
    Dispatch.optimize (execute upd s.untuned) (s.tuners upd c) (some c) raw' =
      Dispatch.optimize (execute upd s.untuned) (s.tuners upd c) (some c) raw :=
  optimize_bounds upd s c (prepared_bounds c.preprocessing h)

/-- C142 for `optimize` with any number of workers, with or without preprocessing. -/
theorem C142_fixed_workers (upd : Slv → ρ → Nat → Assign → Outcome Assign) (sorts : Merge.Sorts)
    (po : Merge.Order) (pre : Bool) (thread : Int) (hardware : Nat) (ch : Optimizer.Crew ρ) (p : Params)
    (st : Optimizer.StorageType) {raw raw' : RawProblem} (h : SameFixedRaw raw raw') :
    Optimizer.crewOptimize upd sorts po pre thread hardware ch p st raw' =
      Optimizer.crewOptimize upd sorts po pre thread hardware ch p st raw := by
  show (prepared _ _ >>= _) = (prepared _ _ >>= _)
  rcases prepared_bounds pre h with ⟨e, h1, h2⟩ | ⟨pb, pb', h1, h2, h3⟩
  · rw [h1, h2]
  · rw [h1, h2, ok_bind, ok_bind, crewProblem_bounds h3.rest h3.count,
      show pb'.ptype = pb.ptype by rw [h3.rest]]

/-- C142 for the check and the value of a solution, which do not read the bounds either. -/
theorem C142_check {raw raw' : RawProblem} (h : OtherBounds raw raw') (res : Result) :
    Lpcore.isValidSolution raw' res = Lpcore.isValidSolution raw res ∧
      Lpcore.computeSolution raw' res = Lpcore.computeSolution raw res := by
  have e1 : raw'.names = raw.names := by rw [h.rest]
  have e2 : raw'.objective = raw.objective := by rw [h.rest]
  have e3 : raw'.eqs = raw.eqs := by rw [h.rest]
  have e4 : raw'.ges = raw.ges := by rw [h.rest]
  have e5 : raw'.les = raw.les := by rw [h.rest]
  constructor
  · unfold Lpcore.isValidSolution Lpcore.isValidSolutionImpl
    simp only [e1, e3, e4, e5, h.count]
  · unfold Lpcore.computeSolution Lpcore.computeSolutionImpl
    simp only [e1, e2, h.count]

/-! ## Examples -/

/-- a + b = 1, - b + c <= 0 and a + b + c >= 1, where a is fixed at 0 by its bounds and c is an integer up to 5. -/
def exFixed : RawProblem := { Reorder.exTerms with values := [⟨0, 0, .binary⟩, ⟨0, 1, .binary⟩, ⟨0, 5, .general⟩] }

theorem exFixed_other : OtherBounds Reorder.exTerms exFixed := ⟨rfl, rfl⟩

/-- Without preprocessing a variable fixed at 0 by its bounds can be 1 in the solution of a success, and the check accepts
it; with preprocessing it is 0. -/
theorem C142_fixed_variables_move :
    Dispatch.solve (execute (fun _ => Rand.updRow) Dispatch.exWorld) (some { solver := .random, preprocessing := false })
      exFixed = .ok Reorder.exAnswer ∧
    Reorder.exAnswer.status = .success ∧ Reorder.exAnswer.solutions = [⟨[1, 0, 0], 1⟩] ∧
    Lpcore.isValidSolution exFixed Reorder.exAnswer = .ok true ∧
    (¬ ∃ x, IsSolution exFixed x ∧ x 0 = true) ∧
    (Preprocess.preprocess exFixed).map (fun pb => (pb.affected.names, pb.affected.values)) =
      .ok (["a", "b", "c"], [0, 1, 0]) := by
  refine ⟨?_, rfl, rfl, ?_, ?_, by decide +kernel⟩
  · rw [C142_solve _ _ _ rfl exFixed_other]
    decide +kernel
  · rw [(C142_check exFixed_other _).1]
    decide +kernel
  · rintro ⟨x, ⟨_, hx⟩, h0⟩
    have := hx 0 ⟨0, 0, .binary⟩ rfl rfl
    rw [h0] at this
    exact absurd this (by decide)

/-- Two workers. -/
example : (Optimizer.crewOptimize updateRow stdSorts .none false 2 8
    (Optimizer.exCrew Optimizer.exTurns (Optimizer.exSchedule 40)) exParams .one exFixed).map Result.status =
      .ok .success := by
  rw [C142_workers _ _ _ _ _ _ _ _ exFixed_other]
  decide +kernel

/-- The problem of the example of the preprocessing where `f` is fixed at 1 by its bounds: here f is fixed at 7 and the other
variables have other bounds. -/
def exWide : RawProblem := { Preprocess.exRaw with
  values := [⟨0, 9, .general⟩, ⟨-3, 1, .real⟩, ⟨2, 5, .general⟩, ⟨0, 1, .binary⟩, ⟨0, 1, .binary⟩, ⟨7, 7, .general⟩] }

theorem exWide_same : SameFixedRaw Preprocess.exRaw exWide := by
  refine ⟨rfl, ?_⟩
  unfold exWide Preprocess.exRaw SameFixed
  decide

/-- The random solver after the preprocessing. -/
example : Dispatch.solve (execute (fun _ => Rand.updRow) Dispatch.exWorld) (some { solver := .random }) exWide =
    .ok (Optimizer.exResult [⟨[1, 0, 0, 1], 11⟩]) := by
  rw [C142_fixed_solve _ _ _ exWide_same]
  exact Dispatch.exWorld_runs

/-- The variable fixed at 7 gets the value 1 from the preprocessing. -/
theorem C142_fixed_at_seven_is_one :
    (Preprocess.preprocess exWide).map (fun pb => (pb.affected.names.zip pb.affected.values).lookup "f") =
      .ok (some 1) ∧ exWide.values[5]? = some ⟨7, 7, .general⟩ :=
  ⟨by decide +kernel, rfl⟩

end Bx.Bounds
