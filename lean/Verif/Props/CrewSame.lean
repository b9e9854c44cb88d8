import Verif.Proofs.CrewSame
import Verif.Props.Constant
import Verif.Props.Rename
import Verif.Props.Twice
import Verif.Props.Workers

/-!
# C137, C138 and C139 with several workers

`optimize` with any number of workers, the same steps of the workers in the same order and the same choices of the
outside, on two problems: with other names, with repeated constraints, with a constant in the objective.
-/

namespace Bx.Rename

open Spec Itm Optimizer

variable {f g : String → String} {ρ : Type}

/-- C137 for `optimize` with any number of workers: the result is the same up to the names of its variables, and the run
that stops the process stops it for the same reason. -/
theorem C137_workers (upd : Slv → ρ → Nat → Assign → Outcome Assign) (sorts : Merge.Sorts) (po : Merge.Order)
    (preprocessing : Bool) (thread : Int) (hardware : Nat) (ch : Crew ρ) (p : Params) (st : StorageType)
    (raw : RawProblem) :
    crewOptimize upd sorts po preprocessing thread hardware ch p st (renameRaw f g raw) =
      (crewOptimize upd sorts po preprocessing thread hardware ch p st raw).map (renameResult f) := by
  unfold crewOptimize
  rw [prepared_rename]
  cases prepared preprocessing raw with
  | error e => rfl
  | ok pb => exact crewProblem_rename pb.ptype upd sorts po _ ch p st pb

/-- Two workers on the problem with long names. -/
example : crewOptimize updateRow Merge.stdSorts .none true 2 8 (exCrew exTurns (exSchedule 40)) exParams .one
    (renameRaw longName (fun _ => "") Preprocess.exRaw) =
      .ok (renameResult longName (exResult [⟨[0, 0, 1, 1], 7⟩])) := by
  rw [C137_workers, exCrew_runs]
  rfl

end Bx.Rename

namespace Bx.Twice

open Spec Itm Optimizer

variable {φ : Int → Int} {ρ : Type}

/-- C138 for `optimize` with any number of workers: the result is the same, and the run that stops the process stops it
for the same reason. -/
theorem C138_workers (upd : Slv → ρ → Nat → Assign → Outcome Assign) {sorts : Merge.Sorts} (hs : sorts.Ok)
    (hφ : StrictMono φ) (po : Merge.Order) (preprocessing : Bool) (thread : Int) (hardware : Nat) (ch : Crew ρ)
    (p : Params) (st : StorageType) {raw raw' : RawProblem} (h : RepeatsRaw φ raw raw')
    (hd : DistinctNumbers raw.eqs raw.ges raw.les) :
    crewOptimize upd sorts po preprocessing thread hardware ch p st raw' =
      crewOptimize upd sorts po preprocessing thread hardware ch p st raw := by
  unfold crewOptimize
  rcases prepared_both preprocessing h with ⟨e, h1, h2⟩ | ⟨pb, pb', h1, h2, h3⟩
  · rw [h1, h2]
  · rw [h1, h2, ok_bind, ok_bind]
    have hr := h3.relD hd
    rw [show pb'.ptype = pb.ptype by rw [hr.rel.rest]]
    exact crewProblem_same (hr.rel.merge hs hφ hr.ids po) pb.ptype upd _ ch p st

/-- Two workers on the problem with repeated constraints. -/
example : crewOptimize updateRow Merge.stdSorts .none true 2 8 (exCrew exTurns (exSchedule 40)) exParams .one
    exTwice = .ok (exResult [⟨[0, 0, 1, 1], 7⟩]) := by
  rw [C138_workers _ Merge.stdSorts_ok double_strictMono _ _ _ _ _ _ _ exTwice_repeats exRaw_distinct]
  exact exCrew_runs

end Bx.Twice

namespace Bx.Constant

open Spec Itm Optimizer

variable {ρ : Type} (k : Rat)

/-- C139 for `optimize` with any number of workers: the same solutions in the same order, with values greater by `k`;
and the run that stops the process stops it for the same reason.  The numbers are exact. -/
theorem C139_workers_partial (upd : Slv → ρ → Nat → Assign → Outcome Assign) (sorts : Merge.Sorts) (po : Merge.Order)
    (preprocessing : Bool) (thread : Int) (hardware : Nat) (ch : Crew ρ) (p : Params) (st : StorageType)
    (raw : RawProblem) :
    crewOptimize upd sorts po preprocessing thread hardware ch p st (plusConstantRaw k raw) =
      (crewOptimize upd sorts po preprocessing thread hardware ch p st raw).map (valuesPlus k) := by
  unfold crewOptimize
  rw [prepared_plus]
  cases prepared preprocessing raw with
  | error e => rfl
  | ok pb => exact crewProblem_plus k pb.ptype upd sorts po _ ch p st pb

/-- Two workers on the problem with 100 more in the objective. -/
example : crewOptimize updateRow Merge.stdSorts .none true 2 8 (exCrew exTurns (exSchedule 40)) exParams .one
    (plusConstantRaw 100 Preprocess.exRaw) = .ok (exResult [⟨[0, 0, 1, 1], 107⟩]) := by
  rw [C139_workers_partial, exCrew_runs]
  exact congrArg Except.ok (by decide +kernel)

end Bx.Constant
