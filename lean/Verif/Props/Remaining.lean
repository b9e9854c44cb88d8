import Verif.Proofs.Remaining
import Verif.Props.Dispatch

/-!
# C100: the number of remaining constraints
-/

namespace Bx.Optimizer

open Itm Merge SolverCtor Spec Spec.Optimizer

variable {ρ : Type} {kind : SolverType} {upd : Slv → ρ → Nat → Assign → Outcome Assign}

/-- C100, part.  With one worker, whatever the storage and the overwritten entries: the number of
remaining constraints that `optimize` reports is the least number of constraints that a vector of
the run, initial or at the end of a pass, does not respect.  It is zero exactly for a success and
it is not more than the number of constraints, which is reported with the number of variables. -/
theorem C100_optimize_tells_the_least_partial (ch : Choices ρ) (hch : ChoicesOk ch) (p : Params)
    (st : StorageType) (pb : Problem) (csts : List Merged) (hm : csts.length < 2147483647)
    (r : Result) (w : Worker) (h : optimizeMerged kind upd ch p st pb csts = .ok (r, w)) :
    (∀ y ∈ ch.init ++ w.trace, r.remaining ≤ unsatisfied y csts) ∧
    (∃ y ∈ ch.init ++ w.trace, r.remaining = unsatisfied y csts) ∧
    (r.status = .success ↔ r.remaining = 0) ∧
    r.remaining ≤ r.constraintCount ∧ r.constraintCount = csts.length ∧
    r.variableCount = pb.values.length := by
  obtain ⟨_, hr⟩ := optimizeMerged_kept hch h
  obtain ⟨_, _, h⟩ := bind_eq_ok.1 h
  obtain ⟨s0, h0, h⟩ := bind_eq_ok.1 h
  obtain ⟨slv, hs, h⟩ := bind_eq_ok.1 h
  obtain ⟨w', hw, h⟩ := bind_eq_ok.1 h
  obtain ⟨r', _, h⟩ := bind_eq_ok.1 h
  have e := Except.ok.inj h
  simp only [Prod.mk.injEq] at e
  obtain ⟨rfl, rfl⟩ := e
  have h5 := hch.size
  have hk := calls_low (init := ch.init) hs hch.size ch.calls hch.calls _ _ hw
    (by simpa using Low.make hch.srt (by omega) h0)
  obtain ⟨f, f1, f2, _, _, _, _, f3, f4, f5⟩ := report_spec hr
  obtain ⟨id, _, q2⟩ := best_ok f1
  have hle : ∀ y ∈ ch.init ++ w'.trace, f.remaining ≤ unsatisfied y csts := by
    intro y hy
    rcases hk.low f f1 y hy with h | ⟨b, h, _⟩
    · exact h
    · cases h
  have hlt : f.remaining ≤ csts.length := by
    obtain ⟨y, hy⟩ := List.exists_mem_of_length_pos (l := ch.init) (by omega)
    exact Nat.le_trans (hle y (List.mem_append_left _ hy)) (List.length_filter_le _ _)
  rw [f3, f5]
  refine ⟨hle, ?_, f2, hlt, rfl, f4⟩
  rcases hk.real f (List.mem_of_getElem? q2) with h | h
  · have : intMax = 2147483647 := rfl
    omega
  · exact h

/-- C100 does not hold for `solve`: whatever the problem and the run, a result of `solve` has
2147483647 remaining constraints, the largest `int`. -/
theorem C100_solve_never_tells (sorts : Sorts) (po : Order) (preprocessing : Bool) (r : Run ρ)
    (p : Params) (raw : RawProblem) (res : Result)
    (h : Itm.solve upd sorts po preprocessing r p raw = .ok res) : res.remaining = 2147483647 := by
  obtain ⟨pb, _, h⟩ := bind_eq_ok.1 h
  obtain ⟨csts, _, h⟩ := bind_eq_ok.1 h
  obtain ⟨ret, h1, h⟩ := bind_eq_ok.1 h
  rw [← Except.ok.inj h]
  unfold solveMerged at h1
  split at h1
  · obtain ⟨_, _, h1⟩ := bind_eq_ok.1 h1
    obtain ⟨a, _, h1⟩ := bind_eq_ok.1 h1
    rw [← Except.ok.inj h1]
    rfl
  · rw [← Except.ok.inj h1]

/-- C100 does not hold for a problem without variable or without constraint: `optimize` reports a
success with 2147483647 remaining constraints. -/
theorem C100_trivial_problem (sorts : Sorts) (po : Order) (ch : Choices ρ) (p : Params)
    (st : StorageType) (pb : Problem) (csts : List Merged) (hm : Merge.make sorts po pb = .ok csts)
    (he : csts = [] ∨ pb.values = []) :
    ∃ res, optimizeProblem kind upd sorts po ch p st pb = .ok res ∧ res.status = .success ∧
      res.remaining = 2147483647 ∧ res.constraintCount = 0 := by
  refine ⟨{ status := .success, variableName := pb.names, affected := pb.affected
            solutions := [⟨[], pb.objective.value⟩] }, ?_, rfl, rfl, rfl⟩
  unfold optimizeProblem
  rw [hm, ok_bind, if_pos he]

/-- The hypotheses of C100 are met: two turns on the reduced problem. -/
example : ∃ r w, optimizeMerged Preprocess.exRed.ptype updateRow
      (exChoices (exTurns.map fun c => exCall c.1 c.2)) exParams .one Preprocess.exRed
      Dispatch.exMs = .ok (r, w) ∧ r.remaining = 0 ∧ r.constraintCount = 2 ∧ r.variableCount = 4 ∧
    ∃ y ∈ exInit ++ w.trace, unsatisfied y Dispatch.exMs = 0 := by
  have h : (optimizeMerged Preprocess.exRed.ptype updateRow
      (exChoices (exTurns.map fun c => exCall c.1 c.2)) exParams .one Preprocess.exRed
      Dispatch.exMs).map (fun q => q.1) = .ok (exResult [⟨[0, 0, 1, 1], 7⟩]) := by decide +kernel
  cases e : optimizeMerged Preprocess.exRed.ptype updateRow
      (exChoices (exTurns.map fun c => exCall c.1 c.2)) exParams .one Preprocess.exRed
      Dispatch.exMs with
  | error f => rw [e] at h; cases h
  | ok q =>
    obtain ⟨r, w⟩ := q
    rw [e] at h
    obtain rfl : r = exResult [⟨[0, 0, 1, 1], 7⟩] := Except.ok.inj h
    obtain ⟨_, ⟨y, h2, h3⟩, _, _, h4, h5⟩ := C100_optimize_tells_the_least_partial _
      (exChoices_ok (by decide)) exParams .one Preprocess.exRed Dispatch.exMs (by decide) _ w e
    exact ⟨_, w, rfl, rfl, rfl, rfl, y, h2, h3.symm⟩

/-- a + b = 1, b + c = 1, b + d = 1, a + c = 1. -/
def exOdd : RawProblem where
  type := .minimize
  objective := { elems := [⟨1, 0⟩, ⟨1, 1⟩, ⟨1, 2⟩, ⟨1, 3⟩] }
  eqs := [{ label := "c1", elems := [⟨1, 0⟩, ⟨1, 1⟩], value := 1, id := 0 },
          { label := "c2", elems := [⟨1, 1⟩, ⟨1, 2⟩], value := 1, id := 1 },
          { label := "c3", elems := [⟨1, 1⟩, ⟨1, 3⟩], value := 1, id := 2 },
          { label := "c4", elems := [⟨1, 0⟩, ⟨1, 2⟩], value := 1, id := 3 }]
  names := ["a", "b", "c", "d"]
  values := [⟨0, 1, .binary⟩, ⟨0, 1, .binary⟩, ⟨0, 1, .binary⟩, ⟨0, 1, .binary⟩]

/-- The constraints that the solver is given. -/
def exOddMs : List Merged :=
  [⟨[⟨1, 0⟩, ⟨1, 1⟩], 1, 1, 0⟩, ⟨[⟨1, 1⟩, ⟨1, 2⟩], 1, 1, 1⟩, ⟨[⟨1, 1⟩, ⟨1, 3⟩], 1, 1, 2⟩,
   ⟨[⟨1, 0⟩, ⟨1, 2⟩], 1, 1, 3⟩]

/-- A turn of two passes on five zero vectors. -/
def exOddChoices : Choices Row :=
  ⟨List.replicate 5 (vec []), stdSorter, vec [], exHash,
    [{ cross := none, mutate := id, pass := fun _ => ⟨id, id, fun _ => ⟨id, fun _ => false⟩⟩
       stopMain := fun _ => false, stopPush := fun _ => false, stopInner := fun _ => false
       kappaOver := fun _ => false, evict := fun _ => ⟨4, stdSorter⟩ }]⟩

theorem exOddChoices_ok : ChoicesOk exOddChoices := by
  refine ⟨by decide, stdSorter_ok, ?_⟩
  intro c hc k
  obtain rfl := List.mem_singleton.1 hc
  exact ⟨show 5 / 5 ≤ 4 by decide, show 4 < 5 by decide, stdSorter_ok⟩

/-- C100 does not hold of the vector that is reported: the first pass leaves a vector that does not
respect one constraint, the second one a vector that does not respect two, and `optimize` reports the
vector of the second pass with the number of the first one. -/
theorem C100_number_of_another_vector :
    ChoicesOk exOddChoices ∧ Clean exOddChoices ∧ ∃ res,
      optimize updateRow stdSorts .none true exOddChoices { exParams with limit := 2 } .one exOdd
        = .ok res ∧ res.status = .timeLimitReached ∧ res.remaining = 1 ∧
      res.solutions = [⟨[1, 0, 0, 0], 1⟩] ∧ res.variableName = exOdd.names ∧
      (prepared true exOdd >>= Merge.make stdSorts .none) = .ok exOddMs ∧
      unsatisfied (fun i => decide (i = 0)) exOddMs = 2 := by
  refine ⟨exOddChoices_ok, ?_, { status := .timeLimitReached, remaining := 1
                                 solutions := [⟨[1, 0, 0, 0], 1⟩]
                                 variableName := exOdd.names
                                 variableCount := 4, constraintCount := 4 },
    by decide +kernel, rfl, rfl, rfl, rfl, by decide +kernel, by decide +kernel⟩
  intro c hc ⟨k, h1, _⟩
  obtain rfl := List.mem_singleton.1 hc
  cases h1

end Bx.Optimizer
