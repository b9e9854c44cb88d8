import Verif.Model.Messages
import Verif.Props.Solve
import Verif.Props.Remaining
import Verif.Props.Workers
import Verif.Props.Callbacks

/-!
# C115: what the program prints of a run is true
-/

namespace Bx.Messages

open Itm Merge SolverCtor Spec Spec.Optimizer Optimizer

variable {ρ : Type} {kind : SolverType} {upd : Slv → ρ → Nat → Assign → Outcome Assign}

theorem finished_last {t : Texts} {loop : Int} {d : Rat} {r : Result} {s : Solution}
    (h : r.status = .success) (hs : r.solutions.getLast? = some s) (hv : s.variables ≠ []) :
    finished t loop d r = "Solver finished\n" ++ (if loop ≥ 0 then
        "Best solution found: " ++ t.g10 s.value ++ " in " ++ t.int loop ++ " loop and " ++
          t.plain d ++ "s\n"
      else
        "Best solution found via push: " ++ t.g10 s.value ++ " in " ++ t.int (-loop) ++ " loop and " ++
          t.plain d ++ "s\n") := by
  unfold finished
  simp only [h, hs, hv, if_false]

/-- C115, part.  With the hypotheses of C32, when `solve` succeeds the message has the value that
`compute_solution` gives to the result, which stands for a solution of the problem of the file.  It
says that the preprocessor found it exactly when the result has no variable left. -/
theorem C115_solve_found_partial (sorts : Sorts) (hs : sorts.Ok) (po : Order)
    (r : Run ρ) (p : Params) (raw : RawProblem) (wf : WellFormedRaw raw) (h0 : raw.names ≠ [])
    (hq : raw.objective.qelems = [])
    (hi : ∀ c ∈ raw.eqs ++ raw.ges ++ raw.les, ∀ x,
      -2147483648 ≤ lhs x c.elems ∧ lhs x c.elems ≤ 2147483647)
    (hF : ∃ x, IsSolution raw x) (t : Texts) (res : Result)
    (h : solve upd sorts po true r p raw = .ok res) (hok : res.status = .success) :
    ∃ v s x, Lpcore.computeSolution raw res = .ok v ∧ res.solutions = [s] ∧
      Names raw.names (Props.pairs res s) x ∧ IsSolution raw x ∧
      (s.variables = [] → solved t res =
        "Solver finished\nBest solution found via preprocessor: " ++ t.g10 v ++ " in " ++
          t.plain 0 ++ "s\n") ∧
      (s.variables ≠ [] → solved t res =
        "Solver finished\nBest solution found: " ++ t.g10 v ++ " in " ++ t.int 0 ++ " loop and " ++
          t.plain 0 ++ "s\n") := by
  obtain ⟨s, x, h1, _, h3, h4, h5⟩ :=
    C32_success_solves_the_raw_problem sorts hs po r p raw wf h0 hi hF res h hok
  have hl : res.solutions.getLast? = some s := by rw [h1]; rfl
  refine ⟨s.value, s, x, h3 hq, h1, h4, h5, fun hv => ?_, fun hv => ?_⟩
  · unfold solved finished
    simp only [hok, hl, hv, if_true]
    simp only [← String.append_assoc]
    rfl
  · unfold solved
    rw [finished_last hok hl hv, if_pos (le_refl _)]
    simp only [← String.append_assoc]
    rfl

/-- C115 does not hold of a run of `solve` that fails: whatever stopped it, and however many
constraints its best vector does not respect, the same line is printed.  It says that 2147483647
constraints remain, that the limit of the loop was reached, and that the run took no time. -/
theorem C115_solve_failure_is_not_told (sorts : Sorts) (po : Order) (preprocessing : Bool)
    (r : Run ρ) (p : Params) (raw : RawProblem) (t : Texts) (res : Result)
    (h : solve upd sorts po preprocessing r p raw = .ok res) (hok : res.status ≠ .success) :
    solved t res = "Solver finished\nNo solution. Constraint remaining: " ++ t.int 2147483647 ++
      ". Loop limit reached in " ++ t.plain 0 ++ "s.\n" := by
  have hrem := C100_solve_never_tells sorts po preprocessing r p raw res h
  have hst : res.status = .limitReached := by
    obtain ⟨pb, _, h⟩ := bind_eq_ok.1 h
    obtain ⟨csts, _, h⟩ := bind_eq_ok.1 h
    obtain ⟨ret, h1, h⟩ := bind_eq_ok.1 h
    have e := Except.ok.inj h
    rw [← e] at hok ⊢
    unfold solveMerged at h1
    split at h1
    · obtain ⟨_, _, h1⟩ := bind_eq_ok.1 h1
      obtain ⟨a, ha, h1⟩ := bind_eq_ok.1 h1
      have e1 := Except.ok.inj h1
      rw [← e1] at hok ⊢
      exact (C31_status_partial r p pb.type pb.objective csts _ a ha).2.1 hok
    · have e1 := Except.ok.inj h1
      rw [← e1] at hok
      exact absurd rfl hok
  unfold solved finished
  simp only [hst, hrem]
  simp only [← String.append_assoc]
  rfl

/-- C115, part.  With the storage `one`, with any number of workers and whatever the order of their
steps: after a success of `optimize` the message has the objective of a vector of the run that
respects every constraint, and no vector of the run that respects every constraint is better. -/
theorem C115_optimize_found_partial (threads : Nat) (ch : Crew ρ) (hch : CrewOk ch)
    (hcl : CrewClean ch) (p : Params) (pb : Problem) (hv : pb.values ≠ []) (csts : List Merged)
    (r : Result) (q : Pool ρ)
    (h : crewMerged kind upd threads ch p .one pb csts = .ok (r, q)) (hs : r.status = .success)
    (t : Texts) (loop : Int) (d : Rat) :
    ∃ x, Seen ch.init q.workers x ∧ Within x csts ∧
      (∀ y, Seen ch.init q.workers y → Within y csts →
        AtLeastAsGood pb.type (objective pb.objective x) (objective pb.objective y)) ∧
      (0 ≤ loop → finished t loop d r =
        "Solver finished\nBest solution found: " ++ t.g10 (objective pb.objective x) ++ " in " ++
          t.int loop ++ " loop and " ++ t.plain d ++ "s\n") ∧
      (loop < 0 → finished t loop d r =
        "Solver finished\nBest solution found via push: " ++ t.g10 (objective pb.objective x) ++
          " in " ++ t.int (-loop) ++ " loop and " ++ t.plain d ++ "s\n") := by
  obtain ⟨x, h1, h2, h3, h4⟩ :=
    C48_workers_reported_is_best_partial threads ch hch hcl p pb csts r q h hs
  have hl : r.solutions.getLast? = some ⟨(List.range pb.values.length).map
      fun i => if x i then 1 else 0, objective pb.objective x⟩ := by rw [h3]; rfl
  have hne : ((List.range pb.values.length).map fun i => if x i then (1 : Int) else 0) ≠ [] := by
    intro e
    have := congrArg List.length e
    simp only [List.length_map, List.length_range, List.length_nil, List.length_eq_zero_iff] at this
    exact hv this
  refine ⟨x, h1, h2, h4, fun hlo => ?_, fun hlo => ?_⟩
  · rw [finished_last hs hl hne, if_pos hlo]
    simp only [← String.append_assoc]
    rfl
  · rw [finished_last hs hl hne, if_neg (by omega)]
    simp only [← String.append_assoc]
    rfl

theorem report_status {st : StorageType} {pb : Problem} {m : Nat} {s : Storage} {r : Result}
    (h : report st pb m s = .ok r) : r.status = .success ∨ r.status = .timeLimitReached := by
  obtain ⟨f, _, h⟩ := bind_eq_ok.1 h
  have hst : (if f.isSolution then Status.success else .timeLimitReached) = .success ∨
      (if f.isSolution then Status.success else .timeLimitReached) = .timeLimitReached := by
    split <;> simp
  cases st with
  | one =>
    rw [← Except.ok.inj h]
    exact hst
  | bound =>
    obtain ⟨sols, _, h⟩ := bind_eq_ok.1 h
    rw [← Except.ok.inj h]
    exact hst
  | five =>
    obtain ⟨_, _, h⟩ := bind_eq_ok.1 h
    obtain ⟨_, _, h⟩ := bind_eq_ok.1 h
    obtain ⟨_, _, h⟩ := bind_eq_ok.1 h
    obtain ⟨_, _, h⟩ := bind_eq_ok.1 h
    obtain ⟨_, _, h⟩ := bind_eq_ok.1 h
    rw [← Except.ok.inj h]
    exact hst

/-- C115, part.  With any number of workers, whatever the order of their steps and the storage: after
a failure of `optimize` the message has the least number of constraints that a vector of the run does
not respect. -/
theorem C115_optimize_failed_partial (threads : Nat) (ch : Crew ρ) (hch : CrewOk ch) (p : Params)
    (st : StorageType) (pb : Problem) (csts : List Merged) (hm : csts.length < 2147483647)
    (r : Result) (q : Pool ρ) (h : crewMerged kind upd threads ch p st pb csts = .ok (r, q))
    (hs : r.status ≠ .success) (t : Texts) (loop : Int) (d : Rat) :
    ∃ y, Seen ch.init q.workers y ∧ 0 < unsatisfied y csts ∧
      (∀ z, Seen ch.init q.workers z → unsatisfied y csts ≤ unsatisfied z csts) ∧
      finished t loop d r = "Solver finished\nNo solution. Constraint remaining: " ++
        t.int (unsatisfied y csts) ++ ". Time limit reached at " ++ t.plain d ++ "s.\n" := by
  obtain ⟨h1, ⟨y, h2, h3⟩, h4, _⟩ :=
    C100_workers_tell_the_least_partial threads ch hch p st pb csts hm r q h
  have h0 : r.remaining ≠ 0 := fun e => hs (h4.2 e)
  have hst : r.status = .timeLimitReached := by
    exact (report_status (crewMerged_ok hch h).2.2.2).resolve_left hs
  refine ⟨y, h2, by omega, fun z hz => by rw [← h3]; exact h1 z hz, ?_⟩
  unfold finished
  simp only [hst, h3]
  simp only [← String.append_assoc]
  rfl

/-- C115.  Each line that is printed during a run of `optimize` is true: with the line `Solution
found`, a vector of the run that respects every constraint has this value; with the line `Constraints
remaining`, a vector of the run does not respect as many constraints. -/
theorem C115_updates_are_true (threads : Nat) (ch : Crew ρ) (hch : CrewOk ch) (limit : Params.D)
    (wt : Watch) (fuel : Nat) (p : Itm.Params) (st : StorageType) (pb : Problem)
    (csts : List Merged) (hlen : csts.length < 2147483647) (ev : List Event) (r : Result)
    (q : Pool ρ)
    (h : watchMerged kind upd threads ch limit wt fuel p st pb csts = .ok (ev, r, q))
    (m : Message) (hm : .update m ∈ ev) (t : Texts) (loop : Int) (d : Rat) :
    (∃ y n, Seen ch.init q.workers y ∧ unsatisfied y csts = n ∧ 0 < n ∧
      updated t m.remaining m.value loop d m.turns =
        "  - Constraints remaining: " ++ t.int n ++ " (loop: " ++ t.int loop ++ " t: " ++
          t.plain d ++ "s reinit: " ++ t.int m.turns ++ ")\n") ∨
    (∃ y, Seen ch.init q.workers y ∧ Within y csts ∧
      updated t m.remaining m.value loop d m.turns =
        (if 0 ≤ loop then
          "  - Solution found: " ++ t.fixed (objective pb.objective y) ++ " (loop: " ++ t.int loop
         else
          "  - Solution found via push: " ++ t.fixed (objective pb.objective y) ++ " (loop: " ++
            t.int (-loop)) ++ " t: " ++ t.plain d ++ "s reinit: " ++ t.int m.turns ++ ")\n") := by
  obtain ⟨_, ⟨y, hy, hu⟩, h0⟩ :=
    C106_messages_are_true threads ch hch limit wt fuel p st pb csts hlen ev r q h m hm
  by_cases hz : m.remaining = 0
  · obtain ⟨y, h1, h2, h3⟩ := h0 hz
    right
    refine ⟨y, h1, h2, ?_⟩
    unfold updated
    rw [hz, h3, if_neg (by simp)]
    split <;> simp only [String.append_assoc]
  · left
    refine ⟨y, m.remaining, hy, hu, by omega, ?_⟩
    unfold updated
    rw [if_pos (by omega)]

/-- C115 does not hold without preprocessing: whatever the run, the preprocessor is said to have found
the solution of a problem without constraint, and the result has no value for its variable. -/
theorem C115_preprocessor_named_without_it (po : Order) (r : Run ρ) (p : Params) (t : Texts) :
    ∃ res, solve upd stdSorts po false r p exFree = .ok res ∧
      solved t res = "Solver finished\nBest solution found via preprocessor: " ++ t.g10 0 ++ " in " ++
        t.plain 0 ++ "s\n" ∧ exFree.names ≠ [] ∧ res.affected.names = [] ∧
      res.solutions = [⟨[], 0⟩] := by
  refine ⟨{ status := .success, solutions := [⟨[], 0⟩], variableName := ["a"], variableCount := 1 }, ?_,
    ?_, by decide, rfl, rfl⟩
  · cases po <;> rfl
  · unfold solved finished
    simp only [List.getLast?_singleton, if_true]
    simp only [← String.append_assoc]
    rfl

/-! ## Examples -/

/-- Texts of integers. -/
def exTexts : Texts := ⟨fun q => toString q.num, fun q => toString q.num, fun q => toString q.num, toString⟩

/-- C115 does not hold with the storage `five`: the problem is a maximization, each reported vector is
a solution, the best value is `11`, and the message says that the best solution has the value `7`. -/
theorem C115_five_prints_the_worst :
    ∃ ch : Choices Row, ChoicesOk ch ∧ Clean ch ∧ ∃ res,
      optimize updateRow stdSorts .none true ch exParams .five Preprocess.exRaw = .ok res ∧
      Preprocess.exRaw.type = .maximize ∧ res.solutions.map (·.value) = [11, 11, 10, 7, 7] ∧
      ∀ t : Texts, finished t 0 2 res = "Solver finished\nBest solution found: " ++ t.g10 7 ++ " in " ++
        t.int 0 ++ " loop and " ++ t.plain 2 ++ "s\n" :=
  ⟨⟨exFive, stdSorter, vec [], exHash, []⟩,
    ⟨by decide, stdSorter_ok, fun c hc => absurd hc (List.not_mem_nil)⟩,
    fun c hc => absurd hc (List.not_mem_nil), exResult [⟨[1, 0, 0, 0], 11⟩, ⟨[1, 0, 0, 1], 11⟩,
      ⟨[0, 1, 0, 0], 10⟩, ⟨[0, 0, 1, 0], 7⟩, ⟨[0, 0, 1, 1], 7⟩],
    by decide +kernel, rfl, by decide +kernel, fun t => by
      rw [finished_last (s := ⟨[0, 0, 1, 1], 7⟩) rfl rfl (by decide), if_pos (le_refl _)]
      simp only [← String.append_assoc]
      rfl⟩

/-- The hypotheses of `C115_solve_found_partial` are met. -/
example : ∃ x res, IsSolution Preprocess.exRaw x ∧
    solve updateRow stdSorts .none true exRun exParams Preprocess.exRaw = .ok res ∧
    solved exTexts res = "Solver finished\nBest solution found: 7 in 0 loop and 0s\n" := by
  obtain ⟨v, s, x, h1, h2, _, h4, _, h6⟩ := C115_solve_found_partial stdSorts stdSorts_ok .none
    exRun exParams Preprocess.exRaw Preprocess.exRaw_wf (by decide) rfl
    (ints_of_sums (by decide +kernel)) ⟨_, Preprocess.exRaw_solution⟩ exTexts _ exRaw_solved rfl
  obtain rfl : s = ⟨[0, 0, 1, 0], 7⟩ := (List.cons.inj h2).1.symm
  have hv : v = 7 := by
    have : Lpcore.computeSolution Preprocess.exRaw
      { affected := { names := ["d", "f"], values := [0, 1] },
        variableName := ["a", "b", "c", "e"], solutions := [⟨[0, 0, 1, 0], 7⟩], status := .success,
        variableCount := 4, constraintCount := 2 } = .ok 7 := by decide +kernel
    exact (Except.ok.inj (this.symm.trans h1)).symm
  refine ⟨x, _, h4, exRaw_solved, ?_⟩
  rw [h6 (by decide), hv]
  decide +kernel

/-- A problem without solution: two of three variables are different, whatever the two. -/
def exOddCycle : RawProblem :=
  { Preprocess.exRaw with
    eqs := Preprocess.exRaw.eqs ++ [{ elems := [⟨1, 0⟩, ⟨1, 1⟩], value := 1 },
      { elems := [⟨1, 0⟩, ⟨1, 2⟩], value := 1 }, { elems := [⟨1, 2⟩, ⟨1, 1⟩], value := 1 }] }

/-- The hypotheses of `C115_solve_failure_is_not_told` are met by a run that the clock stops after one
pass. -/
example : ∃ res, solve updateRow stdSorts .none false { exRun with timeUp := fun _ => true } exParams
      exOddCycle = .ok res ∧ res.status ≠ .success ∧
    solved exTexts res = "Solver finished\nNo solution. Constraint remaining: 2147483647. Loop limit \
      reached in 0s.\n" :=
  ⟨⟨{}, ["a", "b", "c", "d", "e", "f"], [⟨[0, 1, 0, 0, 0, 0], 0⟩], .limitReached, 2147483647, 0, 6, 7⟩,
    by decide +kernel, by decide, by decide +kernel⟩

/-- The hypotheses of `C115_updates_are_true` are met by two workers that alternate. -/
example : ∃ q : Pool Row, ∃ y, Seen exInit q.workers y ∧ Within y Dispatch.exMs ∧
    updated exTexts 0 7 1 3 2 = "  - Solution found: " ++
      exTexts.fixed (objective Preprocess.exRed.objective y) ++ " (loop: 1 t: 3s reinit: 2)\n" := by
  obtain ⟨q, h⟩ := exWatch_merged
  rcases C115_updates_are_true 2 _ (exCrew_ok (by decide) (exSchedule 40)) _ _ _ _ _ _
    _ (by decide) _ _ q h ⟨0, 7, 2⟩ (by decide) exTexts 1 3 with h | h
  · obtain ⟨y, n, _, _, h3, h4⟩ := h
    have h5 := congrArg (fun s => s.toList.take 10) h4
    simp only [String.append_assoc, String.toList_append] at h5
    rw [List.take_append_of_le_length (by decide)] at h5
    exact absurd h5 (by decide +kernel)
  · obtain ⟨y, h1, h2, h3⟩ := h
    refine ⟨q, y, h1, h2, ?_⟩
    rw [if_pos (by decide)] at h3
    refine h3.trans ?_
    simp only [String.append_assoc]
    rfl

/-- The hypotheses of `C115_optimize_found_partial` are met by two workers that alternate. -/
example : ∃ r q x, crewMerged Preprocess.exRed.ptype updateRow 2 (exCrew exTurns (exSchedule 40))
      exParams .one Preprocess.exRed Dispatch.exMs = .ok (r, q) ∧
    Seen exInit q.workers x ∧ Within x Dispatch.exMs ∧
    finished exTexts (-3) 2 r = "Solver finished\nBest solution found via push: " ++
      exTexts.g10 (objective Preprocess.exRed.objective x) ++ " in 3 loop and 2s\n" := by
  have h : (crewMerged Preprocess.exRed.ptype updateRow 2 (exCrew exTurns (exSchedule 40))
      exParams .one Preprocess.exRed Dispatch.exMs).map (fun q => q.1) =
      .ok (exResult [⟨[0, 0, 1, 1], 7⟩]) := by decide +kernel
  cases e : crewMerged Preprocess.exRed.ptype updateRow 2 (exCrew exTurns (exSchedule 40)) exParams
      .one Preprocess.exRed Dispatch.exMs with
  | error f => rw [e] at h; cases h
  | ok a =>
    obtain ⟨r, q⟩ := a
    rw [e] at h
    obtain rfl : r = exResult [⟨[0, 0, 1, 1], 7⟩] := Except.ok.inj h
    obtain ⟨x, h1, h2, _, _, h5⟩ := C115_optimize_found_partial 2 _
      (exCrew_ok (by decide) (exSchedule 40)) (exCrew_clean (exSchedule 40)) exParams Preprocess.exRed
      (by decide) Dispatch.exMs _ q e rfl exTexts (-3) 2
    refine ⟨_, q, x, rfl, h1, h2, (h5 (by decide)).trans ?_⟩
    simp only [String.append_assoc]
    rfl

end Bx.Messages
