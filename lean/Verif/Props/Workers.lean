import Verif.Proofs.OneWorker
import Verif.Props.Remaining

/-!
# C47, C48 and C100 with any number of workers
-/

namespace Bx.Optimizer

open Itm Merge SolverCtor Spec Spec.Optimizer

variable {ρ : Type} {kind : SolverType} {upd : Slv → ρ → Nat → Assign → Outcome Assign}

/-- The workers at the beginning. -/
theorem PoolOk.start {threads : Nat} {ch : Crew ρ} (hch : CrewOk ch) {p : Params} {pb : Problem}
    {csts : List Merged} {s0 : Storage} {nv : Nat}
    (h0 : Storage.make ⟨pb.type, pb.objective, csts, ch.bastert, ch.hash⟩ ch.srt ch.init =
      .ok s0) :
    PoolOk ⟨pb.type, pb.objective, csts, ch.bastert, ch.hash⟩ ch.init.length (CrewClean ch) ch.init
      ⟨s0, (List.range threads).map fun i =>
        ({ todo := ch.calls i, x := fun _ => false
           compute := Compute.make p.order nv } : Local ρ)⟩ := by
  have h5 := hch.size
  obtain ⟨s1, k1, k2⟩ := Kept.make
    (g := ⟨pb.type, pb.objective, csts, ch.bastert, ch.hash⟩) hch.srt
    (init := ch.init) (by omega) (CrewClean ch)
  have e : s1 = s0 := Except.ok.inj (k1.symm.trans h0)
  subst e
  have hlow := Low.make hch.srt (by omega) h0
  have hnil : ∀ l ∈ (List.range threads).map (fun i =>
      ({ todo := ch.calls i, x := fun _ => false
         compute := Compute.make p.order nv } : Local ρ)),
      l.trace = [] ∧ l.pc = .turn ∧ ∃ i, l.todo = ch.calls i := by
    intro l hl
    obtain ⟨i, _, rfl⟩ := List.mem_map.1 hl
    exact ⟨rfl, rfl, i, rfl⟩
  have hseen : ∀ y, Seen ch.init ((List.range threads).map (fun i =>
      ({ todo := ch.calls i, x := fun _ => false
         compute := Compute.make p.order nv } : Local ρ))) y ↔ y ∈ ch.init := by
    intro y
    constructor
    · rintro (h | ⟨l, hl, hy⟩)
      · exact h
      · rw [(hnil l hl).1] at hy
        cases hy
    · exact Or.inl
  refine ⟨k2.ranked, fun l hl => ?_, fun y hy hw => ?_, fun y hy => ?_, fun e he h0 => ?_,
    fun e he => ?_⟩
  · obtain ⟨_, q2, i, q3⟩ := hnil l hl
    refine ⟨fun c hc => ?_, by rw [q2]; exact trivial⟩
    rw [q3] at hc
    exact ⟨hch.calls i c hc, fun hcl => hcl i c hc⟩
  · exact Or.inl (k2.covers y ((hseen y).1 hy) hw)
  · refine Or.inl fun f hf => ?_
    rcases hlow.low f hf y ((hseen y).1 hy) with h | ⟨b, h, _⟩
    · exact h
    · cases h
  · obtain ⟨y, hy, rest⟩ := k2.found e he h0
    exact ⟨y, (hseen y).2 hy, rest⟩
  · rcases hlow.real e he with h | ⟨y, hy, h⟩
    · exact Or.inl h
    · exact Or.inr ⟨y, (hseen y).2 hy, h⟩

theorem steps_length {g : Setting} {s : Slv} {u : ρ → Nat → Assign → Outcome Assign} {p : Params} :
    ∀ (is : List Nat) (a b : Pool ρ), Pool.steps g s u p is a = .ok b →
    b.workers.length = a.workers.length
  | [], a, b, h => by rw [← Except.ok.inj h]
  | i :: is, a, b, h => by
    obtain ⟨c, h1, h⟩ := bind_eq_ok.1 h
    rw [steps_length is c b h]
    unfold Pool.step at h1
    split at h1
    · rw [← Except.ok.inj h1]
    · obtain ⟨⟨l, s⟩, _, h1⟩ := bind_eq_ok.1 h1
      rw [← Except.ok.inj h1]
      simp

theorem crewMerged_ok {threads : Nat} {ch : Crew ρ} (hch : CrewOk ch) {p : Params}
    {st : StorageType} {pb : Problem} {csts : List Merged} {r : Result} {q : Pool ρ}
    (h : crewMerged kind upd threads ch p st pb csts = .ok (r, q)) :
    PoolOk ⟨pb.type, pb.objective, csts, ch.bastert, ch.hash⟩ ch.init.length (CrewClean ch) ch.init
      q ∧ q.workers.length = threads ∧ (∀ l ∈ q.workers, l.finished = true) ∧
    report st pb csts.length q.storage = .ok r := by
  obtain ⟨_, _, h⟩ := bind_eq_ok.1 h
  obtain ⟨s0, h0, h⟩ := bind_eq_ok.1 h
  obtain ⟨slv, hs, h⟩ := bind_eq_ok.1 h
  obtain ⟨q', hq, h⟩ := bind_eq_ok.1 h
  split at h
  · rename_i hf
    obtain ⟨r', hr, h⟩ := bind_eq_ok.1 h
    have e := Except.ok.inj h
    simp only [Prod.mk.injEq] at e
    obtain ⟨rfl, rfl⟩ := e
    refine ⟨PoolOk.steps hs hch.size _ _ _ (PoolOk.start hch h0) hq, ?_,
      fun l hl => List.all_eq_true.1 hf l hl, hr⟩
    rw [steps_length _ _ _ hq]
    simp
  · cases h

/-- Where all the workers have made their turns, the first entry is as good as the vectors of the
run. -/
theorem PoolOk.done {g : Setting} {n : Nat} {clean : Prop} {init : List Assign} {q : Pool ρ}
    (h : PoolOk g n clean init q) (hf : ∀ l ∈ q.workers, l.finished = true) :
    (∀ y, Seen init q.workers y → Within y g.csts → Front g q.storage y) ∧
    ∀ y, Seen init q.workers y → ∀ f, q.storage.best 0 = .ok f →
      f.remaining ≤ unsatisfied y g.csts := by
  constructor
  · intro y hy hw
    rcases h.covers y hy hw with h | ⟨l, hl, e, he, _⟩
    · exact h
    · exact absurd he ((finished_spec (hf l hl)).1 e)
  · intro y hy
    rcases h.low y hy with h | ⟨l, hl, b, hb, _⟩
    · exact h
    · exact absurd hb ((finished_spec (hf l hl)).2 b)

/-- C48, part.  With any number of workers, whatever the order of their steps and the storage:
`optimize` succeeds exactly when one of the vectors of the run, initial or at the end of a pass of
a worker, respects every constraint.  The value of the first solution is then the objective of one
of these vectors, and it is at least as good as the objective of all of them. -/
theorem C48_workers_best_value_partial (threads : Nat) (ch : Crew ρ) (hch : CrewOk ch) (p : Params)
    (st : StorageType) (pb : Problem) (csts : List Merged) (r : Result) (q : Pool ρ)
    (h : crewMerged kind upd threads ch p st pb csts = .ok (r, q)) :
    q.workers.length = threads ∧
    (r.status = .success ↔ ∃ y, Seen ch.init q.workers y ∧ Within y csts) ∧
    (r.status = .success → ∃ sol x, r.solutions.head? = some sol ∧ Seen ch.init q.workers x ∧
      Within x csts ∧ sol.value = objective pb.objective x ∧
      ∀ y, Seen ch.init q.workers y → Within y csts →
        AtLeastAsGood pb.type sol.value (objective pb.objective y)) := by
  obtain ⟨hk, hn, hf, hr⟩ := crewMerged_ok hch h
  obtain ⟨hcov, _⟩ := hk.done hf
  obtain ⟨f, h1, h2, _, _, h5, _, _⟩ := report_spec hr
  obtain ⟨id, q1, q2⟩ := best_ok h1
  have hmem := List.mem_of_getElem? q2
  refine ⟨hn, ?_, fun hs => ?_⟩
  · rw [h2]
    constructor
    · intro hz
      obtain ⟨y, hy, hw, _⟩ := hk.found f hmem hz
      exact ⟨y, hy, hw⟩
    · rintro ⟨y, hy, hw⟩
      obtain ⟨f', g1, g2, _⟩ := hcov y hy hw
      rw [h1] at g1
      cases g1
      exact g2
  · obtain ⟨x, hx, hw, hv, _⟩ := hk.found f hmem (h2.1 hs)
    refine ⟨_, x, h5, hx, hw, ?_, fun y hy hwy => ?_⟩
    · show f.value = _
      rw [hv, results_eq]
    · obtain ⟨f', g1, _, g3⟩ := hcov y hy hwy
      rw [h1] at g1
      cases g1
      rw [results_eq] at g3
      exact g3

/-- C48, part.  With any number of workers, whatever the order of their steps, with the storage
`one` and `init_crossover_bastert_insertion = 0`, the only solution is a vector of the run that
respects every constraint, with its objective, and no vector of the run that respects every
constraint is better. -/
theorem C48_workers_reported_is_best_partial (threads : Nat) (ch : Crew ρ) (hch : CrewOk ch)
    (hcl : CrewClean ch) (p : Params) (pb : Problem) (csts : List Merged) (r : Result) (q : Pool ρ)
    (h : crewMerged kind upd threads ch p .one pb csts = .ok (r, q)) (hs : r.status = .success) :
    ∃ x, Seen ch.init q.workers x ∧ Within x csts ∧
      r.solutions = [⟨(List.range pb.values.length).map fun i => if x i then 1 else 0,
        objective pb.objective x⟩] ∧
      ∀ y, Seen ch.init q.workers y → Within y csts →
        AtLeastAsGood pb.type (objective pb.objective x) (objective pb.objective y) := by
  obtain ⟨hk, _, hf, hr⟩ := crewMerged_ok hch h
  obtain ⟨hcov, _⟩ := hk.done hf
  obtain ⟨f, h1, h2, _, _, _, h6, _⟩ := report_spec hr
  obtain ⟨id, q1, q2⟩ := best_ok h1
  obtain ⟨x, hx, hw, hv, he⟩ := hk.found f (List.mem_of_getElem? q2) (h2.1 hs)
  refine ⟨x, hx, hw, ?_, fun y hy hwy => ?_⟩
  · rw [h6 rfl, convert, he hcl, hv, results_eq]
  · obtain ⟨f', g1, _, g3⟩ := hcov y hy hwy
    rw [h1] at g1
    cases g1
    rw [← results_eq, ← results_eq, ← hv]
    exact g3

theorem crewProblem_shape {sorts : Sorts} {po : Order} {threads : Nat} {ch : Crew ρ}
    (hch : CrewOk ch) (hcl : CrewClean ch) {p : Params} {pb : Problem} {res : Result}
    (h : crewProblem kind upd sorts po threads ch p .one pb = .ok res)
    (hok : res.status = .success) : Shape sorts po pb res := by
  obtain ⟨csts, hm, h⟩ := bind_eq_ok.1 h
  split at h
  · rename_i hnil
    rw [← Except.ok.inj h]
    exact ⟨rfl, rfl, csts, hm, Or.inr ⟨hnil, rfl⟩⟩
  · rename_i hne
    rw [not_or] at hne
    obtain ⟨⟨r, q⟩, h1, h⟩ := bind_eq_ok.1 h
    have e : r = res := Except.ok.inj h
    subst e
    obtain ⟨x, _, hw, hsol, _⟩ :=
      C48_workers_reported_is_best_partial threads ch hch hcl p pb csts r q h1 hok
    obtain ⟨f, _, _, h3, h4, _⟩ := report_spec (crewMerged_ok hch h1).2.2.2
    exact ⟨h3, h4, csts, hm, Or.inl ⟨hne.1, hne.2, x, hw, hsol⟩⟩

/-- C47, part.  With any number of workers, whatever the order of their steps, with the storage
`one` and `init_crossover_bastert_insertion = 0`: when `optimize` reports success for a problem with
at least a variable and a constraint, there is exactly one solution; it satisfies every constraint
and its value is its objective. -/
theorem C47_workers_success_is_feasible_partial (sorts : Sorts) (hs : sorts.Ok) (po : Order)
    (threads : Nat) (ch : Crew ρ) (hch : CrewOk ch) (hcl : CrewClean ch) (p : Params) (pb : Problem)
    (hi : IntSums pb) (hv : pb.values ≠ []) (hc : pb.eqs ++ pb.ges ++ pb.les ≠ []) (res : Result)
    (h : crewProblem kind upd sorts po threads ch p .one pb = .ok res)
    (hok : res.status = .success) :
    ∃ x : Assign, Satisfies pb.eqs pb.ges pb.les x ∧
      res.solutions = [⟨(List.range pb.values.length).map fun i => if x i then 1 else 0,
        objective pb.objective x⟩] :=
  (crewProblem_shape hch hcl h hok).feasible hs hi hv hc

/-- C47, part, from the raw problem: whatever the parameter `thread`, the number of cores and the
order of the steps of the workers, `is_valid_solution` accepts the result of `optimize`, and the
named assignment is a solution of the raw problem.  When the objective is linear, `compute_solution`
returns the reported value. -/
theorem C47_workers_solve_the_raw_problem_partial (sorts : Sorts) (hs : sorts.Ok) (po : Order)
    (thread : Int) (hardware : Nat) (ch : Crew ρ) (hch : CrewOk ch) (hcl : CrewClean ch)
    (p : Params) (raw : RawProblem)
    (wf : WellFormedRaw raw) (h0 : raw.names ≠ [])
    (hi : ∀ c ∈ raw.eqs ++ raw.ges ++ raw.les, ∀ x,
      -2147483648 ≤ lhs x c.elems ∧ lhs x c.elems ≤ 2147483647)
    (hF : ∃ x, IsSolution raw x) (res : Result)
    (h : crewOptimize upd sorts po true thread hardware ch p .one raw = .ok res)
    (hok : res.status = .success) :
    ∃ s x, res.solutions = [s] ∧ Lpcore.isValidSolution raw res = .ok true ∧
      (raw.objective.qelems = [] → Lpcore.computeSolution raw res = .ok s.value) ∧
      Names raw.names (Props.pairs res s) x ∧ IsSolution raw x := by
  obtain ⟨red, hred, h⟩ := bind_eq_ok.1 h
  exact (crewProblem_shape hch hcl h hok).solves hs wf h0 hi hF hred hok

/-- C100, part.  With any number of workers, whatever the order of their steps, the storage and the
overwritten entries: the number of remaining constraints that `optimize` reports is the least number
of constraints that a vector of the run, initial or at the end of a pass of a worker, does not
respect.  It is zero exactly for a success and it is not more than the number of constraints, which
is reported with the number of variables. -/
theorem C100_workers_tell_the_least_partial (threads : Nat) (ch : Crew ρ) (hch : CrewOk ch)
    (p : Params) (st : StorageType) (pb : Problem) (csts : List Merged)
    (hm : csts.length < 2147483647) (r : Result) (q : Pool ρ)
    (h : crewMerged kind upd threads ch p st pb csts = .ok (r, q)) :
    (∀ y, Seen ch.init q.workers y → r.remaining ≤ unsatisfied y csts) ∧
    (∃ y, Seen ch.init q.workers y ∧ r.remaining = unsatisfied y csts) ∧
    (r.status = .success ↔ r.remaining = 0) ∧
    r.remaining ≤ r.constraintCount ∧ r.constraintCount = csts.length ∧
    r.variableCount = pb.values.length := by
  obtain ⟨hk, _, hf, hr⟩ := crewMerged_ok hch h
  obtain ⟨_, hlow⟩ := hk.done hf
  obtain ⟨f, f1, f2, _, _, _, _, f3, f4, f5⟩ := report_spec hr
  obtain ⟨id, _, q2⟩ := best_ok f1
  have h5 := hch.size
  have hlt : f.remaining ≤ csts.length := by
    obtain ⟨y, hy⟩ := List.exists_mem_of_length_pos (l := ch.init) (by omega)
    exact Nat.le_trans (hlow y (Or.inl hy) f f1) (List.length_filter_le _ _)
  rw [f3, f5]
  refine ⟨fun y hy => hlow y hy f f1, ?_, f2, hlt, rfl, f4⟩
  rcases hk.real f (List.mem_of_getElem? q2) with h | h
  · have : intMax = 2147483647 := rfl
    omega
  · exact h

/-- The number of workers is the parameter `thread`, the number of cores when it is not positive,
and one when this number is not known. -/
theorem C48_worker_count (thread : Int) (hardware : Nat) :
    1 ≤ threadNumber thread hardware ∧
    (∀ k : Nat, 0 < k → thread = k → threadNumber thread hardware = k) ∧
    (thread ≤ 0 → 0 < hardware → threadNumber thread hardware = hardware) ∧
    (thread ≤ 0 → hardware = 0 → threadNumber thread hardware = 1) := by
  unfold threadNumber
  refine ⟨?_, ?_, ?_, ?_⟩
  · simp only
    by_cases h : (if thread ≤ 0 then hardware else thread.toNat) = 0
    · rw [if_pos h]
    · rw [if_neg h]; omega
  · rintro k hk rfl
    have : ¬ ((k : Int) ≤ 0) := by omega
    simp only [this, if_false, Int.toNat_natCast]
    rw [if_neg (by omega)]
  · intro h1 h2
    simp only [h1, if_true]
    rw [if_neg (by omega)]
  · rintro h1 rfl
    simp [h1]

/-- What one worker alone does is a run of a crew of one: a run of `Verif.Model.Optimizer` gives the
same result, with the same vectors at the end of the passes. -/
theorem C48_one_worker_is_a_crew (ch : Choices ρ) (p : Params) (st : StorageType) (pb : Problem)
    (csts : List Merged) (r : Result) (w : Worker)
    (h : optimizeMerged kind upd ch p st pb csts = .ok (r, w)) :
    ∃ schedule q, crewMerged kind upd 1
      ⟨ch.init, ch.srt, ch.bastert, ch.hash, fun _ => ch.calls, schedule⟩ p st pb csts = .ok (r, q) ∧
      q.storage = w.storage ∧ q.workers.map (·.trace) = [w.trace] := by
  obtain ⟨_, hc, h⟩ := bind_eq_ok.1 h
  obtain ⟨s0, h0, h⟩ := bind_eq_ok.1 h
  obtain ⟨slv, hs, h⟩ := bind_eq_ok.1 h
  obtain ⟨w', hw, h⟩ := bind_eq_ok.1 h
  obtain ⟨r', hr, h⟩ := bind_eq_ok.1 h
  have e := Except.ok.inj h
  simp only [Prod.mk.injEq] at e
  obtain ⟨rfl, rfl⟩ := e
  obtain ⟨is, his⟩ := (calls_reach _ _ _ hw).pool
  refine ⟨is, ⟨w'.storage, [w'.at .turn []]⟩, ?_, rfl, rfl⟩
  unfold crewMerged
  simp only [hc, h0, hs, ok_bind]
  refine bind_eq_ok.2 ⟨⟨w'.storage, [w'.at .turn []]⟩, his, ?_⟩
  have hf : [(w'.at .turn [] : Local ρ)].all Local.finished = true := rfl
  rw [if_pos hf]
  exact bind_eq_ok.2 ⟨_, hr, rfl⟩

/-- With the parameter `thread` at 1, what `optimize` returns in `Verif.Model.Optimizer` is what a crew
returns for some schedule, on the same problem and with the solver of the same class. -/
theorem C48_one_thread_is_a_crew (upd : Slv → ρ → Nat → Assign → Outcome Assign) (sorts : Sorts)
    (po : Order) (preprocessing : Bool) (hardware : Nat) (ch : Choices ρ) (p : Params)
    (st : StorageType) (raw : RawProblem) (r : Result)
    (h : optimize upd sorts po preprocessing ch p st raw = .ok r) :
    ∃ schedule, crewOptimize upd sorts po preprocessing 1 hardware
      ⟨ch.init, ch.srt, ch.bastert, ch.hash, fun _ => ch.calls, schedule⟩ p st raw = .ok r := by
  obtain ⟨pb, hp, h⟩ := bind_eq_ok.1 h
  unfold optimizeProblem at h
  obtain ⟨csts, hc, h⟩ := bind_eq_ok.1 h
  unfold crewOptimize crewProblem
  simp only [hp, ok_bind, hc]
  split at h
  · rename_i hn
    exact ⟨[], by rw [if_pos hn]; exact h⟩
  · rename_i hn
    obtain ⟨⟨r', w⟩, hm, h⟩ := bind_eq_ok.1 h
    obtain ⟨schedule, q, hq, _, _⟩ := C48_one_worker_is_a_crew ch p st pb csts r' w hm
    refine ⟨schedule, ?_⟩
    rw [if_neg hn]
    exact bind_eq_ok.2 ⟨(r', q), hq, h⟩

/-! ## Examples -/

/-- Two workers, each with two turns, whose steps alternate. -/
def exCrew (calls : List (Option Cross × Nat)) (schedule : List Nat) : Crew Row :=
  ⟨exInit, stdSorter, vec [], exHash, fun _ => calls.map fun c => exCall c.1 c.2, schedule⟩

theorem exCrew_ok {cs : List (Option Cross × Nat)} (h : ∀ c ∈ cs, 1 ≤ c.2 ∧ c.2 < 5)
    (schedule : List Nat) : CrewOk (exCrew cs schedule) :=
  ⟨show 5 ≤ exInit.length by decide, stdSorter_ok, fun _ => (exChoices_ok h).calls⟩

/-- A schedule that alternates the steps of two workers. -/
def exSchedule (n : Nat) : List Nat := (List.range n).map (· % 2)

theorem exCrew_clean (schedule : List Nat) : CrewClean (exCrew exTurns schedule) :=
  fun _ => exTurns_clean

theorem exCrew_runs : crewOptimize updateRow stdSorts .none true 2 8
    (exCrew exTurns (exSchedule 40)) exParams .one Preprocess.exRaw =
    .ok (exResult [⟨[0, 0, 1, 1], 7⟩]) := by decide +kernel

/-- The hypotheses of C47 are met by two workers that alternate. -/
example : ∃ x, IsSolution Preprocess.exRaw x ∧ Lpcore.isValidSolution Preprocess.exRaw
    (exResult [⟨[0, 0, 1, 1], 7⟩]) = .ok true := by
  obtain ⟨s, x, _, h2, _, _, h5⟩ := C47_workers_solve_the_raw_problem_partial (upd := updateRow)
    stdSorts stdSorts_ok .none 2 8 _ (exCrew_ok (by decide) _)
    (exCrew_clean (exSchedule 40)) exParams Preprocess.exRaw Preprocess.exRaw_wf (by decide)
    (ints_of_sums (by decide +kernel)) ⟨_, Preprocess.exRaw_solution⟩
    (exResult [⟨[0, 0, 1, 1], 7⟩]) (by exact exCrew_runs) rfl
  exact ⟨x, h5, h2⟩

/-- The hypotheses of C48 and of C100 are met by three workers, of which one makes one turn. -/
example : ∃ r q x, crewMerged Preprocess.exRed.ptype updateRow 3
      { exCrew exTurns ((List.range 60).map (· % 3)) with
        calls := fun i => (if i = 1 then [(none, 3)] else exTurns).map fun c => exCall c.1 c.2 }
      exParams .one Preprocess.exRed Dispatch.exMs = .ok (r, q) ∧ r.remaining = 0 ∧
    q.workers.length = 3 ∧ Seen exInit q.workers x ∧ Within x Dispatch.exMs ∧
    objective Preprocess.exRed.objective x = 7 ∧
    ∃ y, Seen exInit q.workers y ∧ unsatisfied y Dispatch.exMs = 0 := by
  have hch : CrewOk { exCrew exTurns ((List.range 60).map (· % 3)) with
      calls := fun i => (if i = 1 then [(none, 3)] else exTurns).map fun c => exCall c.1 c.2 } := by
    refine ⟨show 5 ≤ exInit.length by decide, stdSorter_ok, fun i => ?_⟩
    show ∀ c ∈ (if i = 1 then [((none : Option Cross), 3)] else exTurns).map _, _
    split
    · exact (exChoices_ok (cs := [(none, 3)]) (by decide)).calls
    · exact (exChoices_ok (cs := exTurns) (by decide)).calls
  have h : (crewMerged Preprocess.exRed.ptype updateRow 3
      { exCrew exTurns ((List.range 60).map (· % 3)) with
        calls := fun i => (if i = 1 then [(none, 3)] else exTurns).map fun c => exCall c.1 c.2 }
      exParams .one Preprocess.exRed Dispatch.exMs).map (fun q => q.1) =
      .ok (exResult [⟨[0, 0, 1, 1], 7⟩]) := by decide +kernel
  generalize hc : ({ exCrew exTurns ((List.range 60).map (· % 3)) with
      calls := fun i => (if i = 1 then [(none, 3)] else exTurns).map fun c => exCall c.1 c.2 } :
      Crew Row) = ch at *
  have hinit : ch.init = exInit := by rw [← hc]; rfl
  cases e : crewMerged Preprocess.exRed.ptype updateRow 3 ch exParams .one Preprocess.exRed
      Dispatch.exMs with
  | error f => rw [e] at h; cases h
  | ok a =>
    obtain ⟨r, q⟩ := a
    rw [e] at h
    obtain rfl : r = exResult [⟨[0, 0, 1, 1], 7⟩] := Except.ok.inj h
    obtain ⟨h1, _, h2⟩ := C48_workers_best_value_partial 3 ch hch exParams .one Preprocess.exRed
      Dispatch.exMs _ q e
    obtain ⟨sol, x, k1, k2, k3, k4, _⟩ := h2 rfl
    obtain ⟨_, ⟨y, k5, k6⟩, _⟩ := C100_workers_tell_the_least_partial 3 ch hch exParams .one
      Preprocess.exRed Dispatch.exMs (by decide) _ q e
    rw [hinit] at k2 k5
    have : sol = ⟨[0, 0, 1, 1], 7⟩ := (Option.some.inj k1).symm
    subst this
    exact ⟨_, q, x, rfl, rfl, h1, k2, k3, k4.symm, y, k5, k6.symm⟩

end Bx.Optimizer
