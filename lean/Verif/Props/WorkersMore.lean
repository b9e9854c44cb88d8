import Verif.Props.Workers
import Verif.Props.Init
import Verif.Props.Counts

/-!
# C79 and C112 with any number of workers
-/

namespace Bx.Init

open Merge Spec Itm Costs SolverCtor Mult Optimizer Spec.Optimizer

variable {ρ : Type} {kind : SolverType} {upd : Slv → ρ → Nat → Assign → Outcome Assign}

/-- C79, part.  With any number of workers, whatever the order of their steps, and a linear
objective: when the bastert vector respects every constraint `optimize` succeeds, and the value of
its first solution is the optimum: that of an assignment that respects every constraint, and none
that does is better. -/
theorem C79_workers_feasible_bastert_partial (threads : Nat) (ch : Crew ρ) (hch : CrewOk ch)
    (p : Itm.Params) (st : StorageType) (pb : Problem) (csts : List Merged)
    (hrange : InRange pb.objective pb.values.length) (hq : pb.objective.qelems = []) (c : Cost)
    (hc : makeDefault pb.objective pb.values.length = .ok c) (d : PopDraws) (hd : d.Ok pb.type)
    (size : Nat) (h5 : 5 ≤ size)
    (hpop : population pb.type (costAt pb.objective c) d pb.values.length csts size =
      .ok (ch.init, ch.bastert))
    (hw : Within ch.bastert csts) (res : Result) (q : Pool ρ)
    (h : crewMerged kind upd threads ch p st pb csts = .ok (res, q)) :
    res.status = .success ∧ ∃ sol x, res.solutions.head? = some sol ∧ Within x csts ∧
      sol.value = objective pb.objective x ∧
      ∀ y, Within y csts → AtLeastAsGood pb.type sol.value (objective pb.objective y) := by
  obtain ⟨hb, hmem⟩ := population_bastert hd (by omega) hpop
  obtain ⟨b, hb', _, hbest⟩ := C77_bastert_is_optimal_partial pb.type pb.objective
    pb.values.length hrange hq c hc
  obtain rfl : b = ch.bastert := Except.ok.inj (hb'.symm.trans hb)
  obtain ⟨_, g1, g2⟩ := C48_workers_best_value_partial threads ch hch p st pb csts res q h
  have hst := g1.mpr ⟨_, Or.inl hmem, hw⟩
  obtain ⟨sol, x, e1, _, e3, e4, e5⟩ := g2 hst
  refine ⟨hst, sol, x, e1, e3, e4, fun y _ => ?_⟩
  have h6 := e5 _ (Or.inl hmem) hw
  have h7 := hbest y
  rw [good_iff] at h6 h7 ⊢
  exact le_trans h6 h7

/-- Two workers with the population of `exPopPb`. -/
def exPopCrew : Crew Row :=
  ⟨exPopChoices.init, exPopChoices.srt, exPopChoices.bastert, exPopChoices.hash,
    fun i => if i = 0 then exPopChoices.calls else [exCall none 3], exSchedule 60⟩

/-- They report the optimum. -/
example : ∃ res q, crewMerged .inequalities01 updateRow 2 exPopCrew exParams .five exPopPb
      exPopMerged = .ok (res, q) ∧ res.status = .success ∧ q.workers.length = 2 ∧
    ∃ sol, res.solutions.head? = some sol ∧
      ∀ y, Within y exPopMerged → objective exPopPb.objective y ≤ sol.value := by
  have hr : InRange exPopPb.objective exPopPb.values.length := ⟨by decide, by decide⟩
  obtain ⟨c, hc, _⟩ := C57_linear_cost_is_marginal exPopPb.objective exPopPb.values.length hr rfl
  obtain ⟨p, hp⟩ := ok_of_isOk (show exPopResult.isOk = true by decide +kernel)
  have hp' : population .maximize (costAt exPopPb.objective c) exPop 4 exPopMerged 6 = .ok p := by
    have : exPopResult = population .maximize (costAt exPopPb.objective c) exPop 4 exPopMerged 6 := by
      unfold exPopResult
      rw [show makeDefault exPopPb.objective 4 = .ok c from hc, ok_bind]
    rw [← this, hp]
  have hi : (exPopCrew.init, exPopCrew.bastert) = p := by
    unfold exPopCrew exPopChoices
    rw [hp]
    rfl
  have h6 : exPopCrew.init.length = 6 := by decide +kernel
  obtain ⟨⟨res, q⟩, h⟩ := ok_of_isOk (show (crewMerged .inequalities01 updateRow 2
    exPopCrew exParams .five exPopPb exPopMerged).isOk = true by decide +kernel)
  have hch : CrewOk exPopCrew := by
    refine ⟨by rw [h6]; decide, stdSorter_ok, ?_⟩
    intro i c hc k
    rw [h6]
    have : c ∈ exPopChoices.calls ++ [exCall none 3] := by
      have hc' : c ∈ if i = 0 then exPopChoices.calls else [exCall none 3] := hc
      rw [List.mem_append]
      split at hc'
      · exact Or.inl hc'
      · exact Or.inr hc'
    simp only [exPopChoices, List.cons_append, List.nil_append, List.mem_cons, List.not_mem_nil,
      or_false] at this
    rcases this with rfl | rfl | rfl
    · exact ⟨show 6 / 5 ≤ 4 by decide, show 4 < 6 by decide, stdSorter_ok⟩
    · exact ⟨show 6 / 5 ≤ 2 by decide, show 2 < 6 by decide, stdSorter_ok⟩
    · exact ⟨show 6 / 5 ≤ 3 by decide, show 3 < 6 by decide, stdSorter_ok⟩
  obtain ⟨g1, sol, x, g2, _, _, g5⟩ := C79_workers_feasible_bastert_partial (upd := updateRow) 2
    exPopCrew hch exParams .five exPopPb exPopMerged hr rfl c hc exPop
    ⟨fun _ => rfl, fun _ => exDraws_ok _⟩ 6 (by decide) (by rw [hi]; exact hp')
    (by unfold Within; decide +kernel) res q h
  exact ⟨res, q, h, g1, (C48_workers_best_value_partial 2 exPopCrew hch exParams .five exPopPb
    exPopMerged res q h).1, sol, g2, g5⟩

end Bx.Init

namespace Bx.Optimizer

open Itm Merge SolverCtor Spec Spec.Optimizer Preprocess

variable {ρ : Type} {upd : Slv → ρ → Nat → Assign → Outcome Assign}

/-- C112, part, `optimize` with any number of workers, whatever the order of their steps: the number
of variables of a result that has constraints is the number of its names, the affected variables are
the others, the number of constraints is not more than that of the problem.  Without preprocessing
it is the number of left-hand sides of the problem. -/
theorem C112_workers_counts_partial (sorts : Sorts) (hso : sorts.Ok) (po : Order)
    (preprocessing : Bool) (thread : Int) (hardware : Nat) (ch : Crew ρ) (hch : CrewOk ch)
    (p : Itm.Params) (st : StorageType) (raw : RawProblem) (wf : WellFormedRaw raw) (res : Result)
    (h : crewOptimize upd sorts po preprocessing thread hardware ch p st raw = .ok res)
    (hc : res.constraintCount ≠ 0) :
    res.variableCount = res.variableName.length ∧
    res.variableCount + res.affected.names.length = raw.names.length ∧
    res.constraintCount ≤ raw.eqs.length + raw.ges.length + raw.les.length ∧
    (preprocessing = false → res.variableCount = raw.names.length ∧
      res.constraintCount = (Counts.sides raw.eqs raw.ges raw.les).length) := by
  obtain ⟨pb, hp, h⟩ := bind_eq_ok.1 h
  obtain ⟨csts, hm, h⟩ := bind_eq_ok.1 h
  obtain ⟨q1, q2, q3, q4⟩ := counts_of wf hp
  have hl := C112_one_merged_constraint_a_side sorts hso po pb csts hm
  split at h
  · rw [← Except.ok.inj h] at hc
    exact absurd rfl hc
  · obtain ⟨⟨r', w⟩, h1, h⟩ := bind_eq_ok.1 h
    obtain rfl := Except.ok.inj h
    obtain ⟨_, _, _, e1, e2, _, _, _, e3, e4⟩ := report_spec (crewMerged_ok hch h1).2.2.2
    rw [e1, e2, e3, e4]
    refine ⟨q1, q2, by rw [hl]; exact q3, fun e => ?_⟩
    obtain ⟨q5, q6⟩ := q4 e
    rw [q5] at q2
    exact ⟨by simpa using q2, by rw [← q6]; exact hl⟩

/-- Two workers that alternate on a problem with six variables. -/
example : (4 : Nat) + ["d", "f"].length = exRaw.names.length :=
  (C112_workers_counts_partial stdSorts stdSorts_ok .none true 2 8 _
    (exCrew_ok (by decide) (exSchedule 40)) exParams .one Preprocess.exRaw
    Preprocess.exRaw_wf _ exCrew_runs (by decide)).2.1

end Bx.Optimizer
