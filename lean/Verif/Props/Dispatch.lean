import Verif.Model.Dispatch
import Verif.Proofs.RandomSolver
import Verif.Props.Optimizer
import Verif.Props.RandomSolver
import Verif.Props.Solve

/-!
# C75-C76: which solver runs

`solve` and `optimize` are the functions of the library, with a context or without; `exec` runs one of
the solvers and `execute` is `exec` with the loops of `Verif.Model.Solve` and
`Verif.Model.Optimizer`.
-/

namespace Bx.Dispatch

open Merge SolverCtor Spec Itm

/-! ## C75: the solver that runs accepts the problem -/

/-- The plan does what the caller asked for and its solver accepts every constraint of the problem,
with exactly the solutions of this constraint. -/
def Accepts (ms : List Merged) (p : Plan) : Prop :=
  ∀ m ∈ ms, ∃ b, p.engine.ctor m = .ok b ∧
    ∀ x, (b.min ≤ lhs x m.elems ∧ lhs x m.elems ≤ b.max ↔
      m.min ≤ lhs x m.elems ∧ lhs x m.elems ≤ m.max)

theorem prepared_class {pre : Bool} {raw : RawProblem} {pb : Problem}
    (h : prepared pre raw = .ok pb) :
    pb.ptype = ProblemType.whichProblemType pb.eqs pb.ges pb.les := by
  refine Preprocess.C12_class_of_the_solved_problem raw pb pb 0 true ?_
  unfold prepared at h
  split at h
  · exact Or.inl h
  · exact Or.inr (Or.inl (Except.ok.inj h))

theorem chooseBastert_ctor (method : String) (hm : method ≠ "buffered") (opt : Bool)
    (t : SolverType) :
    (chooseBastert method opt t).engine.ctor = SolverCtor.ctor t ∧
    (chooseBastert method opt t).optimization = opt := by
  unfold chooseBastert
  rw [if_neg hm]
  cases t <;> exact ⟨rfl, rfl⟩

/-- C75, solver `bastert`: for a feasible problem without null coefficient, the solver that runs does
what was asked for (`solve` or `optimize`) and accepts the problem.  What is missing: the method
`buffered` (`C75_buffered_aborts`) and the random solver (`C75_random_accepts_partial`). -/
theorem C75_solver_accepts_partial (s : Sorts) (hs : s.Ok) (o : Order) (pre : Bool)
    (raw : RawProblem) (pb : Problem) (hp : prepared pre raw = .ok pb) (hi : IntSums pb)
    (hF : ∃ x, Satisfies pb.eqs pb.ges pb.les x)
    (hz : ∀ c ∈ pb.eqs ++ pb.ges ++ pb.les, ∀ e ∈ c.elems, e.factor ≠ 0)
    (ms : List Merged) (h : Merge.make s o pb = .ok ms) (method : String)
    (hm : method ≠ "buffered") (opt : Bool) :
    ∃ p, choose .bastert method opt pb.ptype = some p ∧ p.optimization = opt ∧ Accepts ms p := by
  obtain ⟨h1, h2⟩ := chooseBastert_ctor method hm opt pb.ptype
  refine ⟨chooseBastert method opt pb.ptype, rfl, h2, ?_⟩
  intro m hm
  rw [h1, prepared_class hp]
  exact C16_solver_contract_partial s hs o pb hi hF hz ms h m hm

/-- C75, random solver: it accepts every feasible problem whose coefficients are -1 and 1.  What is
missing: the other coefficients (`C75_random_refuses_integers`) and the request
(`C75_random_ignores_the_request`). -/
theorem C75_random_accepts_partial (s : Sorts) (hs : s.Ok) (o : Order) (pre : Bool)
    (raw : RawProblem) (pb : Problem) (hp : prepared pre raw = .ok pb) (hi : IntSums pb)
    (hF : ∃ x, Satisfies pb.eqs pb.ges pb.les x)
    (hz : ∀ c ∈ pb.eqs ++ pb.ges ++ pb.les, ∀ e ∈ c.elems, e.factor = 1 ∨ e.factor = -1)
    (ms : List Merged) (h : Merge.make s o pb = .ok ms) (method : String) (opt : Bool) :
    ∃ p, choose .random method opt pb.ptype = some p ∧ p.engine = .random ∧ Accepts ms p := by
  have hcl : pb.ptype = .equalities01 ∨ pb.ptype = .equalities101 ∨ pb.ptype = .inequalities01 ∨
      pb.ptype = .inequalities101 := by
    have hc := C12_classification pb.eqs pb.ges pb.les
    simp only at hc
    rw [prepared_class hp, hc]
    have h0 : ∀ f ∈ (pb.eqs ++ pb.ges ++ pb.les).flatMap fun c => c.elems.map FunElem.factor,
        f = -1 ∨ f = 0 ∨ f = 1 := by
      intro f hf
      obtain ⟨c, hc, hf⟩ := List.mem_flatMap.mp hf
      obtain ⟨e, he, rfl⟩ := List.mem_map.mp hf
      rcases hz c hc e he with h | h <;> simp [h]
    simp only [if_pos h0]
    split <;> split <;> simp
  have hacc : ∀ m ∈ ms, ∃ b, Rand.ctor m = .ok b ∧
      ∀ x, (b.min ≤ lhs x m.elems ∧ lhs x m.elems ≤ b.max ↔
        m.min ≤ lhs x m.elems ∧ lhs x m.elems ≤ m.max) := by
    intro m hm
    obtain ⟨c, hc, hperm⟩ := (C14_merge_never_grows s hs o pb ms h).2 m hm
    have h1 : ∀ e ∈ m.elems, e.factor.natAbs = 1 := by
      intro e he
      rcases hz c hc e (hperm.mem_iff.mp he) with h | h <;> rw [h] <;> rfl
    obtain ⟨x, hx⟩ := hF
    have hsat : ∃ x, satM x m :=
      ⟨x, (C13_merge_preserves_solutions s hs o pb hi ms h x).mpr hx m hm⟩
    obtain ⟨b, hb⟩ := SolverCtor.ctor_ok (t := .inequalities101) (m := m) (by simp)
      (fun _ => h1) (by simp) (by simp) hsat
    refine ⟨{ b with negative := 0 }, ?_, fun x => ?_⟩
    · rw [Rand.ctor_eq]
      change Except.map _ (SolverCtor.ctor .inequalities101 m) = _
      rw [hb]
      rfl
    · exact SolverCtor.ctor_exact hb x
  rcases hcl with h1 | h1 | h1 | h1 <;> rw [h1]
  · exact ⟨randomEqualities, rfl, rfl, hacc⟩
  · exact ⟨randomEqualities, rfl, rfl, hacc⟩
  · exact ⟨randomInequalities, rfl, rfl, hacc⟩
  · exact ⟨randomInequalities, rfl, rfl, hacc⟩

/-! ## C75: the result -/

theorem execute_shape {ρ : Type} {upd : Engine → Slv → ρ → Nat → Assign → Outcome Assign}
    {w : World ρ} (hc : Optimizer.ChoicesOk w.choices) (hcl : Optimizer.Clean w.choices) {p : Plan}
    {pb : Problem} {res : Result} (h : execute upd w p pb = .ok res) (hok : res.status = .success) :
    Shape w.sorts w.order pb res := by
  unfold execute at h
  split at h
  · exact Optimizer.optimizeProblem_shape hc hcl h hok
  · exact solveProblem_success h hok

theorem itm_shape {ρ : Type} {upd : Engine → Slv → ρ → Nat → Assign → Outcome Assign}
    {w : World ρ} (hc : Optimizer.ChoicesOk w.choices) (hcl : Optimizer.Clean w.choices) {c : Ctx}
    {opt : Bool} {pb : Problem} {res : Result} (h : itm (execute upd w) c opt pb = .ok res)
    (hok : res.status = .success) : Shape w.sorts w.order pb res := by
  unfold itm at h
  split at h
  · rw [← Except.ok.inj h] at hok
    simp at hok
  · exact execute_shape hc hcl h hok

/-- C75, the result: whatever the solver (`bastert` or `random`) and the method, a success of `solve`,
or of `optimize` without tuning, solves the raw problem; when the objective is linear the reported value
is that of `compute_solution`.  `Clean` is the hypothesis of C47. -/
theorem C75_success_solves_the_raw_problem_partial {ρ : Type}
    (upd : Engine → Slv → ρ → Nat → Assign → Outcome Assign) (w : World ρ) (hs : w.sorts.Ok)
    (hc : Optimizer.ChoicesOk w.choices) (hcl : Optimizer.Clean w.choices) (t : Tuners) (c : Ctx)
    (hpre : c.preprocessing = true) (hmode : c.mode = 0) (raw : RawProblem) (wf : WellFormedRaw raw)
    (h0 : raw.names ≠ [])
    (hi : ∀ c ∈ raw.eqs ++ raw.ges ++ raw.les, ∀ x,
      -2147483648 ≤ lhs x c.elems ∧ lhs x c.elems ≤ 2147483647)
    (hF : ∃ x, IsSolution raw x) (res : Result)
    (h : solve (execute upd w) (some c) raw = .ok res ∨
      optimize (execute upd w) t (some c) raw = .ok res) (hok : res.status = .success) :
    ∃ s x, res.solutions = [s] ∧ Lpcore.isValidSolution raw res = .ok true ∧
      (raw.objective.qelems = [] → Lpcore.computeSolution raw res = .ok s.value) ∧
      Names raw.names (Props.pairs res s) x ∧ IsSolution raw x := by
  have key : ∃ red, Preprocess.preprocess raw = .ok red ∧ Shape w.sorts w.order red res := by
    rcases h with h | h
    · unfold solve at h
      obtain ⟨red, hred, h⟩ := bind_eq_ok.mp h
      unfold prepared at hred
      rw [if_pos hpre] at hred
      exact ⟨red, hred, itm_shape hc hcl h hok⟩
    · unfold optimize at h
      obtain ⟨red, hred, h⟩ := bind_eq_ok.mp h
      unfold prepared at hred
      rw [if_pos hpre] at hred
      rw [hmode] at h
      exact ⟨red, hred, itm_shape hc hcl h hok⟩
  obtain ⟨red, hred, hsh⟩ := key
  exact hsh.solves hs wf h0 hi hF hred hok

/-! ## C75: what does not hold -/

/-- C75 is false of the random solver, the request: `solve` and `optimize` run the same function.  It
optimizes when the problem has an inequality and only solves when it has none. -/
theorem C75_random_ignores_the_request (method : String) (opt : Bool) (eqs ges les : List Constr)
    (p : Plan)
    (h : choose .random method opt (ProblemType.whichProblemType eqs ges les) = some p) :
    p.optimization = decide (¬ (ges = [] ∧ les = [])) := by
  have hc := C12_classification eqs ges les
  simp only at hc
  rw [hc] at h
  split at h
  · rename_i h0
    rw [decide_eq_false (not_not.mpr h0)]
    split at h
    · cases h; rfl
    · split at h
      · cases h; rfl
      · cases h
  · rename_i h0
    rw [decide_eq_true h0]
    split at h
    · cases h; rfl
    · split at h
      · cases h; rfl
      · cases h

example : choose .random "" false (ProblemType.whichProblemType [] []
      [{ elems := [⟨1, 0⟩, ⟨1, 1⟩], value := 1, id := 0 }]) = some ⟨.random, true⟩ ∧
    choose .random "" true (ProblemType.whichProblemType
      [{ elems := [⟨1, 0⟩, ⟨1, 1⟩], value := 1, id := 0 }] [] []) = some ⟨.random, false⟩ := by
  decide +kernel

/-- C75 is false of the random solver, the coefficients: it refuses, with `internal_error`, every
problem that has a coefficient other than -1, 0 and 1. -/
theorem C75_random_refuses_integers (exec : Plan → Problem → Outcome Result) (c : Ctx)
    (hc : c.solver = .random) (raw : RawProblem) (pb : Problem)
    (hp : prepared c.preprocessing raw = .ok pb)
    (hz : ∃ k ∈ pb.eqs ++ pb.ges ++ pb.les, ∃ e ∈ k.elems,
      e.factor ≠ -1 ∧ e.factor ≠ 0 ∧ e.factor ≠ 1) :
    solve exec (some c) raw = .ok { status := .internalError } ∧
    ∀ t, c.mode = 0 → optimize exec t (some c) raw = .ok { status := .internalError } := by
  have hcl : pb.ptype = .equalitiesZ ∨ pb.ptype = .inequalitiesZ := by
    have h := C12_classification pb.eqs pb.ges pb.les
    simp only at h
    rw [prepared_class hp, h]
    obtain ⟨k, hk, e, he, h1, h2, h3⟩ := hz
    have hm : e.factor ∈ (pb.eqs ++ pb.ges ++ pb.les).flatMap fun c => c.elems.map FunElem.factor :=
      List.mem_flatMap.mpr ⟨k, hk, List.mem_map_of_mem he⟩
    have n1 : ¬ ∀ f ∈ (pb.eqs ++ pb.ges ++ pb.les).flatMap fun c => c.elems.map FunElem.factor,
        f = 0 ∨ f = 1 := fun h => by rcases h _ hm with h | h <;> contradiction
    have n2 : ¬ ∀ f ∈ (pb.eqs ++ pb.ges ++ pb.les).flatMap fun c => c.elems.map FunElem.factor,
        f = -1 ∨ f = 0 ∨ f = 1 := fun h => by rcases h _ hm with h | h | h <;> contradiction
    simp only [if_neg n1, if_neg n2]
    split <;> simp
  have hitm : ∀ opt, itm exec c opt pb = .ok { status := .internalError } := by
    intro opt
    unfold itm choose
    rw [hc]
    rcases hcl with h | h <;> rw [h] <;> rfl
  constructor
  · change (prepared c.preprocessing raw >>= fun pb => itm exec c false pb) = _
    rw [hp, ok_bind]
    exact hitm false
  · intro t hm
    simp only [optimize]
    rw [hp, ok_bind, hm]
    exact hitm true

/-- A problem with the constraint `2 a + b <= 2`. -/
def exZ : RawProblem where
  objective := { elems := [⟨1, 0⟩] }
  les := [{ label := "c", elems := [⟨2, 0⟩, ⟨1, 1⟩], value := 2, id := 0 }]
  names := ["a", "b"]
  values := [⟨0, 1, .binary⟩, ⟨0, 1, .binary⟩]

example (exec : Plan → Problem → Outcome Result) :
    solve exec (some { solver := .random, preprocessing := false }) exZ =
      .ok { status := .internalError } :=
  (C75_random_refuses_integers exec { solver := .random, preprocessing := false } rfl exZ
    (Preprocess.unpreprocess exZ) rfl ⟨_, List.mem_singleton.mpr rfl, ⟨2, 0⟩, by decide, by decide⟩).1

/-- The constraint `a + b <= 1`. -/
def exLe : RawProblem where
  objective := { elems := [⟨1, 0⟩] }
  les := [{ label := "c", elems := [⟨1, 0⟩, ⟨1, 1⟩], value := 1, id := 0 }]
  names := ["a", "b"]
  values := [⟨0, 1, .binary⟩, ⟨0, 1, .binary⟩]

theorem exLe_solution : IsSolution exLe (fun _ => false) := by
  refine ⟨by decide +kernel, ?_⟩
  intro i v h hb
  rcases i with _ | _ | i <;> simp [exLe] at h <;> subst h <;> simp at hb ⊢

/-- C75 is false of the method `buffered`: it runs the solver of the 0/1 equalities whatever the
problem, and this solver stops the process on `a + b <= 1`, whatever the choices. -/
theorem C75_buffered_aborts {ρ : Type} (upd : Engine → Slv → ρ → Nat → Assign → Outcome Assign)
    (w : World ρ) (hw : w.sorts = stdSorts) (ho : w.order = .none) (t : Tuners) :
    IsSolution exLe (fun _ => false) ∧
    (∃ msg, solve (execute upd w) (some { method := "buffered", preprocessing := false }) exLe =
      .error (.contract msg)) ∧
    (Optimizer.ChoicesOk w.choices → ∃ msg, optimize (execute upd w) t
      (some { method := "buffered", preprocessing := false }) exLe = .error (.contract msg)) := by
  have hm : Merge.make stdSorts .none (Preprocess.unpreprocess exLe) =
      .ok [⟨[⟨1, 0⟩, ⟨1, 1⟩], -2147483648, 1, 0⟩] := by decide +kernel
  have hs : makeSlv .equalities01 [⟨[⟨1, 0⟩, ⟨1, 1⟩], -2147483648, 1, 0⟩] 2 =
      .error (.contract "min == max") := by decide +kernel
  have e1 : makeCost (Preprocess.unpreprocess exLe).objective
      (Preprocess.unpreprocess exLe).values.length = .ok () := by decide +kernel
  refine ⟨exLe_solution, ⟨"min == max", ?_⟩, fun hc => ⟨"min == max", ?_⟩⟩
  · change solveProblem .equalities01 (upd .equalities01) w.sorts w.order w.run w.params
      (Preprocess.unpreprocess exLe) = _
    unfold solveProblem
    rw [hw, ho, hm, ok_bind]
    unfold solveMerged functor
    have e3 : makeSlv .equalities01 [⟨[⟨1, 0⟩, ⟨1, 1⟩], -2147483648, 1, 0⟩]
        (Preprocess.unpreprocess exLe).values.length = .error (.contract "min == max") := hs
    rw [if_pos (by decide)]
    simp only [e1, e3, ok_bind]
    rfl
  · change Optimizer.optimizeProblem .equalities01 (upd .equalities01) w.sorts w.order w.choices
      w.params .one (Preprocess.unpreprocess exLe) = _
    unfold Optimizer.optimizeProblem
    rw [hw, ho, hm, ok_bind, if_neg (by decide)]
    unfold Optimizer.optimizeMerged
    obtain ⟨st, h1, _⟩ := Optimizer.make_spec
      (g := ⟨(Preprocess.unpreprocess exLe).type, (Preprocess.unpreprocess exLe).objective,
        [⟨[⟨1, 0⟩, ⟨1, 1⟩], -2147483648, 1, 0⟩], w.choices.bastert, w.choices.hash⟩) hc.srt w.choices.init
    have e3 : makeSlv .equalities01 [⟨[⟨1, 0⟩, ⟨1, 1⟩], -2147483648, 1, 0⟩]
        (Preprocess.unpreprocess exLe).values.length = .error (.contract "min == max") := hs
    simp only [e1, h1, e3, ok_bind]
    rfl

/-- C75, the modes: a mode with the flag `branch` is the mode `branch`, whatever its other flags, so
that `branch-manual` and `branch-nlopt` tune nothing; without this flag, `nlopt` hides `manual`. -/
theorem C75_first_mode_wins (exec : Plan → Problem → Outcome Result) (t : Tuners) (c : Ctx)
    (raw : RawProblem) :
    (c.mode = 5 ∨ c.mode = 6 ∨ c.mode = 7 →
      optimize exec t (some c) raw = optimize exec t (some { c with mode := 4 }) raw) ∧
    (c.mode = 3 → optimize exec t (some c) raw = optimize exec t (some { c with mode := 2 }) raw) ∧
    (c.mode = 4 → optimize exec t (some c) raw = prepared c.preprocessing raw >>= t.branch) ∧
    (c.mode = 2 → optimize exec t (some c) raw = prepared c.preprocessing raw >>= t.nlopt) ∧
    (c.mode = 1 → optimize exec t (some c) raw = prepared c.preprocessing raw >>= t.manual) := by
  refine ⟨?_, ?_, ?_, ?_, ?_⟩
  · rintro (h | h | h) <;> simp only [optimize, h] <;> rfl
  all_goals intro h; simp only [optimize, h]; rfl

example (exec : Plan → Problem → Outcome Result) (t : Tuners) :
    optimize exec t (some { mode := 5 }) Preprocess.exRaw = t.branch Preprocess.exRed := by
  obtain ⟨h1, _, h2, _⟩ := C75_first_mode_wins exec t { mode := 5 } Preprocess.exRaw
  rw [h1 (Or.inl rfl), (C75_first_mode_wins exec t { mode := 4 } Preprocess.exRaw).2.2.1 rfl]
  change Preprocess.preprocess Preprocess.exRaw >>= t.branch = _
  rw [Preprocess.exRaw_runs, ok_bind]

/-- C75, without a context: the call returns the status of an empty context, with no solution. -/
theorem C75_no_context_no_success (exec : Plan → Problem → Outcome Result) (t : Tuners)
    (raw : RawProblem) (res : Result)
    (h : solve exec none raw = .ok res ∨ optimize exec t none raw = .ok res) :
    res.status = .emptyContext ∧ res.solutions = [] := by
  rcases h with h | h <;> rw [← Except.ok.inj h] <;> exact ⟨rfl, rfl⟩

example : ∃ res, solve (fun _ _ => .error .fuel) none Preprocess.exRaw = .ok res ∧
    res.status ≠ .success :=
  ⟨_, rfl, by
    rw [(C75_no_context_no_success (fun _ _ => .error .fuel)
      ⟨fun _ => .error .fuel, fun _ => .error .fuel, fun _ => .error .fuel⟩ Preprocess.exRaw _
      (Or.inl rfl)).1]
    decide⟩

/-! ## The hypotheses of C75 are met -/

/-- The constraints of the reduced problem `exRed`. -/
def exMs : List Merged :=
  [⟨[⟨1, 0⟩, ⟨1, 1⟩, ⟨1, 2⟩], 1, 1, 0⟩, ⟨[⟨1, 0⟩, ⟨1, 3⟩], -2147483648, 2, 3⟩]

theorem exMs_made : Merge.make stdSorts .none Preprocess.exRed = .ok exMs := by decide +kernel

example : (∃ p, choose .bastert "" true Preprocess.exRed.ptype = some p ∧ p.optimization = true ∧
      Accepts exMs p) ∧
    ∃ p, choose .random "" true Preprocess.exRed.ptype = some p ∧ p.engine = .random ∧
      Accepts exMs p :=
  ⟨C75_solver_accepts_partial stdSorts stdSorts_ok .none true Preprocess.exRaw Preprocess.exRed
      Preprocess.exRaw_runs (ints_of_sums (by decide +kernel))
      ⟨fun i => decide (i = 0), by decide +kernel⟩ (by decide +kernel) exMs exMs_made "" (by decide)
      true,
    C75_random_accepts_partial stdSorts stdSorts_ok .none true Preprocess.exRaw Preprocess.exRed
      Preprocess.exRaw_runs (ints_of_sums (by decide +kernel))
      ⟨fun i => decide (i = 0), by decide +kernel⟩ (by decide +kernel) exMs exMs_made "" true⟩

/-- The choices of the random solver. -/
def exRand : Rand.Choice :=
  ⟨.maximize, Mult.exOracle .maximize, ⟨1 / 2, 0, 1 / 2, none⟩, Mult.costOf [3, 2, -1, 0], Mult.mem0⟩

def exPass : Pass Rand.Choice := ⟨id, id, fun _ => exRand⟩

def exWorld : World Rand.Choice where
  sorts := stdSorts
  order := .none
  run := ⟨fun _ => false, fun _ => exPass, fun _ => false, fun _ => false⟩
  choices := ⟨Optimizer.exInit, Optimizer.stdSorter, Optimizer.vec [], Optimizer.exHash,
    [{ cross := none, mutate := fun x i => if i = 3 then true else x i, pass := fun _ => exPass,
       stopMain := fun _ => false, stopPush := fun _ => false, stopInner := fun _ => false,
       kappaOver := fun _ => false, evict := fun _ => ⟨4, Optimizer.stdSorter⟩ }]⟩
  params := { limit := 10, pushes := 2, pushIter := 3 }

theorem exWorld_ok : Optimizer.ChoicesOk exWorld.choices := by
  refine ⟨show 5 ≤ Optimizer.exInit.length by decide, Optimizer.stdSorter_ok, ?_⟩
  intro c hc k
  have hc : c ∈ [_] := hc
  rw [List.mem_singleton] at hc
  subst hc
  exact ⟨show 1 ≤ 4 by decide, show 4 < Optimizer.exInit.length by decide, Optimizer.stdSorter_ok⟩

theorem exWorld_clean : Optimizer.Clean exWorld.choices := by
  intro c hc ⟨k, h1, h2⟩
  have hc : c ∈ [_] := hc
  rw [List.mem_singleton] at hc
  subst hc
  cases h1

/-- The random solver optimizes the raw problem, although `solve` was called. -/
theorem exWorld_runs : solve (execute (fun _ => Rand.updRow) exWorld) (some { solver := .random })
    Preprocess.exRaw = .ok (Optimizer.exResult [⟨[1, 0, 0, 1], 11⟩]) := by decide +kernel

example : ∃ x, IsSolution Preprocess.exRaw x ∧ Lpcore.isValidSolution Preprocess.exRaw
    (Optimizer.exResult [⟨[1, 0, 0, 1], 11⟩]) = .ok true := by
  obtain ⟨s, x, _, h2, _, _, h5⟩ := C75_success_solves_the_raw_problem_partial
    (fun _ => Rand.updRow) exWorld stdSorts_ok exWorld_ok exWorld_clean
    ⟨fun _ => .error .fuel, fun _ => .error .fuel, fun _ => .error .fuel⟩ { solver := .random } rfl
    rfl Preprocess.exRaw Preprocess.exRaw_wf (by decide)
    (ints_of_sums (by decide +kernel)) ⟨_, Preprocess.exRaw_solution⟩
    (Optimizer.exResult [⟨[1, 0, 0, 1], 11⟩]) (Or.inl exWorld_runs) rfl
  exact ⟨x, h5, h2⟩

/-! ## C76: the tuning with nlopt -/

/-- C76 is false of the code: with nlopt, whatever the points that nlopt tries (all with the five
coordinates of the first one) and whatever the solver does, the first evaluation reads the sixth
coordinate of a vector of five. -/
theorem C76_nlopt_reads_out_of_bounds (s : Search) (x : List Rat) (h0 : s.next [] = some x)
    (hx : x.length = 5) (inner : Tuning → Outcome (Option Rat)) (final : Tuning → Outcome Result)
    (manual : Outcome Result) (steps : Nat) :
    nlopt s inner final manual (steps + 1) = some (.error (.ub "x[param]")) := by
  have h : evaluate inner x = .error (.ub "x[param]") := by
    match x, hx with
    | [a, b, c, d, e], _ => rfl
  unfold nlopt search
  rw [h0]
  simp only [h]

example : nlopt ⟨fun seen => if seen.length < 3 then some [1 / 2, 1 / 1000, 1 / 10, 1 / 1000, 1 / 2]
      else none, fun _ => (1, [1 / 2, 1 / 1000, 1 / 10, 1 / 1000, 1 / 2])⟩
    (fun _ => .ok (some 3)) (fun _ => .ok {}) (.ok {}) 10 = some (.error (.ub "x[param]")) :=
  C76_nlopt_reads_out_of_bounds _ _ rfl rfl _ _ _ 9

/-- C76, what holds: without nlopt, the mode `nlopt` gives the result of the mode `manual`. -/
theorem C76_without_nlopt_is_manual_partial (exec : Plan → Problem → Outcome Result) (t : Tuners)
    (ht : t.nlopt = withoutNlopt t.manual) (c : Ctx) (hc : c.mode = 2 ∨ c.mode = 3)
    (raw : RawProblem) :
    optimize exec t (some c) raw = optimize exec t (some { c with mode := 1 }) raw := by
  obtain ⟨_, h3, _, h2, _⟩ := C75_first_mode_wins exec t c raw
  rw [(C75_first_mode_wins exec t { c with mode := 1 } raw).2.2.2.2 rfl]
  rcases hc with h | h
  · rw [h2 h, ht]
    rfl
  · rw [h3 h, (C75_first_mode_wins exec t { c with mode := 2 } raw).2.2.2.1 rfl, ht]
    rfl

/-- C76, what holds: when nlopt gives up before it has evaluated any point, with one of its codes of
failure (-1 failure, -2 invalid arguments, -3 out of memory, -5 forced stop), the mode `nlopt` gives
the result of the mode `manual`. -/
theorem C76_failed_search_is_manual_partial (s : Search) (h0 : s.next [] = none)
    (hc : (s.stop []).1 = -1 ∨ (s.stop []).1 = -2 ∨ (s.stop []).1 = -3 ∨ (s.stop []).1 = -5)
    (inner : Tuning → Outcome (Option Rat)) (final : Tuning → Outcome Result)
    (manual : Outcome Result) (steps : Nat) :
    nlopt s inner final manual (steps + 1) = some manual := by
  unfold nlopt search
  rw [h0]
  simp only
  rw [if_neg]
  rcases hc with h | h | h | h <;> rw [h] <;> decide

example : nlopt ⟨fun _ => none, fun _ => (-3, [])⟩ (fun _ => .ok (some 3)) (fun _ => .ok {})
    (.error .fuel) 10 = some (.error .fuel) :=
  C76_failed_search_is_manual_partial _ rfl (Or.inr (Or.inr (Or.inl rfl))) _ _ _ 9

end Bx.Dispatch
