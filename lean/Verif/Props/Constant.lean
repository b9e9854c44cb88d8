import Verif.Proofs.ConstantModes
import Verif.Props.Dispatch
import Verif.Props.Rounded
import Verif.Props.Scaling

/-!
# C139: a constant in the objective only moves the values

Two problems whose objectives differ by a constant `k`.
-/

namespace Bx.Constant

open Spec Dispatch Itm Merge

variable {ρ : Type} (k : Rat)

/-- C139 for the preprocessing: it stops for the same reason, or the reduced problems are the same but for the constant
of the objective, which is greater by `k`. -/
theorem C139_preprocess (raw : RawProblem) :
    Preprocess.preprocess (plusConstantRaw k raw) =
      (Preprocess.preprocess raw).map fun pb => { pb with objective := plusConstant k pb.objective } :=
  prepared_plus k true raw

/-- C139 for the search of `solve`, with its costs, its multipliers and its preferences: with the same choices of the
outside, the initial vector, the vectors at the end of the passes, the weights, the multipliers, the preferences and the
end of the run are the same; so is the solution, and its value is greater by `k`.  The numbers are exact. -/
theorem C139_search_partial (kind : SolverType) (e : Setup.Env) (w : Num.World Mult.Oracle) (cfg : Num.Cfg)
    (t : ObjType) (o : Objective) (csts : List Merged) (n : Nat) :
    (∃ f, Setup.solve kind e w cfg t o csts n = .error f ∧
      Setup.solve kind e w cfg t (plusConstant k o) csts n = .error f) ∨
    ∃ a st a' st', Setup.solve kind e w cfg t o csts n = .ok (a, st) ∧
      Setup.solve kind e w cfg t (plusConstant k o) csts n = .ok (a', st') ∧
      a'.status = a.status ∧ a'.exit = a.exit ∧ a'.mainPasses = a.mainPasses ∧ a'.final.trace = a.final.trace ∧
      st'.log = st.log ∧ st'.mem = st.mem ∧ st'.kappa = st.kappa ∧
      a'.solution = a.solution.map fun p => (p.1, p.2.map (· + k)) := by
  rw [setup_plus]
  cases Setup.solve kind e w cfg t o csts n with
  | error f => exact .inl ⟨f, rfl, rfl⟩
  | ok q => exact .inr ⟨q.1, q.2, _, _, rfl, rfl, rfl, rfl, rfl, rfl, rfl, rfl, rfl, rfl⟩

/-- C139 for the search of `solve` with the solver of integer coefficients. -/
theorem C139_search_integer_partial (e : Setup.Env) (w : Num.World ZNum.ZOracle) (cfg : Num.Cfg)
    (t : ObjType) (o : Objective) (csts : List Merged) (n : Nat) :
    (∃ f, Setup.solveZ e w cfg t o csts n = .error f ∧
      Setup.solveZ e w cfg t (plusConstant k o) csts n = .error f) ∨
    ∃ a st a' st', Setup.solveZ e w cfg t o csts n = .ok (a, st) ∧
      Setup.solveZ e w cfg t (plusConstant k o) csts n = .ok (a', st') ∧
      a'.status = a.status ∧ a'.exit = a.exit ∧ a'.mainPasses = a.mainPasses ∧ a'.final.trace = a.final.trace ∧
      st'.log = st.log ∧ st'.mem = st.mem ∧ st'.kappa = st.kappa ∧
      a'.solution = a.solution.map fun p => (p.1, p.2.map (· + k)) := by
  rw [setupZ_plus]
  cases Setup.solveZ e w cfg t o csts n with
  | error f => exact .inl ⟨f, rfl, rfl⟩
  | ok q => exact .inr ⟨q.1, q.2, _, _, rfl, rfl, rfl, rfl, rfl, rfl, rfl, rfl, rfl, rfl⟩

/-- C139 for `solve`, with or without preprocessing: with the same choices of the outside the run stops for the same
reason, or the results differ by `k` in the values of the solutions. -/
theorem C139_solve_partial (upd : Engine → Slv → ρ → Nat → Assign → Outcome Assign) (w : World ρ) (c : Option Ctx)
    (raw : RawProblem) :
    (∃ f, Dispatch.solve (execute upd w) c raw = .error f ∧
      Dispatch.solve (execute upd w) c (plusConstantRaw k raw) = .error f) ∨
    ∃ r r', Dispatch.solve (execute upd w) c raw = .ok r ∧
      Dispatch.solve (execute upd w) c (plusConstantRaw k raw) = .ok r' ∧ DifferBy k r r' := by
  cases c with
  | none => exact .inr ⟨_, _, rfl, rfl, .inl rfl⟩
  | some c =>
    simp only [Dispatch.solve, prepared_plus]
    cases prepared c.preprocessing raw with
    | error f => exact .inl ⟨f, rfl, rfl⟩
    | ok pb => exact (itm_plus k upd w c false pb).mono fun a b h => h.1

/-- C139 for `optimize` with one worker, in the modes none, manual and branch, and in the mode nlopt when the library is
built without it. -/
theorem C139_optimize_partial (upd : Engine → Slv → ρ → Nat → Assign → Outcome Assign) (s : Setting ρ) (c : Ctx)
    (hl : s.library = none ∨ hasFlag c.mode 2 = false) (raw : RawProblem) :
    (∃ f, Dispatch.optimize (execute upd s.untuned) (s.tuners upd c) (some c) raw = .error f ∧
      Dispatch.optimize (execute upd s.untuned) (s.tuners upd c) (some c) (plusConstantRaw k raw) = .error f) ∨
    ∃ r r', Dispatch.optimize (execute upd s.untuned) (s.tuners upd c) (some c) raw = .ok r ∧
      Dispatch.optimize (execute upd s.untuned) (s.tuners upd c) (some c) (plusConstantRaw k raw) = .ok r' ∧
      DifferBy k r r' := by
  simp only [Dispatch.optimize, prepared_plus]
  cases prepared c.preprocessing raw with
  | error f => exact .inl ⟨f, rfl, rfl⟩
  | ok pb =>
    simp only [Except.map, ok_bind]
    have hm : Twice.Both (DifferBy k) ((s.tuners upd c).manual pb) ((s.tuners upd c).manual (plus k pb)) :=
      manual_both (fun n t => (itm_plus k upd (s.world t n) c true pb).mono fun a b h => h.1) s.first
    split
    · exact branch_plus (fun n pb => itm_plus k upd (s.world s.first n) c true pb) pb
    · split
      · rename_i h2
        rcases hl with hl | hl
        · simp only [Setting.tuners, hl, withoutNlopt]
          exact hm
        · rw [hl] at h2; cases h2
      · split
        · exact hm
        · exact (itm_plus k upd s.untuned c true pb).mono fun a b h => h.1

/-! ## The check and the value of a solution -/

/-- C139 for the check of a solution: the objective is not read. -/
theorem C139_check (raw : RawProblem) (r : Result) :
    Lpcore.isValidSolution (plusConstantRaw k raw) r = Lpcore.isValidSolution raw r := rfl

theorem valueLinear_plus (vars : List Int) : ∀ (es : List ObjElem) (r : Rat),
    Lpcore.addLinear vars (r + k) es = (Lpcore.addLinear vars r es).map (· + k)
  | [], r => rfl
  | e :: es, r => by
    unfold Lpcore.addLinear
    cases vars[e.var]? with
    | none => rfl
    | some v =>
      simp only
      rw [add_right_comm]
      exact valueLinear_plus vars es _

theorem valueQuadratic_plus (vars : List Int) : ∀ (es : List QuadElem) (r : Rat),
    Lpcore.addQuadratic vars (r + k) es = (Lpcore.addQuadratic vars r es).map (· + k)
  | [], r => rfl
  | e :: es, r => by
    unfold Lpcore.addQuadratic
    cases vars[e.a]? with
    | none => rfl
    | some v =>
      cases vars[e.b]? with
      | none => rfl
      | some u =>
        simp only
        rw [add_right_comm]
        exact valueQuadratic_plus vars es _

/-- C139 for the value of a solution: greater by `k`. -/
theorem C139_value (raw : RawProblem) (r : Result) :
    Lpcore.computeSolution (plusConstantRaw k raw) r = (Lpcore.computeSolution raw r).map (· + k) := by
  have hi : ∀ v, Lpcore.computeSolutionImpl (plusConstantRaw k raw) v =
      (Lpcore.computeSolutionImpl raw v).map (· + k) := by
    intro v
    unfold Lpcore.computeSolutionImpl
    cases check (!v.isEmpty) "!variable_value.empty()" with
    | error f => rfl
    | ok _ =>
      simp only [ok_bind]
      rw [show (plusConstantRaw k raw).objective.value = raw.objective.value + k from rfl, valueLinear_plus,
        show (plusConstantRaw k raw).objective.elems = raw.objective.elems from rfl,
        show (plusConstantRaw k raw).objective.qelems = raw.objective.qelems from rfl]
      cases Lpcore.addLinear v raw.objective.value raw.objective.elems with
      | error f => rfl
      | ok a => exact valueQuadratic_plus k v raw.objective.qelems a
  unfold Lpcore.computeSolution
  rw [show (plusConstantRaw k raw).names = raw.names from rfl, show (plusConstantRaw k raw).values = raw.values from rfl]
  simp only [hi]
  cases check (r.status == .success && !r.solutions.isEmpty) "r && !empty" with
  | error f => rfl
  | ok _ =>
    simp only [ok_bind]
    cases r.solutions.getLast? with
    | none => rfl
    | some s =>
      simp only
      cases check (raw.names.length == raw.values.length) "names/values" with
      | error f => rfl
      | ok _ =>
        simp only [ok_bind]
        cases check (raw.names.length == r.affected.names.length + r.variableName.length) "names/result" with
        | error f => rfl
        | ok _ =>
          simp only [ok_bind]
          cases check (s.variables.length == r.variableName.length) "back/names" with
          | error f => rfl
          | ok _ =>
            simp only [ok_bind]
            cases Lpcore.makeVariableValue raw.names r <;> rfl

/-- C139 in floating point, part: when the constants and the factors are multiples of a power of 2 (integers for `e = 0`)
and the sum of their absolute values is at most `2 ^ p` times it, the value that the search gives to a vector is greater
by `k`, with numbers of `p` binary digits.  Missing: the other objectives (`C139_rounding_changes_the_order`). -/
theorem C139_rounded_value_partial (p : Nat) (hp : 0 < p) (e : Int) (o : Objective) (x : Assign) (hg : OnGrid e o)
    (hk : Grid e k) (hs : size o + |k| ≤ 2 ^ p * 2 ^ e) :
    Rounded.results (binary p) (plusConstant k o) x = Rounded.results (binary p) o x + k := by
  have hg' : OnGrid e (plusConstant k o) := by
    refine ⟨?_, hg.elems, hg.qelems⟩
    obtain ⟨m, hm⟩ := hg.value
    obtain ⟨m', hm'⟩ := hk
    refine ⟨m + m', ?_⟩
    show o.value + k = _
    rw [hm, hm']
    push_cast
    ring
  have hz : size (plusConstant k o) ≤ size o + |k| := by
    have := abs_add_le o.value k
    show |o.value + k| + _ + _ ≤ |o.value| + _ + _ + |k|
    unfold plusConstant
    linarith
  rw [Props.C114_value_partial p hp e _ x hg' (hz.trans hs),
    Props.C114_value_partial p hp e o x hg (le_trans (le_add_of_nonneg_right (abs_nonneg k)) hs)]
  unfold objective plusConstant
  ring

/-- Integers: 7 more in the objective of the example of the search. -/
example : Rounded.results (binary 53) (plusConstant 7 { elems := [⟨1, 0⟩, ⟨2, 1⟩, ⟨-5, 2⟩] }) (fun i => decide (i = 1)) =
    Rounded.results (binary 53) { elems := [⟨1, 0⟩, ⟨2, 1⟩, ⟨-5, 2⟩] } (fun i => decide (i = 1)) + 7 := by
  refine C139_rounded_value_partial 7 53 (by decide) 0 _ _ ⟨⟨0, by norm_num⟩, ?_, by simp⟩ ⟨7, by norm_num⟩
    (by norm_num [size])
  intro f hf
  simp only [List.mem_cons, List.not_mem_nil, or_false] at hf
  rcases hf with rfl | rfl | rfl
  exacts [⟨1, by norm_num⟩, ⟨2, by norm_num⟩, ⟨-5, by norm_num⟩]

/-- Refutation in floating point: with `double`, a constant can change which of two solutions is the better one.  In
`a + b + 1.5 c`, maximized, a = b = 1 has a greater value than c = 1; in `2^53 + a + b + 1.5 c` it has a smaller one. -/
theorem C139_rounding_changes_the_order :
    let o : Objective := { elems := [⟨1, 0⟩, ⟨1, 1⟩, ⟨3 / 2, 2⟩] }
    Rounded.results (binary 53) o (fun i => decide (i = 2)) <
      Rounded.results (binary 53) o (fun i => decide (i < 2)) ∧
    Rounded.results (binary 53) (plusConstant (2 ^ 53) o) (fun i => decide (i < 2)) <
      Rounded.results (binary 53) (plusConstant (2 ^ 53) o) (fun i => decide (i = 2)) := by
  constructor <;> decide +kernel

/-! ## Examples -/

/-- The random solver on a problem, and on the same with 100 more in the objective. -/
example : Dispatch.solve (execute (fun _ => Rand.updRow) Dispatch.exWorld) (some { solver := .random })
    (plusConstantRaw 100 Preprocess.exRaw) = .ok (Optimizer.exResult [⟨[1, 0, 0, 1], 111⟩]) := by
  rcases C139_solve_partial 100 (fun _ => Rand.updRow) Dispatch.exWorld (some { solver := .random })
    Preprocess.exRaw with ⟨f, h, _⟩ | ⟨r, r', h, h', hd⟩
  · rw [Dispatch.exWorld_runs] at h; cases h
  · rw [Dispatch.exWorld_runs] at h
    obtain rfl := Except.ok.inj h
    rw [h']
    rcases hd with rfl | ⟨hn, _⟩
    · exact congrArg Except.ok (by decide +kernel)
    · exact absurd rfl hn

/-- The search of `solve` for inequalities finds the same solution with 100 more in the objective: 103 for 3. -/
example : ∃ a st, Setup.solve .inequalities01 (Scaling.exEnv .l1) Num.exWorld (Scaling.exCfg 1) .minimize
      (plusConstant 100 Scaling.exObj) Scaling.exCsts 4 = .ok (a, st) ∧
    a.status = .success ∧ a.solution = some ([false, true, true, false], some 103) := by
  obtain ⟨r, st, h, h1, h2, _⟩ := Num.of_report (n := 4)
    (r := Setup.solve .inequalities01 (Scaling.exEnv .l1) Num.exWorld (Scaling.exCfg 1) .minimize Scaling.exObj
      Scaling.exCsts 4)
    (v := ⟨.success, some ([false, true, true, false], some 3),
      [[false, true, false, false], [false, true, true, false]]⟩) (by decide +kernel)
  rcases C139_search_partial 100 .inequalities01 (Scaling.exEnv .l1) Num.exWorld (Scaling.exCfg 1) .minimize
    Scaling.exObj Scaling.exCsts 4 with ⟨f, h', _⟩ | ⟨a, s, a', s', h', h'', e, _, _, _, _, _, _, e'⟩
  · rw [h] at h'; cases h'
  · rw [h] at h'
    cases h'
    refine ⟨a', s', h'', e.trans h1, ?_⟩
    rw [e', h2]
    decide +kernel

/-- The value of a solution of the problem of the example. -/
example : Lpcore.computeSolution (plusConstantRaw 100 Preprocess.exRaw) (Optimizer.exResult [⟨[1, 0, 0, 1], 11⟩]) =
      (Lpcore.computeSolution Preprocess.exRaw (Optimizer.exResult [⟨[1, 0, 0, 1], 11⟩])).map (· + 100) ∧
    Lpcore.computeSolution Preprocess.exRaw (Optimizer.exResult [⟨[1, 0, 0, 1], 11⟩]) = .ok 11 :=
  ⟨C139_value 100 _ _, by decide +kernel⟩

end Bx.Constant
