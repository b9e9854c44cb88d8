import Verif.Spec.RInterface
import Verif.Props.Params
import Verif.Props.Main
import Verif.Props.Remaining

/-!
# C101, C102: the functions of the R package
-/

namespace Bx.RInterface

open Params (SolverParams D Between NonNeg Positive KappaRange InRange)
open Spec.RInterface Spec

/-! ## C101: the parameters -/

theorem chosen_other {enum : Enumeration} {codes : List (Int × String)} {other : String} {c s : Int}
    (k : Nat) (hs : s = k) (he : enum[k]? = some other) (h : ∀ p ∈ codes, c ≠ p.1) :
    Chosen enum codes other c s := by
  refine ⟨k, hs, ?_⟩
  have : codes.lookup c = none := by
    rw [List.lookup_eq_none_iff]
    intro p hp
    simpa using h p hp
  rw [this]
  exact he

theorem chosen_pre (c : Int) :
    Chosen preOrders preOrderCodes "memory" c (preOrderValue (getPreOrder c)) := by
  unfold getPreOrder
  split <;> first
    | exact ⟨_, rfl, rfl⟩
    | (by_cases h1 : c = 1
       · subst h1; exact ⟨1, rfl, rfl⟩
       · exact chosen_other 1 rfl rfl (by simp [preOrderCodes]; tauto))

theorem chosen_order (c : Int) :
    Chosen orders orderCodes "none" c (orderValue (getOrder c)) := by
  unfold getOrder
  split <;> first
    | exact ⟨_, rfl, rfl⟩
    | (by_cases h1 : c = 0
       · subst h1; exact ⟨0, rfl, rfl⟩
       · exact chosen_other 0 rfl rfl (by simp [orderCodes]; tauto))

theorem chosen_norm (c : Int) : Chosen norms normCodes "loo" c (normValue (getNorm c)) := by
  unfold getNorm
  split <;> first
    | exact ⟨_, rfl, rfl⟩
    | (by_cases h1 : c = 4
       · subst h1; exact ⟨4, rfl, rfl⟩
       · exact chosen_other 4 rfl rfl (by simp [normCodes]; tauto))

theorem chosen_policy (c : Int) :
    Chosen policies policyCodes "bastert" c (policyValue (getPolicy c)) := by
  unfold getPolicy
  split <;> first
    | exact ⟨_, rfl, rfl⟩
    | exact chosen_other 0 rfl rfl (by simp [policyCodes]; tauto)

theorem chosen_float (c : Int) :
    Chosen floats floatCodes "double_type" c (floatValue (getFloat c)) := by
  unfold getFloat
  split <;> first
    | exact ⟨_, rfl, rfl⟩
    | (by_cases h1 : c = 1
       · subst h1; exact ⟨1, rfl, rfl⟩
       · exact chosen_other 1 rfl rfl (by simp [floatCodes]; tauto))

theorem chosen_storage (c : Int) :
    Chosen storages storageCodes "one" c (storageValue (getStorage c)) := by
  unfold getStorage
  split <;> first
    | exact ⟨_, rfl, rfl⟩
    | (by_cases h1 : c = 0
       · subst h1; exact ⟨0, rfl, rfl⟩
       · exact chosen_other 0 rfl rfl (by simp [storageCodes]; tauto))

theorem context_eq (opt : Bool) (a : Args) :
    context opt a = Params.set {} (if opt then optimizeParams a else solveParams a) := rfl

/-- C101, the codes: in both functions, a documented code selects the enumerator that the
documentation names; another code selects the default one.  `optimize_01lp_problem` always uses the
policy `bastert`. -/
theorem C101_documented_codes (opt : Bool) (a : Args) :
    Chosen preOrders preOrderCodes "memory" a.preConstraintOrder (context opt a).preOrder ∧
    Chosen orders orderCodes "none" a.constraintOrder (context opt a).order ∧
    Chosen norms normCodes "loo" a.norm (context opt a).costNorm ∧
    Chosen floats floatCodes "double_type" a.floatType (context opt a).floatType ∧
    Chosen storages storageCodes "one" a.storageType (context opt a).storage ∧
    (opt = false → Chosen policies policyCodes "bastert" a.initPolicy (context opt a).initPolicy) ∧
    (opt = true → Chosen policies [] "bastert" a.initPolicy (context opt a).initPolicy) := by
  cases opt
  · exact ⟨chosen_pre _, chosen_order _, chosen_norm _, chosen_float _, chosen_storage _,
      (fun _ => chosen_policy _), (fun h => by cases h)⟩
  · exact ⟨chosen_pre _, chosen_order _, chosen_norm _, chosen_float _, chosen_storage _,
      (fun h => by cases h), (fun _ => ⟨0, rfl, rfl⟩)⟩

theorem solveParams_inRange {a : Args} (h : Usable a) (hr : Between 0 1 a.initPolicyRandom)
    (hw : NonNeg a.w) : InRange (solveParams a) where
  timeLimit := h.timeLimit
  theta := h.theta
  delta := h.delta
  kappa := h.kappa
  alpha := h.alpha
  pushingKFactor := h.pushingKFactor
  pushingObjectiveAmplifier := h.pushingObjectiveAmplifier
  initPolicyRandom := hr
  crossoverBastertInsertion := ⟨_, rfl, by norm_num, by norm_num⟩
  crossoverSelectionMean := ⟨_, rfl, by norm_num, by norm_num⟩
  crossoverSelectionStddev := ⟨_, rfl, by norm_num, by norm_num⟩
  mutationVariableMean := ⟨_, rfl, by norm_num, by norm_num⟩
  mutationVariableStddev := ⟨_, rfl, by norm_num, by norm_num⟩
  mutationValueMean := ⟨_, rfl, by norm_num, by norm_num⟩
  mutationValueStddev := ⟨_, rfl, by norm_num, by norm_num⟩
  kappaImprove := ⟨_, _, rfl, rfl, by norm_num, by norm_num, by norm_num⟩
  kappaImproveIncrease := ⟨_, rfl, by norm_num, by norm_num⟩
  w := hw
  limit := h.limit
  printLevel := show (0 : Int) ≤ 0 by decide
  pushesLimit := h.pushesLimit
  pushingIterationLimit := h.pushingIterationLimit
  initPopulationSize := show (5 : Int) ≤ 100 by decide

theorem toUnsigned_self {n : Int} (h : 0 ≤ n) (h' : n < 4294967296) : toUnsigned n = n :=
  Int.emod_eq_of_lt h h'

/-- C101, the values of `solve_01lp_problem`: arguments that the solver can use are the parameters of
the run, and nothing else is changed. -/
theorem C101_solve_arguments (a : Args) (h : Usable a) (hr : Between 0 1 a.initPolicyRandom)
    (w : Rat) (hw : a.w = .fin w) (h0 : 0 ≤ w) :
    Stored a w (context false a) ∧ Untouched (context false a) ∧
    (context false a).initPolicyRandom = a.initPolicyRandom := by
  have e := Params.C43_valid_parameters_are_stored {} (solveParams a)
    (solveParams_inRange h hr (Or.inr ⟨w, hw, h0⟩)) w hw
  rw [context_eq]
  simp only [Bool.false_eq_true, if_false, e]
  exact ⟨⟨rfl, rfl, rfl, rfl, rfl, rfl, rfl, rfl, rfl, rfl, rfl, rfl, rfl, rfl,
    fun h1 h2 => toUnsigned_self h1 h2⟩, ⟨rfl, rfl, rfl, rfl, rfl, rfl, rfl⟩, rfl⟩

/-- C101, the values of `optimize_01lp_problem`: the same, and the probabilities of the optimizer. -/
theorem C101_optimize_arguments (a : Args) (h : Usable a)
    (hp : ∀ f ∈ Params.probabilities, Between 0 1 (f (optimizeParams a)))
    (hk : ∃ s t : Rat, a.kappaImproveStart = .fin s ∧ a.kappaImproveStop = .fin t ∧
      0 ≤ s ∧ s ≤ t ∧ t ≤ 1) (hi : Between 0 1 a.kappaImproveIncrease)
    (w : Rat) (hw : a.w = .fin w) (h0 : 0 ≤ w) :
    Stored a w (context true a) ∧ Untouched (context true a) ∧
    (context true a).crossoverBastertInsertion = a.crossoverBastertInsertion ∧
    (context true a).crossoverSelectionMean = a.crossoverSelectionMean ∧
    (context true a).crossoverSelectionStddev = a.crossoverSelectionStddev ∧
    (context true a).mutationVariableMean = a.mutationVariableMean ∧
    (context true a).mutationVariableStddev = a.mutationVariableStddev ∧
    (context true a).mutationValueMean = a.mutationValueMean ∧
    (context true a).mutationValueStddev = a.mutationValueStddev ∧
    (context true a).kappaImproveStart = a.kappaImproveStart ∧
    (context true a).kappaImproveIncrease = a.kappaImproveIncrease ∧
    (context true a).kappaImproveStop = a.kappaImproveStop := by
  simp only [Params.probabilities, List.mem_cons, List.not_mem_nil, or_false, forall_eq_or_imp,
    forall_eq] at hp
  obtain ⟨p1, p2, p3, p4, p5, p6, p7⟩ := hp
  have e := Params.C43_valid_parameters_are_stored {} (optimizeParams a)
    { timeLimit := h.timeLimit, theta := h.theta, delta := h.delta, kappa := h.kappa,
      alpha := h.alpha, pushingKFactor := h.pushingKFactor,
      pushingObjectiveAmplifier := h.pushingObjectiveAmplifier,
      initPolicyRandom := ⟨_, rfl, by norm_num, by norm_num⟩,
      crossoverBastertInsertion := p1, crossoverSelectionMean := p2,
      crossoverSelectionStddev := p3, mutationVariableMean := p4, mutationVariableStddev := p5,
      mutationValueMean := p6, mutationValueStddev := p7, kappaImprove := hk,
      kappaImproveIncrease := hi, w := Or.inr ⟨w, hw, h0⟩, limit := h.limit,
      printLevel := show (0 : Int) ≤ 0 by decide, pushesLimit := h.pushesLimit,
      pushingIterationLimit := h.pushingIterationLimit, initPopulationSize := show (5 : Int) ≤ 100 by decide } w hw
  rw [context_eq]
  simp only [if_true, e]
  exact ⟨⟨rfl, rfl, rfl, rfl, rfl, rfl, rfl, rfl, rfl, rfl, rfl, rfl, rfl, rfl,
    fun h1 h2 => toUnsigned_self h1 h2⟩, ⟨rfl, rfl, rfl, rfl, rfl, rfl, rfl⟩,
    rfl, rfl, rfl, rfl, rfl, rfl, rfl, rfl, rfl, rfl⟩

/-- C101: an argument that the solver cannot use gives the default value of the parameter. -/
theorem C101_invalid_arguments (opt : Bool) (a : Args) :
    (¬ Between 0 1 a.theta → (context opt a).theta = .fin (1 / 2)) ∧
    (¬ (a.delta = .fin (-1) ∨ NonNeg a.delta) → (context opt a).delta = .fin (-1)) ∧
    (¬ KappaRange a.kappaMin a.kappaStep a.kappaMax →
      (context opt a).kappaMin = .fin 0 ∧ (context opt a).kappaStep = .fin (1 / 1000) ∧
      (context opt a).kappaMax = .fin (3 / 5)) ∧
    (¬ NonNeg a.alpha → (context opt a).alpha = .fin 1) ∧
    ((∀ q, a.pushingKFactor ≠ .fin q) → (context opt a).pushingKFactor = .fin (9 / 10)) ∧
    ((∀ q, a.pushingObjectiveAmplifier ≠ .fin q) →
      (context opt a).pushingObjectiveAmplifier = .fin 5) ∧
    (a.limit ≤ 0 → (context opt a).limit = 9223372036854775807) ∧
    (a.pushesLimit < 0 → (context opt a).pushesLimit = 0) ∧
    (a.pushingIterationLimit < 0 → (context opt a).pushingIterationLimit = 0) := by
  cases opt
  · have h := Params.C43_invalid_values_are_ignored {} (solveParams a)
    exact ⟨h.1, h.2.1, h.2.2.1, h.2.2.2.1, h.2.2.2.2.1, h.2.2.2.2.2.1,
      h.2.2.2.2.2.2.2.2.2.1, h.2.2.2.2.2.2.2.2.2.2.1, h.2.2.2.2.2.2.2.2.2.2.2.1⟩
  · have h := Params.C43_invalid_values_are_ignored {} (optimizeParams a)
    exact ⟨h.1, h.2.1, h.2.2.1, h.2.2.2.1, h.2.2.2.2.1, h.2.2.2.2.2.1,
      h.2.2.2.2.2.2.2.2.2.1, h.2.2.2.2.2.2.2.2.2.2.1, h.2.2.2.2.2.2.2.2.2.2.2.1⟩

/-- C101 does not hold of the default storage: the documentation says that the default is to store
the best solution, but without the argument both functions store the best and the worst ones. -/
theorem C101_default_storage (opt : Bool) (a : Args) (h : a.storageType = ({} : Args).storageType) :
    Chosen storages [] "bound" a.storageType (context opt a).storage := by
  have h : a.storageType = 1 := h
  cases opt <;> simp [context_eq, solveParams, optimizeParams, Params.set, h, getStorage,
    storageValue] <;> exact ⟨1, rfl, rfl⟩

/-- C101 does not hold of the default seed: the automatic seed is 0, but without the argument every
run has the same one. -/
theorem C101_default_seed (opt : Bool) (a : Args) (h : a.seed = ({} : Args).seed) :
    (context opt a).seed = 4294967295 := by
  have h : a.seed = -1 := h
  cases opt <;> simp [context_eq, solveParams, optimizeParams, Params.set, h, toUnsigned]

/-- The hypotheses of C101 are met. -/
example : Stored { theta := .fin (1 / 4), w := .fin 7, seed := 12, norm := 9 } 7
    (context false { theta := .fin (1 / 4), w := .fin 7, seed := 12, norm := 9 }) :=
  (C101_solve_arguments _ ⟨Or.inr ⟨10, rfl, by norm_num⟩, ⟨_, rfl, by norm_num, by norm_num⟩,
    Or.inl rfl, ⟨_, _, _, rfl, rfl, rfl, by norm_num, by norm_num, by norm_num, by norm_num,
    by norm_num⟩, Or.inr ⟨1, rfl, by norm_num⟩, ⟨_, rfl⟩, ⟨_, rfl⟩, by decide, by decide, by decide⟩
    ⟨_, rfl, by norm_num, by norm_num⟩ 7 rfl (by norm_num)).1

example : Stored {} (1 / 20) (context true {}) ∧ (context true {}).w = .fin 50 := by
  have h := (C101_optimize_arguments {} ⟨Or.inr ⟨10, rfl, by norm_num⟩,
    ⟨_, rfl, by norm_num, by norm_num⟩,
    Or.inl rfl, ⟨_, _, _, rfl, rfl, rfl, by norm_num, by norm_num, by norm_num, by norm_num,
    by norm_num⟩, Or.inr ⟨1, rfl, by norm_num⟩, ⟨_, rfl⟩, ⟨_, rfl⟩, by decide, by decide, by decide⟩
    (by
      simp only [Params.probabilities, List.mem_cons, List.not_mem_nil, or_false, forall_eq_or_imp,
        forall_eq]
      refine ⟨?_, ?_, ?_, ?_, ?_, ?_, ?_⟩ <;> exact ⟨_, rfl, by norm_num, by norm_num⟩)
    ⟨_, _, rfl, rfl, by norm_num, by norm_num, by norm_num⟩ ⟨_, rfl, by norm_num, by norm_num⟩
    (1 / 20) rfl (by norm_num)).1
  refine ⟨h, h.w.trans ?_⟩
  norm_num

/-! ## C102: the list -/

/-- C102, part: what the list tells of a problem that is read.  R stops only if the run does, or
reports a success without any solution. -/
theorem C102_list_tells_the_run_partial (w : World) (opt : Bool) (path : String) (a : Args)
    (pb : RawProblem) (hread : w.read path = .ok (some pb)) :
    (∀ e, w.run (context opt a) opt pb = .error (.exn e) → ∃ l, call w opt path a = .ok l ∧
      l.errorFound = true ∧ l.solutionFound = false ∧ l.solutions = [] ∧
      (l.minimize = true ↔ pb.type = .minimize)) ∧
    (∀ r d, w.run (context opt a) opt pb = .ok (r, d) → r.solutions ≠ [] ∨ r.status ≠ .success →
      ∃ l, call w opt path a = .ok l ∧
        (l.solutionFound = true ↔ r.status = .success) ∧
        (l.errorFound = true ↔ r.status = .internalError) ∧
        (∀ s, r.status = .success → r.solutions.getLast? = some s → l.value = s.value) ∧
        l.solutions = r.solutions.map (fun s => s.value) ∧ l.duration = d ∧
        l.vars = r.variableCount ∧ l.constraints = r.constraintCount ∧
        l.remaining = r.remaining ∧ (l.minimize = true ↔ pb.type = .minimize)) ∧
    (∀ f, (∀ e, f ≠ .exn e) → w.run (context opt a) opt pb = .error f →
      call w opt path a = .error f) := by
  refine ⟨?_, ?_, ?_⟩
  · intro e he
    refine ⟨⟨false, true, 0, .fin 0, 0, 0, 2147483647, decide (pb.type = .minimize), []⟩, ?_, rfl,
      rfl, rfl, by simp⟩
    simp [call, hread, he, failed, convertResult]
  · intro r d hr hs
    have e : call w opt path a = convertResult r d (decide (pb.type = .minimize)) := by
      simp [call, hread, hr]
    rw [e]
    unfold convertResult
    cases hst : r.status with
    | success =>
      cases hl : r.solutions.getLast? with
      | none =>
        rw [List.getLast?_eq_none_iff] at hl
        rcases hs with hs | hs
        · exact absurd hl hs
        · exact absurd hst hs
      | some s => exact ⟨_, rfl, by simp, by simp, by simp, rfl, rfl, rfl, rfl, rfl, by simp⟩
    | _ => exact ⟨_, rfl, by simp, by simp, by simp, rfl, rfl, rfl, rfl, rfl, by simp⟩
  · intro f hf he
    unfold call
    rw [hread]
    dsimp only
    rw [show ((some pb).getD {} : RawProblem) = pb from rfl, he]
    cases f with
    | exn e => exact absurd rfl (hf e)
    | _ => rfl

/-- C102, the value, for a linear problem that has a solution: when the list of a call with the storage
`one`, or of `solve_01lp_problem`, says that a solution is found, its value is that of a solution of
the problem, and it is the only one of `solutions`. -/
theorem C102_value_of_a_solution_partial {ρ : Type} (w : World) (opt : Bool) (path : String)
    (a : Args) (scan : Parser.Token → Option Params.D) (fuel : Nat) (lp : List Char)
    (p : Parser.PProblem) (hp : Parser.makeProblem scan fuel lp = .ok p) (pb : RawProblem)
    (hraw : p.toRaw = some pb) (hq : pb.objective.qelems = []) (h0 : pb.names ≠ [])
    (hint : ∀ c ∈ pb.eqs ++ pb.ges ++ pb.les, ∀ x,
      -2147483648 ≤ lhs x c.elems ∧ lhs x c.elems ≤ 2147483647)
    (hF : ∃ x, IsSolution pb x) (hread : w.read path = .ok (some pb))
    (upd : Dispatch.Engine → Itm.Slv → ρ → Nat → Assign → Outcome Assign) (dw : Dispatch.World ρ)
    (hs : dw.sorts.Ok) (hch : Optimizer.ChoicesOk dw.choices) (hcl : Optimizer.Clean dw.choices)
    (t : Dispatch.Tuners) (r : Result) (d : D)
    (hrun : w.run (context opt a) opt pb = .ok (r, d))
    (hres : if opt then Dispatch.optimize (Dispatch.execute upd dw) t (some {}) pb = .ok r
      else Dispatch.solve (Dispatch.execute upd dw) (some {}) pb = .ok r)
    (l : Answer) (hl : call w opt path a = .ok l) (hf : l.solutionFound = true) :
    ∃ x, IsSolution pb x ∧ l.value = Spec.objective pb.objective x ∧ l.solutions = [l.value] ∧
      l.errorFound = false := by
  have wf := Parser.C37_well_formed_raw scan fuel lp p pb hp hraw
  have hok : r.status = .success := by
    have e : call w opt path a = convertResult r d (decide (pb.type = .minimize)) := by
      simp [call, hread, hrun]
    rw [e] at hl
    unfold convertResult at hl
    cases hst : r.status with
    | success => rfl
    | _ =>
      rw [hst] at hl
      have := Except.ok.inj hl
      subst this
      simp at hf
  obtain ⟨s, x, h1, h2, h3, h4, h5⟩ := Dispatch.C75_success_solves_the_raw_problem_partial upd dw hs
    hch hcl t {} rfl rfl pb wf h0 hint hF r (by
      split at hres
      · exact .inr hres
      · exact .inl hres) hok
  obtain ⟨l', g1, g2, g3, g4, g5, _⟩ := (C102_list_tells_the_run_partial w opt path a pb hread).2.1 r
    d hrun (Or.inl (by rw [h1]; simp))
  have e := Except.ok.inj (g1.symm.trans hl)
  subst e
  obtain ⟨s', hc⟩ := MainProgram.covers_of_valid wf.names_nodup h2
  have hss : s' = s := by
    have := hc.last
    rw [h1] at this
    exact (Option.some.inj this).symm
  subst hss
  have hv : l'.value = s'.value := g4 s' hok hc.last
  have h6 := Props.C02_compute_solution_exact pb r s' x wf h0 hc h4
  refine ⟨x, h5, ?_, ?_, ?_⟩
  · rw [hv]
    exact Except.ok.inj ((h3 hq).symm.trans h6)
  · rw [g5, h1, hv]; rfl
  · cases he : l'.errorFound with
    | false => rfl
    | true => rw [g3.1 he] at hok; cases hok

/-- The choices of a run. -/
def exDw : Dispatch.World Itm.Row :=
  { sorts := Merge.stdSorts, order := .memory, run := Itm.exRun
    choices := Optimizer.exChoices (Optimizer.exTurns.map fun c => Optimizer.exCall c.1 c.2)
    params := Itm.exParams }

/-- The three other optimizers, which are not used. -/
def exTuners : Dispatch.Tuners :=
  ⟨fun _ => .error .fuel, fun _ => .error .fuel, fun _ => .error .fuel⟩

/-- The file `x.lp` holds the problem of the example; the other files cannot be read. -/
def exR : World where
  read f := if f = "x.lp" then .ok (some MainProgram.exPb) else .ok none
  run _ opt pb :=
    (if opt then Dispatch.optimize (Dispatch.execute (fun _ => Itm.updateRow) exDw) exTuners (some {})
        pb
      else Dispatch.solve (Dispatch.execute (fun _ => Itm.updateRow) exDw) (some {}) pb).map
      fun r => (r, .fin (1 / 100))

def exL (opt : Bool) : Result :=
  { affected := { names := ["d", "f"], values := [0, 1] }, variableName := ["a", "b", "c", "e"]
    solutions := [⟨[0, 0, 1, if opt then 1 else 0], 7⟩], status := .success
    remaining := if opt then 0 else 2147483647, variableCount := 4, constraintCount := 2 }

theorem exR_runs (opt : Bool) : (if opt then
      Dispatch.optimize (Dispatch.execute (fun _ => Itm.updateRow) exDw) exTuners (some {})
        MainProgram.exPb
    else Dispatch.solve (Dispatch.execute (fun _ => Itm.updateRow) exDw) (some {})
      MainProgram.exPb) = .ok (exL opt) := by
  cases opt <;> decide +kernel

theorem exR_call (opt : Bool) (a : Args) : call exR opt "x.lp" a =
    .ok ⟨true, false, 7, .fin (1 / 100), 4, 2, if opt then 0 else 2147483647, false, [7]⟩ := by
  have h : exR.run (context opt a) opt MainProgram.exPb = .ok (exL opt, .fin (1 / 100)) := by
    show (if opt then _ else _ : Outcome Result).map _ = _
    rw [exR_runs]
    rfl
  unfold call
  rw [show exR.read "x.lp" = .ok (some MainProgram.exPb) from rfl]
  dsimp only
  rw [show ((some MainProgram.exPb).getD {} : RawProblem) = MainProgram.exPb from rfl, h]
  rfl

/-- The hypotheses of C102 are met, from the text of the problem to the list. -/
example (opt : Bool) (a : Args) : ∃ x, IsSolution MainProgram.exPb x ∧
    (7 : Rat) = Spec.objective MainProgram.exPb.objective x := by
  obtain ⟨p, hp, hraw⟩ : ∃ p, Parser.makeProblem Parser.scanf 200 MainProgram.exLp = .ok p ∧
      p.toRaw = some MainProgram.exPb := by
    have h := MainProgram.exLp_read
    cases hp : Parser.makeProblem Parser.scanf 200 MainProgram.exLp with
    | error e => rw [hp] at h; cases h
    | ok p => rw [hp] at h; exact ⟨p, rfl, h⟩
  obtain ⟨x, h1, h2, _⟩ := C102_value_of_a_solution_partial exR opt "x.lp" a Parser.scanf 200
    MainProgram.exLp p hp MainProgram.exPb hraw rfl (by decide) (Itm.ints_of_sums (by decide +kernel))
    ⟨_, MainProgram.exPb_solution⟩ rfl (fun _ => Itm.updateRow) exDw Merge.stdSorts_ok
    (Optimizer.exChoices_ok (by decide)) Optimizer.exTurns_clean exTuners (exL opt) (.fin (1 / 100))
    (by
      show (if opt then _ else _ : Outcome Result).map _ = _
      rw [exR_runs]
      rfl)
    (by
      have := exR_runs opt
      cases opt <;> simpa using this) _ (exR_call opt a) rfl
  exact ⟨x, h1, h2⟩

/-! ## C102: what does not hold -/

theorem prepared_nothing : Itm.prepared true {} = .ok { ptype := .equalities01 } := by decide +kernel

/-- C102 does not hold of a file that does not exist or that is not correct: whatever the solver does,
both functions say that a solution of value 0 is found, without error. -/
theorem C102_unreadable_file {ρ : Type} (w : World) (path : String) (a : Args)
    (hread : w.read path = .ok none)
    (upd : Dispatch.Engine → Itm.Slv → ρ → Nat → Assign → Outcome Assign) (dw : Dispatch.World ρ)
    (hs : dw.sorts.Ok) (t : Dispatch.Tuners) (d : D)
    (hrun : ∀ p opt pb, w.run p opt pb =
      (if opt then Dispatch.optimize (Dispatch.execute upd dw) t (some {}) pb
        else Dispatch.solve (Dispatch.execute upd dw) (some {}) pb).map fun r => (r, d))
    (opt : Bool) :
    call w opt path a = .ok ⟨true, false, 0, d, 0, 0, 2147483647, false, [0]⟩ := by
  have hb : dw.sorts.byId [] = [] := (hs.byId_perm []).eq_nil
  have hr : ∀ b, dw.sorts.byRatio b [] = [] := fun b => (hs.byRatio_perm b []).eq_nil
  have hu : Merge.makeUnsorted dw.sorts { ptype := .equalities01 } = .ok [] := by
    simp [Merge.makeUnsorted, Merge.fill, hb, bind, Except.bind]
  have hm : Merge.make dw.sorts dw.order { ptype := .equalities01 } = .ok [] := by
    unfold Merge.make
    cases dw.order <;>
      simp [hu, Merge.makeSpecial, Merge.makeOrdered, Merge.ops, Merge.fill, Merge.improveMemory,
        hb, hr, bind, Except.bind, List.foldlM]
  have h1 : Dispatch.optimize (Dispatch.execute upd dw) t (some {}) {} =
      .ok { status := .success, solutions := [⟨[], 0⟩] } := by
    unfold Dispatch.optimize
    dsimp only
    rw [prepared_nothing, ok_bind]
    simp [Dispatch.hasFlag, Dispatch.itm, Dispatch.choose, Dispatch.chooseBastert, Dispatch.execute,
      Optimizer.optimizeProblem, hm, bind, Except.bind]
  have h2 : Dispatch.solve (Dispatch.execute upd dw) (some {}) {} =
      .ok { status := .success, solutions := [⟨[], 0⟩] } := by
    unfold Dispatch.solve
    dsimp only
    rw [prepared_nothing, ok_bind]
    simp [Dispatch.itm, Dispatch.choose, Dispatch.chooseBastert, Dispatch.execute,
      Itm.solveProblem, Itm.solveMerged, hm, bind, Except.bind]
  unfold call
  rw [hread]
  dsimp only
  rw [show ((none : Option RawProblem).getD {}) = {} from rfl, hrun]
  cases opt
  · rw [if_neg (by decide), h2]; rfl
  · rw [if_pos rfl, h1]; rfl

/-- A file that does not exist. -/
example : call exR true "y.lp" {} =
    .ok ⟨true, false, 0, .fin (1 / 100), 0, 0, 2147483647, false, [0]⟩ :=
  C102_unreadable_file exR "y.lp" {} rfl (fun _ => Itm.updateRow) exDw Merge.stdSorts_ok exTuners _
    (fun _ _ _ => rfl) true

theorem solveProblem_remaining {ρ : Type} {kind : SolverType}
    {upd : Itm.Slv → ρ → Nat → Assign → Outcome Assign} {sorts : Merge.Sorts} {po : Merge.Order}
    {r : Itm.Run ρ} {p : Itm.Params} {pb : Problem} {res : Result}
    (h : Itm.solveProblem kind upd sorts po r p pb = .ok res) : res.remaining = 2147483647 := by
  obtain ⟨csts, _, h⟩ := bind_eq_ok.1 h
  obtain ⟨ret, h1, h⟩ := bind_eq_ok.1 h
  rw [← Except.ok.inj h]
  unfold Itm.solveMerged at h1
  split at h1
  · obtain ⟨_, _, h1⟩ := bind_eq_ok.1 h1
    obtain ⟨a, _, h1⟩ := bind_eq_ok.1 h1
    rw [← Except.ok.inj h1]
    rfl
  · rw [← Except.ok.inj h1]

/-- C102 does not hold of `remaining_constraints`, documented to be 0 when a solution is found and at
most the number of constraints otherwise: `solve_01lp_problem` always gives 2147483647. -/
theorem C102_remaining_constraints {ρ : Type} (w : World) (path : String) (a : Args)
    (pb : RawProblem) (hread : w.read path = .ok (some pb))
    (upd : Dispatch.Engine → Itm.Slv → ρ → Nat → Assign → Outcome Assign) (dw : Dispatch.World ρ)
    (d : D) (hrun : w.run (context false a) false pb =
      (Dispatch.solve (Dispatch.execute upd dw) (some {}) pb).map fun r => (r, d))
    (l : Answer) (hl : call w false path a = .ok l) : l.remaining = 2147483647 := by
  have hc : ∀ r q, convertResult r q (decide (pb.type = .minimize)) = .ok l →
      l.remaining = r.remaining := by
    intro r q h
    unfold convertResult at h
    split at h
    · split at h
      · cases h
      · rw [← Except.ok.inj h]
    · rw [← Except.ok.inj h]
    · rw [← Except.ok.inj h]
  unfold call at hl
  rw [hread] at hl
  dsimp only at hl
  rw [show ((some pb).getD {} : RawProblem) = pb from rfl, hrun] at hl
  cases e : Dispatch.solve (Dispatch.execute upd dw) (some {}) pb with
  | error f =>
    rw [e] at hl
    cases f with
    | exn _ => exact hc _ _ hl
    | _ => cases hl
  | ok r =>
    rw [e] at hl
    rw [hc _ _ hl]
    unfold Dispatch.solve at e
    obtain ⟨red, _, e⟩ := bind_eq_ok.1 e
    have e : Dispatch.execute upd dw (Dispatch.chooseBastert "" false red.ptype) red = .ok r := e
    have ho : (Dispatch.chooseBastert "" false red.ptype).optimization = false := by
      cases red.ptype <;> rfl
    unfold Dispatch.execute at e
    rw [ho, if_neg (by decide)] at e
    exact solveProblem_remaining e

/-- The storage of a context. -/
def storageOf (p : SolverParams) : Optimizer.StorageType :=
  if p.storage = 1 then .bound else if p.storage = 2 then .five else .one

/-- C102 does not hold of the value with the default storage: `optimize_01lp_problem` finds a solution
of value 7 but gives the value 13, which no solution of the problem has. -/
theorem C102_default_value_is_not_reached :
    ∃ ch : Optimizer.Choices Itm.Row, Optimizer.ChoicesOk ch ∧ Optimizer.Clean ch ∧
      ∀ (w : World) (path : String) (d : D), w.read path = .ok (some Preprocess.exRaw) →
        (∀ p pb, w.run p true pb = (Optimizer.optimize Itm.updateRow Merge.stdSorts .none true ch
          Itm.exParams (storageOf p) pb).map fun r => (r, d)) →
        call w true path {} = .ok ⟨true, false, 13, d, 4, 2, 0, false, [7, 13]⟩ ∧
        ∀ x, IsSolution Preprocess.exRaw x →
          Spec.objective Preprocess.exRaw.objective x ≠ 13 := by
  refine ⟨Optimizer.exChoices (Optimizer.exTurns.map fun c => Optimizer.exCall c.1 c.2),
    Optimizer.exChoices_ok (by decide), Optimizer.exTurns_clean, ?_⟩
  intro w path d hread hrun
  constructor
  · unfold call
    rw [hread]
    dsimp only
    rw [show ((some Preprocess.exRaw).getD {} : RawProblem) = Preprocess.exRaw from rfl, hrun,
      show storageOf (context true {}) = .bound by decide +kernel,
      show Optimizer.optimize Itm.updateRow Merge.stdSorts .none true
        (Optimizer.exChoices (Optimizer.exTurns.map fun c => Optimizer.exCall c.1 c.2))
        Itm.exParams .bound Preprocess.exRaw =
          .ok (Optimizer.exResult [⟨[0, 0, 1, 1], 7⟩, ⟨[1, 1, 0, 0], 13⟩]) by decide +kernel]
    rfl
  · intro x hx
    obtain ⟨⟨h1, _, h3⟩, h4⟩ := hx
    simp only [Preprocess.exRaw, List.mem_cons, List.not_mem_nil, or_false, forall_eq,
      forall_eq_or_imp] at h1 h3
    have h5 : x 5 = true := by
      have := h4 5 ⟨1, 1, .binary⟩ rfl rfl
      simpa using this
    simp only [Spec.objective, Preprocess.exRaw, List.map_cons, List.map_nil, List.sum_cons,
      List.sum_nil, lhs] at h1 h3 ⊢
    cases h0 : x 0 <;> cases h1' : x 1 <;> cases h2 : x 2 <;> cases h3' : x 3 <;>
      simp [h0, h1', h2, h3', h5] at h1 h3 ⊢ <;> norm_num

/-- C102 does not hold of `minimize` when reading throws: the list says that the problem is a
minimization. -/
theorem C102_minimize_of_a_failure (w : World) (opt : Bool) (path : String) (a : Args) (e : String)
    (hread : w.read path = .error (.exn e)) :
    ∃ l, call w opt path a = .ok l ∧ l.errorFound = true ∧ l.minimize = true := by
  refine ⟨⟨false, true, 0, .fin 0, 0, 0, 2147483647, true, []⟩, ?_, rfl, rfl⟩
  simp [call, hread, failed, convertResult]

/-- C102 does not hold of `variables` and `constraints`, documented to be the numbers of the problem:
they are those of the problem that the preprocessing leaves. -/
theorem C102_counts_are_reduced (opt : Bool) (a : Args) :
    ∃ l, call exR opt "x.lp" a = .ok l ∧ exR.read "x.lp" = .ok (some MainProgram.exPb) ∧
      MainProgram.exPb.values.length = 6 ∧ l.vars = 4 ∧
      (MainProgram.exPb.eqs ++ MainProgram.exPb.ges ++ MainProgram.exPb.les).length = 5 ∧
      l.constraints = 2 :=
  ⟨_, exR_call opt a, rfl, rfl, rfl, rfl, rfl⟩

end Bx.RInterface
