import Verif.Props.Manual
import Verif.Props.Params
import Verif.Props.Reinit

/-!
# C113: the parameters tried by the manual mode
-/

namespace Bx.Manual

open Params (SolverParams D InRange Between NonNeg KappaRange)

/-- The parameters of a context where the manual mode stored its five values
(`manual-optimizer.cpp:131-136`). -/
def stored (p : SolverParams) (t : Tuning) : SolverParams :=
  { p with
    theta := .fin t.theta
    delta := .fin t.delta
    kappaMin := .fin t.kappaMin
    kappaStep := .fin t.kappaStep
    initPolicyRandom := .fin t.initPolicyRandom }

theorem theta_small (q : Rat) : thetaAt q 5 0 = q ∧ thetaAt q 5 1 = 1 / 5 ∧
    thetaAt q 5 2 = 2 / 5 ∧ thetaAt q 5 3 = 3 / 5 ∧ thetaAt q 5 4 = 4 / 5 := by
  refine ⟨rfl, ?_, ?_, ?_, ?_⟩ <;> simp [thetaAt] <;> norm_num

theorem other_small (f s i q : Rat) : otherAt f s i (thetaAt q 5) 0 = f ∧
    otherAt f s i (thetaAt q 5) 1 = s ∧ otherAt f s i (thetaAt q 5) 2 = 1 / 5 + i ∧
    otherAt f s i (thetaAt q 5) 3 = 2 / 5 + i ∧ otherAt f s i (thetaAt q 5) 4 = 3 / 5 + i := by
  obtain ⟨_, h1, h2, h3, _⟩ := theta_small q
  refine ⟨rfl, rfl, ?_, ?_, ?_⟩ <;> simp only [otherAt, h1, h2, h3]

theorem under_five {i : Nat} (h : i < 5) : i = 0 ∨ i = 1 ∨ i = 2 ∨ i = 3 ∨ i = 4 := by omega

theorem getD_lt {is : List Nat} (h : ∀ i ∈ is, i < 5) (k : Nat) : is.getD k 0 < 5 := by
  rw [List.getD_eq_getElem?_getD]
  cases hk : is[k]? with
  | none => simp
  | some i => exact h i (List.mem_of_getElem? hk)

/-- C113: the values of each parameter.  The first one is the value given; the second one is the one
written in the code; from the third one on, the four parameters other than `theta` take about the
values of `theta`. -/
theorem C113_values (t : Tuning) (is : List Nat) (his : is.length = 5 ∧ ∀ i ∈ is, i < 5) :
    (tuning t is).theta ∈ [t.theta, 1/5, 2/5, 3/5, 4/5] ∧
    (tuning t is).delta ∈ [t.delta, 2/100, 204/1000, 404/1000, 604/1000] ∧
    (tuning t is).kappaMin ∈ [t.kappaMin, 2/1000, 202/1000, 402/1000, 602/1000] ∧
    (tuning t is).kappaStep ∈ [t.kappaStep, 2/10^8, 1/5 + 4/10^9, 2/5 + 4/10^9, 3/5 + 4/10^9] ∧
    (tuning t is).initPolicyRandom ∈ [t.initPolicyRandom, 18/100, 38/100, 58/100, 78/100] := by
  have hv := getD_lt his.2
  refine ⟨?_, ?_, ?_, ?_, ?_⟩
  · obtain ⟨h0, h1, h2, h3, h4⟩ := theta_small t.theta
    simp only [tuning]
    rcases under_five (hv 0) with h | h | h | h | h <;> rw [h] <;>
      simp only [h0, h1, h2, h3, h4, List.mem_cons, true_or, or_true]
  · obtain ⟨h0, h1, h2, h3, h4⟩ :=
      other_small t.delta ((1/10) / 5) ((1/10) / (5 * 5)) t.theta
    simp only [tuning]
    rcases under_five (hv 1) with h | h | h | h | h <;> rw [h] <;>
      simp only [h0, h1, h2, h3, h4, List.mem_cons] <;> norm_num
  · obtain ⟨h0, h1, h2, h3, h4⟩ :=
      other_small t.kappaMin ((1/100) / 5) ((1/100) / 5) t.theta
    simp only [tuning]
    rcases under_five (hv 2) with h | h | h | h | h <;> rw [h] <;>
      simp only [h0, h1, h2, h3, h4, List.mem_cons] <;> norm_num
  · obtain ⟨h0, h1, h2, h3, h4⟩ :=
      other_small t.kappaStep ((1/10000000) / 5) ((1/10000000) / (5 * 5)) t.theta
    simp only [tuning]
    rcases under_five (hv 3) with h | h | h | h | h <;> rw [h] <;>
      simp only [h0, h1, h2, h3, h4, List.mem_cons] <;> norm_num
  · obtain ⟨h0, h1, h2, h3, h4⟩ :=
      other_small t.initPolicyRandom ((9/10) / 5) ((9/10) / 5) t.theta
    simp only [tuning]
    rcases under_five (hv 4) with h | h | h | h | h <;> rw [h] <;>
      simp only [h0, h1, h2, h3, h4, List.mem_cons] <;> norm_num

/-- C113, in part: when the parameters of the context are in range, a combination is in range
exactly when its `kappa_min` is below `kappa_max`. -/
theorem C113_in_range_partial (p : SolverParams) (t : Tuning) (hp : InRange (stored p t)) (m : Rat)
    (hm : p.kappaMax = .fin m) (is : List Nat) (his : is.length = 5 ∧ ∀ i ∈ is, i < 5) :
    InRange (stored p (tuning t is)) ↔ (tuning t is).kappaMin < m := by
  obtain ⟨v1, v2, v3, v4, v5⟩ := C113_values t is his
  obtain ⟨a, s, b, ea, es, eb, k1, k2, k3, k4, k5⟩ := hp.kappa
  simp only [stored, D.fin.injEq] at ea es
  have eb : p.kappaMax = .fin b := eb
  rw [hm, D.fin.injEq] at eb
  subst ea es eb
  obtain ⟨q, eq, q1, q2⟩ := hp.theta
  simp only [stored, D.fin.injEq] at eq
  subst eq
  obtain ⟨q, eq, r1, r2⟩ := hp.initPolicyRandom
  simp only [stored, D.fin.injEq] at eq
  subst eq
  constructor
  · intro h
    obtain ⟨a, s, b, ea, _, eb, _, h2, _⟩ := h.kappa
    simp only [stored, D.fin.injEq] at ea
    have eb : p.kappaMax = .fin b := eb
    rw [hm, D.fin.injEq] at eb
    rw [ea, eb]
    exact h2
  · intro h
    refine { hp with theta := ?_, delta := ?_, kappa := ?_, initPolicyRandom := ?_ }
    · refine ⟨_, rfl, ?_⟩
      simp only [List.mem_cons, List.not_mem_nil, or_false] at v1
      rcases v1 with e | e | e | e | e <;> rw [e] <;> constructor <;> first | assumption | norm_num
    · simp only [List.mem_cons, List.not_mem_nil, or_false] at v2
      have hd := hp.delta
      simp only [stored, NonNeg, D.fin.injEq] at hd ⊢
      rcases v2 with e | e | e | e | e
      · rw [e]; exact hd
      all_goals exact .inr (.inr ⟨_, rfl, by rw [e]; norm_num⟩)
    · refine ⟨_, _, m, rfl, rfl, hm, ?_, h, k3, ?_⟩
      · simp only [List.mem_cons, List.not_mem_nil, or_false] at v3
        rcases v3 with e | e | e | e | e <;> rw [e] <;> first | assumption | norm_num
      · simp only [List.mem_cons, List.not_mem_nil, or_false] at v4
        rcases v4 with e | e | e | e | e <;> rw [e] <;> constructor <;>
          first | assumption | norm_num
    · refine ⟨_, rfl, ?_⟩
      simp only [List.mem_cons, List.not_mem_nil, or_false] at v5
      rcases v5 with e | e | e | e | e <;> rw [e] <;> constructor <;> first | assumption | norm_num

/-- C113, in part: with `kappa_max` above 0.602, every combination is in range. -/
theorem C113_large_kappa_max_partial (p : SolverParams) (t : Tuning) (hp : InRange (stored p t))
    (m : Rat) (hm : p.kappaMax = .fin m) (h : 602 / 1000 < m) (is : List Nat)
    (his : is.length = 5 ∧ ∀ i ∈ is, i < 5) : InRange (stored p (tuning t is)) := by
  refine (C113_in_range_partial p t hp m hm is his).2 ?_
  obtain ⟨a, s, b, ea, es, eb, k1, k2, k3, k4, k5⟩ := hp.kappa
  simp only [stored, D.fin.injEq] at ea es
  have eb : p.kappaMax = .fin b := eb
  rw [hm, D.fin.injEq] at eb
  subst ea es eb
  have v3 := (C113_values t is his).2.2.1
  simp only [List.mem_cons, List.not_mem_nil, or_false] at v3
  rcases v3 with e | e | e | e | e <;> rw [e]
  · exact k2
  all_goals refine lt_of_le_of_lt ?_ h
  all_goals norm_num

/-- C113 does not hold: unless `kappa_max` is above 0.602, and its default value is 0.6, one
combination in five is out of range, and `context_set_solver_parameters` would ignore its
parameters kappa.  The combination that gives the result is one of them. -/
theorem C113_out_of_range (p : SolverParams) (t : Tuning) (m : Rat) (hm : p.kappaMax = .fin m)
    (h : m ≤ 602 / 1000) (is : List Nat) (h4 : is[2]? = some 4) :
    ¬ InRange (stored p (tuning t is)) ∧
    ∀ s, (Params.set s (stored p (tuning t is))).kappaMin = s.kappaMin ∧
      (Params.set s (stored p (tuning t is))).kappaStep = s.kappaStep ∧
      (Params.set s (stored p (tuning t is))).kappaMax = s.kappaMax := by
  have hk : (tuning t is).kappaMin = 602 / 1000 := by
    obtain ⟨_, _, _, _, h5⟩ := other_small t.kappaMin ((1/100) / 5) ((1/100) / 5) t.theta
    simp only [tuning, List.getD_eq_getElem?_getD, h4, Option.getD_some, h5]
    norm_num
  have hn : ¬ KappaRange (stored p (tuning t is)).kappaMin (stored p (tuning t is)).kappaStep
      (stored p (tuning t is)).kappaMax := by
    rintro ⟨a, s, b, ea, _, eb, _, h2, _⟩
    simp only [stored, D.fin.injEq] at ea
    have eb : p.kappaMax = .fin b := eb
    rw [hm, D.fin.injEq] at eb
    rw [← ea, ← eb, hk] at h2
    linarith
  exact ⟨fun hr => hn hr.kappa,
    fun s => (Params.C43_invalid_values_are_ignored s (stored p (tuning t is))).2.2.1 hn⟩

/-- C113 does not hold: unless `kappa_max` is at least 0.602, every turn of the run that gives the
result starts with kappa above `kappa_max`, when the end of the improvement and one increase make
less than 1.  A turn ends as soon as kappa is above `kappa_max`, and kappa never decreases. -/
theorem C113_last_run_above_kappa_max (p : SolverParams) (t : Tuning) (hp : InRange (stored p t))
    (m : Rat) (hm : p.kappaMax = .fin m) (h : m < 602 / 1000) {u : Optimizer.Tuning}
    (hu : Optimizer.Tuning.ofParams (stored p (tuning t [4, 4, 4, 4, 4])) = some u)
    (h1 : u.stop + u.increase < 1) {g : Optimizer.Setting} {n : Nat}
    {d : Nat → Optimizer.Draws} {fuel : Nat}
    {after : Nat → Optimizer.Worker → Optimizer.Worker} {w w' : Optimizer.Worker} {k : Nat}
    {l : List Optimizer.Start} {a : Rat}
    (ht : Optimizer.turns g u n d fuel after w k = .ok (l, a, w')) (s : Optimizer.Start)
    (hs : s ∈ l) : m < s.kappa := by
  have hk : (tuning t [4, 4, 4, 4, 4]).kappaMin = 602 / 1000 := by
    obtain ⟨_, _, _, _, h5⟩ := other_small t.kappaMin ((1/100) / 5) ((1/100) / 5) t.theta
    simp only [tuning, List.getD_cons_succ, List.getD_cons_zero, h5]
    norm_num
  obtain ⟨q1, e1, _⟩ := hp.crossoverBastertInsertion
  obtain ⟨q2, e2, _⟩ := hp.crossoverSelectionMean
  obtain ⟨q3, e3, _⟩ := hp.crossoverSelectionStddev
  obtain ⟨q4, e4, _⟩ := hp.mutationVariableMean
  obtain ⟨q5, e5, _⟩ := hp.mutationVariableStddev
  obtain ⟨q6, e6, _⟩ := hp.mutationValueMean
  obtain ⟨q7, e7, _⟩ := hp.mutationValueStddev
  obtain ⟨x, y, e8, e9, hx, _⟩ := hp.kappaImprove
  obtain ⟨z, e10, hz, _⟩ := hp.kappaImproveIncrease
  simp only [stored] at e1 e2 e3 e4 e5 e6 e7 e8 e9 e10
  unfold Optimizer.Tuning.ofParams at hu
  simp only [stored] at hu
  rw [e1, e2, e3, e4, e5, e6, e7, e8, e9, e10, hm, hk] at hu
  cases hu
  obtain ⟨i, hi⟩ := List.mem_iff_getElem?.1 hs
  rcases (Optimizer.turns_append ht hx hz i s hi).2 with ⟨am, _, hlt, e⟩ | e
  · rw [e]
    dsimp only at hlt h1 ⊢
    nlinarith
  · rw [e]
    exact h

/-! ### Cases that meet the hypotheses -/

/-- The default parameters, once stored in a context. -/
def exParams : SolverParams := Params.setAll [{}]

theorem exParams_inRange : InRange (stored exParams exTuning) := by
  have h : stored exParams exTuning = Params.setAll [{}] := by decide +kernel
  rw [h]
  exact Params.C43_stored_in_range_partial [{}] (by simp) (by simp [Params.NotNan])

/-- With the default parameters, 0.602 is over `kappa_max`: the last combination is not in range;
the first one is. -/
example : ¬ InRange (stored exParams (tuning exTuning [4, 4, 4, 4, 4])) ∧
    InRange (stored exParams (tuning exTuning [1, 2, 3, 4, 4])) :=
  ⟨(C113_out_of_range exParams exTuning (3/5) (by decide +kernel) (by norm_num) _ rfl).1,
    (C113_in_range_partial exParams exTuning exParams_inRange (3/5) (by decide +kernel) _
      ⟨rfl, by decide⟩).2 (by decide +kernel)⟩

/-- With `kappa_max` at 0.9, all are. -/
example : InRange (stored (Params.setAll [{ kappaMax := .fin (9/10) }])
    (tuning exTuning [4, 4, 4, 4, 4])) :=
  C113_large_kappa_max_partial _ _ (by
    have h : stored (Params.setAll [{ kappaMax := .fin (9/10) }]) exTuning =
        Params.setAll [{ kappaMax := .fin (9/10) }] := by decide +kernel
    rw [h]
    exact Params.C43_stored_in_range_partial _ (by simp) (by simp [Params.NotNan])) (9/10)
    (by decide +kernel) (by norm_num) _ ⟨rfl, by decide⟩

/-- The run that gives the result, with the default parameters: the end and one increase make 0.22. -/
example : (Optimizer.Tuning.ofParams (stored exParams (tuning exTuning [4, 4, 4, 4, 4]))).any
    (fun u => decide (u.stop + u.increase < 1)) = true := by decide +kernel

end Bx.Manual
