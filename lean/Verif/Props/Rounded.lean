import Verif.Proofs.Rounded
import Verif.Props.Lpcore
import Verif.Props.Preprocess

/-!
# C114: the value of a solution in floating point
-/

namespace Bx.Props

open Spec Rounded

theorem computeSolution_rounded {rnd : Rat → Rat} (hrnd : Rounding rnd) (pb : RawProblem) (r : Result)
    (s : Solution) (x : Assign) (wf : WellFormedRaw pb) (h0 : pb.names ≠ []) (hc : Covers pb r s)
    (hx : Names pb.names (pairs r s) x) (hs : Stored rnd pb.objective) :
    Rounded.computeSolution rnd pb r = .ok (rsum rnd pb.objective.value
      (active x pb.objective.elems ++ activeQ x pb.objective.qelems)) := by
  have hnd := hc.perm.nodup_iff.mpr wf.names_nodup
  have hlen := hc.perm.length_eq
  simp only [List.length_append] at hlen
  have hmk := Lpcore.makeVariableValue_vec pb.names r s x hc.success hc.last hc.affected_len
    hc.vars_len hnd hx
  have hne : r.solutions.isEmpty = false := by
    cases h : r.solutions with
    | nil => exact absurd hc.last (by simp [h])
    | cons => rfl
  unfold Rounded.computeSolution
  simp only [hc.success, hc.last, hmk, ok_bind, hne, Bool.not_false,
    wf.names_len.symm, hc.vars_len.symm, beq_self_eq_true, check_true, Bool.and_true,
    show (pb.names.length == r.affected.names.length + r.variableName.length) = true by
      simp; omega]
  exact Rounded.computeSolutionImpl_vec hrnd pb x h0 wf hs

/-- **C114 (partial).**  When the constant and the factors of the objective are multiples of a power
of 2 (integers for `e = 0`) and the sum of their absolute values is at most `2 ^ p` times it, the
operations on numbers of `p` binary digits lose nothing: `compute_solution` is the objective.
Missing: the other objectives, for which the claim is false (`C114_values_differ`). -/
theorem C114_compute_solution_partial (p : Nat) (hp : 0 < p) (e : Int) (pb : RawProblem) (r : Result)
    (s : Solution) (x : Assign) (wf : WellFormedRaw pb) (h0 : pb.names ≠ []) (hc : Covers pb r s)
    (hx : Names pb.names (pairs r s) x) (hg : OnGrid e pb.objective)
    (hs : size pb.objective ≤ 2 ^ p * 2 ^ e) :
    Rounded.computeSolution (binary p) pb r = .ok (objective pb.objective x) := by
  rw [computeSolution_rounded (binary_rounding hp) pb r s x wf h0 hc hx (hg.stored hp hs),
    hg.sum hp hs x (List.Perm.refl _)]

/-- C114 (partial): under the same conditions, the value that the search gives to a vector is the
objective of the problem it solves. -/
theorem C114_value_partial (p : Nat) (hp : 0 < p) (e : Int) (o : Objective) (x : Assign)
    (hg : OnGrid e o) (hs : size o ≤ 2 ^ p * 2 ^ e) :
    Rounded.results (binary p) o x = objective o x := by
  rw [results_eq, hg.sum hp hs x (List.Perm.refl _)]

/-- The value given by the search after the preprocessor, for a linear objective, adds the factors of
the variables at 1 in some order. -/
theorem reported_order {rnd : Rat → Rat} {pb : RawProblem} (wf : WellFormedRaw pb)
    (hq : pb.objective.qelems = []) (hv : rnd pb.objective.value = pb.objective.value)
    {red : Problem} (h : Rounded.preprocess rnd pb = .ok red) :
    ∃ red', Preprocess.preprocess pb = .ok red' ∧
      red = { red' with objective := red.objective } ∧
      red.objective.elems = red'.objective.elems ∧ red.objective.qelems = red'.objective.qelems ∧
      (∃ z : Assign,
        red.objective.value = rsum rnd pb.objective.value (active z pb.objective.elems) ∧
        red'.objective.value = pb.objective.value + (active z pb.objective.elems).sum) ∧
      ∀ x y, Names pb.names (pairsOf red y) x →
        ∃ l : List Rat, l.Perm (active x pb.objective.elems) ∧
          Rounded.results rnd red.objective y = rsum rnd pb.objective.value l := by
  have hc := Preprocess.ctx_of_wf (pb := Preprocess.start pb) wf.wf
    (Feas := fun x => (∀ k, ∀ c ∈ Preprocess.csts (Preprocess.start pb) k, Preprocess.satK k c x) ∧
        RespectsFixed (Preprocess.start pb).values x) (fun x hx => hx.1)
  have hlt : ∀ e ∈ (Preprocess.start pb).objective.elems, e.var < (Preprocess.start pb).values.length :=
    wf.wf.obj_lt
  -- the states of the preprocessor
  unfold Rounded.preprocess at h
  dsimp only at h
  split at h
  · exact absurd h (by simp)
  rename_i hrange
  obtain ⟨s1, e1, h⟩ := bind_eq_ok.mp h
  obtain ⟨s2, e2, h⟩ := bind_eq_ok.mp h
  unfold Rounded.finish at h
  dsimp only at h
  obtain ⟨s3, e3, h⟩ := bind_eq_ok.mp h
  rw [Rounded.bqpObjective_linear rnd _ _ hq, Rounded.makeProblem_eq rnd (Preprocess.start pb) _ hq hlt] at h
  cases hm : Preprocess.makeProblem (Preprocess.start pb) s3 {} with
  | error e => rw [hm] at h; exact absurd h (by simp [Except.map])
  | ok red' =>
    rw [hm] at h
    have h : _ = red := Except.ok.inj h
    have hrun : Preprocess.preprocess pb = .ok red' := by
      unfold Preprocess.preprocess Preprocess.run
      dsimp only
      rw [if_neg hrange, e1, ok_bind, e2, ok_bind]
      unfold Preprocess.finish
      dsimp only
      rw [Preprocess.bqpObjective_linear _ _ hq, e3]
      exact hm
    rcases Preprocess.run_states (Preprocess.start pb) hc with ⟨hb, _⟩ | ⟨st, V0, mo, h1, _, _, _, _,
      s1', s2', _, e1', e2', rfl, e3'⟩
    · exact absurd (hb.symm.trans hrun) (by simp)
    obtain rfl := Except.ok.inj (e1.symm.trans e1')
    obtain rfl := Except.ok.inj (e2.symm.trans e2')
    obtain rfl := Except.ok.inj (e3.symm.trans e3')
    have hs := Preprocess.makeProblem_shape hc.lt wf.names_len h1.nodup h1.lt hm
    have ho := hs.obj
    rw [Preprocess.objCopy_linear (Preprocess.start pb) _ _ hq hlt] at ho
    have ho := Except.ok.inj ho
    subst h
    refine ⟨red', hrun, rfl, ?_, ?_, ?_, ?_⟩
    · rw [← ho]; rfl
    · rw [← ho]; rfl
    · refine ⟨fun i => decide ((Preprocess.removeUnused (Preprocess.start pb) s2).vars.lookup i =
        some true), ?_, ?_⟩
      · show rsum rnd (rnd pb.objective.value) _ = _
        rw [hv]
        rfl
      · rw [← ho, active_sum]
        simp only [decide_eq_true_eq]
        rfl
    · intro x y hx
      have hrel := hs.rel_of_names wf.names_len wf.names_nodup rfl (by simp [ProblemType.ofRaw]) hx
      refine ⟨_, active_perm hrel wf.wf.obj_lt, ?_⟩
      rw [results_eq]
      show rsum rnd (rsum rnd (rnd pb.objective.value) _) (_ ++ activeQ y []) = _
      rw [hv, show activeQ y [] = [] from rfl, List.append_nil, rsum_append]
      rfl

/-- **C114 (partial).**  Under the same conditions, for a linear objective, the preprocessor makes the
same problem as without rounding, the value that the search gives to its vector is the objective of
the completed vector, and `compute_solution` gives the same value back. -/
theorem C114_reported_value_partial (p : Nat) (hp : 0 < p) (e : Int) (pb : RawProblem)
    (wf : WellFormedRaw pb) (hq : pb.objective.qelems = []) (hg : OnGrid e pb.objective)
    (hs : size pb.objective ≤ 2 ^ p * 2 ^ e) (red : Problem)
    (h : Rounded.preprocess (binary p) pb = .ok red) :
    Preprocess.preprocess pb = .ok red ∧
    ∀ x y, Names pb.names (pairsOf red y) x →
      Rounded.results (binary p) red.objective y = objective pb.objective x := by
  obtain ⟨red', h1, h2, h3, h4, ⟨z, hz1, hz2⟩, h5⟩ :=
    reported_order wf hq (hg.stored hp hs).value h
  refine ⟨?_, ?_⟩
  · rw [h1, h2]
    have hz : red.objective.value = red'.objective.value := by
      rw [hz1, hz2, hg.sum hp hs z (by rw [hq]; simp [activeQ]), active_sum]
      unfold objective
      simp [hq]
    have ho : red.objective = red'.objective := by
      generalize red.objective = a at *
      generalize red'.objective = b at *
      cases a
      cases b
      simp_all
    rw [ho]
  · intro x y hx
    obtain ⟨l, hl, he⟩ := h5 x y hx
    rw [he, hg.sum hp hs x]
    rw [hq]
    simpa [activeQ] using hl

/-- C114: without the preprocessor, the search and `compute_solution` add in the same order: the values
are equal for every rounding. -/
theorem C114_same_order {rnd : Rat → Rat} (hrnd : Rounding rnd) (pb : RawProblem) (r : Result)
    (s : Solution) (x : Assign) (wf : WellFormedRaw pb) (h0 : pb.names ≠ []) (hc : Covers pb r s)
    (hx : Names pb.names (pairs r s) x) (hs : Stored rnd pb.objective) :
    Rounded.computeSolution rnd pb r =
      .ok (Rounded.results rnd (Preprocess.unpreprocess pb).objective x) := by
  rw [computeSolution_rounded hrnd pb r s x wf h0 hc hx hs, results_eq]
  rfl

/-- C114: in every case, for a linear objective of `n` elements, the value of the search after the
preprocessor and the value of `compute_solution` are near the objective: the relative error, on the
sum of the absolute values, is at most `(1 + 1/2^p)^n - 1`. -/
theorem C114_values_are_close (p : Nat) (hp : 0 < p) (pb : RawProblem) (wf : WellFormedRaw pb)
    (hq : pb.objective.qelems = []) (hst : Stored (binary p) pb.objective) (red : Problem)
    (h : Rounded.preprocess (binary p) pb = .ok red) (x y : Assign)
    (hx : Names pb.names (pairsOf red y) x) :
    |Rounded.results (binary p) red.objective y - objective pb.objective x| ≤
      ((1 + 1 / 2 ^ p) ^ pb.objective.elems.length - 1) * size pb.objective ∧
    ∀ (r : Result) (s : Solution), pb.names ≠ [] → Covers pb r s → Names pb.names (pairs r s) x →
      ∃ v, Rounded.computeSolution (binary p) pb r = .ok v ∧
        |v - objective pb.objective x| ≤
          ((1 + 1 / 2 ^ p) ^ pb.objective.elems.length - 1) * size pb.objective := by
  obtain ⟨red', h1, h2, h3, h4, -, h5⟩ := reported_order wf hq hst.value h
  have key : ∀ l : List Rat, l.Perm (active x pb.objective.elems) →
      |rsum (binary p) pb.objective.value l - objective pb.objective x| ≤
        ((1 + 1 / 2 ^ p) ^ pb.objective.elems.length - 1) * size pb.objective := by
    intro l hl
    have he := rsum_error (rnd := binary p) (u := 1 / 2 ^ p) (by positivity)
      (binary_error_abs p) l pb.objective.value
    have hob : pb.objective.value + l.sum = objective pb.objective x := by
      rw [hl.sum_eq, active_sum]
      unfold objective
      simp [hq]
    rw [hob] at he
    refine le_trans he (mul_le_mul ?_ ?_ ?_ ?_)
    · refine sub_le_sub_right (pow_le_pow_right₀ ?_ ?_) _
      · have : (0 : Rat) ≤ 1 / 2 ^ p := by positivity
        linarith
      · rw [hl.length_eq]
        unfold active
        rw [List.length_map]
        exact List.length_filter_le _ _
    · unfold size
      rw [hq, (hl.map _).sum_eq]
      simpa using active_bound x _
    · exact add_nonneg (abs_nonneg _) (List.sum_nonneg (by
        intro a ha
        obtain ⟨b, _, rfl⟩ := List.mem_map.mp ha
        exact abs_nonneg b))
    · have : (1 : Rat) ≤ (1 + 1 / 2 ^ p) ^ pb.objective.elems.length := one_le_pow₀ (by
        have : (0 : Rat) ≤ 1 / 2 ^ p := by positivity
        linarith)
      linarith
  refine ⟨?_, ?_⟩
  · obtain ⟨l, hl, he⟩ := h5 x y hx
    rw [he]
    exact key l hl
  · intro r s h0 hc hr
    refine ⟨_, computeSolution_rounded (binary_rounding hp) pb r s x wf h0 hc hr hst, ?_⟩
    rw [hq]
    simpa [activeQ] using key _ (List.Perm.refl _)

/-! ## Refutations -/

/-- min 0.2 a + 0.3 b + 0.1 c  with  a + b + d = 2  and  c = 1; the decimal numbers are the nearest
numbers of type `double`. -/
def exDecimal : RawProblem where
  type := .minimize
  objective := { elems := [⟨binary 53 (2 / 10), 0⟩, ⟨binary 53 (3 / 10), 1⟩,
    ⟨binary 53 (1 / 10), 2⟩] }
  eqs := [{ label := "c1", elems := [⟨1, 0⟩, ⟨1, 1⟩, ⟨1, 3⟩], value := 2 }]
  ges := []
  les := []
  names := ["a", "b", "c", "d"]
  values := [⟨0, 1, .binary⟩, ⟨0, 1, .binary⟩, ⟨1, 1, .binary⟩, ⟨0, 1, .binary⟩]

/-- A result for `exDecimal`: a = b = 1, d = 0, and c = 1 from the preprocessor. -/
def exDecimalResult : Result where
  status := .success
  solutions := [⟨[1, 1, 0], 0⟩]
  variableName := ["a", "b", "d"]
  affected := ⟨["c"], [1]⟩

theorem exDecimal_wf : WellFormedRaw exDecimal where
  wf := by constructor <;> decide
  names_len := rfl
  names_nodup := by decide

theorem exDecimal_covers : Covers exDecimal exDecimalResult ⟨[1, 1, 0], 0⟩ where
  success := rfl
  last := rfl
  affected_len := rfl
  vars_len := rfl
  perm := by decide

theorem exDecimal_stored : Stored (binary 53) exDecimal.objective := by
  constructor <;> decide +kernel

/-- Refutation: with numbers of type `double`, the search gives to the solution a = b = c = 1, d = 0 of
`exDecimal` the value 0.1 + 0.2 + 0.3, since c is fixed by the preprocessor, and `compute_solution`
gives 0.2 + 0.3 + 0.1: the two differ. -/
theorem C114_values_differ : ∃ red, Rounded.preprocess (binary 53) exDecimal = .ok red ∧
    red.names = exDecimalResult.variableName ∧ red.affected = exDecimalResult.affected ∧
    Rounded.results (binary 53) red.objective (fun i => decide (i < 2)) =
      0x13333333333334 / 2 ^ 53 ∧
    Rounded.computeSolution (binary 53) exDecimal exDecimalResult = .ok (0x13333333333333 / 2 ^ 53) := by
  refine ⟨⟨.minimize,
    ⟨[⟨binary 53 (2 / 10), 0⟩, ⟨binary 53 (3 / 10), 1⟩], [], binary 53 (1 / 10)⟩, [{ label := "c1", elems := [⟨1, 0⟩, ⟨1, 1⟩, ⟨1, 2⟩], value := 2 }], [],
    [], ["a", "b", "d"], [⟨0, 1, .binary⟩, ⟨0, 1, .binary⟩, ⟨0, 1, .binary⟩], ⟨["c"], [1]⟩,
    .equalities01⟩, ?_, ?_, ?_, ?_, ?_⟩ <;> decide +kernel

/-- Refutation: the order of the values in floating point is not the order of the objective.  In
`2^53 + a + b + 1.5 c`, a = b = 1 is better than c = 1 when the objective is maximized, and its value in
`double` is smaller. -/
theorem C114_order_is_lost :
    let o : Objective := { elems := [⟨1, 0⟩, ⟨1, 1⟩, ⟨3 / 2, 2⟩], value := 2 ^ 53 }
    Stored (binary 53) o ∧
    objective o (fun i => decide (i = 2)) < objective o (fun i => decide (i < 2)) ∧
    Rounded.results (binary 53) o (fun i => decide (i < 2)) <
      Rounded.results (binary 53) o (fun i => decide (i = 2)) := by
  refine ⟨by constructor <;> decide +kernel, by decide +kernel, by decide +kernel⟩

/-! ## Examples -/

example : OnGrid 0 Preprocess.exRaw.objective := by
  refine ⟨⟨7, by norm_num [Preprocess.exRaw]⟩, ?_, by simp [Preprocess.exRaw]⟩
  intro f hf
  simp only [Preprocess.exRaw, List.mem_cons, List.not_mem_nil, or_false] at hf
  rcases hf with rfl | rfl | rfl | rfl | rfl
  · exact ⟨3, by norm_num⟩
  · exact ⟨2, by norm_num⟩
  · exact ⟨-1, by norm_num⟩
  · exact ⟨4, by norm_num⟩
  · exact ⟨1, by norm_num⟩

example : size Preprocess.exRaw.objective ≤ 2 ^ 53 * 2 ^ (0 : Int) := by decide +kernel

example : (Rounded.preprocess (binary 53) Preprocess.exRaw).isOk = true := by decide +kernel

example : (Rounded.preprocess (binary 53) exDecimal).isOk = true := by decide +kernel

example : ∃ x, Names exDecimal.names (pairs exDecimalResult ⟨[1, 1, 0], 0⟩) x :=
  (covers_denotes _ _ _ exDecimal_wf exDecimal_covers).1

end Bx.Props
