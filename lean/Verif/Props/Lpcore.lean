import Verif.Proofs.Lpcore

/-!
# C01, C02, C03: solution checking
-/

namespace Bx.Props

open Spec Lpcore

/-- The (name, value) pairs of a result: its affected variables and its last
solution. -/
def pairs (r : Result) (s : Solution) : List (String × Bool) :=
  (r.affected.names.zip (r.affected.values.map fun v => decide (v ≠ 0))) ++
  (r.variableName.zip (s.variables.map fun v => decide (v ≠ 0)))

/-- A successful result that names each variable of `pb` exactly once, with
last solution `s`. -/
structure Covers (pb : RawProblem) (r : Result) (s : Solution) : Prop where
  success : r.status = .success
  last : r.solutions.getLast? = some s
  affected_len : r.affected.names.length = r.affected.values.length
  vars_len : r.variableName.length = s.variables.length
  perm : (r.affected.names ++ r.variableName).Perm pb.names

/-- A result that covers the problem denotes exactly one assignment of its
variables, so that the `x` of the theorems below exists and is unique. -/
theorem covers_denotes (pb : RawProblem) (r : Result) (s : Solution)
    (wf : WellFormedRaw pb) (hc : Covers pb r s) :
    (∃ x, Names pb.names (pairs r s) x) ∧
    ∀ x y, Names pb.names (pairs r s) x → Names pb.names (pairs r s) y →
      ∀ i, i < pb.names.length → x i = y i := by
  have hk : (pairs r s).map Prod.fst = r.affected.names ++ r.variableName := by
    simp only [pairs, List.map_append]
    rw [List.map_fst_zip (by simp [hc.affected_len]), List.map_fst_zip (by simp [hc.vars_len])]
  have hnd : ((pairs r s).map Prod.fst).Nodup := by
    rw [hk]; exact hc.perm.nodup_iff.mpr wf.names_nodup
  constructor
  · refine ⟨fun i => ((pb.names[i]?).bind (fun n => (pairs r s).lookup n)).getD false, ?_⟩
    intro i n hn
    have hmem : n ∈ (pairs r s).map Prod.fst := by
      rw [hk]; exact hc.perm.mem_iff.mpr (List.mem_of_getElem? hn)
    obtain ⟨⟨n', b⟩, hp, rfl⟩ := List.mem_map.mp hmem
    simp only [hn, Option.bind_some, lookup_of_mem hnd hp, Option.getD_some]
    exact hp
  · intro x y hx hy i hi
    have h1 := hx i _ (List.getElem?_eq_getElem hi)
    have h2 := hy i _ (List.getElem?_eq_getElem hi)
    have e1 := lookup_of_mem hnd h1
    have e2 := lookup_of_mem hnd h2
    rw [e1] at e2
    exact Option.some.inj e2

/-- **C01.**  `is_valid_solution` answers, and answers `true` exactly when the
assignment named by the result satisfies every constraint. -/
theorem C01_is_valid_solution_exact (pb : RawProblem) (r : Result) (s : Solution)
    (x : Assign) (wf : WellFormedRaw pb) (h0 : pb.names ≠ []) (hc : Covers pb r s)
    (hx : Names pb.names (pairs r s) x) :
    ∃ b, isValidSolution pb r = .ok b ∧
      (b = true ↔ Satisfies pb.eqs pb.ges pb.les x) := by
  have hnd := hc.perm.nodup_iff.mpr wf.names_nodup
  have hlen := hc.perm.length_eq
  simp only [List.length_append] at hlen
  refine ⟨decide (Satisfies pb.eqs pb.ges pb.les x), ?_, by simp⟩
  have hmk := makeVariableValue_vec pb.names r s x hc.success hc.last hc.affected_len
    hc.vars_len hnd hx
  unfold isValidSolution
  simp only [hc.success, ne_eq, not_true_eq_false, if_false, hc.last, hmk, ok_bind,
    wf.names_len.symm, hc.vars_len.symm, beq_self_eq_true, check_true,
    show (pb.names.length == r.variableName.length + r.affected.names.length) = true by
      simp; omega]
  exact isValidSolutionImpl_vec pb x h0 wf

/-- C01, other cases: without success, or without any solution, the answer is
`false` whatever the problem. -/
theorem C01_no_solution (pb : RawProblem) (r : Result)
    (h : r.status ≠ .success ∨ r.solutions = []) :
    isValidSolution pb r = .ok false := by
  unfold isValidSolution
  by_cases hs : r.status = .success
  · rcases h with h | h
    · exact absurd hs h
    · simp [hs, h]
  · simp [hs]

/-- C01, limit: for a problem without any variable the check of a successful
result always stops the process (the precondition "not empty" fails). -/
theorem C01_no_variable_terminates (pb : RawProblem) (r : Result) (s : Solution)
    (h0 : pb.names = []) (hv : pb.values = []) (hc : Covers pb r s) :
    isValidSolution pb r = .error (.contract "!variable_value.empty()") := by
  have hp := hc.perm
  rw [h0, List.perm_nil, List.append_eq_nil_iff] at hp
  have e1 : s.variables.length = 0 := by rw [← hc.vars_len, hp.2]; rfl
  have e2 : r.affected.values.length = 0 := by rw [← hc.affected_len, hp.1]; rfl
  unfold isValidSolution makeVariableValue isValidSolutionImpl
  simp [hc.success, hc.last, h0, hv, hp.1, hp.2, e1, e2, readAll, check]

/-- **C02.**  `compute_solution` is the objective value of the assignment named
by the result. -/
theorem C02_compute_solution_exact (pb : RawProblem) (r : Result) (s : Solution)
    (x : Assign) (wf : WellFormedRaw pb) (h0 : pb.names ≠ []) (hc : Covers pb r s)
    (hx : Names pb.names (pairs r s) x) :
    computeSolution pb r = .ok (Spec.objective pb.objective x) := by
  have hnd := hc.perm.nodup_iff.mpr wf.names_nodup
  have hlen := hc.perm.length_eq
  simp only [List.length_append] at hlen
  have hmk := makeVariableValue_vec pb.names r s x hc.success hc.last hc.affected_len
    hc.vars_len hnd hx
  have hne : r.solutions.isEmpty = false := by
    cases h : r.solutions with
    | nil => exact absurd hc.last (by simp [h])
    | cons => rfl
  unfold computeSolution
  simp only [hc.success, hc.last, hmk, ok_bind, hne, Bool.not_false,
    wf.names_len.symm, hc.vars_len.symm, beq_self_eq_true, check_true, Bool.and_true,
    show (pb.names.length == r.affected.names.length + r.variableName.length) = true by
      simp; omega]
  exact computeSolutionImpl_vec pb x h0 wf

/-- **C03.**  Two results with the same pairs, up to order and up to where the
pair is stored (affected or solved), get the same answers. -/
theorem C03_order_independent (pb : RawProblem) (r r' : Result) (s s' : Solution)
    (wf : WellFormedRaw pb) (h0 : pb.names ≠ []) (hc : Covers pb r s)
    (hc' : Covers pb r' s') (hp : (pairs r s).Perm (pairs r' s')) :
    isValidSolution pb r = isValidSolution pb r' ∧
    computeSolution pb r = computeSolution pb r' := by
  obtain ⟨x, hx⟩ := (covers_denotes pb r s wf hc).1
  have hx' : Names pb.names (pairs r' s') x := fun i n h => hp.mem_iff.mp (hx i n h)
  constructor
  · obtain ⟨b, hb, hb'⟩ := C01_is_valid_solution_exact pb r s x wf h0 hc hx
    obtain ⟨c, hc2, hc2'⟩ := C01_is_valid_solution_exact pb r' s' x wf h0 hc' hx'
    rw [hb, hc2, Bool.eq_iff_iff.mpr (hb'.trans hc2'.symm)]
  · rw [C02_compute_solution_exact pb r s x wf h0 hc hx,
      C02_compute_solution_exact pb r' s' x wf h0 hc' hx']

section Examples

/-- max: x + 2 y + 3 x y + 1; x + y = 1; x - y >= 0; x <= 1. -/
def exPb : RawProblem where
  objective := { elems := [⟨1, 0⟩, ⟨2, 1⟩], qelems := [⟨3, 0, 1⟩], value := 1 }
  eqs := [{ elems := [⟨1, 0⟩, ⟨1, 1⟩], value := 1 }]
  ges := [{ elems := [⟨1, 0⟩, ⟨-1, 1⟩], value := 0 }]
  les := [{ elems := [⟨1, 0⟩], value := 1 }]
  names := ["x", "y"]
  values := [⟨0, 1, .binary⟩, ⟨0, 1, .binary⟩]

def exRes : Result where
  affected := { names := ["y"], values := [0] }
  variableName := ["x"]
  solutions := [⟨[0], 0⟩, ⟨[1], 2⟩]
  status := .success

theorem exPb_wf : WellFormedRaw exPb where
  wf := by constructor <;> decide
  names_len := by decide
  names_nodup := by decide

theorem exRes_covers : Covers exPb exRes ⟨[1], 2⟩ where
  success := rfl
  last := rfl
  affected_len := rfl
  vars_len := rfl
  perm := by decide

/-- The hypotheses of C01-C03 are met by a problem with the three kinds of
constraints, and the answer is `true`. -/
example : isValidSolution exPb exRes = .ok true ∧ computeSolution exPb exRes = .ok 2 := by
  decide +kernel

/-- A result that violates the equality is rejected. -/
example : isValidSolution exPb { exRes with affected := { names := ["y"], values := [1] } }
    = .ok false := by decide +kernel

end Examples

end Bx.Props
