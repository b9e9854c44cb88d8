import Verif.Spec.Counts
import Verif.Props.Optimizer
import Verif.Props.Solve

/-!
# C112: the counts of a result
-/

namespace Bx.Merge

open Spec

/-- C112: there are as many merged constraints as left-hand sides, whatever the order. -/
theorem C112_one_merged_constraint_a_side (s : Sorts) (hs : s.Ok) (o : Order) (pb : Problem)
    (ms : List Merged) (h : make s o pb = .ok ms) :
    ms.length = (Counts.sides pb.eqs pb.ges pb.les).length := by
  rcases make_cases s hs o pb with ⟨f, _, h2⟩ | ⟨r, h1, ⟨ret, h2, h3⟩ | ⟨⟨w, h2⟩, _⟩⟩
  · exact absurd (h2.symm.trans h) (by simp)
  · have : ret = ms := Except.ok.inj (h2.symm.trans h)
    subst this
    rw [h3.len, ← List.length_map Merged.elems]
    obtain ⟨hn, _, _, h6⟩ := fills_inv pb _ _ _ h1
    refine List.Perm.length_eq ((List.perm_ext_iff_of_nodup (hn (by simp))
      (List.nodup_dedup _)).2 fun e => ?_)
    rw [List.mem_dedup, List.mem_map, List.mem_map]
    constructor
    · rintro ⟨m, hm, rfl⟩
      rcases h6 m hm with ⟨op, _, c, hc, he⟩ | ⟨m0, hm0, _⟩
      · refine ⟨c, ?_, he⟩
        simp only [List.mem_append]
        cases op
        · exact Or.inl (Or.inl hc)
        · exact Or.inl (Or.inr hc)
        · exact Or.inr hc
      · simp at hm0
    · rintro ⟨c, hc, rfl⟩
      have key : ∀ op, c ∈ cstsOf pb op → ∃ m ∈ r, m.elems = c.elems := fun op hc =>
        let ⟨m, hm, ht⟩ := fills_cover pb _ _ _ h1 op (mem_fillOrder o op) c hc
        ⟨m, hm, ht.1⟩
      simp only [List.mem_append] at hc
      rcases hc with (hc | hc) | hc
      · exact key .equal hc
      · exact key .greater hc
      · exact key .less hc
  · exact absurd (h2.symm.trans h) (by simp)

/-- Five constraints on three left-hand sides. -/
example : exMerged.length = (Counts.sides exPb.eqs exPb.ges exPb.les).length ∧
    (exPb.eqs ++ exPb.ges ++ exPb.les).length = 5 :=
  ⟨C112_one_merged_constraint_a_side stdSorts stdSorts_ok .memory exPb _ exPb_runs, by decide⟩

end Bx.Merge

namespace Bx.Optimizer

open Itm Merge SolverCtor Spec Spec.Optimizer Preprocess

variable {ρ : Type} {kind : SolverType} {upd : Slv → ρ → Nat → Assign → Outcome Assign}

theorem redCsts_length (st : Preprocess.St) (k : Kind) (cs : List Constr) :
    (redCsts st k cs).length ≤ cs.length := by
  unfold redCsts
  rw [List.length_map]
  exact Nat.le_trans (List.length_filter_le _ _) (by rw [List.length_zipIdx])

theorem sides_le (eqs ges les : List Constr) :
    (Counts.sides eqs ges les).length ≤ eqs.length + ges.length + les.length := by
  refine Nat.le_trans (List.dedup_sublist _).length_le ?_
  rw [List.length_map, List.length_append, List.length_append]

/-- What the counts have to be for a problem given to the solver. -/
theorem counts_of {preprocessing : Bool} {raw : RawProblem} (wf : WellFormedRaw raw) {pb : Problem}
    (h : prepared preprocessing raw = .ok pb) :
    pb.values.length = pb.names.length ∧
    pb.values.length + pb.affected.names.length = raw.names.length ∧
    (Counts.sides pb.eqs pb.ges pb.les).length ≤
      raw.eqs.length + raw.ges.length + raw.les.length ∧
    (preprocessing = false → pb.affected.names = [] ∧
      Counts.sides pb.eqs pb.ges pb.les = Counts.sides raw.eqs raw.ges raw.les) := by
  cases preprocessing with
  | true =>
    obtain ⟨q1, _, _, q4, _⟩ := C04_variables_partitioned raw wf pb h
    obtain ⟨st, V0, mo, _, _, _, _, hs⟩ := ok_cases wf h
    refine ⟨q4.symm, ?_, ?_, fun e => by cases e⟩
    · have := q1.length_eq
      rw [List.length_append] at this
      omega
    · refine Nat.le_trans (sides_le _ _ _) ?_
      rw [hs.eqs, hs.ges, hs.les]
      have h1 := redCsts_length st .eq (start raw).eqs
      have h2 := redCsts_length st .ge (start raw).ges
      have h3 := redCsts_length st .le (start raw).les
      have e1 : (start raw).eqs = raw.eqs := rfl
      have e2 : (start raw).ges = raw.ges := rfl
      have e3 : (start raw).les = raw.les := rfl
      rw [e1] at h1 ⊢
      rw [e2] at h2 ⊢
      rw [e3] at h3 ⊢
      omega
  | false =>
    obtain rfl := Except.ok.inj h
    exact ⟨wf.names_len.symm, wf.names_len.symm, sides_le _ _ _, fun _ => ⟨rfl, rfl⟩⟩

/-- C112, `solve`: the number of variables of a result is the number of its names, the affected
variables are the others, the number of constraints is not more than that of the problem.  Without
preprocessing it is the number of left-hand sides of the problem. -/
theorem C112_solve_counts (sorts : Sorts) (hso : sorts.Ok) (po : Order) (preprocessing : Bool)
    (r : Run ρ) (p : Params) (raw : RawProblem) (wf : WellFormedRaw raw) (res : Result)
    (h : Itm.solve upd sorts po preprocessing r p raw = .ok res) :
    res.variableCount = res.variableName.length ∧
    res.variableCount + res.affected.names.length = raw.names.length ∧
    res.constraintCount ≤ raw.eqs.length + raw.ges.length + raw.les.length ∧
    (preprocessing = false → res.variableCount = raw.names.length ∧
      res.constraintCount = (Counts.sides raw.eqs raw.ges raw.les).length) := by
  obtain ⟨pb, hp, h⟩ := bind_eq_ok.1 h
  obtain ⟨csts, hm, h⟩ := bind_eq_ok.1 h
  obtain ⟨ret, h1, h⟩ := bind_eq_ok.1 h
  rw [← Except.ok.inj h]
  obtain ⟨q1, q2, q3, q4⟩ := counts_of wf hp
  have hl := C112_one_merged_constraint_a_side sorts hso po pb csts hm
  refine ⟨q1, q2, by simpa only [hl] using q3, fun e => ?_⟩
  obtain ⟨q5, q6⟩ := q4 e
  rw [q5] at q2
  exact ⟨by simpa using q2, by rw [← q6]; exact hl⟩

/-- C112, part, `optimize` with one worker: the same, when the result has
constraints. -/
theorem C112_optimize_counts_partial (sorts : Sorts) (hso : sorts.Ok) (po : Order)
    (preprocessing : Bool) (ch : Choices ρ) (p : Params) (st : StorageType) (raw : RawProblem)
    (wf : WellFormedRaw raw) (res : Result)
    (h : optimize upd sorts po preprocessing ch p st raw = .ok res)
    (hc : res.constraintCount ≠ 0) :
    res.variableCount = res.variableName.length ∧
    res.variableCount + res.affected.names.length = raw.names.length ∧
    res.constraintCount ≤ raw.eqs.length + raw.ges.length + raw.les.length ∧
    (preprocessing = false → res.variableCount = raw.names.length ∧
      res.constraintCount = (Counts.sides raw.eqs raw.ges raw.les).length) := by
  obtain ⟨pb, hp, h⟩ := bind_eq_ok.1 h
  obtain ⟨csts, hm, h⟩ := bind_eq_ok.1 h
  obtain ⟨q1, q2, q3, q4⟩ := counts_of wf hp
  have hl := C112_one_merged_constraint_a_side sorts hso po pb csts hm
  split at h
  · rw [← Except.ok.inj h] at hc
    exact absurd rfl hc
  · obtain ⟨⟨r', w⟩, h1, h⟩ := bind_eq_ok.1 h
    obtain rfl := Except.ok.inj h
    obtain ⟨_, _, h1⟩ := bind_eq_ok.1 h1
    obtain ⟨_, _, h1⟩ := bind_eq_ok.1 h1
    obtain ⟨_, _, h1⟩ := bind_eq_ok.1 h1
    obtain ⟨_, _, h1⟩ := bind_eq_ok.1 h1
    obtain ⟨r'', hr, h1⟩ := bind_eq_ok.1 h1
    obtain ⟨rfl, -⟩ := Prod.mk.inj (Except.ok.inj h1)
    obtain ⟨_, _, _, e1, e2, _, _, _, e3, e4⟩ := report_spec hr
    rw [e1, e2, e3, e4]
    refine ⟨q1, q2, by rw [hl]; exact q3, fun e => ?_⟩
    obtain ⟨q5, q6⟩ := q4 e
    rw [q5] at q2
    exact ⟨by simpa using q2, by rw [← q6]; exact hl⟩

/-- C112 does not hold for `optimize` on a problem without constraint: the result has a name but
tells no variable, where `solve` tells one. -/
theorem C112_optimize_forgets_the_variables (ch : Choices ρ) (r : Run ρ) (p : Params)
    (po : Order) (st : StorageType) :
    WellFormedRaw exFree ∧
    (∃ res, optimize upd stdSorts po false ch p st exFree = .ok res ∧ res.status = .success ∧
      res.variableName = ["a"] ∧ res.variableCount = 0) ∧
    ∃ res, Itm.solve upd stdSorts po false r p exFree = .ok res ∧ res.status = .success ∧
      res.variableName = ["a"] ∧ res.variableCount = 1 := by
  refine ⟨?_, ⟨{ status := .success, variableName := ["a"], solutions := [⟨[], 0⟩] }, ?_, rfl, rfl,
    rfl⟩, ⟨{ status := .success, solutions := [⟨[], 0⟩], variableName := ["a"]
             variableCount := 1 }, ?_, rfl, rfl, rfl⟩⟩
  · refine ⟨⟨?_, ?_, ?_, ?_, ?_, ?_, ?_, ?_, ?_⟩, ?_, ?_⟩ <;> decide +kernel
  · cases po <;> rfl
  · cases po <;> rfl

/-- Six variables and their constraints: two variables are affected, two constraints are left. -/
example : (4 : Nat) = ["a", "b", "c", "e"].length ∧ 4 + ["d", "f"].length = exRaw.names.length ∧
    2 ≤ exRaw.eqs.length + exRaw.ges.length + exRaw.les.length :=
  let ⟨h1, h2, h3, _⟩ := C112_solve_counts stdSorts stdSorts_ok .none true exRun exParams
    Preprocess.exRaw Preprocess.exRaw_wf _ exRaw_solved
  ⟨h1, h2, h3⟩

example : (4 : Nat) + ["d", "f"].length = exRaw.names.length :=
  (C112_optimize_counts_partial stdSorts stdSorts_ok .none true _ exParams .one Preprocess.exRaw
    Preprocess.exRaw_wf _ exTurns_runs (by decide)).2.1

end Bx.Optimizer
