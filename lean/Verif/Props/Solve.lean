import Verif.Proofs.Solve
import Verif.Props.Lpcore
import Verif.Props.Preprocess

/-!
# C28-C32, C62, C63: the solving loop

`ρ` and `upd` are the row update of any solver; a `Run` holds the initial vector,
the permutations, the comparisons of kappa and the clock.  `a.final.trace` is the
list of the vectors at the end of each pass.
-/

namespace Bx.Itm

open Merge SolverCtor Spec

variable {ρ : Type} {kind : SolverType} {upd : Slv → ρ → Nat → Assign → Outcome Assign}

private theorem statusOf_success (e : Exit) (rem : Option Nat) :
    statusOf e rem = .success ↔ rem = some 0 := by
  unfold statusOf
  by_cases h : rem = some 0
  · simp [h]
  · simp only [h, if_false, iff_false]
    cases e <;> simp

/-! ## C29 -/

/-- C29: the solver succeeds exactly when some pass ended on an assignment that
respects every constraint; the solution is then one of these assignments, its
value is its objective, and no other of them is better. -/
theorem C29_best_of_the_run (r : Run ρ) (p : Params) (t : ObjType) (o : Objective)
    (csts : List Merged) (n : Nat) (a : Answer)
    (h : functor kind upd r p t o csts n = .ok a) :
    (a.status = .success ↔ ∃ y ∈ a.final.trace, Within y csts) ∧
    (a.status = .success → ∃ x ∈ a.final.trace, Within x csts ∧
      a.solution = some ((List.range n).map x, some (objective o x)) ∧
      ∀ y ∈ a.final.trace, Within y csts → AtLeastAsGood t (objective o x) (objective o y)) := by
  obtain ⟨h1, _, _, _, _, h6, h7, h8, _⟩ := functor_spec h
  have key : a.status = .success ↔ a.final.best.remaining = some 0 := by
    rw [h7]; exact statusOf_success _ _
  constructor
  · rw [key]
    constructor
    · intro hz
      obtain ⟨x, _, g2, g3, _⟩ := h1.best hz
      exact ⟨x, g2, g3⟩
    · rintro ⟨y, hy, hw⟩
      by_contra hn
      exact (h1.nothing hn).1 y hy hw
  · intro hs
    obtain ⟨x, g1, g2, g3, g4, g5⟩ := h1.best (key.mp hs)
    simp only [results_eq] at g4 g5
    exact ⟨x, g2, g3, by rw [h8, g1, g4]; rfl, g5⟩

/-! ## C28 -/

/-- The shape of a successful result: the names of the problem, and one solution that respects the
merged constraints, with its value, or an empty solution when there is no constraint or no
variable. -/
def Shape (sorts : Sorts) (po : Order) (pb : Problem) (res : Result) : Prop :=
  res.variableName = pb.names ∧ res.affected = pb.affected ∧
  ∃ csts, Merge.make sorts po pb = .ok csts ∧
  ((csts ≠ [] ∧ pb.values ≠ [] ∧ ∃ x, Within x csts ∧
      res.solutions = [⟨(List.range pb.values.length).map fun i => if x i then 1 else 0,
        objective pb.objective x⟩]) ∨
   ((csts = [] ∨ pb.values = []) ∧ res.solutions = [⟨[], pb.objective.value⟩]))

/-- What a successful result of `solve_problem` holds. -/
theorem solveProblem_success {sorts : Sorts} {po : Order} {r : Run ρ} {p : Params} {pb : Problem}
    {res : Result} (h : solveProblem kind upd sorts po r p pb = .ok res)
    (hok : res.status = .success) : Shape sorts po pb res := by
  unfold solveProblem at h
  obtain ⟨csts, hm, h⟩ := bind_eq_ok.mp h
  obtain ⟨ret, hret, h⟩ := bind_eq_ok.mp h
  have h := Except.ok.inj h
  subst h
  refine ⟨rfl, rfl, csts, hm, ?_⟩
  unfold solveMerged at hret
  by_cases hc : csts ≠ [] ∧ pb.values ≠ []
  · rw [if_pos hc] at hret
    obtain ⟨_, _, hret⟩ := bind_eq_ok.mp hret
    obtain ⟨a, ha, hret⟩ := bind_eq_ok.mp hret
    have hret := Except.ok.inj hret
    subst hret
    obtain ⟨x, _, hw, hsol, _⟩ := (C29_best_of_the_run r p _ _ csts _ a ha).2 hok
    refine Or.inl ⟨hc.1, hc.2, x, hw, ?_⟩
    simp only [toResult, hsol, List.map_map, Option.getD_some]
    rfl
  · rw [if_neg hc] at hret
    have hret := Except.ok.inj hret
    subst hret
    refine Or.inr ⟨?_, rfl⟩
    by_cases h1 : csts = []
    · exact Or.inl h1
    · exact Or.inr (by by_contra h2; exact hc ⟨h1, h2⟩)

private theorem csts_ne_nil {sorts : Sorts} (hs : sorts.Ok) {po : Order} {pb : Problem}
    {csts : List Merged} (hm : Merge.make sorts po pb = .ok csts) (hc : csts = []) :
    pb.eqs = [] ∧ pb.ges = [] ∧ pb.les = [] := by
  obtain ⟨h1, h2, h3⟩ := C14_no_constraint_lost sorts hs po pb csts hm
  subst hc
  refine ⟨?_, ?_, ?_⟩ <;> rw [List.eq_nil_iff_forall_not_mem] <;> intro c hc
  · simpa using h1 c hc
  · simpa using h2 c hc
  · simpa using h3 c hc

/-- A result of this shape for a problem with a variable and a constraint. -/
theorem Shape.feasible {sorts : Sorts} (hs : sorts.Ok) {po : Order} {pb : Problem}
    (hi : IntSums pb) (hv : pb.values ≠ []) (hc : pb.eqs ++ pb.ges ++ pb.les ≠ []) {res : Result}
    (h : Shape sorts po pb res) :
    ∃ x : Assign, Satisfies pb.eqs pb.ges pb.les x ∧
      res.solutions = [⟨(List.range pb.values.length).map fun i => if x i then 1 else 0,
        objective pb.objective x⟩] := by
  obtain ⟨_, _, csts, hm, ⟨_, _, x, hw, hsol⟩ | ⟨hn, _⟩⟩ := h
  · exact ⟨x, (C13_merge_preserves_solutions sorts hs po pb hi csts hm x).mp hw, hsol⟩
  · rcases hn with hn | hn
    · obtain ⟨h1, h2, h3⟩ := csts_ne_nil hs hm hn
      rw [h1, h2, h3] at hc
      exact absurd rfl hc
    · exact absurd hn hv

/-- C28: when the solver reports success for a problem with at least a variable
and a constraint, there is exactly one solution; it gives 0 or 1 to each
variable, it satisfies every constraint of the problem, and its value is its
objective. -/
theorem C28_success_is_feasible (sorts : Sorts) (hs : sorts.Ok) (po : Order) (r : Run ρ)
    (p : Params) (pb : Problem) (hi : IntSums pb) (hv : pb.values ≠ [])
    (hc : pb.eqs ++ pb.ges ++ pb.les ≠ []) (res : Result)
    (h : solveProblem kind upd sorts po r p pb = .ok res) (hok : res.status = .success) :
    ∃ x : Assign, Satisfies pb.eqs pb.ges pb.les x ∧
      res.solutions = [⟨(List.range pb.values.length).map fun i => if x i then 1 else 0,
        objective pb.objective x⟩] :=
  (solveProblem_success h hok).feasible hs hi hv hc

/-! ## C30 -/

/-- C30: the main loop makes at most `limit` passes, exactly `limit` when nothing
else stops it, and the push phase at most `pushes_limit * (1 +
pushing_iteration_limit)`; without a solution there is no push phase. -/
theorem C30_passes_are_bounded (r : Run ρ) (p : Params) (t : ObjType) (o : Objective)
    (csts : List Merged) (n : Nat) (a : Answer)
    (h : functor kind upd r p t o csts n = .ok a) :
    a.mainPasses ≤ p.limit ∧ (a.exit = .limit → a.mainPasses = p.limit) ∧
    a.final.trace.length ≤ a.mainPasses + p.pushes * (1 + p.pushIter) ∧
    (a.status ≠ .success → a.final.trace.length = a.mainPasses) := by
  obtain ⟨h1, h2, h3, h4, h5, h6, h7, _⟩ := functor_spec h
  refine ⟨h2, h3, by rw [h1.len]; exact h4, fun hs => ?_⟩
  rw [h1.len]
  refine h5 fun he => hs ?_
  rw [h7]
  exact (statusOf_success _ _).mpr (h6.mp he)

/-! ## C31 -/

/-- C31, part: the status is `success` exactly when the main loop found a
solution, and `limit_reached` otherwise. -/
theorem C31_status_partial (r : Run ρ) (p : Params) (t : ObjType) (o : Objective)
    (csts : List Merged) (n : Nat) (a : Answer)
    (h : functor kind upd r p t o csts n = .ok a) :
    (a.status = .success ↔ a.exit = .found) ∧
    (a.status ≠ .success → a.status = .limitReached) ∧
    (a.exit = .kappa → r.kappaOver a.mainPasses = true) ∧
    (a.exit = .time → r.timeUp a.mainPasses = true) := by
  obtain ⟨_, _, _, _, _, h6, h7, _, h9, h10, _⟩ := functor_spec h
  have key : a.status = .success ↔ a.exit = .found := by
    rw [h6, h7]; exact statusOf_success _ _
  refine ⟨key, fun hs => ?_, h9, h10⟩
  have he : a.exit ≠ .found := fun he => hs (key.mpr he)
  have hr : a.final.best.remaining ≠ some 0 := fun hr => he (h6.mpr hr)
  rw [h7]
  unfold statusOf
  simp [he, hr]

/-- C31 does not hold: whatever the clock and kappa, a run stopped by one of them
reports the loop limit. -/
theorem C31_status_hides_the_reason (r : Run ρ) (p : Params) (t : ObjType) (o : Objective)
    (csts : List Merged) (n : Nat) (a : Answer)
    (h : functor kind upd r p t o csts n = .ok a) (he : a.exit = .kappa ∨ a.exit = .time) :
    a.status = .limitReached := by
  obtain ⟨h1, h2, _⟩ := C31_status_partial r p t o csts n a h
  refine h2 fun hs => ?_
  have := h1.mp hs
  rcases he with he | he <;> rw [he] at this <;> simp at this

/-! ## C32 -/

private theorem zip_values (names : List String) (x : Assign) (n : Nat) (hn : names.length = n) :
    names.zip (((List.range n).map fun i => if x i then (1 : Int) else 0).map
      fun v => decide (v ≠ 0)) = names.zipIdx.map fun p => (p.1, x p.2) := by
  subst hn
  apply List.ext_getElem
  · simp
  · intro i h1 h2
    simp only [List.getElem_zip, List.getElem_map, List.getElem_range, List.getElem_zipIdx,
      Nat.zero_add]
    cases x i <;> simp

private theorem objective_congr {o : Objective} {x y : Assign}
    (h1 : ∀ e ∈ o.elems, x e.var = y e.var)
    (h2 : ∀ e ∈ o.qelems, x e.a = y e.a ∧ x e.b = y e.b) : objective o x = objective o y := by
  unfold objective
  congr 2
  · congr 1
    exact List.map_congr_left fun e he => by rw [h1 e he]
  · exact List.map_congr_left fun e he => by rw [(h2 e he).1, (h2 e he).2]

/-- A covering result whose pairs are those of the reduced problem. -/
private theorem covered {raw : RawProblem} (wf : WellFormedRaw raw) (h0 : raw.names ≠ [])
    {pb : Problem} (hperm : (pb.affected.names ++ pb.names).Perm raw.names)
    (hal : pb.affected.names.length = pb.affected.values.length) {res : Result} {s : Solution}
    (hok : res.status = .success) (hn : res.variableName = pb.names)
    (ha : res.affected = pb.affected) (hsol : res.solutions = [s]) (y : Assign)
    (hsv : s.variables = (List.range pb.names.length).map fun i => if y i then 1 else 0)
    (hx : ∀ x, Names raw.names (pairsOf pb y) x →
      Satisfies raw.eqs raw.ges raw.les x) :
    Lpcore.isValidSolution raw res = .ok true ∧
    ∃ x, Names raw.names (Props.pairs res s) x ∧ Names raw.names (pairsOf pb y) x ∧
      Lpcore.computeSolution raw res = .ok (objective raw.objective x) := by
  have hc : Props.Covers raw res s :=
    ⟨hok, by rw [hsol]; rfl, by rw [ha]; exact hal, by rw [hn, hsv]; simp,
      by rw [ha, hn]; exact hperm⟩
  obtain ⟨x, hxn⟩ := (Props.covers_denotes raw res s wf hc).1
  have hxp : Names raw.names (pairsOf pb y) x := by
    intro i n hi
    have := hxn i n hi
    unfold Props.pairs at this
    unfold pairsOf
    rw [hn, ha, hsv, zip_values pb.names y _ rfl] at this
    rw [List.mem_append] at this ⊢
    exact this.symm
  obtain ⟨b, e1, e2⟩ := Props.C01_is_valid_solution_exact raw res s x wf h0 hc hxn
  rw [e2.mpr (hx x hxp)] at e1
  exact ⟨e1, x, hxn, hxp, Props.C02_compute_solution_exact raw res s x wf h0 hc hxn⟩

/-- A result of this shape for the preprocessed problem solves the raw problem. -/
theorem Shape.solves {sorts : Sorts} (hs : sorts.Ok) {po : Order} {raw : RawProblem}
    (wf : WellFormedRaw raw) (h0 : raw.names ≠ [])
    (hi : ∀ c ∈ raw.eqs ++ raw.ges ++ raw.les, ∀ x,
      -2147483648 ≤ lhs x c.elems ∧ lhs x c.elems ≤ 2147483647)
    (hF : ∃ x, IsSolution raw x) {red : Problem} (hred : Preprocess.preprocess raw = .ok red)
    {res : Result} (h : Shape sorts po red res) (hok : res.status = .success) :
    ∃ s x, res.solutions = [s] ∧ Lpcore.isValidSolution raw res = .ok true ∧
      (raw.objective.qelems = [] → Lpcore.computeSolution raw res = .ok s.value) ∧
      Names raw.names (Props.pairs res s) x ∧ IsSolution raw x := by
  obtain ⟨hperm, _, hal, hlen, _⟩ := Preprocess.C04_variables_partitioned raw wf red hred
  obtain ⟨hu1, hu2⟩ := Preprocess.C04_kept_variables_are_used raw wf red hred
  have hir : IntSums red := by
    intro c hc y
    obtain ⟨d, hd, x, hx⟩ := hu2 c hc y
    rw [hx]
    exact hi d hd x
  obtain ⟨hn, ha, csts, hm, hcases⟩ := h
  have main : ∀ (s : Solution) (y : Assign), res.solutions = [s] →
      s.variables = ((List.range red.names.length).map fun i => if y i then 1 else 0) →
      s.value = objective red.objective y → Satisfies red.eqs red.ges red.les y →
      ∃ s x, res.solutions = [s] ∧ Lpcore.isValidSolution raw res = .ok true ∧
      (raw.objective.qelems = [] → Lpcore.computeSolution raw res = .ok s.value) ∧
      Names raw.names (Props.pairs res s) x ∧ IsSolution raw x := by
    intro s y h1 h2 h3 h4
    obtain ⟨g1, x, g3, g4, g5⟩ := covered wf h0 hperm hal hok hn ha h1 y h2 fun x hx =>
      (Preprocess.C05_reduced_solution_valid raw wf red hred hF x y h4 hx).1
    refine ⟨s, x, h1, g1, fun hq => ?_, g3,
      Preprocess.C05_reduced_solution_valid raw wf red hred hF x y h4 g4⟩
    rw [g5, h3, (Preprocess.C07_objective_preserved_partial raw wf hq red hred x y g4).2]
  rcases hcases with ⟨_, _, y, hw, hsol⟩ | ⟨hnil, hsol⟩
  · exact main _ y hsol (by rw [hlen]) rfl
      ((C13_merge_preserves_solutions sorts hs po red hir csts hm y).mp hw)
  · have hnn : red.names = [] := by
      rcases hnil with hnil | hnil
      · obtain ⟨e1, e2, e3⟩ := csts_ne_nil hs hm hnil
        rw [e1, e2, e3] at hu1
        by_contra hne
        obtain ⟨c, hc, _⟩ := hu1 0 (List.length_pos_iff.mpr hne)
        simp at hc
      · rw [← List.length_eq_zero_iff, hlen, hnil]; rfl
    obtain ⟨z, hz⟩ := hF
    refine main _ (fun _ => false) hsol (by rw [hnn]; rfl) ?_
      (Preprocess.C06_no_solution_lost raw wf red hred z _ hz (by
        intro i j n _ hj
        rw [hnn] at hj
        simp at hj))
    simp [objective]

/-- C32: on a well formed feasible raw problem, when `solve` with preprocessing
reports success, `is_valid_solution` accepts the result, and the assignment named
by the result is a solution of the raw problem (it respects the fixed variables
too).  When the objective is linear, `compute_solution` returns the reported value. -/
theorem C32_success_solves_the_raw_problem (sorts : Sorts) (hs : sorts.Ok) (po : Order)
    (r : Run ρ) (p : Params) (raw : RawProblem) (wf : WellFormedRaw raw) (h0 : raw.names ≠ [])
    (hi : ∀ c ∈ raw.eqs ++ raw.ges ++ raw.les, ∀ x,
      -2147483648 ≤ lhs x c.elems ∧ lhs x c.elems ≤ 2147483647)
    (hF : ∃ x, IsSolution raw x) (res : Result)
    (h : solve upd sorts po true r p raw = .ok res) (hok : res.status = .success) :
    ∃ s x, res.solutions = [s] ∧ Lpcore.isValidSolution raw res = .ok true ∧
      (raw.objective.qelems = [] → Lpcore.computeSolution raw res = .ok s.value) ∧
      Names raw.names (Props.pairs res s) x ∧ IsSolution raw x := by
  unfold solve at h
  obtain ⟨red, hred, h⟩ := bind_eq_ok.mp h
  unfold prepared at hred
  rw [if_pos rfl] at hred
  exact (solveProblem_success h hok).solves hs wf h0 hi hF hred hok

/-- The same without preprocessing. -/
theorem Shape.checks {sorts : Sorts} (hs : sorts.Ok) {po : Order} {raw : RawProblem}
    (wf : WellFormedRaw raw) (h0 : raw.names ≠ []) (hc : raw.eqs ++ raw.ges ++ raw.les ≠ [])
    (hi : ∀ c ∈ raw.eqs ++ raw.ges ++ raw.les, ∀ x,
      -2147483648 ≤ lhs x c.elems ∧ lhs x c.elems ≤ 2147483647) {res : Result}
    (h : Shape sorts po (Preprocess.unpreprocess raw) res) (hok : res.status = .success) :
    ∃ s x, res.solutions = [s] ∧ Lpcore.isValidSolution raw res = .ok true ∧
      Lpcore.computeSolution raw res = .ok s.value ∧
      Names raw.names (Props.pairs res s) x ∧ Satisfies raw.eqs raw.ges raw.les x := by
  have hv : raw.values ≠ [] := by
    intro hv
    apply h0
    rw [← List.length_eq_zero_iff, wf.names_len, hv]; rfl
  obtain ⟨hn, ha, _⟩ := id h
  obtain ⟨y, hy, hsol⟩ := Shape.feasible (pb := Preprocess.unpreprocess raw) hs hi hv hc h
  have key : ∀ x, Names raw.names (pairsOf (Preprocess.unpreprocess raw) y) x →
      Satisfies raw.eqs raw.ges raw.les x ∧
        objective (Preprocess.unpreprocess raw).objective y = objective raw.objective x := by
      intro x hx
      have hxy : ∀ i, i < raw.names.length → x i = y i := by
        intro i hl
        have := hx i _ (List.getElem?_eq_getElem hl)
        unfold pairsOf at this
        rw [List.mem_append] at this
        rcases this with this | this
        · obtain ⟨⟨n', j⟩, hq, he⟩ := List.mem_map.mp this
          simp only [Prod.mk.injEq] at he
          have hj := List.mem_zipIdx_iff_getElem?.mp hq
          simp only at hj
          obtain ⟨hj1, hj2⟩ := List.getElem?_eq_some_iff.mp hj
          have hji : j = i := (List.Nodup.getElem_inj_iff wf.names_nodup).mp
            (hj2.trans he.1)
          rw [← he.2, hji]
        · simp [Preprocess.unpreprocess, ProblemType.ofRaw] at this
      have hl := wf.names_len
      refine ⟨⟨fun c hc => ?_, fun c hc => ?_, fun c hc => ?_⟩, ?_⟩
      · rw [Preprocess.lhs_congr fun e he => hxy _ (by rw [hl]; exact wf.wf.eqs_lt c hc e he)]
        exact hy.1 c hc
      · rw [Preprocess.lhs_congr fun e he => hxy _ (by rw [hl]; exact wf.wf.ges_lt c hc e he)]
        exact hy.2.1 c hc
      · rw [Preprocess.lhs_congr fun e he => hxy _ (by rw [hl]; exact wf.wf.les_lt c hc e he)]
        exact hy.2.2 c hc
      · refine (objective_congr ?_ ?_).symm
        · exact fun e he => hxy _ (by rw [hl]; exact wf.wf.obj_lt e he)
        · exact fun e he => ⟨hxy _ (by rw [hl]; exact (wf.wf.quad_lt e he).1),
            hxy _ (by rw [hl]; exact (wf.wf.quad_lt e he).2)⟩
  obtain ⟨g1, x, g3, g4, g2⟩ := covered wf h0 (pb := Preprocess.unpreprocess raw)
    (by exact List.Perm.refl _) rfl hok hn ha hsol y
    (by
      have : (Preprocess.unpreprocess raw).names.length =
        (Preprocess.unpreprocess raw).values.length := wf.names_len
      rw [this])
    fun x hx => (key x hx).1
  refine ⟨_, x, hsol, g1, ?_, g3, (key x g4).1⟩
  rw [g2, ← (key x g4).2]

/-- C32, without preprocessing, for a problem with at least a constraint: the
same conclusion, for any objective and without assuming that the problem is
feasible.  The assignment respects the constraints; the bounds of the variables
are not considered: the solver ignores them. -/
theorem C32_without_preprocessing_partial (sorts : Sorts) (hs : sorts.Ok) (po : Order)
    (r : Run ρ) (p : Params) (raw : RawProblem) (wf : WellFormedRaw raw) (h0 : raw.names ≠ [])
    (hc : raw.eqs ++ raw.ges ++ raw.les ≠ [])
    (hi : ∀ c ∈ raw.eqs ++ raw.ges ++ raw.les, ∀ x,
      -2147483648 ≤ lhs x c.elems ∧ lhs x c.elems ≤ 2147483647) (res : Result)
    (h : solve upd sorts po false r p raw = .ok res) (hok : res.status = .success) :
    ∃ s x, res.solutions = [s] ∧ Lpcore.isValidSolution raw res = .ok true ∧
      Lpcore.computeSolution raw res = .ok s.value ∧
      Names raw.names (Props.pairs res s) x ∧ Satisfies raw.eqs raw.ges raw.les x := by
  unfold solve at h
  obtain ⟨red, hred, h⟩ := bind_eq_ok.mp h
  have hred := Except.ok.inj hred
  subst hred
  exact (solveProblem_success h hok).checks hs wf h0 hc hi hok

/-- One variable and no constraint. -/
def exFree : RawProblem where
  objective := { elems := [⟨1, 0⟩] }
  names := ["a"]
  values := [⟨0, 1, .binary⟩]

/-- C32 does not hold without preprocessing for a problem without constraint: the
solver reports success with a solution that has no value for the variable, and
`is_valid_solution` stops the process on it. -/
theorem C32_unconstrained_aborts (po : Order) (r : Run ρ) (p : Params) :
    ∃ res, solve upd stdSorts po false r p exFree = .ok res ∧ res.status = .success ∧
      res.solutions = [⟨[], 0⟩] ∧
      ∃ w, Lpcore.isValidSolution exFree res = .error (.contract w) := by
  refine ⟨{ status := .success, solutions := [⟨[], 0⟩], variableName := ["a"], variableCount := 1 }, ?_,
    rfl, rfl, ?_⟩
  · cases po <;> rfl
  · exact ⟨"back/names", by decide +kernel⟩

/-- max 2 a a + b, with b = 1. -/
def exSquare : RawProblem where
  type := .maximize
  objective := { elems := [⟨1, 1⟩], qelems := [⟨2, 0, 0⟩] }
  eqs := [{ label := "c", elems := [⟨1, 1⟩], value := 1, id := 0 }]
  ges := []
  les := []
  names := ["a", "b"]
  values := [⟨0, 1, .binary⟩, ⟨0, 1, .binary⟩]

/-- C32, limit of the agreement on the value: with a quadratic objective, `solve` with preprocessing
may report success with a valid assignment and a value, here 4, that is not the value 3 of the
assignment. -/
theorem C32_quadratic_value_differs (po : Order) (r : Run ρ) (p : Params) :
    WellFormedRaw exSquare ∧ (∃ x, IsSolution exSquare x) ∧
    ∃ res s, solve upd stdSorts po true r p exSquare = .ok res ∧ res.status = .success ∧
      res.solutions = [s] ∧ Lpcore.isValidSolution exSquare res = .ok true ∧
      s.value = 4 ∧ Lpcore.computeSolution exSquare res = .ok 3 := by
  refine ⟨?_, ⟨fun _ => true, ?_⟩, 
    { status := .success, solutions := [⟨[], 4⟩],
      affected := { names := ["a", "b"], values := [1, 1] } }, _, ?_, rfl, rfl, by decide +kernel, rfl,
      by decide +kernel⟩
  · refine ⟨⟨?_, ?_, ?_, ?_, ?_, ?_, ?_, ?_, ?_⟩, ?_, ?_⟩ <;> decide +kernel
  · refine ⟨⟨?_, ?_, ?_⟩, ?_⟩ <;> try simp [exSquare, lhs]
    intro i v hv he
    rcases i with _ | _ | i <;> simp at hv <;> subst hv <;> simp at he
  · have h1 : prepared true exSquare = .ok
      { type := .maximize, objective := { elems := [], value := 4 },
        eqs := [], ges := [], les := [], names := [], values := [],
        affected := { names := ["a", "b"], values := [1, 1] }, ptype := .equalities01 } := by
      decide +kernel
    unfold solve
    rw [h1]
    cases po <;> rfl

/-- C32, limit of the hypothesis that the problem is feasible: on an infeasible
problem `solve` with preprocessing may report success with an assignment that
violates a constraint. -/
theorem C32_infeasible_reported_solved (po : Order) (r : Run ρ) (p : Params) :
    WellFormedRaw Preprocess.exInfeasible ∧ (¬ ∃ x, IsSolution Preprocess.exInfeasible x) ∧
    ∃ res, solve upd stdSorts po true r p Preprocess.exInfeasible = .ok res ∧
      res.status = .success ∧ Lpcore.isValidSolution Preprocess.exInfeasible res = .ok false := by
  refine ⟨?_, ?_, 
    { status := .success, solutions := [⟨[], 0⟩],
      affected := { names := ["a", "b"], values := [0, 0] } }, ?_, rfl, by decide +kernel⟩
  · refine ⟨⟨?_, ?_, ?_, ?_, ?_, ?_, ?_, ?_, ?_⟩, ?_, ?_⟩ <;> decide +kernel
  · rintro ⟨x, ⟨-, -, h⟩, -⟩
    have := h _ (List.mem_singleton.mpr rfl)
    simp only [lhs] at this
    cases h0 : x 0 <;> cases h1 : x 1 <;> simp [h0, h1] at this
  · have h1 : prepared true Preprocess.exInfeasible = .ok
      { type := .maximize, objective := { elems := [], value := 0 },
        eqs := [], ges := [], les := [], names := [], values := [],
        affected := { names := ["a", "b"], values := [0, 0] }, ptype := .equalities01 } := by
      decide +kernel
    unfold solve
    rw [h1]
    cases po <;> rfl

/-! ## C63 -/

/-- C63, part: with every order except `pi_sign_change` and `cycle`, each pass
updates each constraint violated at its start exactly once, and no other: each
vector of the trace comes from the vector before by updates of the rows of a
permutation of the violated constraints. -/
theorem C63_pass_visits_the_violated_partial (r : Run ρ) (hr : r.Ok) (p : Params) (t : ObjType)
    (o : Objective) (csts : List Merged) (n : Nat) (a : Answer)
    (h : functor kind upd r p t o csts n = .ok a)
    (h1 : p.order ≠ .piSignChange) (h2 : p.order ≠ .cycle) :
    ∃ s, makeSlv kind csts n = .ok s ∧
    ∀ (i : Nat) x x', (r.x0 :: a.final.trace)[i]? = some x → a.final.trace[i]? = some x' →
      ∃ l : List Nat, l.Nodup ∧
        (∀ k, k ∈ l ↔ ∃ c, csts[k]? = some c ∧
          ¬ (c.min ≤ lhs x c.elems ∧ lhs x c.elems ≤ c.max)) ∧
        updateRows (upd s) (r.pass i).row 0 l x = .ok x' := by
  obtain ⟨s, hs, hl⟩ := (functor_spec h).2.2.2.2.2.2.2.2.2.2.2 hr h1 h2
  refine ⟨s, hs, fun i x x' hx hx' => ?_⟩
  obtain ⟨l, g1, g2⟩ := hl i x x' hx hx'
  refine ⟨l, ?_, ?_, g2⟩
  · exact g1.nodup_iff.mpr (List.Nodup.filter _ List.nodup_range)
  · intro k
    rw [g1.mem_iff]
    unfold vset
    rw [List.mem_filter, List.mem_range, decide_eq_true_eq]
    constructor
    · exact fun hh => hh.2
    · rintro ⟨c, hc, hn⟩
      exact ⟨(List.getElem?_eq_some_iff.mp hc).1, c, hc, hn⟩

private theorem updateRows_mem {upd : ρ → Nat → Assign → Outcome Assign} {row : Nat → ρ} :
    ∀ (l : List Nat) (i : Nat) (x x' : Assign), updateRows upd row i l x = .ok x' →
    ∀ k ∈ l, ∃ j y y', upd (row j) k y = .ok y'
  | [], _, _, _, _, _, hk => by simp at hk
  | k0 :: l, i, x, x', h, k, hk => by
    unfold updateRows at h
    obtain ⟨y, hy, h⟩ := bind_eq_ok.mp h
    rcases List.mem_cons.mp hk with rfl | hk
    · exact ⟨i, x, y, hy⟩
    · exact updateRows_mem l _ _ _ h k hk

/-- C63 does not hold for `pi_sign_change`: the vector of constraints is filled
with as many indices as there are *variables*, so that when there are more
variables than constraints the solver never returns: it stops the process (or
leaves the arrays). -/
theorem C63_pi_sign_change_never_returns (r : Run Row) (hr : r.Ok) (p : Params)
    (hp : p.order = .piSignChange) (hl : p.limit ≠ 0) (t : ObjType) (o : Objective)
    (csts : List Merged) (n : Nat) (hn : csts.length < n) (a : Answer) :
    functor kind updateRow r p t o csts n ≠ .ok a := by
  intro h
  unfold functor at h
  obtain ⟨s, hs, h⟩ := bind_eq_ok.mp h
  obtain ⟨c, hc, h⟩ := bind_eq_ok.mp h
  obtain ⟨⟨st, e⟩, hm, _⟩ := bind_eq_ok.mp h
  have hcc : c = ⟨List.range n, List.replicate n (0, 0), .piSignChange, false⟩ := by
    rw [hp] at hc
    unfold Compute.init Compute.make at hc
    simp only [reduceCtorEq, if_false, decide_false, List.length_replicate] at hc
    exact (Except.ok.inj hc).symm
  subst hcc
  obtain ⟨l, hl'⟩ := Nat.exists_eq_succ_of_ne_zero hl
  rw [hl'] at hm
  unfold mainLoop at hm
  obtain ⟨⟨rem, c', x⟩, hrun, _⟩ := bind_eq_ok.mp hm
  unfold run at hrun
  obtain ⟨x', hx', _⟩ := bind_eq_ok.mp hrun
  obtain ⟨_, hrows, _⟩ := makeSlv_facts hs
  have hmem : csts.length ∈ (r.pass 0).perm (List.range n) :=
    ((hr 0).1 _).mem_iff.mpr (List.mem_range.mpr hn)
  obtain ⟨j, y, y', hu⟩ := updateRows_mem _ _ _ _ hx' _ hmem
  unfold updateRow at hu
  obtain ⟨row, hrow, _⟩ := bind_eq_ok.mp hu
  unfold rowOf at hrow
  rw [hrows] at hrow
  simp at hrow

/-! ## C62 -/

/-- When the main loop finds a solution, no pass before had one. -/
theorem mainLoop_first {csts : List Merged} {n : Nat} {s : Slv} (hs : makeSlv kind csts n = .ok s)
    {upd : ρ → Nat → Assign → Outcome Assign} {r : Run ρ} {t : ObjType} {o : Objective} :
    ∀ (k : Nat) (st st' : St), mainLoop s upd r t o k st = .ok (st', .found) →
      (∀ y ∈ st.trace, ¬ Within y csts) → ∃ l, st'.trace = l ++ [st'.x] ∧ ∀ y ∈ l, ¬ Within y csts
  | 0, st, st', h, _ => by
    have h := Except.ok.inj h
    simp at h
  | k + 1, st, st', h, hi => by
    unfold mainLoop at h
    obtain ⟨⟨rem, c, x⟩, hrun, h⟩ := bind_eq_ok.mp h
    obtain ⟨hrem, _⟩ := run_spec hs hrun
    simp only at h
    by_cases hz : rem = 0
    · rw [if_pos hz] at h
      have h := Except.ok.inj h
      simp only [Prod.mk.injEq] at h
      obtain ⟨rfl, _⟩ := h
      exact ⟨st.trace, rfl, hi⟩
    · rw [if_neg hz] at h
      have hw : ¬ Within x csts := fun hw => hz (hrem.trans (violations_zero.mpr hw))
      generalize hst1 : (if ltInt rem _ = true then _ else _ : St) = st1 at h
      have htr : st1.trace = st.trace ++ [x] := by
        rw [← hst1]
        split <;> rfl
      split at h
      · have h := Except.ok.inj h
        simp at h
      · split at h
        · have h := Except.ok.inj h
          simp at h
        · refine mainLoop_first hs k st1 st' h fun y hy => ?_
          rw [htr] at hy
          rcases List.mem_append.mp hy with hy | hy
          · exact hi y hy
          · rw [List.mem_singleton.mp hy]; exact hw

theorem functor_first {r : Run ρ} {p : Params} {t : ObjType} {o : Objective} {csts : List Merged} {n : Nat}
    {a : Answer} (h : functor kind upd r p t o csts n = .ok a) (he : a.exit = .found) (i : Nat) (y : Assign)
    (hi : i < a.mainPasses - 1) (hy : a.final.trace[i]? = some y) : ¬ Within y csts := by
  unfold functor at h
  obtain ⟨s, hs, h⟩ := bind_eq_ok.mp h
  obtain ⟨c, hc, h⟩ := bind_eq_ok.mp h
  obtain ⟨⟨st, e⟩, hm, h⟩ := bind_eq_ok.mp h
  simp only at h
  obtain ⟨st', hst', h⟩ := bind_eq_ok.mp h
  have h := Except.ok.inj h
  subst h
  simp only at he hi hy
  subst he
  have hi0 : Inv csts t o { compute := c, x := r.x0 } := ⟨by simp, by simp, by simp⟩
  obtain ⟨g1, _, _, g4, _⟩ := mainLoop_spec hs _ _ _ _ hm hi0 (by simp)
  obtain ⟨l, hl, hnone⟩ := mainLoop_first hs _ _ _ hm (by simp)
  unfold pushPhase at hst'
  rw [if_pos rfl] at hst'
  obtain ⟨_, _, _, ⟨l', f4⟩, _⟩ := pushLoop_spec hs _ _ _ _ hst' g1 (g4.mp rfl)
  have hlen : st.passes = l.length + 1 := by rw [← g1.len, hl]; simp
  rw [f4, hl, List.append_assoc, List.getElem?_append_left (by omega)] at hy
  exact hnone y (List.mem_of_getElem? hy)

/-- C62: with every order except `pi_sign_change` and `cycle`, the push phase
never moves: once a solution is found, every later pass ends on this same
assignment, whatever the parameters of the push phase; so the reported solution
is the first one found. -/
theorem C62_push_phase_does_nothing (r : Run ρ) (hr : r.Ok) (p : Params) (t : ObjType)
    (o : Objective) (csts : List Merged) (n : Nat) (a : Answer)
    (h : functor kind upd r p t o csts n = .ok a)
    (h1 : p.order ≠ .piSignChange) (h2 : p.order ≠ .cycle) (hs : a.status = .success) :
    ∃ x, Within x csts ∧ a.final.trace[a.mainPasses - 1]? = some x ∧
      (∀ i y, a.mainPasses - 1 ≤ i → a.final.trace[i]? = some y → y = x) ∧
      (∀ i y, i < a.mainPasses - 1 → a.final.trace[i]? = some y → ¬ Within y csts) ∧
      a.solution = some ((List.range n).map x, some (objective o x)) := by
  have he := (C31_status_partial r p t o csts n a h).1.mp hs
  obtain ⟨s, _, hl⟩ := (functor_spec h).2.2.2.2.2.2.2.2.2.2.2 hr h1 h2
  obtain ⟨x, g1, g2, g3⟩ := (functor_spec h).2.2.2.2.2.2.2.2.2.2.1 he
  suffices hall : ∀ i y, a.mainPasses - 1 ≤ i → a.final.trace[i]? = some y → y = x by
    refine ⟨x, g2, g1, hall, functor_first h he, ?_⟩
    obtain ⟨z, hz, hzw, hsol, _⟩ := (C29_best_of_the_run r p t o csts n a h).2 hs
    obtain ⟨i, hi, rfl⟩ := List.mem_iff_getElem.mp hz
    have hi' : a.final.trace[i]? = some a.final.trace[i] := List.getElem?_eq_getElem hi
    by_cases hlt : i < a.mainPasses - 1
    · exact absurd hzw (functor_first h he i _ hlt hi')
    · rw [hsol, hall i _ (by omega) hi']
  intro i
  induction i with
  | zero =>
    intro y hi hy
    rw [show a.mainPasses - 1 = 0 by omega, hy] at g1
    exact Option.some.inj g1
  | succ i ih =>
    intro y hi hy
    by_cases hii : a.mainPasses - 1 = i + 1
    · rw [hii, hy] at g1
      exact Option.some.inj g1
    · have hlt := (List.getElem?_eq_some_iff.mp hy).1
      have hz : a.final.trace[i]? = some a.final.trace[i] := List.getElem?_eq_getElem (by omega)
      have hzx := ih _ (by omega) hz
      rw [hzx] at hz
      obtain ⟨l, e1, e2⟩ := hl (i + 1) x y (by rw [List.getElem?_cons_succ]; exact hz) hy
      rw [vset_nil.mpr g2] at e1
      rw [e1.eq_nil] at e2
      exact (Except.ok.inj e2).symm

/-! ## Examples -/

/-- What is observed of an answer on four variables. -/
structure Seen where
  status : Status
  exit : Exit
  mainPasses : Nat
  vectors : List (List Bool)
  solution : Option (List Bool × Option Rat)
  deriving DecidableEq

def observe (a : Answer) : Seen :=
  ⟨a.status, a.exit, a.mainPasses, a.final.trace.map fun x => (List.range 4).map x, a.solution⟩

theorem of_observe {o : Outcome Answer} {v} (h : o.map observe = .ok v) :
    ∃ a, o = .ok a ∧ observe a = v := by
  cases o with
  | error f => simp [Except.map] at h
  | ok a => exact ⟨a, rfl, Except.ok.inj h⟩

/-- The rows are sorted differently at odd and even passes. -/
def exRun : Run Row :=
  ⟨fun _ => false, fun t => ⟨id, id, fun _ => ⟨if t % 2 = 0 then List.reverse else id,
    fun _ => false⟩⟩, fun _ => false, fun _ => false⟩

theorem exRun_ok : exRun.Ok := fun _ => ⟨fun l => List.Perm.refl l, fun l => List.Perm.refl l⟩

def exObj : Objective := { elems := [⟨1, 0⟩, ⟨2, 1⟩, ⟨3, 2⟩, ⟨1, 3⟩], value := 5 }

def exParams : Params := { limit := 10, pushes := 2, pushIter := 3 }

/-- A run that visits two infeasible vectors, then a solution, then makes four
passes of the push phase. -/
theorem exRun_answer : ∃ a, functor .equalities101 updateRow exRun exParams .minimize exObj exCsts 4
      = .ok a ∧
    observe a = ⟨.success, .found, 3,
      [[false, false, true, false], [false, true, false, true], [false, false, true, true],
       [false, false, true, true], [false, false, true, true], [false, false, true, true],
       [false, false, true, true]], some ([false, false, true, true], some 9)⟩ :=
  of_observe (by decide +kernel)

/-- The hypotheses of C29, C30 and C62 are met. -/
example : ∃ a x, functor .equalities101 updateRow exRun exParams .minimize exObj exCsts 4 = .ok a ∧
    Within x exCsts ∧ a.final.trace.length = 7 ∧
    ∀ i y, 2 ≤ i → a.final.trace[i]? = some y → y = x := by
  obtain ⟨a, ha, ho⟩ := exRun_answer
  simp only [observe, Seen.mk.injEq] at ho
  obtain ⟨h1, _, h3, h4, _⟩ := ho
  obtain ⟨x, g1, g2, g3, _⟩ := C62_push_phase_does_nothing exRun exRun_ok exParams _ _ _ _ a ha
    (by decide) (by decide) h1
  have := congrArg List.length h4
  rw [List.length_map] at this
  exact ⟨a, x, ha, g1, this, fun i y hi hy => g3 i y (by rw [h3]; omega) hy⟩

/-- The hypotheses of C31 are met: with kappa over its maximum after the first
pass the run stops there, and it reports the loop limit although the limit is
10. -/
example : ∃ a, functor .equalities101 updateRow { exRun with kappaOver := fun _ => true } exParams
      .minimize exObj exCsts 4 = .ok a ∧ a.exit = .kappa ∧ a.mainPasses = 1 ∧
    a.status = .limitReached := by
  obtain ⟨a, ha, ho⟩ := of_observe (v := ⟨.limitReached, .kappa, 1,
      [[false, false, true, false]], some ([false, false, true, false], none)⟩)
    (o := functor .equalities101 updateRow { exRun with kappaOver := fun _ => true } exParams
      .minimize exObj exCsts 4) (by decide +kernel)
  simp only [observe, Seen.mk.injEq] at ho
  exact ⟨a, ha, ho.2.1, ho.2.2.1, C31_status_hides_the_reason _ _ _ _ _ _ a ha (Or.inl ho.2.1)⟩

/-- The hypotheses of C32 are met by a problem with the three kinds of
constraints, a fixed variable and an affected one. -/
theorem exRaw_solved : solve updateRow stdSorts .none true exRun exParams Preprocess.exRaw =
    .ok { affected := { names := ["d", "f"], values := [0, 1] },
          variableName := ["a", "b", "c", "e"],
          solutions := [⟨[0, 0, 1, 0], 7⟩], status := .success,
          variableCount := 4, constraintCount := 2 } := by decide +kernel

theorem ints_of_sums {l : List Constr}
    (h : ∀ c ∈ l, -2147483648 ≤ lowerSum c.elems ∧ upperSum c.elems ≤ 2147483647) :
    ∀ c ∈ l, ∀ x, -2147483648 ≤ lhs x c.elems ∧ lhs x c.elems ≤ 2147483647 := by
  intro c hc x
  have h1 := lhs_ge_lower x c.elems
  have h2 := lhs_le_upper x c.elems
  have := h c hc
  omega

example : ∃ s x, IsSolution Preprocess.exRaw x ∧ s.value = (7 : Rat) ∧
    Lpcore.computeSolution Preprocess.exRaw
      { affected := { names := ["d", "f"], values := [0, 1] },
        variableName := ["a", "b", "c", "e"], solutions := [s], status := .success,
        variableCount := 4, constraintCount := 2 } = .ok 7 := by
  obtain ⟨s, x, h1, _, h3, _, h5⟩ := C32_success_solves_the_raw_problem stdSorts stdSorts_ok .none
    exRun exParams Preprocess.exRaw Preprocess.exRaw_wf (by decide)
    (ints_of_sums (by decide +kernel)) ⟨_, Preprocess.exRaw_solution⟩ _ exRaw_solved rfl
  have h1 : s = ⟨[0, 0, 1, 0], 7⟩ := (List.cons.inj h1).1.symm
  subst h1
  exact ⟨_, x, h5, rfl, h3 rfl⟩

/-- The hypotheses of C28 are met by the reduced problem. -/
example : ∃ x : Assign, Satisfies Preprocess.exRed.eqs Preprocess.exRed.ges Preprocess.exRed.les x :=
  let ⟨x, h, _⟩ := C28_success_is_feasible (kind := .inequalities01) (upd := updateRow) stdSorts
    stdSorts_ok .none exRun exParams Preprocess.exRed (ints_of_sums (by decide +kernel)) (by decide)
    (by decide) { affected := { names := ["d", "f"], values := [0, 1] },
                  variableName := ["a", "b", "c", "e"],
                  solutions := [⟨[0, 0, 1, 0], 7⟩], status := .success,
                  variableCount := 4, constraintCount := 2 } (by decide +kernel) rfl
  ⟨x, h⟩

/-- C63: the constraints `exCsts` (2 constraints, 4 variables) make the solver
stop in the order `pi_sign_change`. -/
example : (functor .equalities101 updateRow exRun { exParams with order := .piSignChange } .minimize
    exObj exCsts 4).map observe = .error (.contract "m_is_valid_index(row, 0)") := by
  decide +kernel

end Bx.Itm
