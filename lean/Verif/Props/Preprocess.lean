import Verif.Proofs.Preprocess6

/-!
# C04-C11: the preprocessor

`Spec.IsSolution pb x`: `x` satisfies every constraint of the raw problem and
the bounds that fix a variable.  `Spec.pairsOf red y`: the (name, value) pairs
of an assignment of the reduced problem together with the variables it has
already affected.  `Spec.Names names pairs x`: `x` is what these pairs say.
-/

namespace Bx.Preprocess

open Spec

/-- The problem on which `preprocess` runs. -/
abbrev start (pb : RawProblem) : Problem := { ProblemType.ofRaw pb with affected := {} }

private theorem feas_iff (pb : RawProblem) (x : Assign) :
    IsSolution pb x ↔ (∀ k, ∀ c ∈ csts (start pb) k, satK k c x) ∧
      RespectsFixed (start pb).values x := by
  rw [← satisfies_iff]; rfl

theorem ok_cases {pb : RawProblem} (wf : WellFormedRaw pb) {red : Problem}
    (h : preprocess pb = .ok red) :
    ∃ st V0 mo, Fin (start pb) (fun x => (∀ k, ∀ c ∈ csts (start pb) k, satK k c x) ∧
        RespectsFixed (start pb).values x) st V0 ∧ NoOne st ∧
      ((∃ x, (∀ k, ∀ c ∈ csts (start pb) k, satK k c x) ∧ RespectsFixed (start pb).values x) →
        ∀ i v, (start pb).values[i]? = some v → v.min = v.max →
          V0.lookup i = some (decide (v.max ≠ 0))) ∧
      (pb.objective.qelems = [] → mo = {}) ∧ Shape (start pb) st mo red := by
  have hc := ctx_of_wf (pb := start pb) wf.wf
    (Feas := fun x => (∀ k, ∀ c ∈ csts (start pb) k, satK k c x) ∧
        RespectsFixed (start pb).values x) (fun x hx => hx.1)
  rcases run_cases (start pb) hc with ⟨h1, _⟩ | ⟨st, V0, mo, h1, h2, h3, h4, h5⟩
  · exact absurd (h1.symm.trans h) (by simp)
  · exact ⟨st, V0, mo, h1, h2, h3, h4,
      makeProblem_shape hc.lt wf.names_len h1.nodup h1.lt (h5.symm.trans h)⟩

/-! ## Example -/

/-- max 3a + 2b - c + 4d + f  with  a + b + c = 1, d <= 0, a + d + e <= 2,
b + c >= 0, and `f` fixed at 1 by its bounds. -/
def exRaw : RawProblem where
  type := .maximize
  objective := { elems := [⟨3, 0⟩, ⟨2, 1⟩, ⟨-1, 2⟩, ⟨4, 3⟩, ⟨1, 5⟩], value := 7 }
  eqs := [{ label := "c1", elems := [⟨1, 0⟩, ⟨1, 1⟩, ⟨1, 2⟩], value := 1, id := 0 }]
  ges := [{ label := "c2", elems := [⟨1, 1⟩, ⟨1, 2⟩], value := 0, id := 1 }]
  les := [{ label := "c3", elems := [⟨1, 3⟩], value := 0, id := 2 },
          { label := "c4", elems := [⟨1, 0⟩, ⟨1, 3⟩, ⟨1, 4⟩], value := 2, id := 3 }]
  names := ["a", "b", "c", "d", "e", "f"]
  values := [⟨0, 1, .binary⟩, ⟨0, 1, .binary⟩, ⟨0, 1, .binary⟩, ⟨0, 1, .binary⟩,
             ⟨0, 1, .binary⟩, ⟨1, 1, .binary⟩]

/-- What the preprocessor returns for it. -/
def exRed : Problem where
  type := .maximize
  objective := { elems := [⟨3, 0⟩, ⟨2, 1⟩, ⟨-1, 2⟩], value := 8 }
  eqs := [{ label := "c1", elems := [⟨1, 0⟩, ⟨1, 1⟩, ⟨1, 2⟩], value := 1, id := 0 }]
  ges := []
  les := [{ label := "c4", elems := [⟨1, 0⟩, ⟨1, 3⟩], value := 2, id := 3 }]
  names := ["a", "b", "c", "e"]
  values := [⟨0, 1, .binary⟩, ⟨0, 1, .binary⟩, ⟨0, 1, .binary⟩, ⟨0, 1, .binary⟩]
  affected := { names := ["d", "f"], values := [0, 1] }
  ptype := .inequalities01

theorem exRaw_wf : WellFormedRaw exRaw := by
  refine ⟨⟨?_, ?_, ?_, ?_, ?_, ?_, ?_, ?_, ?_⟩, ?_, ?_⟩ <;> decide +kernel

theorem exRaw_runs : preprocess exRaw = .ok exRed := by decide +kernel

theorem exRaw_solution : IsSolution exRaw (fun i => i = 0 ∨ i = 5) := by
  refine ⟨by decide +kernel, ?_⟩
  intro i v h hb
  rcases i with _ | _ | _ | _ | _ | _ | i <;> simp [exRaw] at h <;> subst h <;> simp at hb ⊢

/-! ## C04 -/

/-- C04: the variables of the raw problem are exactly those kept plus those
affected, each once; kept variables keep their order, name and bounds; every
index used by the reduced problem denotes one of its variables, and no reduced
constraint names a variable twice. -/
theorem C04_variables_partitioned (pb : RawProblem) (wf : WellFormedRaw pb) (red : Problem)
    (h : preprocess pb = .ok red) :
    (red.affected.names ++ red.names).Perm pb.names ∧
    red.names.Sublist pb.names ∧
    red.affected.names.length = red.affected.values.length ∧
    red.names.length = red.values.length ∧
    (∀ (i j : Nat) n, pb.names[i]? = some n → red.names[j]? = some n →
      red.values[j]? = pb.values[i]?) ∧
    (∀ v ∈ red.affected.values, v = 0 ∨ v = 1) ∧
    (∀ c ∈ red.eqs ++ red.ges ++ red.les,
      (∀ e ∈ c.elems, e.var < red.names.length) ∧ (c.elems.map FunElem.var).Nodup) ∧
    (∀ e ∈ red.objective.elems, e.var < red.names.length) ∧
    (∀ e ∈ red.objective.qelems, e.a < red.names.length ∧ e.b < red.names.length) := by
  obtain ⟨st, V0, mo, hf, hno, _, hmo, hs⟩ := ok_cases wf h
  obtain ⟨p1, p2, p3, p4⟩ := hs.partition wf.names_len
  obtain ⟨c1, c2, c3, c4, -⟩ := hs.csts_wf wf.wf
  rw [← p3] at c1 c3 c4
  refine ⟨p1, p2, p4 rfl, p3, fun i j n h1 h2 => hs.values_eq wf.names_len wf.names_nodup h1 h2,
    ?_, ?_, c3, c4⟩
  · intro v hv
    rw [hs.affv] at hv
    simp only [ProblemType.ofRaw, List.nil_append, List.mem_map] at hv
    obtain ⟨j, _, rfl⟩ := hv
    split <;> simp
  · intro c hc
    rcases List.mem_append.mp hc with hc | hc
    · rcases List.mem_append.mp hc with hc | hc
      · exact ⟨c1 .eq c hc, c2 .eq c hc⟩
      · exact ⟨c1 .ge c hc, c2 .ge c hc⟩
    · exact ⟨c1 .le c hc, c2 .le c hc⟩

/-- C04: every kept variable occurs in a constraint of the reduced problem, and
every left-hand side of the reduced problem is a left-hand side of the raw
problem for some assignment: sums do not grow. -/
theorem C04_kept_variables_are_used (pb : RawProblem) (wf : WellFormedRaw pb) (red : Problem)
    (h : preprocess pb = .ok red) :
    (∀ j, j < red.names.length → ∃ c ∈ red.eqs ++ red.ges ++ red.les, ∃ e ∈ c.elems, e.var = j) ∧
    (∀ c ∈ red.eqs ++ red.ges ++ red.les, ∀ y, ∃ d ∈ pb.eqs ++ pb.ges ++ pb.les, ∃ x,
      lhs y c.elems = lhs x d.elems) := by
  obtain ⟨st, V0, mo, hf, hno, _, hmo, hs⟩ := ok_cases wf h
  have hmem : ∀ k c, c ∈ redCsts st k (csts (start pb) k) ↔ c ∈ csts red k := by
    intro k c
    cases k
    · rw [show csts red .eq = red.eqs from rfl, hs.eqs]; rfl
    · rw [show csts red .ge = red.ges from rfl, hs.ges]; rfl
    · rw [show csts red .le = red.les from rfl, hs.les]; rfl
  have happ : ∀ (q : Problem) c, c ∈ q.eqs ++ q.ges ++ q.les ↔ ∃ k, c ∈ csts q k := by
    intro q c
    simp only [List.mem_append]
    constructor
    · rintro ((h | h) | h)
      · exact ⟨.eq, h⟩
      · exact ⟨.ge, h⟩
      · exact ⟨.le, h⟩
    · rintro ⟨k, h⟩
      cases k
      · exact Or.inl (Or.inl h)
      · exact Or.inl (Or.inr h)
      · exact Or.inr h
  constructor
  · intro j hj
    have hl : red.names.length = (keptIdx st.vars (start pb).values.length).length := by
      have := congrArg List.length hs.names
      simpa using this
    obtain ⟨i, hi⟩ : ∃ i, (keptIdx st.vars (start pb).values.length)[j]? = some i :=
      ⟨_, List.getElem?_eq_getElem (by omega)⟩
    have hi2 : i < (start pb).values.length ∧ st.vars.lookup i = none := by
      have := List.mem_of_getElem? hi
      simpa [keptIdx] using this
    obtain ⟨k, j', c, hc, hpos, e, he, hei⟩ := hf.used i hi2.1 hi2.2
    have hj2 : newIdx st.vars i = j := by
      have h1 := keptIdx_get st.vars hi2.1 hi2.2
      have hnd : (keptIdx st.vars (start pb).values.length).Nodup :=
        List.Nodup.filter _ List.nodup_range
      exact nodup_get_inj hnd h1 hi
    refine ⟨redCst st.vars c, (happ red _).mpr ⟨k, (hmem k _).mp (mem_redCsts.mpr
      ⟨j', c, hc, ?_, rfl⟩)⟩, ⟨e.factor, newIdx st.vars e.var⟩, ?_, ?_⟩
    · have := hno k j'; omega
    · simp only [redCst, List.mem_map]
      refine ⟨e, ?_, rfl⟩
      unfold unknown
      rw [List.mem_filter]
      exact ⟨he, by rw [hei, hi2.2]; rfl⟩
    · show newIdx st.vars e.var = j
      rw [hei, hj2]
  · intro c hc y
    obtain ⟨k, hk⟩ := (happ red c).mp hc
    obtain ⟨i, d, hd, _, rfl⟩ := mem_redCsts.mp ((hmem k c).mpr hk)
    refine ⟨d, (happ (start pb) d).mpr ⟨k, List.mem_of_getElem? hd⟩,
      fun v => (st.vars.lookup v).isNone && y (newIdx st.vars v), ?_⟩
    simp only [redCst]
    generalize d.elems = es
    induction es with
    | nil => simp [unknown, lhs]
    | cons e es ih =>
      rw [lhs_cons, ← ih]
      unfold unknown
      cases hv : st.vars.lookup e.var with
      | none => simp [List.filter_cons, hv, lhs_cons]
      | some b => simp [List.filter_cons, hv]

example : (["d", "f"] ++ ["a", "b", "c", "e"]).Perm exRaw.names :=
  (C04_variables_partitioned exRaw exRaw_wf exRed exRaw_runs).1

/-! ## C05 -/

/-- C05: every solution of the reduced problem, completed by the affected
variables, is a solution of the raw problem (when the raw problem has one). -/
theorem C05_reduced_solution_valid (pb : RawProblem) (wf : WellFormedRaw pb) (red : Problem)
    (h : preprocess pb = .ok red) (hF : ∃ x, IsSolution pb x)
    (x y : Assign) (hy : Satisfies red.eqs red.ges red.les y)
    (hx : Names pb.names (pairsOf red y) x) : IsSolution pb x := by
  obtain ⟨st, V0, mo, hf, hno, hfix, hmo, hs⟩ := ok_cases wf h
  have hF' : ∃ x, (∀ k, ∀ c ∈ csts (start pb) k, satK k c x) ∧
      RespectsFixed (start pb).values x := by
    obtain ⟨z, hz⟩ := hF; exact ⟨z, (feas_iff pb z).mp hz⟩
  have hc := ctx_of_wf (pb := start pb) wf.wf
    (Feas := fun x => (∀ k, ∀ c ∈ csts (start pb) k, satK k c x) ∧
        RespectsFixed (start pb).values x) (fun x hx => hx.1)
  have hr := hs.rel_of_names wf.names_len wf.names_nodup rfl (by simp [ProblemType.ofRaw]) hx
  rw [feas_iff]
  refine ⟨hf.sound hc hno hF' hr ((hs.redSat y).mp hy), ?_⟩
  intro i v hv hb
  have h1 := hf.sub _ _ (hfix hF' i v hv hb)
  have h2 := hr i (List.getElem?_eq_some_iff.mp hv).1
  rw [h1] at h2
  exact h2

/-- C05: the completion always exists: the pairs give one value to each raw
variable. -/
theorem C05_completion_exists (pb : RawProblem) (wf : WellFormedRaw pb) (red : Problem)
    (h : preprocess pb = .ok red) (y : Assign) :
    ∃ x, Names pb.names (pairsOf red y) x ∧
      ∀ x', Names pb.names (pairsOf red y) x' → ∀ i < pb.names.length, x' i = x i := by
  obtain ⟨st, V0, mo, hf, hno, hfix, hmo, hs⟩ := ok_cases wf h
  have hr : Rel st.vars (start pb).values.length
      (fun i => (st.vars.lookup i).getD (y (newIdx st.vars i))) y := by
    intro i _
    cases hl : st.vars.lookup i <;> simp [hl]
  refine ⟨_, hs.names_of_rel wf.names_len rfl hr, ?_⟩
  intro x' hx' i hi
  have h1 := hs.rel_of_names wf.names_len wf.names_nodup rfl (by simp [ProblemType.ofRaw]) hx'
  have hi' : i < (start pb).values.length := by
    have := wf.names_len; simp only [ProblemType.ofRaw]; omega
  have a := h1 i hi'
  cases hl : st.vars.lookup i with
  | none => rw [hl] at a; simpa [hl] using a.symm
  | some w => rw [hl] at a; simpa [hl] using a

example : IsSolution exRaw (fun i => i = 0 ∨ i = 4 ∨ i = 5) := by
  refine C05_reduced_solution_valid exRaw exRaw_wf exRed exRaw_runs ⟨_, exRaw_solution⟩ _
    (fun i => i = 0 ∨ i = 3) (by decide +kernel) ?_
  intro i n h
  rcases i with _ | _ | _ | _ | _ | _ | i <;> simp [exRaw] at h <;> subst h <;> decide +kernel

/-! ## C06 -/

/-- C06: every solution of the raw problem, restricted to the kept variables,
is a solution of the reduced problem. -/
theorem C06_no_solution_lost (pb : RawProblem) (wf : WellFormedRaw pb) (red : Problem)
    (h : preprocess pb = .ok red) (x y : Assign) (hx : IsSolution pb x)
    (hr : Restricts pb.names red.names x y) : Satisfies red.eqs red.ges red.les y := by
  obtain ⟨st, V0, mo, hf, hno, hfix, hmo, hs⟩ := ok_cases wf h
  have hc := ctx_of_wf (pb := start pb) wf.wf
    (Feas := fun x => (∀ k, ∀ c ∈ csts (start pb) k, satK k c x) ∧
        RespectsFixed (start pb).values x) (fun x hx => hx.1)
  rw [hs.redSat]
  exact hf.complete hc ((feas_iff pb x).mp hx) (hs.rel_override wf.names_len hr)

/-- C06, linear objective: that restriction, completed by the affected
variables, is a solution of the raw problem at least as good as the one we
started from. -/
theorem C06_completion_at_least_as_good (pb : RawProblem) (wf : WellFormedRaw pb)
    (hq : pb.objective.qelems = []) (red : Problem) (h : preprocess pb = .ok red)
    (x y x' : Assign) (hx : IsSolution pb x) (hr : Restricts pb.names red.names x y)
    (hx' : Names pb.names (pairsOf red y) x') :
    IsSolution pb x' ∧
    AtLeastAsGood pb.type (objective pb.objective x') (objective pb.objective x) := by
  refine ⟨C05_reduced_solution_valid pb wf red h ⟨x, hx⟩ x' y
    (C06_no_solution_lost pb wf red h x y hx hr) hx', ?_⟩
  obtain ⟨st, V0, mo, hf, hno, hfix, hmo, hs⟩ := ok_cases wf h
  have hb := hf.better hq wf.wf.obj_nodup ((feas_iff pb x).mp hx)
  have hrel := hs.rel_override wf.names_len hr
  have hrel' := hs.rel_of_names wf.names_len wf.names_nodup rfl
    (by simp [ProblemType.ofRaw]) hx'
  have e1 := redObj_eq (pb := start pb) hrel hq wf.wf.obj_lt
  have e2 := redObj_eq (pb := start pb) hrel' hq wf.wf.obj_lt
  have e3 : objective pb.objective x' = objective pb.objective (override st.vars x) :=
    e2.symm.trans e1
  rw [e3]
  exact hb

/-! ## C07 -/

/-- C07, linear objective: the reduced objective of `y` is the raw objective of
its completion. -/
theorem C07_objective_preserved_partial (pb : RawProblem) (wf : WellFormedRaw pb)
    (hq : pb.objective.qelems = []) (red : Problem) (h : preprocess pb = .ok red)
    (x y : Assign) (hx : Names pb.names (pairsOf red y) x) :
    red.type = pb.type ∧ objective red.objective y = objective pb.objective x := by
  obtain ⟨st, V0, mo, hf, hno, hfix, hmo, hs⟩ := ok_cases wf h
  have hrel := hs.rel_of_names wf.names_len wf.names_nodup rfl
    (by simp [ProblemType.ofRaw]) hx
  have ho := hs.obj
  rw [hmo hq, objCopy_linear (start pb) _ (start pb).values.length hq wf.wf.obj_lt] at ho
  rw [← Except.ok.inj ho]
  exact ⟨hs.type, redObj_eq (pb := start pb) hrel hq wf.wf.obj_lt⟩

/-- C06 and C07 together, linear objective: an optimal solution of the reduced
problem, completed, is an optimal solution of the raw problem. -/
theorem C06_optimum_preserved_partial (pb : RawProblem) (wf : WellFormedRaw pb)
    (hq : pb.objective.qelems = []) (red : Problem) (h : preprocess pb = .ok red)
    (hF : ∃ x, IsSolution pb x) (x y : Assign)
    (hy : Satisfies red.eqs red.ges red.les y)
    (hopt : ∀ y', Satisfies red.eqs red.ges red.les y' →
      AtLeastAsGood red.type (objective red.objective y) (objective red.objective y'))
    (hx : Names pb.names (pairsOf red y) x) :
    IsSolution pb x ∧ ∀ z, IsSolution pb z →
      AtLeastAsGood pb.type (objective pb.objective x) (objective pb.objective z) := by
  refine ⟨C05_reduced_solution_valid pb wf red h hF x y hy hx, ?_⟩
  intro z hz
  obtain ⟨st, V0, mo, hf, hno, hfix, hmo, hs⟩ := ok_cases wf h
  -- the restriction of `z`
  obtain ⟨y', hy'⟩ : ∃ y', Restricts pb.names red.names z y' := by
    refine ⟨fun j => match red.names[j]? with
      | none => false
      | some n => z (pb.names.idxOf n), ?_⟩
    intro i j n h1 h2
    simp only [h2]
    congr 1
    obtain ⟨h3, h4⟩ := List.getElem?_eq_some_iff.mp h1
    subst h4
    exact wf.names_nodup.idxOf_getElem i h3
  obtain ⟨z', hz', -⟩ := C05_completion_exists pb wf red h y'
  obtain ⟨-, g2⟩ := C06_completion_at_least_as_good pb wf hq red h z y' z' hz hy' hz'
  have g3 := hopt y' (C06_no_solution_lost pb wf red h z y' hz hy')
  obtain ⟨t, e1⟩ := C07_objective_preserved_partial pb wf hq red h x y hx
  obtain ⟨-, e2⟩ := C07_objective_preserved_partial pb wf hq red h z' y' hz'
  rw [t, e1, e2] at g3
  cases hty : pb.type <;> rw [hty] at g2 g3 <;> simp only [AtLeastAsGood] at * <;> linarith

example : objective exRed.objective (fun i => i = 0 ∨ i = 3) =
    objective exRaw.objective (fun i => i = 0 ∨ i = 4 ∨ i = 5) := by
  refine (C07_objective_preserved_partial exRaw exRaw_wf rfl exRed exRaw_runs _ _ ?_).2
  intro i n h
  rcases i with _ | _ | _ | _ | _ | _ | i <;> simp [exRaw] at h <;> subst h <;> decide +kernel

/-- max 2 a b  with  a = 0 and b + c = 1. -/
def exQuad : RawProblem where
  type := .maximize
  objective := { elems := [], qelems := [⟨2, 0, 1⟩], value := 0 }
  eqs := [{ label := "c1", elems := [⟨1, 0⟩], value := 0, id := 0 },
          { label := "c2", elems := [⟨1, 1⟩, ⟨1, 2⟩], value := 1, id := 1 }]
  ges := []
  les := []
  names := ["a", "b", "c"]
  values := [⟨0, 1, .binary⟩, ⟨0, 1, .binary⟩, ⟨0, 1, .binary⟩]

/-- C07 does not hold for quadratic objectives: a product with an affected
variable at 0 becomes a linear term of the other variable. -/
theorem C07_fails_for_quadratic_objective :
    ¬ ∀ (pb : RawProblem) (_ : WellFormedRaw pb) (red : Problem) (_ : preprocess pb = .ok red)
      (x y : Assign) (_ : Names pb.names (pairsOf red y) x) (_ : IsSolution pb x),
      objective red.objective y = objective pb.objective x := by
  intro h
  have hr : preprocess exQuad = .ok
      { type := .maximize, objective := { elems := [⟨2, 0⟩], qelems := [], value := 0 },
        eqs := [{ label := "c2", elems := [⟨1, 0⟩, ⟨1, 1⟩], value := 1, id := 1 }],
        ges := [], les := [], names := ["b", "c"],
        values := [⟨0, 1, .binary⟩, ⟨0, 1, .binary⟩],
        affected := { names := ["a"], values := [0] }, ptype := .equalities01 } := by
    decide +kernel
  have := h exQuad (by
      refine ⟨⟨?_, ?_, ?_, ?_, ?_, ?_, ?_, ?_, ?_⟩, ?_, ?_⟩ <;> decide +kernel)
    _ hr (fun i => i = 1) (fun i => i = 0)
    (by
      intro i n h
      rcases i with _ | _ | _ | i <;> simp [exQuad] at h <;> subst h <;> decide +kernel)
    (by
      refine ⟨by decide +kernel, ?_⟩
      intro i v h hb
      rcases i with _ | _ | _ | i <;> simp [exQuad] at h <;> subst h <;> simp at hb)
  revert this
  decide +kernel

/-- max c + 2 a b  with  a = 0 and b + c = 1. -/
def exQuad2 : RawProblem where
  type := .maximize
  objective := { elems := [⟨1, 2⟩], qelems := [⟨2, 0, 1⟩], value := 0 }
  eqs := [{ label := "c1", elems := [⟨1, 0⟩], value := 0, id := 0 },
          { label := "c2", elems := [⟨1, 1⟩, ⟨1, 2⟩], value := 1, id := 1 }]
  ges := []
  les := []
  names := ["a", "b", "c"]
  values := [⟨0, 1, .binary⟩, ⟨0, 1, .binary⟩, ⟨0, 1, .binary⟩]

/-- With a quadratic objective the optimum is lost: for max c + 2 a b with
a = 0 and b + c = 1, the only optimum of the reduced problem is b = 1, c = 0,
whose completion has value 0, while c = 1 has value 1. -/
theorem C06_optimum_lost_for_quadratic_objective :
    ¬ ∀ (pb : RawProblem) (_ : WellFormedRaw pb) (red : Problem) (_ : preprocess pb = .ok red)
      (x y : Assign) (_ : Satisfies red.eqs red.ges red.les y)
      (_ : ∀ y', Satisfies red.eqs red.ges red.les y' →
        AtLeastAsGood red.type (objective red.objective y) (objective red.objective y'))
      (_ : Names pb.names (pairsOf red y) x) (z : Assign) (_ : IsSolution pb z),
      AtLeastAsGood pb.type (objective pb.objective x) (objective pb.objective z) := by
  intro h
  have hr : preprocess exQuad2 = .ok
      { type := .maximize, objective := { elems := [⟨1, 1⟩, ⟨2, 0⟩], qelems := [], value := 0 },
        eqs := [{ label := "c2", elems := [⟨1, 0⟩, ⟨1, 1⟩], value := 1, id := 1 }],
        ges := [], les := [], names := ["b", "c"],
        values := [⟨0, 1, .binary⟩, ⟨0, 1, .binary⟩],
        affected := { names := ["a"], values := [0] }, ptype := .equalities01 } := by
    decide +kernel
  have := h exQuad2 (by
      refine ⟨⟨?_, ?_, ?_, ?_, ?_, ?_, ?_, ?_, ?_⟩, ?_, ?_⟩ <;> decide +kernel)
    _ hr (fun i => i = 1) (fun i => i = 0) (by decide +kernel)
    (by
      intro y' hy'
      simp only [Satisfies, lhs, List.mem_singleton, forall_eq] at hy'
      obtain ⟨h1, -, -⟩ := hy'
      cases h0 : y' 0 <;> cases h2 : y' 1 <;> simp [h0, h2] at h1 <;>
        simp [AtLeastAsGood, objective, h0, h2])
    (by
      intro i n h
      rcases i with _ | _ | _ | i <;> simp [exQuad2] at h <;> subst h <;> decide +kernel)
    (fun i => i = 2)
    (by
      refine ⟨by decide +kernel, ?_⟩
      intro i v h hb
      rcases i with _ | _ | _ | i <;> simp [exQuad2] at h <;> subst h <;> simp at hb)
  simp only [AtLeastAsGood, exQuad2] at this
  revert this
  decide +kernel

/-! ## C08 -/

/-- C08, one direction: when preprocessing aborts on `bx_reach` the raw problem
has no solution, and when the reduced problem has no solution neither has the
raw problem. -/
theorem C08_infeasibility_partial (pb : RawProblem) (wf : WellFormedRaw pb) :
    (preprocess pb = .error (.contract "bx_reach") → ¬ ∃ x, IsSolution pb x) ∧
    (∀ red, preprocess pb = .ok red → (¬ ∃ y, Satisfies red.eqs red.ges red.les y) →
      ¬ ∃ x, IsSolution pb x) := by
  have hc := ctx_of_wf (pb := start pb) wf.wf
    (Feas := fun x => (∀ k, ∀ c ∈ csts (start pb) k, satK k c x) ∧
        RespectsFixed (start pb).values x) (fun x hx => hx.1)
  constructor
  · rcases run_cases (start pb) hc with ⟨_, h1⟩ | ⟨st, V0, mo, h1, h2, h3, h4, h5⟩
    · rintro _ ⟨x, hx⟩
      exact h1 ⟨x, (feas_iff pb x).mp hx⟩
    · intro h
      have h' : makeProblem (start pb) st mo = .error (.contract "bx_reach") := h5.symm.trans h
      obtain ⟨ns, vs, an, _, _, _, h9⟩ := makeProblem_eq (start pb) st mo hc.lt wf.names_len
        h1.nodup h1.lt
      rw [h9] at h'
      exfalso
      cases ho : objCopy (start pb) (mappingLoop st.vars (start pb).values.length 0 0) mo with
      | ok o => rw [ho] at h'; simp [ok_bind] at h'
      | error f =>
        rw [ho] at h'
        simp only [error_bind, Except.error.injEq] at h'
        subst h'
        exact objCopy_not_contract _ _ _ _ ho
  · rintro red h hno ⟨x, hx⟩
    refine hno ⟨fun j => match red.names[j]? with
      | none => false
      | some n => x (pb.names.idxOf n), C06_no_solution_lost pb wf red h x _ hx ?_⟩
    intro i j n h1 h2
    simp only [h2]
    congr 1
    obtain ⟨h3, h4⟩ := List.getElem?_eq_some_iff.mp h1
    subst h4
    exact wf.names_nodup.idxOf_getElem i h3

/-- max a + b  with  a + b <= -1. -/
def exInfeasible : RawProblem where
  type := .maximize
  objective := { elems := [⟨1, 0⟩, ⟨1, 1⟩], value := 0 }
  eqs := []
  ges := []
  les := [{ label := "c1", elems := [⟨1, 0⟩, ⟨1, 1⟩], value := -1, id := 0 }]
  names := ["a", "b"]
  values := [⟨0, 1, .binary⟩, ⟨0, 1, .binary⟩]

/-- C08 does not hold: an infeasible raw problem may become a reduced problem
with no constraint at all, that every assignment satisfies. -/
theorem C08_infeasibility_hidden :
    ∃ pb : RawProblem, WellFormedRaw pb ∧ (¬ ∃ x, IsSolution pb x) ∧
      ∃ red, preprocess pb = .ok red ∧ ∀ y, Satisfies red.eqs red.ges red.les y := by
  refine ⟨exInfeasible, ?_, ?_,
    { type := .maximize, objective := { elems := [], value := 0 },
      eqs := [], ges := [], les := [], names := [], values := [],
      affected := { names := ["a", "b"], values := [0, 0] }, ptype := .equalities01 }, ?_, ?_⟩
  · refine ⟨⟨?_, ?_, ?_, ?_, ?_, ?_, ?_, ?_, ?_⟩, ?_, ?_⟩ <;> decide +kernel
  · rintro ⟨x, ⟨-, -, h⟩, -⟩
    have := h _ (List.mem_singleton.mpr rfl)
    simp only [lhs] at this
    cases h0 : x 0 <;> cases h1 : x 1 <;> simp [h0, h1] at this
  · decide +kernel
  · intro y; simp [Satisfies]

/-- `C08_infeasibility_partial` applied to a problem whose infeasibility is
found: a + b = 0 and 2 b - a >= 1. -/
example : ¬ ∃ x, IsSolution
    { type := .maximize, objective := { elems := [], value := 0 },
      eqs := [{ label := "c1", elems := [⟨1, 0⟩, ⟨1, 1⟩], value := 0, id := 0 }],
      ges := [{ label := "c2", elems := [⟨-1, 0⟩, ⟨2, 1⟩], value := 1, id := 1 }],
      les := [], names := ["a", "b"],
      values := [⟨0, 1, .binary⟩, ⟨0, 1, .binary⟩] } x := by
  refine (C08_infeasibility_partial _ ?_).1 (by decide +kernel)
  refine ⟨⟨?_, ?_, ?_, ?_, ?_, ?_, ?_, ?_, ?_⟩, ?_, ?_⟩ <;> decide +kernel

/-! ## C09 -/

/-- C09: on a well formed problem with a solution and a linear objective,
preprocessing returns a problem: no abort, no undefined behaviour, no endless
loop. -/
theorem C09_returns_on_feasible_partial (pb : RawProblem) (wf : WellFormedRaw pb)
    (hq : pb.objective.qelems = []) (hF : ∃ x, IsSolution pb x) :
    ∃ red, preprocess pb = .ok red := by
  have hc := ctx_of_wf (pb := start pb) wf.wf
    (Feas := fun x => (∀ k, ∀ c ∈ csts (start pb) k, satK k c x) ∧
        RespectsFixed (start pb).values x) (fun x hx => hx.1)
  rcases run_cases (start pb) hc with ⟨_, h1⟩ | ⟨st, V0, mo, h1, h2, h3, h4, h5⟩
  · obtain ⟨x, hx⟩ := hF
    exact absurd ⟨x, (feas_iff pb x).mp hx⟩ h1
  · obtain ⟨ns, vs, an, _, _, _, h9⟩ := makeProblem_eq (start pb) st mo hc.lt wf.names_len
      h1.nodup h1.lt
    rw [h4 hq, objCopy_linear (start pb) _ (start pb).values.length hq wf.wf.obj_lt] at h9
    rw [h4 hq] at h5
    exact ⟨_, h5.trans h9⟩

/-- C09, termination: whatever the well formed problem, feasible or not and
whatever its objective, the loops end (the `fuel` fault, which stands for an
exhausted bound, never shows). -/
theorem C09_terminates (pb : RawProblem) (wf : WellFormedRaw pb) :
    preprocess pb ≠ .error .fuel := by
  have hc := ctx_of_wf (pb := start pb) wf.wf
    (Feas := fun x => (∀ k, ∀ c ∈ csts (start pb) k, satK k c x) ∧
        RespectsFixed (start pb).values x) (fun x hx => hx.1)
  intro h
  rcases run_cases (start pb) hc with ⟨h1, _⟩ | ⟨st, V0, mo, h1, h2, h3, h4, h5⟩
  · exact absurd (h1.symm.trans h) (by simp)
  · have h' : makeProblem (start pb) st mo = .error .fuel := h5.symm.trans h
    obtain ⟨ns, vs, an, _, _, _, h9⟩ := makeProblem_eq (start pb) st mo hc.lt wf.names_len
      h1.nodup h1.lt
    rw [h9] at h'
    cases ho : objCopy (start pb) (mappingLoop st.vars (start pb).values.length 0 0) mo with
    | ok o => rw [ho] at h'; simp [ok_bind] at h'
    | error f =>
      rw [ho] at h'
      simp only [error_bind, Except.error.injEq] at h'
      subst h'
      exact objCopy_not_fuel _ _ _ ho

example : ∃ red, preprocess exRaw = .ok red :=
  C09_returns_on_feasible_partial exRaw exRaw_wf rfl ⟨_, exRaw_solution⟩

/-- C09 does not hold for quadratic objectives: on max 2 a b with b + c = 1 the
merge of the quadratic terms dereferences the end iterator. -/
theorem C09_quadratic_undefined_behaviour :
    ∃ pb : RawProblem, WellFormedRaw pb ∧ (∃ x, IsSolution pb x) ∧
      preprocess pb = .error (.ub "it == end(ret.elements)") := by
  refine ⟨
    { type := .maximize, objective := { elems := [], qelems := [⟨2, 0, 2⟩], value := 0 },
      eqs := [{ label := "c1", elems := [⟨1, 1⟩, ⟨1, 2⟩], value := 1, id := 0 }],
      ges := [], les := [], names := ["a", "b", "c"],
      values := [⟨0, 1, .binary⟩, ⟨0, 1, .binary⟩, ⟨0, 1, .binary⟩] }, ?_,
      ⟨fun i => i = 1, by decide +kernel, ?_⟩, ?_⟩
  · refine ⟨⟨?_, ?_, ?_, ?_, ?_, ?_, ?_, ?_, ?_⟩, ?_, ?_⟩ <;> decide +kernel
  · intro i v h hb
    rcases i with _ | _ | _ | i <;> simp at h <;> subst h <;> simp at hb
  · decide +kernel

/-! ## C10 -/

/-- A well formed problem: as `WellFormedRaw`, and the variables already
affected have one value each and other names. -/
structure WellFormedPb (pb : Problem) : Prop where
  wf : WellFormed pb.objective pb.eqs pb.ges pb.les pb.values.length
  names_len : pb.names.length = pb.values.length
  names_nodup : pb.names.Nodup
  affected_len : pb.affected.names.length = pb.affected.values.length
  affected_disjoint : ∀ n ∈ pb.affected.names, n ∉ pb.names

private theorem affect_ok {pb : Problem} (wf : WellFormedPb pb) {v : Nat} {b : Bool}
    (hlen : ∀ c ∈ pb.eqs ++ pb.ges ++ pb.les, c.elems.length ≠ 1) {red : Problem}
    (h : affect pb v b = .ok red) :
    v < pb.values.length ∧
    ∃ st V0 mo, Fin pb (fun x => (∀ k, ∀ c ∈ csts pb k, satK k c x) ∧ x v = b) st V0 ∧
      NoOne st ∧ V0.lookup v = some b ∧ (pb.objective.qelems = [] → mo = {}) ∧
      Shape pb st mo red := by
  have hv : v < pb.values.length := by
    unfold affect at h
    obtain ⟨_, h1, _⟩ := bind_eq_ok.mp h
    simpa using (check_eq_ok.mp h1)
  have hc := ctx_of_wf (pb := pb) wf.wf
    (Feas := fun x => (∀ k, ∀ c ∈ csts pb k, satK k c x) ∧ x v = b) (fun x hx => hx.1)
  refine ⟨hv, ?_⟩
  rcases affect_cases pb v b hv hc (by
      intro k c hk
      refine hlen c ?_
      simp only [List.mem_append]
      cases k
      · exact Or.inl (Or.inl hk)
      · exact Or.inl (Or.inr hk)
      · exact Or.inr hk) with ⟨h1, _⟩ | ⟨st, V0, mo, h1, h2, h3, h4, h5⟩
  · exact absurd (h1.symm.trans h) (by simp)
  · exact ⟨st, V0, mo, h1, h2, h3, h4,
      makeProblem_shape hc.lt wf.names_len h1.nodup h1.lt (h5.symm.trans h)⟩

/-- C10, soundness of `affect`: a solution of the problem where variable `v`
has been given the value `b`, completed, is a solution of the original problem
in which `v` is `b`.  Partial: the problem has no constraint with exactly one
element, and it has a solution with that value of `v`. -/
theorem C10_affect_sound_partial (pb : Problem) (wf : WellFormedPb pb) (v : Nat) (b : Bool)
    (hlen : ∀ c ∈ pb.eqs ++ pb.ges ++ pb.les, c.elems.length ≠ 1) (red : Problem)
    (h : affect pb v b = .ok red)
    (hF : ∃ x, Satisfies pb.eqs pb.ges pb.les x ∧ x v = b)
    (x y : Assign) (hy : Satisfies red.eqs red.ges red.les y)
    (hx : Names pb.names (pairsOf red y) x) :
    Satisfies pb.eqs pb.ges pb.les x ∧ x v = b ∧
    (pb.objective.qelems = [] → objective red.objective y = objective pb.objective x) := by
  obtain ⟨hv, st, V0, mo, hf, hno, hV, hmo, hs⟩ := affect_ok wf hlen h
  have hc := ctx_of_wf (pb := pb) wf.wf
    (Feas := fun x => (∀ k, ∀ c ∈ csts pb k, satK k c x) ∧ x v = b) (fun x hx => hx.1)
  have hr := hs.rel_of_names wf.names_len wf.names_nodup wf.affected_len wf.affected_disjoint hx
  obtain ⟨z, hz, hzv⟩ := hF
  refine ⟨(satisfies_iff pb x).mpr (hf.sound hc hno ⟨z, (satisfies_iff pb z).mp hz, hzv⟩ hr
    ((hs.redSat y).mp hy)), ?_, ?_⟩
  · have h2 := hr v hv
    rw [hf.sub _ _ hV] at h2
    exact h2
  · intro hq
    have ho := hs.obj
    rw [hmo hq, objCopy_linear pb _ _ hq wf.wf.obj_lt] at ho
    rw [← Except.ok.inj ho]
    exact redObj_eq hr hq wf.wf.obj_lt

/-- C10, completeness of `affect`: every solution of the original problem in
which `v` is `b`, restricted to the remaining variables, is a solution of the
problem that `affect` returns. -/
theorem C10_affect_complete_partial (pb : Problem) (wf : WellFormedPb pb) (v : Nat) (b : Bool)
    (hlen : ∀ c ∈ pb.eqs ++ pb.ges ++ pb.les, c.elems.length ≠ 1) (red : Problem)
    (h : affect pb v b = .ok red) (x y : Assign) (hx : Satisfies pb.eqs pb.ges pb.les x)
    (hv : x v = b) (hr : Restricts pb.names red.names x y) :
    Satisfies red.eqs red.ges red.les y := by
  obtain ⟨-, st, V0, mo, hf, hno, hV, hmo, hs⟩ := affect_ok wf hlen h
  have hc := ctx_of_wf (pb := pb) wf.wf
    (Feas := fun x => (∀ k, ∀ c ∈ csts pb k, satK k c x) ∧ x v = b) (fun x hx => hx.1)
  rw [hs.redSat]
  exact hf.complete hc ⟨(satisfies_iff pb x).mp hx, hv⟩ (hs.rel_override wf.names_len hr)

/-- C10, `split`: every solution of the problem is, restricted, a solution of
the first half when the split variable is 1 and of the second half when it is
0; and the completions of the solutions of the two halves differ on that
variable. -/
theorem C10_split_covers_partial (pb : Problem) (wf : WellFormedPb pb) (v : Nat)
    (hlen : ∀ c ∈ pb.eqs ++ pb.ges ++ pb.les, c.elems.length ≠ 1) (one zero : Problem)
    (h : split pb v = .ok (one, zero)) :
    (∀ x, Satisfies pb.eqs pb.ges pb.les x →
      (x v = true → ∀ y, Restricts pb.names one.names x y →
        Satisfies one.eqs one.ges one.les y) ∧
      (x v = false → ∀ y, Restricts pb.names zero.names x y →
        Satisfies zero.eqs zero.ges zero.les y)) ∧
    (∀ x y x' y', Names pb.names (pairsOf one y) x → Names pb.names (pairsOf zero y') x' →
      x v = true ∧ x' v = false) := by
  unfold split at h
  obtain ⟨a, h1, h⟩ := bind_eq_ok.mp h
  obtain ⟨b, h2, h⟩ := bind_eq_ok.mp h
  simp only [Except.ok.injEq, Prod.mk.injEq] at h
  obtain ⟨rfl, rfl⟩ := h
  refine ⟨fun x hx => ⟨fun hv y hr => ?_, fun hv y hr => ?_⟩, ?_⟩
  · exact C10_affect_complete_partial pb wf v true hlen _ h1 x y hx hv hr
  · exact C10_affect_complete_partial pb wf v false hlen _ h2 x y hx hv hr
  · intro x y x' y' hx hx'
    obtain ⟨hv, st, V0, mo, hf, hno, hV, hmo, hs⟩ := affect_ok wf hlen h1
    obtain ⟨_, st', V0', mo', hf', hno', hV', hmo', hs'⟩ := affect_ok wf hlen h2
    constructor
    · have := hs.rel_of_names wf.names_len wf.names_nodup wf.affected_len wf.affected_disjoint
        hx v hv
      rw [hf.sub _ _ hV] at this
      exact this
    · have := hs'.rel_of_names wf.names_len wf.names_nodup wf.affected_len wf.affected_disjoint
        hx' v hv
      rw [hf'.sub _ _ hV'] at this
      exact this

/-- C10, `affect` ends: with a linear objective and no constraint with exactly one element, it returns a
problem, or it aborts and no solution gives `v` the value `b`. -/
theorem C10_affect_ends_partial (pb : Problem) (wf : WellFormedPb pb)
    (hq : pb.objective.qelems = []) (v : Nat) (b : Bool) (hv : v < pb.values.length)
    (hlen : ∀ c ∈ pb.eqs ++ pb.ges ++ pb.les, c.elems.length ≠ 1) :
    (∃ red, affect pb v b = .ok red) ∨
    (affect pb v b = .error (.contract "bx_reach") ∧
      ∀ x, Satisfies pb.eqs pb.ges pb.les x → x v ≠ b) := by
  have hc := ctx_of_wf (pb := pb) wf.wf
    (Feas := fun x => (∀ k, ∀ c ∈ csts pb k, satK k c x) ∧ x v = b) (fun x hx => hx.1)
  rcases affect_cases pb v b hv hc (by
      intro k c hk
      refine hlen c ?_
      simp only [List.mem_append]
      cases k
      · exact Or.inl (Or.inl hk)
      · exact Or.inl (Or.inr hk)
      · exact Or.inr hk) with ⟨h1, h2⟩ | ⟨st, V0, mo, h1, h2, h3, h4, h5⟩
  · exact Or.inr ⟨h1, fun x hx hxv => h2 ⟨x, (satisfies_iff pb x).mp hx, hxv⟩⟩
  · obtain ⟨ns, vs, an, _, _, _, h9⟩ := makeProblem_eq pb st mo hc.lt wf.names_len h1.nodup h1.lt
    rw [h4 hq, objCopy_linear pb _ pb.values.length hq wf.wf.obj_lt] at h9
    rw [h4 hq] at h5
    exact Or.inl ⟨_, h5.trans h9⟩

/-- C10, `split` returns: when some solution gives the variable the value 1 and another gives it 0. -/
theorem C10_split_returns_partial (pb : Problem) (wf : WellFormedPb pb)
    (hq : pb.objective.qelems = []) (v : Nat) (hv : v < pb.values.length)
    (hlen : ∀ c ∈ pb.eqs ++ pb.ges ++ pb.les, c.elems.length ≠ 1)
    (h1 : ∃ x, Satisfies pb.eqs pb.ges pb.les x ∧ x v = true)
    (h0 : ∃ x, Satisfies pb.eqs pb.ges pb.les x ∧ x v = false) :
    ∃ one zero, split pb v = .ok (one, zero) := by
  obtain ⟨x, hx, hxv⟩ := h1
  obtain ⟨y, hy, hyv⟩ := h0
  rcases C10_affect_ends_partial pb wf hq v true hv hlen with ⟨a, ha⟩ | ⟨_, h⟩
  · rcases C10_affect_ends_partial pb wf hq v false hv hlen with ⟨b, hb⟩ | ⟨_, h⟩
    · exact ⟨a, b, by unfold split; rw [ha, ok_bind, hb, ok_bind]⟩
    · exact absurd hyv (h y hy)
  · exact absurd hxv (h x hx)

/-- What a `WellFormedRaw` problem gives is what `affect` needs. -/
theorem C10_preprocessed_is_well_formed (pb : RawProblem) (wf : WellFormedRaw pb)
    (hq : pb.objective.qelems = []) (red : Problem) (h : preprocess pb = .ok red) :
    WellFormedPb red ∧ ∀ c ∈ red.eqs ++ red.ges ++ red.les, c.elems.length ≠ 1 := by
  obtain ⟨p1, p2, p3, p4, -, -, c1, c2, c3⟩ := C04_variables_partitioned pb wf red h
  obtain ⟨st, V0, mo, hf, hno, hfix, hmo, hs⟩ := ok_cases wf h
  have ho := hs.obj
  rw [hmo hq, objCopy_linear (start pb) _ (start pb).values.length hq wf.wf.obj_lt] at ho
  have hnd : (red.affected.names ++ red.names).Nodup := p1.nodup_iff.mpr wf.names_nodup
  rw [p4] at c1 c2 c3
  have q : ∀ c ∈ red.eqs ++ red.ges ++ red.les, c.elems.length ≠ 1 := by
    intro c hc
    obtain ⟨-, -, -, -, hm⟩ := hs.csts_wf wf.wf
    have : ∃ k, c ∈ csts red k := by
      rcases List.mem_append.mp hc with hc | hc
      · rcases List.mem_append.mp hc with hc | hc
        · exact ⟨.eq, hc⟩
        · exact ⟨.ge, hc⟩
      · exact ⟨.le, hc⟩
    obtain ⟨k, hk⟩ := this
    obtain ⟨i, c', h1, h2, rfl⟩ := hm k c hk
    have := hf.cnt k i c' h1 (by omega)
    simp only [redCst, List.length_map]
    omega
  refine ⟨⟨⟨?_, ?_, ?_, c2, c3, ?_, ?_, ?_, ?_⟩, p4, p2.nodup wf.names_nodup, p3, ?_⟩, q⟩
  · exact fun c hc => (c1 c (by simp [hc])).1
  · exact fun c hc => (c1 c (by simp [hc])).1
  · exact fun c hc => (c1 c (by simp [hc])).1
  · exact fun c hc => (c1 c (by simp [hc])).2
  · exact fun c hc => (c1 c (by simp [hc])).2
  · exact fun c hc => (c1 c (by simp [hc])).2
  · rw [← Except.ok.inj ho]
    simp only [redObj, List.map_map]
    have h1 : ((pb.objective.elems.filter fun e => (st.vars.lookup e.var).isNone).map
        ObjElem.var).Nodup :=
      wf.wf.obj_nodup.sublist (List.Sublist.map _ List.filter_sublist)
    have : (List.map (ObjElem.var ∘ fun e => ⟨e.factor, newIdx st.vars e.var⟩)
        (pb.objective.elems.filter fun e => (st.vars.lookup e.var).isNone)) =
        ((pb.objective.elems.filter fun e => (st.vars.lookup e.var).isNone).map
          ObjElem.var).map (newIdx st.vars) := by
      rw [List.map_map]; rfl
    show (List.map (ObjElem.var ∘ fun e => ⟨e.factor, newIdx st.vars e.var⟩)
        (pb.objective.elems.filter fun e => (st.vars.lookup e.var).isNone)).Nodup
    rw [this]
    refine List.Nodup.map_on ?_ h1
    intro a ha b hb hab
    obtain ⟨ea, hea, rfl⟩ := List.mem_map.mp ha
    obtain ⟨eb, heb, rfl⟩ := List.mem_map.mp hb
    rw [List.mem_filter] at hea heb
    have k1 := keptIdx_get st.vars (wf.wf.obj_lt ea hea.1) (by simpa using hea.2)
    have k2 := keptIdx_get st.vars (wf.wf.obj_lt eb heb.1) (by simpa using heb.2)
    rw [hab, k2] at k1
    exact (Option.some.inj k1).symm
  · intro n hn hn'
    exact (List.nodup_append.mp hnd).2.2 n hn n hn' rfl

example : (split exRed 0).isOk = true ∧ (∀ c ∈ exRed.eqs ++ exRed.ges ++ exRed.les,
    c.elems.length ≠ 1) ∧ WellFormedPb exRed :=
  ⟨by decide +kernel, by decide +kernel,
   (C10_preprocessed_is_well_formed exRaw exRaw_wf rfl exRed exRaw_runs).1⟩

/-- The hypotheses of `C10_split_returns_partial` on the same problem. -/
example : ∃ one zero, split exRed 0 = .ok (one, zero) :=
  C10_split_returns_partial exRed
    (C10_preprocessed_is_well_formed exRaw exRaw_wf rfl exRed exRaw_runs).1 rfl 0 (by decide +kernel)
    (by decide +kernel) ⟨fun i => decide (i = 0), by decide +kernel⟩ ⟨fun i => decide (i = 1), by decide +kernel⟩

/-- C10 does not hold in general, one-element constraints: `affect` drops them
unchecked.  With a = 0 and b + c <= 1, giving `b` the value 1 returns a problem
without the constraint on `a`. -/
theorem C10_affect_drops_single_element_constraint :
    ∃ (pb : Problem) (v : Nat) (b : Bool) (red : Problem) (x y : Assign),
      WellFormedPb pb ∧ affect pb v b = .ok red ∧
      (∃ z, Satisfies pb.eqs pb.ges pb.les z ∧ z v = b) ∧
      Satisfies red.eqs red.ges red.les y ∧ Names pb.names (pairsOf red y) x ∧
      ¬ Satisfies pb.eqs pb.ges pb.les x := by
  refine ⟨
    { type := .maximize, objective := { elems := [⟨1, 0⟩], value := 0 },
      eqs := [{ label := "c1", elems := [⟨1, 0⟩], value := 0, id := 0 }], ges := [],
      les := [{ label := "c2", elems := [⟨1, 1⟩, ⟨1, 2⟩], value := 1, id := 1 }],
      names := ["a", "b", "c"],
      values := [⟨0, 1, .binary⟩, ⟨0, 1, .binary⟩, ⟨0, 1, .binary⟩],
      affected := {}, ptype := .inequalities01 }, 1, true,
    { type := .maximize, objective := { elems := [⟨1, 0⟩], value := 0 },
      eqs := [], ges := [], les := [], names := ["a"], values := [⟨0, 1, .binary⟩],
      affected := { names := ["b", "c"], values := [1, 0] }, ptype := .equalities01 },
    fun i => i = 0 ∨ i = 1, fun _ => true, ?_, ?_, ⟨fun i => i = 1, by decide +kernel⟩, ?_, ?_, ?_⟩
  · refine ⟨⟨?_, ?_, ?_, ?_, ?_, ?_, ?_, ?_, ?_⟩, ?_, ?_, ?_, ?_⟩ <;> decide +kernel
  · decide +kernel
  · decide +kernel
  · intro i n h
    rcases i with _ | _ | _ | i <;> simp at h <;> subst h <;> decide +kernel
  · decide +kernel

/-- C10 does not hold in general, one infeasible half: `split` aborts although
the problem has a solution.  2 a + b <= 1 and a + b >= 1 has the solution
b = 1 but the half a = 1 reaches `bx_reach`. -/
theorem C10_split_aborts_on_infeasible_half :
    ∃ (pb : Problem) (v : Nat), WellFormedPb pb ∧ v < pb.values.length ∧
      (∀ c ∈ pb.eqs ++ pb.ges ++ pb.les, c.elems.length ≠ 1) ∧
      (∃ x, Satisfies pb.eqs pb.ges pb.les x) ∧
      split pb v = .error (.contract "bx_reach") := by
  refine ⟨
    { type := .maximize, objective := { elems := [⟨1, 0⟩], value := 0 },
      eqs := [], ges := [{ label := "c1", elems := [⟨1, 0⟩, ⟨1, 1⟩], value := 1, id := 0 }],
      les := [{ label := "c2", elems := [⟨2, 0⟩, ⟨1, 1⟩], value := 1, id := 1 }],
      names := ["a", "b"],
      values := [⟨0, 1, .binary⟩, ⟨0, 1, .binary⟩],
      affected := {}, ptype := .inequalitiesZ }, 0, ?_, by decide +kernel, by decide +kernel,
      ⟨fun i => i = 1, by decide +kernel⟩, by decide +kernel⟩
  refine ⟨⟨?_, ?_, ?_, ?_, ?_, ?_, ?_, ?_, ?_⟩, ?_, ?_, ?_, ?_⟩ <;> decide +kernel

/-! ## C11 -/

/-- C11: without preprocessing the problem is the raw problem: same direction,
objective, constraints, variables and bounds, and nothing affected. -/
theorem C11_unpreprocess_identity (pb : RawProblem) :
    (unpreprocess pb).type = pb.type ∧ (unpreprocess pb).objective = pb.objective ∧
    (unpreprocess pb).eqs = pb.eqs ∧ (unpreprocess pb).ges = pb.ges ∧
    (unpreprocess pb).les = pb.les ∧ (unpreprocess pb).names = pb.names ∧
    (unpreprocess pb).values = pb.values ∧ (unpreprocess pb).affected.names = [] ∧
    (unpreprocess pb).affected.values = [] :=
  ⟨rfl, rfl, rfl, rfl, rfl, rfl, rfl, rfl, rfl⟩

example : (unpreprocess exRaw).names = ["a", "b", "c", "d", "e", "f"] :=
  (C11_unpreprocess_identity exRaw).2.2.2.2.2.1

/-! ## C12 -/

private theorem makeProblem_class {pb : Problem} {st : St} {mo : MergeObj} {red : Problem}
    (h : makeProblem pb st mo = .ok red) :
    red.ptype = ProblemType.whichProblemType red.eqs red.ges red.les := by
  unfold makeProblem at h
  obtain ⟨_, _, h⟩ := bind_eq_ok.mp h
  obtain ⟨_, _, h⟩ := bind_eq_ok.mp h
  obtain ⟨⟨_, _, _, _⟩, _, h⟩ := bind_eq_ok.mp h
  obtain ⟨_, _, h⟩ := bind_eq_ok.mp h
  obtain ⟨_, _, h⟩ := bind_eq_ok.mp h
  obtain ⟨_, _, h⟩ := bind_eq_ok.mp h
  obtain ⟨_, _, h⟩ := bind_eq_ok.mp h
  obtain ⟨_, _, h⟩ := bind_eq_ok.mp h
  rw [← Except.ok.inj h]

private theorem finish_class {pb : Problem} {st : St} {red : Problem}
    (h : finish pb st = .ok red) :
    red.ptype = ProblemType.whichProblemType red.eqs red.ges red.les := by
  unfold finish at h
  obtain ⟨_, _, h⟩ := bind_eq_ok.mp h
  exact makeProblem_class h

/-- C12: the problem given to the solver is classified by its own constraints
(`C12_classification` says how), whether it is preprocessed, copied or obtained by
fixing a variable: the class of a reduced problem is not the class of the problem
it comes from. -/
theorem C12_class_of_the_solved_problem (raw : RawProblem) (pb red : Problem) (v : Nat) (b : Bool)
    (h : preprocess raw = .ok red ∨ unpreprocess raw = red ∨ affect pb v b = .ok red) :
    red.ptype = ProblemType.whichProblemType red.eqs red.ges red.les := by
  rcases h with h | h | h
  · unfold preprocess run at h
    split at h
    · simp at h
    · obtain ⟨_, _, h⟩ := bind_eq_ok.mp h
      obtain ⟨_, _, h⟩ := bind_eq_ok.mp h
      exact finish_class h
  · subst h; rfl
  · unfold affect at h
    obtain ⟨_, _, h⟩ := bind_eq_ok.mp h
    split at h
    · simp at h
    · obtain ⟨_, _, h⟩ := bind_eq_ok.mp h
      exact finish_class h

example : exRed.ptype = ProblemType.whichProblemType exRed.eqs exRed.ges exRed.les :=
  C12_class_of_the_solved_problem exRaw exRed exRed 0 true (Or.inl exRaw_runs)

end Bx.Preprocess
