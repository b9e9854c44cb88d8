import Verif.Proofs.Coefficients
import Verif.Props.Itm

/-!
# C133: the coefficients that a solver uses are those of the constraints

The solvers do not keep the constraints: they keep the places of the coefficients in a sparse matrix and the
coefficients in another array, one bit each in the -1/0/1 inequality solver.  The statements read both.
-/

namespace Bx.Stored

open Merge SolverCtor Spec Sparse

/-- What a solver is built with: constraints that its constructor accepts, on the variables of the problem. -/
theorem built {t : SolverType} {csts : List Merged} {n : Nat} {s : Itm.Slv}
    (hs : Itm.makeSlv t csts n = .ok s) (hv : ∀ c ∈ csts, ∀ e ∈ c.elems, e.var < n) :
    0 < n ∧ 0 < csts.length ∧ make csts n = .ok (result csts n) ∧
    ∃ a, fill t (csts.flatMap Merged.elems) (Sparse.length (result csts n)) = .ok a ∧
      ∀ (i : Nat) (e : FunElem), (csts.flatMap Merged.elems)[i]? = some e →
        factor a i = .ok e.factor := by
  obtain ⟨_, _, hcap, _, ⟨c0, hc0, hl⟩, _, hrows⟩ := Itm.makeSlv_facts hs
  have hne : c0.elems ≠ [] := by
    intro h
    rw [h] at hl
    simp at hl
    omega
  obtain ⟨e0, he0⟩ := List.exists_mem_of_ne_nil _ hne
  have h0 := hv c0 hc0 e0 he0
  have hlen : Sparse.length (result csts n) = (csts.flatMap Merged.elems).length := by
    have := congrArg List.length (accessors_ids csts)
    simpa [Sparse.length, result] using this
  refine ⟨by omega, List.length_pos_of_mem hc0, make_eq csts n ?_ ?_, ?_⟩
  · intro e he
    obtain ⟨c, hc, he⟩ := List.mem_flatMap.mp he
    exact hv c hc e he
  · intro h
    have : e0 ∈ csts.flatMap Merged.elems := List.mem_flatMap.mpr ⟨c0, hc0, he0⟩
    rw [h] at this
    simp at this
  · rw [hlen]
    apply fill_spec
    intro e he
    obtain ⟨c, hc, he⟩ := List.mem_flatMap.mp he
    obtain ⟨k, hk⟩ := List.mem_iff_getElem?.mp hc
    obtain ⟨b, _, _, hb⟩ := hrows k c hk
    exact ctor_allowed hb e he

/-- C133: the constructor fills the matrix and the coefficients without an error; then a row gives, in order, the
coefficients and the variables of its constraint, whichever the solver and however many coefficients there are. -/
theorem C133_rows_are_the_constraints (t : SolverType) (csts : List Merged) (n : Nat) (s : Itm.Slv)
    (hs : Itm.makeSlv t csts n = .ok s) (hv : ∀ c ∈ csts, ∀ e ∈ c.elems, e.var < n) :
    ∃ m a, make csts n = .ok m ∧ fill t (csts.flatMap Merged.elems) (Sparse.length m) = .ok a ∧
      ∀ (k : Nat) (c : Merged), csts[k]? = some c → ∃ R, row m k = .ok R ∧
        R.mapM (fun r => factor a r.value) = .ok (c.elems.map FunElem.factor) ∧
        R.map RowValue.column = c.elems.map FunElem.var := by
  obtain ⟨hn, _, hm, a, ha, hf⟩ := built hs hv
  refine ⟨_, a, hm, ha, ?_⟩
  intro k c hk
  obtain ⟨R, hR, hall⟩ := row_spec hn hf hk
  refine ⟨R, hR, ?_, ?_⟩
  · clear hR hk
    generalize c.elems = es at hall ⊢
    induction hall with
    | nil => rfl
    | cons h _ ih => rw [List.mapM_cons, h.1, ok_bind, ih]; rfl
  · clear hR hk
    generalize c.elems = es at hall ⊢
    induction hall with
    | nil => rfl
    | cons h _ ih => rw [List.map_cons, List.map_cons, h.2, ih]

/-- C133: the constraints that are found to be violated with the matrix and the coefficients of the solver are those
that the assignment does not respect, in the order of the constraints. -/
theorem C133_violated_constraints (t : SolverType) (csts : List Merged) (n : Nat) (s : Itm.Slv)
    (hs : Itm.makeSlv t csts n = .ok s) (hv : ∀ c ∈ csts, ∀ e ∈ c.elems, e.var < n) (x : Assign) :
    ∃ m a l, make csts n = .ok m ∧ fill t (csts.flatMap Merged.elems) (Sparse.length m) = .ok a ∧
      violatedLoop m a s.bounds x (List.range csts.length) = .ok l ∧
      Itm.violated s x = .ok l ∧ l.Pairwise (· < ·) ∧
      ∀ k, k ∈ l ↔ ∃ c, csts[k]? = some c ∧
        ¬ (c.min ≤ lhs x c.elems ∧ lhs x c.elems ≤ c.max) := by
  obtain ⟨hn, _, hm, a, ha, hf⟩ := built hs hv
  obtain ⟨l, _, h1, _, _, _, _, h2, h3, _⟩ := Itm.C27_count_is_exact t csts n s hs x
  refine ⟨_, a, l, hm, ha, ?_, h1, h2, h3⟩
  obtain ⟨hk, hr, _, _, _, _, hrows⟩ := Itm.makeSlv_facts hs
  rw [← h1, Itm.violated, show s.rows.length = csts.length by rw [hr, List.length_map]]
  have key : ∀ k, k < csts.length →
      isValid (result csts n) a s.bounds k x = Itm.isValidConstraint s k x := by
    intro k hlt
    have hget := List.getElem?_eq_getElem hlt
    obtain ⟨b, g1, g2, g3⟩ := hrows k _ hget
    obtain ⟨R, hR, hall⟩ := row_spec hn hf hget
    have hb : s.bounds[k]? = some b := by
      unfold Itm.boundOf at g2
      split at g2
      · exact absurd g2 (by simp)
      · rename_i b' hb'
        rw [hb', Except.ok.inj g2]
    unfold isValid Itm.isValidConstraint
    rw [hR, ok_bind, rowSum_spec x R _ 0 hall, ok_bind, hb, g1, ok_bind, g2, ok_bind]
    rw [hk, Itm.rowValue_lhs g3, Int.zero_add]
  have : ∀ ks : List Nat, (∀ k ∈ ks, k < csts.length) →
      violatedLoop (result csts n) a s.bounds x ks = Itm.violatedLoop s x ks := by
    intro ks
    induction ks with
    | nil => intro _; rfl
    | cons k ks ih =>
      intro h
      rw [violatedLoop, Itm.violatedLoop, key k (h k (by simp)), ih (fun i hi => h i (by simp [hi]))]
  exact this _ (fun k hk => List.mem_range.mp hk)

/-- C133: a column of the matrix gives the coefficients of its variable, each with its constraint, in the order of the
constraints: what the reduced costs are computed with. -/
theorem C133_columns_are_the_constraints (t : SolverType) (csts : List Merged) (n : Nat) (s : Itm.Slv)
    (hs : Itm.makeSlv t csts n = .ok s) (hv : ∀ c ∈ csts, ∀ e ∈ c.elems, e.var < n) (j : Nat) (hj : j < n) :
    ∃ m a, make csts n = .ok m ∧ fill t (csts.flatMap Merged.elems) (Sparse.length m) = .ok a ∧
      columnOf m a j = .ok (Mult.column s j) ∧
      ∀ k f, (k, f) ∈ Mult.column s j ↔
        ∃ c e, csts[k]? = some c ∧ e ∈ c.elems ∧ e.var = j ∧ e.factor = f := by
  obtain ⟨hn, hc, hm, a, ha, hf⟩ := built hs hv
  obtain ⟨hk, hr, _, _, _, _, hrows⟩ := Itm.makeSlv_facts hs
  have hfac : ∀ c ∈ csts, ∀ e ∈ c.elems, Itm.factor s.kind e = e.factor := by
    intro c hc e he
    obtain ⟨k, hget⟩ := List.mem_iff_getElem?.mp hc
    obtain ⟨b, _, _, hb⟩ := hrows k c hget
    have := ctor_allowed hb e he
    rw [hk]
    cases t <;> first | rfl | exact this.symm
  refine ⟨_, a, hm, ha, ?_, ?_⟩
  · rw [columnOf_spec hc hf hj, column_pre csts s j hr hfac]
  · intro k f
    rw [column_pre csts s j hr hfac, List.mem_map]
    constructor
    · rintro ⟨p, hp, h⟩
      obtain ⟨hp, hd⟩ := List.mem_filter.mp hp
      unfold pre at hp
      obtain ⟨q, hq, hp⟩ := List.mem_flatMap.mp hp
      obtain ⟨e, he, rfl⟩ := List.mem_map.mp hp
      have := List.mk_mem_zipIdx_iff_getElem?.mp (show (q.1, q.2) ∈ csts.zipIdx from hq)
      simp only [Prod.mk.injEq] at h
      obtain ⟨rfl, rfl⟩ := h
      exact ⟨q.1, e, this, he, of_decide_eq_true hd, rfl⟩
    · rintro ⟨c, e, h1, h2, h3, h4⟩
      refine ⟨(k, e), List.mem_filter.mpr ⟨?_, decide_eq_true h3⟩, by rw [h4]⟩
      unfold pre
      exact List.mem_flatMap.mpr ⟨(c, k), List.mk_mem_zipIdx_iff_getElem?.mpr h1,
        List.mem_map.mpr ⟨e, h2, rfl⟩⟩

/-- A constraint on 70 variables, with a coefficient -1 for every third: the bits fill two words. -/
def exWide : List Merged :=
  [⟨(List.range 70).map fun i => ⟨if i % 3 = 0 then -1 else 1, i⟩, -5, 5, 0⟩,
   ⟨[⟨-1, 69⟩, ⟨1, 2⟩], 0, 1, 1⟩]

theorem exWide_slv : Itm.makeSlv .inequalities101 exWide 70 =
    .ok ⟨.inequalities101, exWide.map Merged.elems, [⟨-5, 5, 24⟩, ⟨0, 1, 1⟩], 70⟩ := by decide +kernel

/-- With every variable at 1 the first constraint is at 22 and the second at 0; variable 69 has the coefficient -1 in
both constraints, kept by the bits 69 and 70. -/
example : ∃ m a, make exWide 70 = .ok m ∧
    fill .inequalities101 (exWide.flatMap Merged.elems) (Sparse.length m) = .ok a ∧
    columnOf m a 69 = .ok [(0, -1), (1, -1)] := by
  obtain ⟨m, a, h1, h2, h3, _⟩ := C133_columns_are_the_constraints _ _ _ _ exWide_slv (by decide +kernel) 69 (by omega)
  exact ⟨m, a, h1, h2, h3.trans (by decide +kernel)⟩

example : ∃ m a, make exWide 70 = .ok m ∧
    fill .inequalities101 (exWide.flatMap Merged.elems) (Sparse.length m) = .ok a ∧
    violatedLoop m a [⟨-5, 5, 24⟩, ⟨0, 1, 1⟩] (fun _ => true) (List.range 2) = .ok [0] := by
  obtain ⟨m, a, l, h1, h2, h3, h4, _⟩ := C133_violated_constraints _ _ _ _ exWide_slv (by decide +kernel)
    fun _ => true
  have : Itm.violated ⟨.inequalities101, exWide.map Merged.elems, [⟨-5, 5, 24⟩, ⟨0, 1, 1⟩], 70⟩
    (fun _ => true) = .ok [0] := by decide +kernel
  obtain rfl := Except.ok.inj (h4.symm.trans this)
  exact ⟨m, a, h1, h2, h3⟩

end Bx.Stored
