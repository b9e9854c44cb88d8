import Verif.Proofs.Itm2

/-!
# C23-C27: updates of a row and violated constraints

A solver is built from merged constraints by `makeSlv` (`C17` and `C16` say when
this succeeds).  The order of the reduced costs and the answers of
`stop_iterating` are arbitrary (`Row`).
-/

namespace Bx.Itm

open Merge SolverCtor Spec

/-! ## C23 -/

/-- C23: with the equality solvers, updating the row of a constraint that some
assignment satisfies returns an assignment that satisfies it. -/
theorem C23_equality_update (t : SolverType) (ht : t = .equalities01 ∨ t = .equalities101)
    (csts : List Merged) (n : Nat) (s : Slv) (hs : makeSlv t csts n = .ok s)
    (k : Nat) (c : Merged) (hk : csts[k]? = some c) (hnd : (c.elems.map FunElem.var).Nodup)
    (hsat : ∃ y, c.min ≤ lhs y c.elems ∧ lhs y c.elems ≤ c.max)
    (o : Row) (ho : o.Ok) (x : Assign) :
    ∃ x', updateRow s o k x = .ok x' ∧ c.min ≤ lhs x' c.elems ∧ lhs x' c.elems ≤ c.max := by
  obtain ⟨_, _, _, _, _, _, hrows⟩ := makeSlv_facts hs
  obtain ⟨b, _, _, hc⟩ := hrows k c hk
  obtain ⟨_, _, hmm⟩ := ctor_eq_bounds hc ht
  obtain ⟨x', _, h2, h3⟩ := updateRow_eq hs ht hk hnd ho x
  obtain ⟨y, hy1, hy2⟩ := hsat
  have h4 := h3 ⟨y, by omega⟩
  refine ⟨x', ?_, by omega, by omega⟩
  rw [h2, if_pos h4]

/-- C23, other case: when no assignment satisfies the constraint the process is
stopped. -/
theorem C23_unsatisfiable_row_aborts (t : SolverType)
    (ht : t = .equalities01 ∨ t = .equalities101)
    (csts : List Merged) (n : Nat) (s : Slv) (hs : makeSlv t csts n = .ok s)
    (k : Nat) (c : Merged) (hk : csts[k]? = some c) (hnd : (c.elems.map FunElem.var).Nodup)
    (hun : ∀ y, ¬ (c.min ≤ lhs y c.elems ∧ lhs y c.elems ≤ c.max))
    (o : Row) (ho : o.Ok) (x : Assign) :
    updateRow s o k x = .error (.contract "is_valid_constraint(slv, k, x)") := by
  obtain ⟨_, _, _, _, _, _, hrows⟩ := makeSlv_facts hs
  obtain ⟨b, _, _, hc⟩ := hrows k c hk
  obtain ⟨_, _, hmm⟩ := ctor_eq_bounds hc ht
  obtain ⟨x', _, h2, _⟩ := updateRow_eq hs ht hk hnd ho x
  rw [h2, if_neg]
  intro h
  exact hun x' (by omega)

/-- x0 - x1 + x2 = 1 and x1 + x2 - x3 = 0. -/
def exCsts : List Merged :=
  [⟨[⟨1, 0⟩, ⟨-1, 1⟩, ⟨1, 2⟩], 1, 1, 0⟩, ⟨[⟨1, 1⟩, ⟨1, 2⟩, ⟨-1, 3⟩], 0, 0, 1⟩]

/-- Reverses `R` and never stops. -/
def exRow : Row := ⟨List.reverse, fun _ => false⟩

theorem exRow_ok : exRow.Ok := fun l => List.reverse_perm l

example : ∃ s x', makeSlv .equalities101 exCsts 4 = .ok s ∧
    updateRow s exRow 0 (fun _ => false) = .ok x' ∧ lhs x' [⟨1, 0⟩, ⟨-1, 1⟩, ⟨1, 2⟩] = 1 := by
  obtain ⟨s, hs⟩ : ∃ s, makeSlv .equalities101 exCsts 4 = .ok s :=
    ⟨⟨.equalities101, exCsts.map Merged.elems, [⟨1, 1, 1⟩, ⟨0, 0, 1⟩], 3⟩, by decide +kernel⟩
  obtain ⟨x', h1, h2, h3⟩ := C23_equality_update .equalities101 (Or.inr rfl) exCsts 4 s hs 0 _ rfl
    (by decide) ⟨fun j => j == 0, by decide⟩ exRow exRow_ok fun _ => false
  exact ⟨s, x', hs, h1, by simp only at h2 h3; omega⟩

/-! ## C24 -/

/-- C24, part: with the inequality solvers, updating the row of a constraint
that some assignment satisfies either returns an assignment that satisfies it,
or has undefined behaviour (`C25`), the second case only for a constraint that is
one of the longest.  Missing: the update of the longest constraints is not always
defined, see `C25_read_past_the_buffer`. -/
theorem C24_inequality_update_partial (t : SolverType)
    (ht : t = .inequalities01 ∨ t = .inequalities101)
    (csts : List Merged) (n : Nat) (s : Slv) (hs : makeSlv t csts n = .ok s)
    (k : Nat) (c : Merged) (hk : csts[k]? = some c) (hnd : (c.elems.map FunElem.var).Nodup)
    (hsat : ∃ y, c.min ≤ lhs y c.elems ∧ lhs y c.elems ≤ c.max)
    (o : Row) (ho : o.Ok) (x : Assign) :
    (∃ x', updateRow s o k x = .ok x' ∧ c.min ≤ lhs x' c.elems ∧ lhs x' c.elems ≤ c.max) ∨
    (updateRow s o k x = .error (.ub "R[i]") ∧
      ∀ d ∈ csts, d.elems.length ≤ c.elems.length) := by
  rcases updateRow_ineq hs ht hk hnd hsat ho x with ⟨x', h1, h2, _⟩ | ⟨h1, h2⟩
  · exact Or.inl ⟨x', h1, h2⟩
  · refine Or.inr ⟨h1, ?_⟩
    obtain ⟨_, _, _, hcap, _⟩ := makeSlv_facts hs
    intro d hd
    have := hcap d hd
    omega

/-- C24, the cell that is missing: if the buffer of the reduced costs had one
cell more than the longest constraint, the update would always return an
assignment that satisfies the constraint, whatever this cell holds. -/
theorem C24_one_more_cell (t : SolverType)
    (ht : t = .inequalities01 ∨ t = .inequalities101)
    (csts : List Merged) (n : Nat) (s : Slv) (hs : makeSlv t csts n = .ok s)
    (k : Nat) (c : Merged) (hk : csts[k]? = some c) (hnd : (c.elems.map FunElem.var).Nodup)
    (hsat : ∃ y, c.min ≤ lhs y c.elems ∧ lhs y c.elems ≤ c.max)
    (o : Row) (ho : o.Ok) (x : Assign) :
    ∃ x', updateRow { s with cap := s.cap + 1 } o k x = .ok x' ∧
      c.min ≤ lhs x' c.elems ∧ lhs x' c.elems ≤ c.max := by
  obtain ⟨hkind, _, hcap0, hcap, _, _, hrows⟩ := makeSlv_facts hs
  obtain ⟨b, hr, hb, hc⟩ := hrows k c hk
  have hu : UnitRow s.kind c.elems := hkind ▸ ctor_unit hc (by rcases ht with rfl | rfl <;> simp)
  have hlen := hcap c (List.mem_of_getElem? hk)
  obtain ⟨hb0, hb1, hb2, hb3, hb4⟩ := ctor_ineq_bounds hc ht hsat
  rw [← hkind] at hb1 hb2 hb3 hb4
  let s' : Slv := { s with cap := s.cap + 1 }
  have hr' : rowOf s' k = .ok c.elems := hr
  have hb' : boundOf s' k = .ok b := hb
  rcases select_ineq (s := s') (o := o) (row := c.elems) (b := b)
    (by show s.kind = _ ∨ s.kind = _; rw [hkind]; exact ht) hb0
    (by show _ ≤ s.cap + 1; omega) ⟨hb1, hb2⟩ ⟨hb3, hb4⟩ with ⟨sel, h1, h2, h3⟩ | ⟨_, h2, _⟩
  · have h2' : b.min + cSize s.kind c.elems ≤ sel + 1 := h2
    have h3' : sel + 1 ≤ b.max + cSize s.kind c.elems := h3
    obtain ⟨x', g1, g2, g3⟩ := affect_spec (s := s') hr' hb' hnd hu
      (by show _ ≤ s.cap + 1; omega) (by show _ < s.cap + 1; omega)
      (ids := o.sort (List.range c.elems.length)) (ho _) sel
      (by show sel < ((s.cap + 1 : Nat) : Int); omega) x
    have g2' : rowValue s.kind x' c.elems = (clamp sel c.elems.length : Int) - cSize s.kind c.elems :=
      g2
    have hv : rowValue s.kind x' c.elems = lhs x' c.elems := by rw [hkind]; exact rowValue_lhs hc x'
    have hin : b.min ≤ rowValue s.kind x' c.elems ∧ rowValue s.kind x' c.elems ≤ b.max := by
      rw [g2']; unfold clamp; omega
    refine ⟨x', ?_, ?_⟩
    · show updateRow s' o k x = .ok x'
      unfold updateRow
      simp only [hr', hb', ok_bind, h1, g3]
      rw [if_pos hin]
    · rw [hv] at hin
      exact (ctor_exact hc x').mp hin
  · have : s.cap + 1 ≤ c.elems.length := h2
    omega

/-- x0 + x1 + x2 >= 1 and x1 + x2 <= 1. -/
def exIneq : List Merged :=
  [⟨[⟨1, 0⟩, ⟨1, 1⟩, ⟨1, 2⟩], 1, 2147483647, 0⟩, ⟨[⟨1, 1⟩, ⟨1, 2⟩], -2147483648, 1, 1⟩]

theorem exIneq_make : makeSlv .inequalities01 exIneq 3 =
    .ok ⟨.inequalities01, exIneq.map Merged.elems, [⟨1, 3, 0⟩, ⟨0, 1, 0⟩], 3⟩ := by
  decide +kernel

example : ∃ x', updateRow ⟨.inequalities01, exIneq.map Merged.elems, [⟨1, 3, 0⟩, ⟨0, 1, 0⟩], 3⟩
    exRow 1 (fun _ => true) = .ok x' ∧ lhs x' [⟨1, 1⟩, ⟨1, 2⟩] ≤ 1 := by
  rcases C24_inequality_update_partial .inequalities01 (Or.inl rfl) exIneq 3 _ exIneq_make 1 _ rfl
    (by decide) ⟨fun _ => false, by decide⟩ exRow exRow_ok fun _ => true with ⟨x', h, _, h2⟩ | ⟨_, h⟩
  · exact ⟨x', h, h2⟩
  · have := h ⟨[⟨1, 0⟩, ⟨1, 1⟩, ⟨1, 2⟩], 1, 2147483647, 0⟩ (by simp [exIneq])
    exact absurd this (by decide)

/-! ## C25 -/

/-- C25, part: the equality solvers never read out of the buffer of the reduced
costs, and the inequality solvers do not either for a constraint shorter than
another one.  The only undefined behaviour of a row update is this read. -/
theorem C25_reads_in_bounds_partial (t : SolverType)
    (ht : t ≠ .equalitiesZ ∧ t ≠ .inequalitiesZ)
    (csts : List Merged) (n : Nat) (s : Slv) (hs : makeSlv t csts n = .ok s)
    (k : Nat) (c : Merged) (hk : csts[k]? = some c) (hnd : (c.elems.map FunElem.var).Nodup)
    (hsat : ∃ y, c.min ≤ lhs y c.elems ∧ lhs y c.elems ≤ c.max)
    (hshort : t = .equalities01 ∨ t = .equalities101 ∨
      ∃ d ∈ csts, c.elems.length < d.elems.length)
    (o : Row) (ho : o.Ok) (x : Assign) (w : String) :
    updateRow s o k x ≠ .error (.ub w) := by
  have heqs : (t = .equalities01 ∨ t = .equalities101) → updateRow s o k x ≠ .error (.ub w) := by
    intro h
    obtain ⟨x', h1, _⟩ := C23_equality_update t h csts n s hs k c hk hnd hsat o ho x
    rw [h1]; simp
  rcases hshort with h | h | ⟨d, hd, hlt⟩
  · exact heqs (Or.inl h)
  · exact heqs (Or.inr h)
  · by_cases he : t = .equalities01 ∨ t = .equalities101
    · exact heqs he
    · have hi : t = .inequalities01 ∨ t = .inequalities101 := by
        cases t <;> simp at he ht ⊢
      rcases C24_inequality_update_partial t hi csts n s hs k c hk hnd hsat o ho x with
        ⟨x', h1, _⟩ | ⟨_, h2⟩
      · rw [h1]; simp
      · have := h2 d hd; omega

/-- C25 is false: with the constraint x0 + x1 + x2 >= 1 alone, if no reduced
cost stops the selection (for instance all of them negative when minimising),
`R[3]` is read in a buffer of 3 cells. -/
theorem C25_read_past_the_buffer :
    ∃ (csts : List Merged) (s : Slv) (o : Row) (x : Assign),
      makeSlv .inequalities01 csts 3 = .ok s ∧ o.Ok ∧
      (∃ y, ∀ c ∈ csts, c.min ≤ lhs y c.elems ∧ lhs y c.elems ≤ c.max) ∧
      updateRow s o 0 x = .error (.ub "R[i]") :=
  ⟨exIneq, ⟨.inequalities01, exIneq.map Merged.elems, [⟨1, 3, 0⟩, ⟨0, 1, 0⟩], 3⟩, exRow,
    fun _ => false, exIneq_make, exRow_ok, ⟨fun j => j == 0, by decide⟩, by
      have : updateRow ⟨.inequalities01, exIneq.map Merged.elems, [⟨1, 3, 0⟩, ⟨0, 1, 0⟩], 3⟩
        exRow 0 (fun _ => false) = .error (.ub "R[i]") := by rfl
      exact this⟩

/-! ## C26 -/

/-- C26: a row update that returns changes no variable outside the constraint,
in every state of every of the four solvers, even for constraints that name a
variable twice. -/
theorem C26_frame (t : SolverType) (csts : List Merged) (n : Nat) (s : Slv)
    (hs : makeSlv t csts n = .ok s) (k : Nat) (c : Merged) (hk : csts[k]? = some c)
    (o : Row) (x x' : Assign) (h : updateRow s o k x = .ok x')
    (j : Nat) (hj : ∀ e ∈ c.elems, e.var ≠ j) : x' j = x j := by
  obtain ⟨_, _, _, _, _, _, hrows⟩ := makeSlv_facts hs
  obtain ⟨b, hr, _, _⟩ := hrows k c hk
  exact updateRow_frame h hr hj

example : ∃ s x', makeSlv .equalities101 exCsts 4 = .ok s ∧
    updateRow s exRow 0 (fun _ => true) = .ok x' ∧ x' 3 = true := by
  obtain ⟨s, hs⟩ : ∃ s, makeSlv .equalities101 exCsts 4 = .ok s :=
    ⟨⟨.equalities101, exCsts.map Merged.elems, [⟨1, 1, 1⟩, ⟨0, 0, 1⟩], 3⟩, by decide +kernel⟩
  obtain ⟨x', h1, _⟩ := C23_equality_update .equalities101 (Or.inr rfl) exCsts 4 s hs 0 _ rfl
    (by decide) ⟨fun j => j == 0, by decide⟩ exRow exRow_ok fun _ => true
  exact ⟨s, x', hs, h1, C26_frame _ _ _ _ hs 0 _ rfl _ _ _ h1 3 (by decide)⟩

/-! ## C27 -/

/-- C27: the three counts of remaining constraints (the vector of the violated
constraints, the plain count, the vector of constraints and distances) are the
list of the violated constraints, the number of them, and the same list with the
distance of the left-hand side to the bound; they are empty exactly when the
assignment respects every constraint. -/
theorem C27_count_is_exact (t : SolverType) (csts : List Merged) (n : Nat) (s : Slv)
    (hs : makeSlv t csts n = .ok s) (x : Assign) :
    ∃ (l : List Nat) (d : List (Nat × Int)),
      violated s x = .ok l ∧ localViolated s x = .ok l.length ∧ infeasibility s x = .ok d ∧
      isValidSolution s x = .ok (decide (l = [])) ∧
      d.map Prod.fst = l ∧ l.Pairwise (· < ·) ∧
      (∀ k, k ∈ l ↔ ∃ c, csts[k]? = some c ∧
        ¬ (c.min ≤ lhs x c.elems ∧ lhs x c.elems ≤ c.max)) ∧
      (∀ p ∈ d, ∃ c, csts[p.1]? = some c ∧ 0 < p.2 ∧
        (p.2 = c.min - lhs x c.elems ∨ p.2 = lhs x c.elems - c.max)) ∧
      (l = [] ↔ ∀ c ∈ csts, c.min ≤ lhs x c.elems ∧ lhs x c.elems ≤ c.max) := by
  obtain ⟨_, hrows, _⟩ := makeSlv_facts hs
  have hlen : s.rows.length = csts.length := by rw [hrows]; simp
  have hlt : ∀ k ∈ List.range s.rows.length, k < csts.length := by
    intro k hk; rw [List.mem_range, hlen] at hk; exact hk
  obtain ⟨h1, h2, h3⟩ := violatedLoop_spec hs x _ hlt
  obtain ⟨d, g1, g2, g3⟩ := infeasibilityLoop_spec hs x _ hlt
  have hmem : ∀ k, k ∈ (List.range s.rows.length).filter (fun k => decide (Violates csts x k)) ↔
      Violates csts x k := by
    intro k
    rw [List.mem_filter, List.mem_range, hlen, decide_eq_true_eq]
    constructor
    · exact fun h => h.2
    · rintro ⟨c, hc, hn⟩
      exact ⟨(List.getElem?_eq_some_iff.mp hc).1, c, hc, hn⟩
  refine ⟨(List.range s.rows.length).filter fun k => decide (Violates csts x k), d, h1, ?_, g1, h3,
    g2, ?_, hmem, ?_, ?_⟩
  · have := h2 0
    rwa [Nat.zero_add] at this
  · exact List.Pairwise.filter _ List.pairwise_lt_range
  · intro p hp
    obtain ⟨c, hc, hd, hpos⟩ := g3 p hp
    exact ⟨c, hc, hpos, hd⟩
  · constructor
    · intro he c hc
      obtain ⟨k, hk⟩ := List.getElem?_of_mem hc
      by_contra hn
      have := (hmem k).mpr ⟨c, hk, hn⟩
      rw [he] at this
      simp at this
    · intro h
      rw [List.eq_nil_iff_forall_not_mem]
      intro k hk
      obtain ⟨c, hc, hn⟩ := (hmem k).mp hk
      exact hn (h c (List.mem_of_getElem? hc))

example : ∃ s, makeSlv .equalities101 exCsts 4 = .ok s ∧
    violated s (fun _ => true) = .ok [1] ∧ infeasibility s (fun _ => true) = .ok [(1, 1)] :=
  ⟨⟨.equalities101, exCsts.map Merged.elems, [⟨1, 1, 1⟩, ⟨0, 0, 1⟩], 3⟩, by decide +kernel, by decide +kernel,
    by decide +kernel⟩

end Bx.Itm
