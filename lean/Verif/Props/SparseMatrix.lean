import Verif.Proofs.SparseMatrix

/-!
# C17: the sparse matrix
-/

namespace Bx.Sparse

open Merge

/-- C17: for constraints with at least one element and in-range variables, the
constructor succeeds and

* iterating row `k` visits the elements of constraint `k` in order: the slots
  index the list of all the elements (the array `A` of the solvers), and the
  columns are the variables;
* iterating column `j` visits exactly the slots where variable `j` appears, each
  with its row, by increasing slot;
* each slot appears exactly once in the rows and exactly once in the columns. -/
theorem C17_matrix_is_exact (csts : List Merged) (cols : Nat)
    (hv : ∀ c ∈ csts, ∀ e ∈ c.elems, e.var < cols) (hne : ∃ c ∈ csts, c.elems ≠ []) :
    let slots := csts.flatMap Merged.elems
    ∃ (m : Matrix) (R : Nat → List RowValue) (C : Nat → List ColValue),
      make csts cols = .ok m ∧ length m = slots.length ∧
      (∀ k, k < csts.length → row m k = .ok (R k)) ∧
      (∀ j, j < cols → column m j = .ok (C j)) ∧
      (∀ k c, csts[k]? = some c → (R k).map (fun v => slots[v.value]?) = c.elems.map some ∧
        (R k).map RowValue.column = c.elems.map FunElem.var) ∧
      (∀ j p i, j < cols → (⟨p, i⟩ ∈ C j ↔ i < csts.length ∧ ⟨p, j⟩ ∈ R i)) ∧
      (∀ j, j < cols → ((C j).map ColValue.value).Pairwise (· < ·)) ∧
      ((List.range csts.length).flatMap R).map RowValue.value = List.range slots.length ∧
      (((List.range cols).flatMap C).map ColValue.value).Perm (List.range slots.length) := by
  intro slots
  have hv' : ∀ e ∈ csts.flatMap Merged.elems, e.var < cols := by
    intro e he
    obtain ⟨c, hc, hec⟩ := List.mem_flatMap.mp he
    exact hv c hc e hec
  have hne' : csts.flatMap Merged.elems ≠ [] := by
    obtain ⟨c, hc, h⟩ := hne
    intro h0
    obtain ⟨e, l, he⟩ := List.exists_cons_of_ne_nil h
    have : e ∈ csts.flatMap Merged.elems := List.mem_flatMap.mpr ⟨c, hc, by simp [he]⟩
    rw [h0] at this
    simp at this
  have hm : 0 < csts.length := by
    obtain ⟨c, hc, _⟩ := hne
    exact List.length_pos_of_mem hc
  have hcols : 0 < cols := by
    obtain ⟨e, l, he⟩ := List.exists_cons_of_ne_nil hne'
    have := hv' e (by simp [he])
    omega
  have hlen : (accessors csts).length = slots.length := by
    have := congrArg List.length (accessors_cols csts)
    simpa [slots] using this
  have hids : ((accessors csts).map Access.id).Pairwise (· < ·) := by
    rw [accessors_ids]; exact List.pairwise_lt_range
  refine ⟨result csts cols,
    fun k => ((accessors csts).filter fun a => decide (a.row = k)).map fun a => ⟨a.id, a.col⟩,
    fun j => ((accessors csts).filter fun a => decide (a.col = j)).map fun a => ⟨a.id, a.row⟩,
    make_eq csts cols hv' hne', by simp [length, result, hlen],
    fun k hk => row_eq csts cols k hk hcols, fun j hj => column_eq csts cols j hj hm,
    ?_, ?_, ?_, ?_, ?_⟩
  · intro k c hk
    obtain ⟨h1, h2⟩ := accessors_row csts k c hk
    constructor
    · rw [List.map_map]; exact h1
    · rw [List.map_map]; exact h2
  · intro j p i hj
    simp only [List.mem_map, List.mem_filter, decide_eq_true_iff, ColValue.mk.injEq,
      RowValue.mk.injEq]
    constructor
    · rintro ⟨a, ⟨ha, h1⟩, h2, h3⟩
      exact ⟨by rw [← h3]; exact accessors_row_lt csts a ha, a, ⟨ha, h3⟩, h2, h1⟩
    · rintro ⟨_, a, ⟨ha, h1⟩, h2, h3⟩
      exact ⟨a, ⟨ha, h3⟩, h2, h1⟩
  · intro j _
    rw [List.map_map]
    have : (accessors csts).Pairwise fun a b => a.id < b.id := List.pairwise_map.mp hids
    exact List.pairwise_map.mpr (this.filter _)
  · have key : ∀ n, (List.range n).flatMap
        (fun k => (accessors csts).filter fun a => decide (a.row = k)) =
        (accessors csts).filter fun a => decide (a.row < n) := by
      intro n
      induction n with
      | zero => simp
      | succ n ih =>
        rw [List.range_succ, List.flatMap_append, ih]
        simp only [List.flatMap_cons, List.flatMap_nil, List.append_nil]
        have hs : ((accessors csts).filter fun a => decide (a.row < n + 1)).Pairwise
            fun a b => a.row ≤ b.row := (accessors_sorted csts).filter _
        have := split_filter Access.row _ n hs
        rw [List.filter_filter, List.filter_filter, List.filter_filter] at this
        rw [this]
        have e1 : (accessors csts).filter (fun a => decide (n < a.row) && decide (a.row < n + 1)) =
            [] := by
          rw [List.filter_eq_nil_iff]; intro a _; simp; omega
        rw [e1, List.append_nil]
        congr 1
        · apply List.filter_congr; intro a _
          by_cases h : a.row < n
          · have : a.row < n + 1 := by omega
            simp [h, this]
          · simp [h]
        · apply List.filter_congr; intro a _
          by_cases h : a.row = n
          · have : a.row < n + 1 := by omega
            simp [h]
          · simp [h]
    have h1 : (List.range csts.length).flatMap (fun k =>
        ((accessors csts).filter fun a => decide (a.row = k)).map
          fun a => (⟨a.id, a.col⟩ : RowValue)) =
        ((List.range csts.length).flatMap
          fun k => (accessors csts).filter fun a => decide (a.row = k)).map
          fun a => ⟨a.id, a.col⟩ := by
      rw [List.map_flatMap]
    rw [h1, key, List.map_map]
    have h2 : (accessors csts).filter (fun a => decide (a.row < csts.length)) = accessors csts := by
      rw [List.filter_eq_self]
      intro a ha
      simpa using accessors_row_lt csts a ha
    rw [h2]
    exact accessors_ids csts
  · have h1 : ((List.range cols).flatMap (fun k =>
        ((accessors csts).filter fun a => decide (a.col = k)).map
          fun a => (⟨a.id, a.row⟩ : ColValue))).map ColValue.value =
        ((List.range cols).flatMap
          fun k => (accessors csts).filter fun a => decide (a.col = k)).map Access.id := by
      rw [List.map_flatMap, List.map_flatMap]
      simp only [List.map_map]
      rfl
    rw [h1, ← accessors_ids]
    apply List.Perm.map
    have key : ∀ n, ((List.range n).flatMap
        (fun k => (accessors csts).filter fun a => decide (a.col = k))).Perm
        ((accessors csts).filter fun a => decide (a.col < n)) := by
      intro n
      induction n with
      | zero => simp
      | succ n ih =>
        rw [List.range_succ, List.flatMap_append]
        simp only [List.flatMap_cons, List.flatMap_nil, List.append_nil]
        refine (List.Perm.append_right _ ih).trans ?_
        have := List.filter_append_perm (fun a : Access => decide (a.col < n))
          ((accessors csts).filter fun a => decide (a.col < n + 1))
        rw [List.filter_filter, List.filter_filter] at this
        refine List.Perm.trans ?_ this
        apply List.Perm.of_eq
        congr 1
        · apply List.filter_congr; intro a _
          by_cases h : a.col < n
          · have : a.col < n + 1 := by omega
            simp [h, this]
          · simp [h]
        · apply List.filter_congr; intro a _
          rcases Nat.lt_trichotomy a.col n with h | h | h
          · have : ¬ a.col = n := by omega
            simp [h, this]
          · simp [h]
          · have h1 : ¬ a.col = n := by omega
            have h2 : ¬ a.col < n + 1 := by omega
            simp [h1, h2]
    refine (key cols).trans (List.Perm.of_eq ?_)
    rw [List.filter_eq_self]
    intro a ha
    have : a.col ∈ (accessors csts).map Access.col := List.mem_map_of_mem ha
    rw [accessors_cols] at this
    obtain ⟨e, he, h⟩ := List.mem_map.mp this
    have := hv' e he
    simp; omega

/-- C17: without any element the constructor reads `accessors[0]` of an empty
vector. -/
theorem C17_empty_matrix_is_undefined (csts : List Merged) (cols : Nat)
    (h : ∀ c ∈ csts, c.elems = []) : make csts cols = .error (.ub "accessors[0]") := by
  have h1 : accessors csts = [] := by
    have := congrArg List.length (accessors_cols csts)
    simp only [List.length_map] at this
    have h2 : csts.flatMap Merged.elems = [] := List.flatMap_eq_nil_iff.mpr h
    rw [h2] at this
    exact List.length_eq_zero_iff.mp this
  unfold make
  rw [h1]
  rfl

/-- 3 x0 - x2 and x2 + x1 + 5 x0. -/
def exCsts : List Merged := [⟨[⟨3, 0⟩, ⟨-1, 2⟩], 0, 1, 0⟩, ⟨[⟨1, 2⟩, ⟨1, 1⟩, ⟨5, 0⟩], 1, 3, 1⟩]

example : ∃ m, make exCsts 4 = .ok m ∧ row m 1 = .ok [⟨2, 2⟩, ⟨3, 1⟩, ⟨4, 0⟩] ∧
    column m 0 = .ok [⟨0, 0⟩, ⟨4, 1⟩] ∧ column m 3 = .ok [] :=
  ⟨result exCsts 4, by decide +kernel, by decide +kernel, by decide +kernel, by decide +kernel⟩

example : ∃ (m : Matrix) (R : Nat → List RowValue), make exCsts 4 = .ok m ∧
    (∀ k, k < 2 → row m k = .ok (R k)) :=
  let ⟨m, R, _, h1, _, h2, _⟩ := C17_matrix_is_exact exCsts 4 (by decide) (by decide)
  ⟨m, R, h1, h2⟩

end Bx.Sparse
