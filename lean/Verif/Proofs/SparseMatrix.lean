import Verif.Model.SparseMatrix
import Verif.Proofs.Outcome
import Mathlib.Tactic.Common
import Mathlib.Data.List.Basic
import Mathlib.Data.List.Count
import Mathlib.Data.List.Sort

/-! Helper lemmas for `Props/SparseMatrix.lean`. -/

namespace Bx.Sparse

open Merge

theorem runLoop_spec (ks : List Nat) : ∀ (cur nb : Nat) (acc : List Nat),
    (cur :: ks).Pairwise (· ≤ ·) → (∀ k ∈ cur :: ks, k < acc.length) →
    (∀ j, cur ≤ j → j < acc.length → acc[j]? = some 0) →
    ∃ r, runLoop ks cur nb acc = .ok r ∧ r.length = acc.length ∧
      (∀ j, j < cur → r[j]? = acc[j]?) ∧
      ∀ j, cur ≤ j → j < acc.length → r[j]? = some ((if j = cur then nb else 0) + ks.count j) := by
  induction ks with
  | nil =>
    intro cur nb acc _ hlt h0
    have hc : cur < acc.length := hlt cur (by simp)
    refine ⟨acc.set cur nb, ?_, by simp, ?_, ?_⟩
    · simp [runLoop, store, hc]
    · intro j hj
      rw [List.getElem?_set, if_neg (by omega)]
    · intro j h1 h2
      rw [List.getElem?_set]
      by_cases h : cur = j
      · subst h; simp [hc]
      · have h' : ¬ j = cur := fun e => h e.symm
        rw [if_neg h, if_neg h', h0 j h1 h2]; simp
  | cons k ks ih =>
    intro cur nb acc hs hlt h0
    have hc : cur < acc.length := hlt cur (by simp)
    have hck : cur ≤ k := (List.pairwise_cons.mp hs).1 k (by simp)
    have hs' : (k :: ks).Pairwise (· ≤ ·) := (List.pairwise_cons.mp hs).2
    by_cases h : cur = k
    · subst h
      obtain ⟨r, h1, h2, h3, h4⟩ := ih cur (nb + 1) acc hs' (fun x hx => hlt x (by
        rcases List.mem_cons.mp hx with e | e <;> simp [e])) h0
      refine ⟨r, ?_, h2, h3, ?_⟩
      · rw [runLoop, if_neg (by simp)]; exact h1
      · intro j j1 j2
        rw [h4 j j1 j2, List.count_cons]
        by_cases hj : j = cur
        · subst hj; simp; omega
        · have : ¬ (cur == j) = true := by simp; omega
          simp [hj, this]
    · have hlen : (acc.set cur nb).length = acc.length := by simp
      obtain ⟨r, h1, h2, h3, h4⟩ := ih k 1 (acc.set cur nb) hs' (fun x hx => by
        rw [hlen]; exact hlt x (by rcases List.mem_cons.mp hx with e | e <;> simp [e]))
        (fun j j1 j2 => by
          rw [List.getElem?_set, if_neg (by omega)]
          exact h0 j (by omega) (by omega))
      refine ⟨r, ?_, by omega, ?_, ?_⟩
      · rw [runLoop, if_pos h]
        unfold store
        rw [if_pos hc, ok_bind]; exact h1
      · intro j hj
        rw [h3 j (by omega), List.getElem?_set, if_neg (by omega)]
      · intro j j1 j2
        by_cases hjk : k ≤ j
        · rw [h4 j hjk (by omega), List.count_cons]
          have : ¬ j = cur := by omega
          by_cases hj : j = k
          · subst hj; simp [this]; omega
          · have : ¬ (k == j) = true := by simp; omega
            have h' : ¬ j = cur := by omega
            simp [hj, this, h']
        · rw [h3 j (by omega), List.getElem?_set]
          have hn : (k :: ks).count j = 0 := by
            rw [List.count_eq_zero]
            intro hm
            rcases List.mem_cons.mp hm with e | e
            · omega
            · have := (List.pairwise_cons.mp hs').1 j e
              omega
          by_cases hj : cur = j
          · subst hj; simp [hc, hn]
          · have h' : ¬ j = cur := fun e => hj e.symm
            rw [if_neg hj, h0 j j1 j2, hn]; simp [h']

theorem counts_spec {keys : List Nat} {n : Nat} (hs : keys.Pairwise (· ≤ ·))
    (hlt : ∀ k ∈ keys, k < n) (hne : keys ≠ []) :
    counts keys n = .ok ((List.range n).map fun k => keys.count k) := by
  cases keys with
  | nil => exact absurd rfl hne
  | cons k ks =>
    unfold counts
    obtain ⟨r, h1, h2, h3, h4⟩ := runLoop_spec (k :: ks) k 0 (List.replicate n 0)
      (List.pairwise_cons.mpr ⟨fun a ha => by
        rcases List.mem_cons.mp ha with e | e
        · omega
        · exact (List.pairwise_cons.mp hs).1 a e, hs⟩)
      (fun x hx => by
        rw [List.length_replicate]
        rcases List.mem_cons.mp hx with e | e
        · exact hlt x (by simp [e])
        · exact hlt x e)
      (fun j _ hj => by rw [List.length_replicate] at hj; rw [List.getElem?_replicate, if_pos hj])
    simp only
    rw [h1]
    congr 1
    rw [List.length_replicate] at h2 h4
    apply List.ext_getElem?
    intro j
    by_cases hj : j < n
    · rw [List.getElem?_map, List.getElem?_range hj]
      by_cases hk : k ≤ j
      · rw [h4 j hk hj]; simp
      · rw [h3 j (by omega), List.getElem?_replicate, if_pos hj]
        simp only [Option.map_some, Option.some.injEq]
        symm
        rw [List.count_eq_zero]
        intro hm
        rcases List.mem_cons.mp hm with e | e
        · omega
        · have := (List.pairwise_cons.mp hs).1 j e
          omega
    · rw [List.getElem?_eq_none (by omega), List.getElem?_eq_none (by simp; omega)]

theorem prefixSums_length (l : List Nat) (s : Nat) : (prefixSums s l).length = l.length + 1 := by
  induction l generalizing s with
  | nil => rfl
  | cons n l ih => simp [prefixSums, ih]

theorem prefixSums_get (l : List Nat) (s k : Nat) (hk : k ≤ l.length) :
    (prefixSums s l)[k]? = some (s + (l.take k).sum) := by
  induction l generalizing s k with
  | nil => simp at hk; subst hk; simp [prefixSums]
  | cons n l ih =>
    cases k with
    | zero => simp [prefixSums]
    | succ k =>
      rw [prefixSums, List.getElem?_cons_succ, ih _ _ (by simpa using hk)]
      simp; omega

section keyed

variable {α : Type} (f : α → Nat)

theorem split_filter (l : List α) (k : Nat) (hs : l.Pairwise fun a b => f a ≤ f b) :
    l = l.filter (fun a => decide (f a < k)) ++ l.filter (fun a => decide (f a = k)) ++
      l.filter (fun a => decide (k < f a)) := by
  induction l with
  | nil => rfl
  | cons a l ih =>
    obtain ⟨h1, h2⟩ := List.pairwise_cons.mp hs
    have ih := ih h2
    rcases Nat.lt_trichotomy (f a) k with h | h | h
    · simp only [List.filter_cons, h, decide_true, if_true, List.cons_append]
      have e1 : ¬ f a = k := by omega
      have e2 : ¬ k < f a := by omega
      simp only [e1, e2, decide_false, Bool.false_eq_true, if_false]
      rw [← ih]
    · have hf : l.filter (fun a => decide (f a < k)) = [] := by
        rw [List.filter_eq_nil_iff]
        intro b hb; have := h1 b hb; simp; omega
      rw [hf] at ih
      simp only [List.filter_cons, h, Nat.lt_irrefl, decide_true, decide_false, if_true,
        Bool.false_eq_true, if_false, hf, List.nil_append, List.cons_append]
      rw [List.nil_append] at ih
      rw [← ih]
    · have hf : l.filter (fun a => decide (f a < k)) = [] := by
        rw [List.filter_eq_nil_iff]
        intro b hb; have := h1 b hb; simp; omega
      have hf2 : l.filter (fun a => decide (f a = k)) = [] := by
        rw [List.filter_eq_nil_iff]
        intro b hb; have := h1 b hb; simp; omega
      rw [hf, hf2] at ih
      have e1 : ¬ f a = k := by omega
      have e2 : ¬ f a < k := by omega
      simp only [List.filter_cons, h, e1, e2, decide_true, decide_false, if_true,
        Bool.false_eq_true, if_false, hf, hf2, List.nil_append]
      simp only [List.nil_append] at ih
      rw [← ih]

theorem count_map_eq (l : List α) (k : Nat) :
    (l.map f).count k = (l.filter fun a => decide (f a = k)).length := by
  induction l with
  | nil => rfl
  | cons a l ih =>
    rw [List.map_cons, List.count_cons, List.filter_cons, ih]
    by_cases h : f a = k <;> simp [h]

theorem filter_lt_succ_length (l : List α) (k : Nat) :
    (l.filter fun a => decide (f a < k + 1)).length =
      (l.filter fun a => decide (f a < k)).length +
      (l.filter fun a => decide (f a = k)).length := by
  induction l with
  | nil => rfl
  | cons a l ih =>
    simp only [List.filter_cons]
    rcases Nat.lt_trichotomy (f a) k with h | h | h
    · have e1 : f a < k + 1 := by omega
      have e2 : ¬ f a = k := by omega
      simp [h, e1, e2, ih]; omega
    · simp [h, ih]; omega
    · have e1 : ¬ f a < k + 1 := by omega
      have e2 : ¬ f a = k := by omega
      have e3 : ¬ f a < k := by omega
      simp [e1, e2, e3, ih]

theorem sum_counts (l : List α) (k : Nat) :
    ((List.range k).map fun i => (l.map f).count i).sum =
      (l.filter fun a => decide (f a < k)).length := by
  induction k with
  | zero => simp
  | succ k ih =>
    rw [List.range_succ, List.map_append, List.sum_append, ih, filter_lt_succ_length]
    simp [count_map_eq]

/-- The slice of a list sorted by `f` between two prefix sums of its counters
is the sublist of that key. -/
theorem slice_eq (l : List α) (hs : l.Pairwise fun a b => f a ≤ f b) (n k : Nat) (hk : k < n) :
    let cs := (List.range n).map fun i => (l.map f).count i
    ∃ a b, (prefixSums 0 cs)[k]? = some a ∧ (prefixSums 0 cs)[k + 1]? = some b ∧
      slice l a b = l.filter fun a => decide (f a = k) := by
  intro cs
  have hlen : cs.length = n := by simp [cs]
  have htake : ∀ j, j ≤ n → (cs.take j).sum = (l.filter fun a => decide (f a < j)).length := by
    intro j hj
    rw [← sum_counts]
    simp only [cs]
    rw [← List.map_take, List.take_range, Nat.min_eq_left hj]
  refine ⟨_, _, prefixSums_get cs 0 k (by omega), prefixSums_get cs 0 (k + 1) (by omega), ?_⟩
  rw [htake k (by omega), htake (k + 1) (by omega), filter_lt_succ_length]
  have h1 : ∀ (A B C : List α), slice (A ++ B ++ C) (0 + A.length) (0 + (A.length + B.length)) =
      B := by
    intro A B C
    unfold slice
    simp only [Nat.zero_add, List.append_assoc, List.drop_left, Nat.add_sub_cancel_left,
      List.take_left]
  have h2 := h1 (l.filter fun a => decide (f a < k)) (l.filter fun a => decide (f a = k))
    (l.filter fun a => decide (k < f a))
  rw [← split_filter f l k hs] at h2
  exact h2

end keyed

/-! ### The stable sort -/

theorem insertCol_perm (a : Access) (l : List Access) : (insertCol a l).Perm (a :: l) := by
  induction l with
  | nil => exact List.Perm.refl _
  | cons b l ih =>
    unfold insertCol
    split
    · exact List.Perm.refl _
    · exact (List.Perm.cons b ih).trans (List.Perm.swap a b l)

theorem stableSort_perm (l : List Access) : (stableSort l).Perm l := by
  induction l with
  | nil => exact List.Perm.refl _
  | cons a l ih => exact (insertCol_perm a _).trans (List.Perm.cons a ih)

theorem insertCol_sorted (a : Access) (l : List Access)
    (h : l.Pairwise fun a b => a.col ≤ b.col) :
    (insertCol a l).Pairwise fun a b => a.col ≤ b.col := by
  induction l with
  | nil => simp [insertCol]
  | cons b l ih =>
    obtain ⟨h1, h2⟩ := List.pairwise_cons.mp h
    unfold insertCol
    split
    · next hab =>
      refine List.pairwise_cons.mpr ⟨?_, h⟩
      intro c hc
      rcases List.mem_cons.mp hc with e | e
      · rw [e]; exact hab
      · exact Nat.le_trans hab (h1 c e)
    · next hab =>
      refine List.pairwise_cons.mpr ⟨?_, ih h2⟩
      intro c hc
      rcases List.mem_cons.mp ((insertCol_perm a l).mem_iff.mp hc) with e | e
      · rw [e]; omega
      · exact h1 c e

theorem stableSort_sorted (l : List Access) :
    (stableSort l).Pairwise fun a b => a.col ≤ b.col := by
  induction l with
  | nil => exact List.Pairwise.nil
  | cons a l ih => exact insertCol_sorted a _ ih

theorem insertCol_filter (a : Access) (l : List Access) (j : Nat)
    (h : l.Pairwise fun a b => a.col ≤ b.col) :
    (insertCol a l).filter (fun a => decide (a.col = j)) =
      (a :: l).filter fun a => decide (a.col = j) := by
  induction l with
  | nil => rfl
  | cons b l ih =>
    obtain ⟨h1, h2⟩ := List.pairwise_cons.mp h
    unfold insertCol
    split
    · rfl
    · next hab =>
      rw [List.filter_cons, ih h2]
      simp only [List.filter_cons]
      by_cases hb : b.col = j
      · have : ¬ a.col = j := by omega
        simp [hb, this]
      · simp [hb]

/-- Elements of the same column keep their order. -/
theorem stableSort_filter (l : List Access) (j : Nat) :
    (stableSort l).filter (fun a => decide (a.col = j)) = l.filter fun a => decide (a.col = j) := by
  induction l with
  | nil => rfl
  | cons a l ih =>
    show (insertCol a (stableSort l)).filter _ = _
    rw [insertCol_filter a _ j (stableSort_sorted l), List.filter_cons, List.filter_cons, ih]

/-! ### The accessors -/

/-- The elements with their row. -/
def pre (csts : List Merged) (i : Nat) : List (Nat × FunElem) :=
  (csts.zipIdx i).flatMap fun p => p.1.elems.map fun e => (p.2, e)

theorem pre_snd (csts : List Merged) (i : Nat) :
    (pre csts i).map Prod.snd = csts.flatMap Merged.elems := by
  induction csts generalizing i with
  | nil => rfl
  | cons c csts ih =>
    have := ih (i + 1)
    unfold pre at this ⊢
    rw [List.zipIdx_cons, List.flatMap_cons, List.map_append, this]
    simp [Function.comp_def]

theorem pre_cons (c : Merged) (csts : List Merged) (i : Nat) :
    pre (c :: csts) i = (c.elems.map fun e => (i, e)) ++ pre csts (i + 1) := by
  unfold pre
  rw [List.zipIdx_cons, List.flatMap_cons]

theorem pre_ge (csts : List Merged) (i : Nat) : ∀ p ∈ pre csts i, i ≤ p.1 ∧
    p.1 < i + csts.length := by
  induction csts generalizing i with
  | nil => simp [pre]
  | cons c csts ih =>
    intro p hp
    rw [pre_cons, List.mem_append] at hp
    rcases hp with hp | hp
    · obtain ⟨e, _, rfl⟩ := List.mem_map.mp hp
      simp
    · have := ih _ p hp
      simp; omega

theorem pre_sorted (csts : List Merged) (i : Nat) :
    (pre csts i).Pairwise fun a b => a.1 ≤ b.1 := by
  induction csts generalizing i with
  | nil => simp [pre]
  | cons c csts ih =>
    rw [pre_cons, List.pairwise_append]
    refine ⟨?_, ih _, ?_⟩
    · rw [List.pairwise_map]
      exact List.pairwise_of_forall (fun _ _ => Nat.le_refl _)
    · intro a ha b hb
      obtain ⟨e, _, rfl⟩ := List.mem_map.mp ha
      have := (pre_ge _ _ b hb).1
      simp only; omega

theorem pre_filter (csts : List Merged) (i k : Nat) (c : Merged) (h : csts[k]? = some c) :
    ((pre csts i).filter fun p => decide (p.1 = i + k)).map Prod.snd = c.elems := by
  induction csts generalizing i k with
  | nil => simp at h
  | cons d csts ih =>
    rw [pre_cons, List.filter_append, List.map_append]
    cases k with
    | zero =>
      simp at h
      subst h
      have h1 : (pre csts (i + 1)).filter (fun p => decide (p.1 = i + 0)) = [] := by
        rw [List.filter_eq_nil_iff]
        intro p hp
        have := (pre_ge _ _ p hp).1
        simp; omega
      rw [h1]
      have h2 : (d.elems.map fun e => (i, e)).filter (fun p => decide (p.1 = i + 0)) =
          d.elems.map fun e => (i, e) := by
        rw [List.filter_eq_self]
        intro p hp
        obtain ⟨e, _, rfl⟩ := List.mem_map.mp hp
        simp
      rw [h2]
      simp [Function.comp_def]
    | succ k =>
      have h2 : (d.elems.map fun e => (i, e)).filter (fun p => decide (p.1 = i + (k + 1))) = [] := by
        rw [List.filter_eq_nil_iff]
        intro p hp
        obtain ⟨e, _, rfl⟩ := List.mem_map.mp hp
        simp
      have := ih (i + 1) k (by simpa using h)
      rw [show i + 1 + k = i + (k + 1) by omega] at this
      rw [h2, this]
      simp

theorem accessors_eq (csts : List Merged) :
    accessors csts = (pre csts 0).zipIdx.map fun p => ⟨p.1.1, p.1.2.var, p.2⟩ := by
  unfold accessors pre
  have : (csts.zipIdx.flatMap fun p => p.1.elems.map fun e => (p.2, e.var)) =
      (csts.zipIdx.flatMap fun p => p.1.elems.map fun e => (p.2, e)).map
        fun q => (q.1, q.2.var) := by
    rw [List.map_flatMap]
    simp [Function.comp_def]
  rw [this, List.zipIdx_map, List.map_map]
  rfl

theorem accessors_ids (csts : List Merged) :
    (accessors csts).map Access.id = List.range (csts.flatMap Merged.elems).length := by
  rw [accessors_eq, List.map_map, ← pre_snd csts 0, List.length_map]
  have : (Access.id ∘ fun p : (Nat × FunElem) × Nat => (⟨p.1.1, p.1.2.var, p.2⟩ : Access)) =
      Prod.snd := rfl
  rw [this, List.zipIdx_map_snd, List.range_eq_range']

theorem accessors_rows (csts : List Merged) :
    (accessors csts).map Access.row = (pre csts 0).map Prod.fst := by
  rw [accessors_eq, List.map_map]
  have : (Access.row ∘ fun p : (Nat × FunElem) × Nat => (⟨p.1.1, p.1.2.var, p.2⟩ : Access)) =
      Prod.fst ∘ Prod.fst := rfl
  rw [this, ← List.map_map, List.zipIdx_map_fst]

theorem accessors_sorted (csts : List Merged) :
    (accessors csts).Pairwise fun a b => a.row ≤ b.row := by
  have : ((accessors csts).map Access.row).Pairwise (· ≤ ·) := by
    rw [accessors_rows, List.pairwise_map]
    exact pre_sorted csts 0
  exact List.pairwise_map.mp this

/-- The accessors of row `k`. -/
theorem accessors_row (csts : List Merged) (k : Nat) (c : Merged) (h : csts[k]? = some c) :
    let l := (accessors csts).filter fun a => decide (a.row = k)
    l.map (fun a => (csts.flatMap Merged.elems)[a.id]?) = c.elems.map some ∧
    l.map Access.col = c.elems.map FunElem.var := by
  intro l
  have hl : l = ((pre csts 0).zipIdx.filter fun p => decide (p.1.1 = k)).map
      fun p => ⟨p.1.1, p.1.2.var, p.2⟩ := by
    simp only [l]
    rw [accessors_eq, List.filter_map]
    rfl
  have hz : ((pre csts 0).zipIdx.filter fun p => decide (p.1.1 = k)).map (fun p => p.1.2) =
      c.elems := by
    have := pre_filter csts 0 k c h
    rw [Nat.zero_add] at this
    rw [← this]
    conv_rhs => rw [← List.zipIdx_map_fst 0 (pre csts 0), List.filter_map, List.map_map]
    rfl
  constructor
  · rw [hl, List.map_map, ← hz, List.map_map]
    apply List.map_congr_left
    intro p hp
    simp only [Function.comp]
    have hp' := (List.mem_filter.mp hp).1
    have := List.mk_mem_zipIdx_iff_getElem?.mp (show (p.1, p.2) ∈ (pre csts 0).zipIdx from hp')
    rw [← pre_snd csts 0, List.getElem?_map, this]
    rfl
  · rw [hl, List.map_map, ← hz, List.map_map]
    rfl

theorem accessors_row_lt (csts : List Merged) : ∀ a ∈ accessors csts, a.row < csts.length := by
  intro a ha
  have : a.row ∈ (accessors csts).map Access.row := List.mem_map_of_mem ha
  rw [accessors_rows] at this
  obtain ⟨p, hp, h⟩ := List.mem_map.mp this
  have := (pre_ge csts 0 p hp).2
  omega

theorem accessors_cols (csts : List Merged) :
    (accessors csts).map Access.col = (csts.flatMap Merged.elems).map FunElem.var := by
  rw [accessors_eq, List.map_map, ← pre_snd csts 0, List.map_map]
  have : (Access.col ∘ fun p : (Nat × FunElem) × Nat => (⟨p.1.1, p.1.2.var, p.2⟩ : Access)) =
      (fun q : Nat × FunElem => q.2.var) ∘ Prod.fst := rfl
  rw [this, ← List.map_map, List.zipIdx_map_fst]
  rfl

theorem mapM_ok {α β : Type} (f : α → Outcome β) (g : α → β) (l : List α)
    (h : ∀ a ∈ l, f a = .ok (g a)) : l.mapM f = .ok (l.map g) := by
  induction l with
  | nil => rfl
  | cons a l ih =>
    rw [List.mapM_cons, h a (by simp), ok_bind, ih (fun b hb => h b (by simp [hb])), ok_bind]
    rfl

/-- The result of the constructor. -/
def result (csts : List Merged) (cols : Nat) : Matrix :=
  { rowsAccess := prefixSums 0 ((List.range csts.length).map fun k =>
      ((accessors csts).map Access.row).count k),
    colsAccess := prefixSums 0 ((List.range cols).map fun k =>
      ((stableSort (accessors csts)).map Access.col).count k),
    rowsValues := (accessors csts).map fun a => ⟨a.id, a.col⟩,
    colsValues := (stableSort (accessors csts)).map fun a => ⟨a.id, a.row⟩ }

theorem make_eq (csts : List Merged) (cols : Nat)
    (hv : ∀ e ∈ csts.flatMap Merged.elems, e.var < cols) (hne : csts.flatMap Merged.elems ≠ []) :
    make csts cols = .ok (result csts cols) := by
  have hacc : accessors csts ≠ [] := by
    intro h
    have := accessors_cols csts
    rw [h] at this
    simp at this
    exact hne (by simpa using this)
  unfold make
  simp only
  rw [counts_spec (List.pairwise_map.mpr (accessors_sorted csts))
    (fun k hk => by
      obtain ⟨a, ha, rfl⟩ := List.mem_map.mp hk
      exact accessors_row_lt csts a ha) (by simpa using hacc)]
  simp only [ok_bind]
  have hr : decide (((List.range csts.length).map fun k =>
      ((accessors csts).map Access.row).count k) = csts.map fun c => c.elems.length) = true := by
    rw [decide_eq_true_iff]
    apply List.ext_getElem?
    intro k
    rw [List.getElem?_map, List.getElem?_map]
    by_cases hk : k < csts.length
    · rw [List.getElem?_range hk, List.getElem?_eq_getElem hk]
      simp only [Option.map_some, Option.some.injEq]
      have := (accessors_row csts k csts[k] (List.getElem?_eq_getElem hk)).2
      rw [count_map_eq]
      have := congrArg List.length this
      simpa using this
    · rw [List.getElem?_eq_none (by simpa using hk), List.getElem?_eq_none (by omega)]
      rfl
  rw [hr]
  simp only [check_true, ok_bind]
  rw [counts_spec (List.pairwise_map.mpr (stableSort_sorted _))
    (fun k hk => by
      obtain ⟨a, ha, rfl⟩ := List.mem_map.mp hk
      have ha' := (stableSort_perm _).mem_iff.mp ha
      have : a.col ∈ (accessors csts).map Access.col := List.mem_map_of_mem ha'
      rw [accessors_cols] at this
      obtain ⟨e, he, h⟩ := List.mem_map.mp this
      have := hv e he
      omega)
    (by
      intro h
      have h' : stableSort (accessors csts) = [] := by simpa using h
      have := (stableSort_perm (accessors csts)).length_eq
      rw [h'] at this
      exact hacc (List.length_eq_zero_iff.mp this.symm))]
  simp only [ok_bind]
  rw [mapM_ok _ (fun a => (⟨a.id, a.row⟩ : ColValue))]
  · rfl
  · intro a ha
    have ha' := (stableSort_perm _).mem_iff.mp ha
    obtain ⟨i, hi⟩ := List.mem_iff_getElem?.mp ha'
    have hid : a.id = i := by
      have h1 : ((accessors csts).map Access.id)[i]? = some a.id := by
        rw [List.getElem?_map, hi]; rfl
      rw [accessors_ids] at h1
      have hlt : i < (csts.flatMap Merged.elems).length := by
        by_contra hn
        rw [List.getElem?_eq_none (by rw [List.length_range]; omega)] at h1
        simp at h1
      rw [List.getElem?_range hlt] at h1
      simpa using h1.symm
    rw [List.getElem?_map, hid, hi]
    simp [hid]

theorem slice_map {α β : Type} (f : α → β) (l : List α) (a b : Nat) :
    slice (l.map f) a b = (slice l a b).map f := by
  simp [slice, List.map_drop, List.map_take]

theorem row_eq (csts : List Merged) (cols k : Nat) (hk : k < csts.length) (hc : 0 < cols) :
    row (result csts cols) k =
      .ok (((accessors csts).filter fun a => decide (a.row = k)).map fun a => ⟨a.id, a.col⟩) := by
  obtain ⟨a, b, h1, h2, h3⟩ := slice_eq Access.row (accessors csts) (accessors_sorted csts)
    csts.length k hk
  have hv : validIndex (result csts cols) k 0 = true := by
    simp [validIndex, result, prefixSums_length, hk, hc]
  unfold row
  rw [hv]
  simp only [check_true, ok_bind, result]
  rw [h1, h2]
  simp only
  rw [slice_map, h3]

theorem column_eq (csts : List Merged) (cols j : Nat) (hj : j < cols) (hc : 0 < csts.length) :
    column (result csts cols) j =
      .ok (((accessors csts).filter fun a => decide (a.col = j)).map fun a => ⟨a.id, a.row⟩) := by
  obtain ⟨a, b, h1, h2, h3⟩ := slice_eq Access.col (stableSort (accessors csts))
    (stableSort_sorted _) cols j hj
  have hv : validIndex (result csts cols) 0 j = true := by
    simp [validIndex, result, prefixSums_length, hj, hc]
  unfold column
  rw [hv]
  simp only [check_true, ok_bind, result]
  rw [h1, h2]
  simp only
  rw [slice_map, h3, stableSort_filter]

end Bx.Sparse
