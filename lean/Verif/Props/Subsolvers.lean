import Verif.Spec.Rounding
import Verif.Proofs.BranchBound
import Verif.Proofs.Subvector

/-!
# C33-C35: the sub-solvers of the rows with integer coefficients
-/

namespace Bx

open Spec Exhaustive

/-! ## C33 -/

/-- C33: after the constructor prepared any list of rows, the exhaustive sub-solver
applied to one of them, for any reduced costs, answers with a reordering of the
elements and a selection within the bounds, and no selection within the bounds has
a better total reduced cost. -/
theorem C33_exhaustive_optimal (t : ObjType) (sort : List (Rc × Bool) → List (Rc × Bool))
    (hs : SortOk (before t) sort) (jobs : List Job) (hk : (jobs.map Job.k).Nodup) (ex : Ex)
    (hb : buildAll {} jobs = .ok ex) (j : Job) (hj : j ∈ jobs) (h2 : 2 ≤ j.es.length)
    (hf : ∀ e ∈ j.es, e.factor ≠ 0) (rc : List Rc)
    (hrc : rc.map Rc.f = j.es.map FunElem.factor) (hid : (rc.map Rc.id).Nodup) :
    ∃ out, solve id t sort ex j.k rc = .ok out ∧ out.1.Perm rc ∧
      (j.bmin ≤ weight (chosen out) rc ∧ weight (chosen out) rc ≤ j.bmax) ∧
      ∀ y, j.bmin ≤ weight y rc → weight y rc ≤ j.bmax →
        AtLeastAsGood t (cost (chosen out) rc) (cost y rc) := by
  have hr := buildAll_ready hb hk (by simp) j hj
  obtain ⟨out, h1, h3, _, _, _, h4, h5, h6⟩ := solve_spec_id hs hr (by
    intro h; rw [h] at h2; simp at h2) hf hrc hid
  exact ⟨out, h1, h3, ⟨h4, h5⟩, h6 h2⟩

/-- C33, in floating point: whatever the rounding after each addition, the answer is a reordering of
the elements and a selection within the bounds, and no selection within the bounds has a better total
reduced cost, when the totals are computed from the first element of the row to the last. -/
theorem C33_exhaustive_as_computed (rnd : Rat → Rat) (t : ObjType)
    (sort : List (Rc × Bool) → List (Rc × Bool))
    (hs : SortOk (before t) sort) (jobs : List Job) (hk : (jobs.map Job.k).Nodup) (ex : Ex)
    (hb : buildAll {} jobs = .ok ex) (j : Job) (hj : j ∈ jobs) (h2 : 2 ≤ j.es.length)
    (hf : ∀ e ∈ j.es, e.factor ≠ 0) (rc : List Rc)
    (hrc : rc.map Rc.f = j.es.map FunElem.factor) (hid : (rc.map Rc.id).Nodup) :
    ∃ out, solve rnd t sort ex j.k rc = .ok out ∧ out.1.Perm rc ∧
      (j.bmin ≤ weight (chosen out) rc ∧ weight (chosen out) rc ≤ j.bmax) ∧
      ∀ y, j.bmin ≤ weight y rc → weight y rc ≤ j.bmax →
        AtLeastAsGood t (summedCost rnd (chosen out) rc) (summedCost rnd y rc) := by
  have hr := buildAll_ready hb hk (by simp) j hj
  obtain ⟨out, h1, h3, _, _, _, h4, h5, h6⟩ := solve_spec (rnd := rnd) hs hr (by
    intro h; rw [h] at h2; simp at h2) hf hrc hid
  exact ⟨out, h1, h3, ⟨h4, h5⟩, h6 h2⟩

/-- C33: a row with at least two elements is prepared exactly when some selection
of its elements is within the bounds; otherwise the constructor aborts.  The
elements of the row are numbered by `rc`. -/
theorem C33_prepared_iff_satisfiable (ex : Ex) (k : Nat) (es : List FunElem) (bmin bmax : Int)
    (h2 : 2 ≤ es.length) (rc : List Rc) (hrc : rc.map Rc.f = es.map FunElem.factor)
    (hid : (rc.map Rc.id).Nodup) :
    ((∃ ex', build ex k es bmin bmax = .ok ex') ↔
      ∃ y, bmin ≤ weight y rc ∧ weight y rc ≤ bmax) ∧
    ((¬ ∃ y, bmin ≤ weight y rc ∧ weight y rc ≤ bmax) →
      build ex k es bmin bmax = .error (.contract "nb_solution > 0")) := by
  obtain ⟨l, hl, hl1, hl2⟩ := walk_spec es.length (by omega)
  have hlen : rc.length = es.length := by
    have := congrArg List.length hrc
    simpa using this
  have hbuild : build ex k es bmin bmax =
      (check (decide (0 < (l.filter (keep es bmin bmax)).length)) "nb_solution > 0" >>= fun _ =>
        .ok { flat := ex.flat ++ ((l.filter (keep es bmin bmax)).map (flatOf es)).flatten
              entries :=
                if ex.entries.any fun e => decide (e.k = k) then ex.entries
                else ex.entries ++ [⟨k, ex.flat.length, (l.filter (keep es bmin bmax)).length,
                  bmin, bmax⟩] }) := by
    unfold build
    rw [check_of (by simp; omega), ok_bind, hl, ok_bind]
  have key : 0 < (l.filter (keep es bmin bmax)).length ↔
      ∃ y, bmin ≤ weight y rc ∧ weight y rc ≤ bmax := by
    rw [List.length_pos_iff_exists_mem]
    constructor
    · rintro ⟨w, hw⟩
      rw [List.mem_filter] at hw
      have hwl : w.length = rc.length := by rw [hl1 w hw.1, hlen]
      have hids : ((rc.zip w).map fun p => p.1.id).Nodup := by
        have hmf : (rc.zip w).map Prod.fst = rc := List.map_fst_zip (by omega)
        have : (rc.zip w).map (fun p => p.1.id) = rc.map Rc.id := by
          conv_rhs => rw [← hmf, List.map_map]
          rfl
        rw [this]; exact hid
      have hy : ∀ p ∈ rc.zip w, decide ((p.1.id, true) ∈ (rc.zip w).map fun q => (q.1.id, q.2)) =
          p.2 := by
        intro p hp
        cases hb : p.2 with
        | true =>
          rw [decide_eq_true_eq]
          exact List.mem_map.mpr ⟨p, hp, by rw [hb]⟩
        | false =>
          rw [decide_eq_false_iff_not]
          intro hm
          obtain ⟨q, hq, he⟩ := List.mem_map.mp hm
          rw [Prod.mk.injEq] at he
          have : q = p := List.inj_on_of_nodup_map hids hq hp he.1
          rw [this, hb] at he
          simp at he
      refine ⟨fun i => decide ((i, true) ∈ (rc.zip w).map fun q => (q.1.id, q.2)), ?_⟩
      have hw2 := hw.2
      unfold keep at hw2
      rw [Bool.and_eq_true, decide_eq_true_eq, decide_eq_true_eq,
        ← weight_zip (y := fun i => decide ((i, true) ∈ (rc.zip w).map fun q => (q.1.id, q.2)))
          hrc hwl hy] at hw2
      exact hw2
    · rintro ⟨y, hy1, hy2⟩
      have hyl : (rc.map fun c => y c.id).length = rc.length := by simp
      have hyz : ∀ p ∈ rc.zip (rc.map fun c => y c.id), y p.1.id = p.2 := by
        intro p hp
        rw [List.zip_map_right] at hp
        obtain ⟨q, hq, rfl⟩ := List.mem_map.mp hp
        obtain ⟨i, hi⟩ := List.mem_iff_getElem?.mp hq
        rw [List.getElem?_zip_eq_some] at hi
        have := hi.1.symm.trans hi.2
        simp only [Prod.map_fst, Prod.map_snd, id_eq]
        rw [Option.some.inj this]
      refine ⟨rc.map fun c => y c.id, List.mem_filter.mpr ⟨hl2 h2 _ (by rw [hyl, hlen]), ?_⟩⟩
      unfold keep
      rw [← weight_zip hrc hyl hyz]
      simp [hy1, hy2]
  rw [hbuild]
  refine ⟨⟨?_, ?_⟩, ?_⟩
  · rintro ⟨ex', h⟩
    obtain ⟨_, hc, _⟩ := bind_eq_ok.mp h
    exact key.mp (by simpa using check_eq_ok.mp hc)
  · intro h
    rw [check_of (by simpa using key.mpr h), ok_bind]
    exact ⟨_, rfl⟩
  · intro h
    have : decide (0 < (l.filter (keep es bmin bmax)).length) = false := by
      rw [decide_eq_false_iff_not]
      exact fun hc => h (key.mp hc)
    rw [this]
    rfl

/-- A row with one element misses the selection of nothing: the constructor aborts
on `2 x0 <= 1`, which `x0 = 0` satisfies. -/
theorem C33_one_element_aborts :
    build {} 0 [⟨2, 0⟩] 0 1 = .error (.contract "nb_solution > 0") ∧
    (0 ≤ weight (fun _ => false) [⟨0, 0, 2⟩] ∧ weight (fun _ => false) [⟨0, 0, 2⟩] ≤ 1) := by
  decide +kernel

/-- An insertion sort, a `std::sort` for the examples. -/
def isort {α : Type} (lt : α → α → Bool) : List α → List α
  | [] => []
  | a :: l => ins lt a (isort lt l)
where
  ins (lt : α → α → Bool) (a : α) : List α → List α
    | [] => [a]
    | b :: l => if lt b a then b :: ins lt a l else a :: b :: l

theorem isort_ins_perm {α : Type} (lt : α → α → Bool) (a : α) :
    ∀ l, (isort.ins lt a l).Perm (a :: l)
  | [] => List.Perm.refl _
  | b :: l => by
    unfold isort.ins
    split
    · exact ((isort_ins_perm lt a l).cons b).trans (List.Perm.swap a b l)
    · exact List.Perm.refl _

theorem isort_perm {α : Type} (lt : α → α → Bool) : ∀ l, (isort lt l).Perm l
  | [] => List.Perm.refl _
  | a :: l => (isort_ins_perm lt a _).trans ((isort_perm lt l).cons a)

theorem isort_sorted {α : Type} {lt : α → α → Bool} (h1 : ∀ a b, lt a b = true → lt b a = false)
    (h2 : ∀ a b c, lt b a = false → lt c b = false → lt c a = false) :
    ∀ l, (isort lt l).Pairwise fun a b => lt b a = false
  | [] => List.Pairwise.nil
  | a :: l => by
    have hins : ∀ m : List α, m.Pairwise (fun a b => lt b a = false) →
        (isort.ins lt a m).Pairwise fun a b => lt b a = false := by
      intro m
      induction m with
      | nil => intro _; simp [isort.ins]
      | cons b m ih =>
        intro hm
        rw [List.pairwise_cons] at hm
        unfold isort.ins
        split
        · rename_i hb
          refine List.Pairwise.cons (fun c hc => ?_) (ih hm.2)
          rcases List.mem_cons.mp ((isort_ins_perm lt a m).mem_iff.mp hc) with rfl | hc
          · exact h1 _ _ hb
          · exact hm.1 c hc
        · rename_i hb
          have hb : lt b a = false := by simpa using hb
          refine List.Pairwise.cons (fun c hc => ?_) (List.Pairwise.cons hm.1 hm.2)
          rcases List.mem_cons.mp hc with rfl | hc
          · exact hb
          · exact h2 a b c hb (hm.1 c hc)
    exact hins _ (isort_sorted h1 h2 l)

/-- The comparison of the last sort of both sub-solvers is a strict weak order. -/
theorem before_sort (t : ObjType) : SortOk (before t) (isort (before t)) := by
  intro l
  refine ⟨isort_perm _ l, isort_sorted ?_ ?_ l⟩
  · rintro ⟨a, ba⟩ ⟨b, bb⟩
    cases t <;> cases ba <;> cases bb <;> simp [before, better] <;> exact le_of_lt
  · rintro ⟨a, ba⟩ ⟨b, bb⟩ ⟨c, bc⟩
    cases t <;> cases ba <;> cases bb <;> cases bc <;> simp [before, better]
    all_goals first
      | exact fun h1 h2 => le_trans h1 h2
      | exact fun h1 h2 => le_trans h2 h1

/-- `2 x - 3 y + 4 z`, between 1 and 3, minimised with the reduced costs 5, 1, -2. -/
example : ∃ ex out, buildAll {} [⟨7, [⟨2, 0⟩, ⟨-3, 1⟩, ⟨4, 2⟩], 1, 3⟩] = .ok ex ∧
    solve id .minimize (isort (before .minimize)) ex 7 [⟨5, 0, 2⟩, ⟨1, 1, -3⟩, ⟨-2, 2, 4⟩] = .ok out ∧
    chosen out 0 = false ∧ chosen out 1 = true ∧ chosen out 2 = true ∧
    ∀ y, 1 ≤ weight y [⟨5, 0, 2⟩, ⟨1, 1, -3⟩, ⟨-2, 2, 4⟩] →
      weight y [⟨5, 0, 2⟩, ⟨1, 1, -3⟩, ⟨-2, 2, 4⟩] ≤ 3 →
      AtLeastAsGood .minimize (cost (chosen out) [⟨5, 0, 2⟩, ⟨1, 1, -3⟩, ⟨-2, 2, 4⟩])
        (cost y [⟨5, 0, 2⟩, ⟨1, 1, -3⟩, ⟨-2, 2, 4⟩]) := by
  have hb : ∃ ex, buildAll {} [⟨7, [⟨2, 0⟩, ⟨-3, 1⟩, ⟨4, 2⟩], 1, 3⟩] = .ok ex :=
    ⟨⟨[0, -3, 4, 2, 0, 0, 2, 0, 0, 2, -3, 4, 2, 0, 0], [⟨7, 0, 5, 1, 3⟩]⟩, by decide +kernel⟩
  obtain ⟨ex, hex⟩ := hb
  have hex2 : buildAll {} [⟨7, [⟨2, 0⟩, ⟨-3, 1⟩, ⟨4, 2⟩], 1, 3⟩] = .ok
    ⟨[0, -3, 4, 2, 0, 0, 2, 0, 0, 2, -3, 4, 2, 0, 0], [⟨7, 0, 5, 1, 3⟩]⟩ := by decide +kernel
  have := Except.ok.inj (hex.symm.trans hex2)
  subst this
  obtain ⟨out, h1, _, _, h4⟩ := C33_exhaustive_optimal .minimize (isort (before .minimize))
    (before_sort _) _ (by decide) _ hex2 _ (List.mem_singleton.mpr rfl) (by decide) (by decide)
    [⟨5, 0, 2⟩, ⟨1, 1, -3⟩, ⟨-2, 2, 4⟩] (by decide) (by decide)
  have ho : solve id .minimize (isort (before .minimize))
      ⟨[0, -3, 4, 2, 0, 0, 2, 0, 0, 2, -3, 4, 2, 0, 0], [⟨7, 0, 5, 1, 3⟩]⟩ 7 [⟨5, 0, 2⟩, ⟨1, 1, -3⟩, ⟨-2, 2, 4⟩] =
      .ok ([⟨-2, 2, 4⟩, ⟨1, 1, -3⟩, ⟨5, 0, 2⟩], 1) := by decide +kernel
  have := Except.ok.inj (h1.symm.trans ho)
  subst this
  exact ⟨_, _, hex, ho, by decide +kernel, by decide +kernel, by decide +kernel, h4⟩

/-- The hypotheses of `C33_exhaustive_as_computed` are met by the same row, in `float`. -/
example : ∃ ex out, buildAll {} [⟨7, [⟨2, 0⟩, ⟨-3, 1⟩, ⟨4, 2⟩], 1, 3⟩] = .ok ex ∧
    solve (binary 24) .minimize (isort (before .minimize)) ex 7
      [⟨1 / 10, 0, 2⟩, ⟨1, 1, -3⟩, ⟨-2, 2, 4⟩] = .ok out ∧
    ∀ y, 1 ≤ weight y [⟨1 / 10, 0, 2⟩, ⟨1, 1, -3⟩, ⟨-2, 2, 4⟩] →
      weight y [⟨1 / 10, 0, 2⟩, ⟨1, 1, -3⟩, ⟨-2, 2, 4⟩] ≤ 3 →
      AtLeastAsGood .minimize
        (summedCost (binary 24) (chosen out) [⟨1 / 10, 0, 2⟩, ⟨1, 1, -3⟩, ⟨-2, 2, 4⟩])
        (summedCost (binary 24) y [⟨1 / 10, 0, 2⟩, ⟨1, 1, -3⟩, ⟨-2, 2, 4⟩]) := by
  have hex : buildAll {} [⟨7, [⟨2, 0⟩, ⟨-3, 1⟩, ⟨4, 2⟩], 1, 3⟩] = .ok
    ⟨[0, -3, 4, 2, 0, 0, 2, 0, 0, 2, -3, 4, 2, 0, 0], [⟨7, 0, 5, 1, 3⟩]⟩ := by decide +kernel
  obtain ⟨out, h1, _, _, h4⟩ := C33_exhaustive_as_computed (binary 24) .minimize
    (isort (before .minimize)) (before_sort _) _ (by decide) _ hex _ (List.mem_singleton.mpr rfl)
    (by decide) (by decide) [⟨1 / 10, 0, 2⟩, ⟨1, 1, -3⟩, ⟨-2, 2, 4⟩] (by decide) (by decide)
  exact ⟨_, out, hex, h1, h4⟩

/-! ## C34 -/

/-- C34, partial: on every row of at least four elements the branch-and-bound
sub-solver ends and answers with a reordering of the elements and a selection, which
is within the bounds when some selection is; when all the factors are positive its
total reduced cost is the best among the selections within the bounds that use
another element than the first one of the sorted items.  Missing: optimality among
all the selections, which is false (`C34_not_optimal`), and optimality with negative
factors, also false (`C34_negative_factors_not_optimal`). -/
theorem C34_branch_and_bound_partial (t : ObjType)
    (sort1 : List BranchBound.Item → List BranchBound.Item)
    (sort2 : List (Rc × Bool) → List (Rc × Bool)) (hs1 : ∀ l, (sort1 l).Perm l)
    (hs2 : SortOk (before t) sort2) (rc : List Rc) (hl : 4 ≤ rc.length)
    (hf : ∀ c ∈ rc, c.f ≠ 0) (hid : (rc.map Rc.id).Nodup) (bmin bmax : Int) (hb : bmin ≤ bmax) :
    ∃ out, BranchBound.solve id t sort1 sort2 rc bmin bmax = .ok out ∧ out.1.Perm rc ∧
      ((∃ y, bmin ≤ weight y rc ∧ weight y rc ≤ bmax) →
        bmin ≤ weight (chosen out) rc ∧ weight (chosen out) rc ≤ bmax) ∧
      ((∀ c ∈ rc, 0 < c.f) →
        ∀ first, (sort1 (rc.map BranchBound.itemOf)).head? = some first →
        ∀ y, bmin ≤ weight y rc → weight y rc ≤ bmax →
          (∃ c ∈ rc, y c.id = true ∧ c.id ≠ first.variable_) →
          AtLeastAsGood t (cost (chosen out) rc) (cost y rc)) := by
  obtain ⟨out, h1, h2, _, _, _, h3, h4⟩ :=
    BranchBound.solve_spec_id hs1 hs2 hl hf hid hb
  exact ⟨out, h1, h2, h3, h4⟩

/-- C34, partial, in floating point: whatever the rounding after each addition, the sub-solver ends and
answers as in `C34_branch_and_bound_partial`; when all the factors are positive and the reduced costs
are numbers of the floating point type, its total is the best among the same selections, when the totals
are computed in the order of the sorted items. -/
theorem C34_as_computed_partial (rnd : Rat → Rat) (t : ObjType)
    (sort1 : List BranchBound.Item → List BranchBound.Item)
    (sort2 : List (Rc × Bool) → List (Rc × Bool)) (hs1 : ∀ l, (sort1 l).Perm l)
    (hs2 : SortOk (before t) sort2) (rc : List Rc) (hl : 4 ≤ rc.length)
    (hf : ∀ c ∈ rc, c.f ≠ 0) (hid : (rc.map Rc.id).Nodup) (bmin bmax : Int) (hb : bmin ≤ bmax) :
    ∃ out, BranchBound.solve rnd t sort1 sort2 rc bmin bmax = .ok out ∧ out.1.Perm rc ∧
      ((∃ y, bmin ≤ weight y rc ∧ weight y rc ≤ bmax) →
        bmin ≤ weight (chosen out) rc ∧ weight (chosen out) rc ≤ bmax) ∧
      ((∀ c ∈ rc, 0 < c.f) → (∀ c ∈ rc, rnd c.value = c.value) →
        ∀ first, (sort1 (rc.map BranchBound.itemOf)).head? = some first →
        ∃ sorted : List Rc, sorted.Perm rc ∧ ∀ y, bmin ≤ weight y rc → weight y rc ≤ bmax →
          (∃ c ∈ rc, y c.id = true ∧ c.id ≠ first.variable_) →
          AtLeastAsGood t (summedCost rnd (chosen out) sorted) (summedCost rnd y sorted)) := by
  obtain ⟨out, h1, h2, _, _, _, h3, h4⟩ :=
    BranchBound.solve_spec (rnd := rnd) hs1 hs2 hl hf hid hb
  refine ⟨out, h1, h2, h3, fun a b first c => ⟨_, ?_, h4 a b first c⟩⟩
  have := (hs1 (rc.map BranchBound.itemOf)).map BranchBound.rcOf
  rwa [BranchBound.rcOf_itemOf] at this

/-- The four elements of the counterexample: factor 2 each. -/
def bbRow : List Rc := [⟨-5, 0, 2⟩, ⟨1, 1, 2⟩, ⟨2, 2, 2⟩, ⟨3, 3, 2⟩]

/-- C34 is false of the code: minimising `-5 a + b + 2 c + 3 d` under
`2 a + 2 b + 2 c + 2 d = 2`, the sub-solver selects `b` although `a` is better, with
items sorted as the code sorts them. -/
theorem C34_not_optimal :
    ∃ out, BranchBound.solve id .minimize (isort (BranchBound.itemBefore .minimize))
      (isort (before .minimize)) bbRow 2 2 = .ok out ∧
      cost (chosen out) bbRow = 1 ∧
      weight (fun i => decide (i = 0)) bbRow = 2 ∧ cost (fun i => decide (i = 0)) bbRow = -5 :=
  ⟨([⟨1, 1, 2⟩, ⟨-5, 0, 2⟩, ⟨2, 2, 2⟩, ⟨3, 3, 2⟩], 0), by decide +kernel⟩

/-- The four elements of the second counterexample: factor -2 each. -/
def bbNeg : List Rc := [⟨1, 0, -2⟩, ⟨2, 1, -2⟩, ⟨4, 2, -2⟩, ⟨8, 3, -2⟩]

/-- C34 is false of the code with negative factors: minimising `a + 2 b + 4 c + 8 d`
under `-6 <= -2 a - 2 b - 2 c - 2 d <= -4`, the sub-solver selects `a`, `c` and `d`
(13) although `a` and `b` (3) are within the bounds. -/
theorem C34_negative_factors_not_optimal :
    ∃ out, BranchBound.solve id .minimize (isort (BranchBound.itemBefore .minimize))
      (isort (before .minimize)) bbNeg (-6) (-4) = .ok out ∧
      cost (chosen out) bbNeg = 13 ∧
      weight (fun i => decide (i < 2)) bbNeg = -4 ∧ cost (fun i => decide (i < 2)) bbNeg = 3 :=
  ⟨([⟨1, 0, -2⟩, ⟨4, 2, -2⟩, ⟨8, 3, -2⟩, ⟨2, 1, -2⟩], 2), by decide +kernel⟩

/-- The hypotheses of `C34_branch_and_bound_partial` are met by `bbRow` with the bounds 3
and 4, for which two elements must be selected: the best selection is found. -/
example : ∃ out, BranchBound.solve id .minimize (isort (BranchBound.itemBefore .minimize))
      (isort (before .minimize)) bbRow 3 4 = .ok out ∧
      ∀ y, 3 ≤ weight y bbRow → weight y bbRow ≤ 4 → (∃ c ∈ bbRow, y c.id = true ∧ c.id ≠ 0) →
        AtLeastAsGood .minimize (cost (chosen out) bbRow) (cost y bbRow) := by
  obtain ⟨out, h1, _, _, h4⟩ := C34_branch_and_bound_partial .minimize
    (isort (BranchBound.itemBefore .minimize)) (isort (before .minimize)) (isort_perm _)
    (before_sort _) bbRow (by decide) (by decide) (by decide) 3 4 (by decide)
  exact ⟨out, h1, h4 (by decide) ⟨-5, 2, 2, 0⟩ (by decide +kernel)⟩

/-- The same in floating point: the values of `bbRow` have few digits. -/
example : ∃ out, BranchBound.solve (binary 24) .minimize (isort (BranchBound.itemBefore .minimize))
      (isort (before .minimize)) bbRow 3 4 = .ok out ∧ ∃ sorted : List Rc, sorted.Perm bbRow ∧
      ∀ y, 3 ≤ weight y bbRow → weight y bbRow ≤ 4 → (∃ c ∈ bbRow, y c.id = true ∧ c.id ≠ 0) →
        AtLeastAsGood .minimize (summedCost (binary 24) (chosen out) sorted)
          (summedCost (binary 24) y sorted) := by
  obtain ⟨out, h1, _, _, h4⟩ := C34_as_computed_partial (binary 24) .minimize
    (isort (BranchBound.itemBefore .minimize)) (isort (before .minimize)) (isort_perm _)
    (before_sort _) bbRow (by decide) (by decide) (by decide) 3 4 (by decide)
  exact ⟨out, h1, h4 (by decide) (by decide +kernel) ⟨-5, 2, 2, 0⟩ (by decide +kernel)⟩

/-! ## C35 -/

namespace Subvector

/-- C35: at every point of every history of calls on live blocks, each live block is
inside the vector and holds exactly the bytes its owner gave it, and two live blocks
do not overlap. -/
theorem C35_live_blocks_are_disjoint (n : Nat) (s : Sub) (l : Live) (h : History n s l) :
    (∀ p c, l p = some c → p + n ≤ s.mem.length ∧ bytesAt s p n = c) ∧
    ∀ p q c d, l p = some c → l q = some d → p ≠ q → p + n ≤ q ∨ q + n ≤ p := by
  obtain ⟨m, fr, hi⟩ := history_inv h
  have hl := hi.len
  constructor
  · intro p c hp
    obtain ⟨⟨k, hk, hpk⟩, hb⟩ := hi.live p c hp
    have := mul_bound (n := n) hk
    exact ⟨by omega, hb⟩
  · intro p q c d hp hq hne
    obtain ⟨⟨k, hk, hpk⟩, _⟩ := hi.live p c hp
    obtain ⟨⟨j, hj, hqj⟩, _⟩ := hi.live q d hq
    subst hpk; subst hqj
    exact apart hne

/-- C35: no call on live blocks fails; `emplace` (while the vector stays under 2^32
bytes) returns a block that is not live, and the vector grows only when every block
is live. -/
theorem C35_calls_succeed (n : Nat) (s : Sub) (l : Live) (h : History n s l) :
    (s.mem.length + n < 2 ^ 32 → ∃ s' p, emplace s = .ok (s', p) ∧ l p = none ∧
      p + n ≤ s'.mem.length ∧
      (s'.mem.length ≠ s.mem.length → ∀ q, q % n = 0 → q < s.mem.length → l q ≠ none)) ∧
    (∀ p c, l p = some c → ∃ s', remove s p = .ok s') ∧
    (∀ p c v, l p = some c → ∃ s', fill s p v = .ok s') ∧
    (∀ p q c d, l p = some c → l q = some d → ∃ s', copy s p q = .ok s') ∧
    (∀ p c i v, l p = some c → i < n → ∃ s', put s (p + i) v = .ok s') ∧
    ∀ p c i, l p = some c → i < n → ∃ s', invert s p i = .ok s' := by
  obtain ⟨m, fr, hi⟩ := history_inv h
  have hl := hi.len
  refine ⟨?_, ?_, ?_, ?_, ?_, ?_⟩
  · intro hs
    obtain ⟨s', p, m', fr', h1, h2, h3, h4, h5⟩ := hi.emplace hs
    refine ⟨s', p, h1, h2, ?_, ?_⟩
    · obtain ⟨⟨k, hk, hpk⟩, _⟩ := h5.live p _ (by simp only [Live.put, if_true]; rfl)
      have := mul_bound (n := n) hk
      have := h5.len
      omega
    · intro hne q hq hlt
      have hfr : fr = [] := by
        by_contra hf
        exact hne (by rw [h4 hf])
      have h4' := hi.four
      have hqk : q = n * (q / n) := by
        have := Nat.div_add_mod q n
        omega
      have hk : q / n < m := by
        rw [Nat.div_lt_iff_lt_mul (by omega), Nat.mul_comm]
        omega
      rcases hi.count (q / n) hk with hm | ⟨c, hc⟩
      · rw [hfr] at hm; simp at hm
      · rw [← hqk] at hc
        rw [hc]; simp
  · intro p c hp
    obtain ⟨s', h1, _⟩ := hi.remove hp
    exact ⟨s', h1⟩
  · intro p c v hp
    obtain ⟨s', h1, _⟩ := hi.fill hp (v := v)
    exact ⟨s', h1⟩
  · intro p q c d hp hq
    obtain ⟨s', h1, _⟩ := hi.copy hp hq
    exact ⟨s', h1⟩
  · intro p c i v hp hin
    obtain ⟨s', h1, _⟩ := hi.put hp hin (v := v)
    exact ⟨s', h1⟩
  · intro p c i hp hin
    obtain ⟨⟨k, hk, hpk⟩, hb⟩ := hi.live p c hp
    have := mul_bound (n := n) hk
    have hcl : c.length = n := by rw [← hb]; exact blk_length (by omega)
    obtain ⟨s', h1, _⟩ := hi.invert hp (i := i) (b := c[i]) (List.getElem?_eq_getElem (by omega))
    exact ⟨s', h1⟩

/-- A history with two blocks of five bytes: one is filled and removed, and the next
block takes its place with the bytes of the free list in it. -/
example : ∃ s l, History 5 s l ∧ l 0 = some [255, 255, 255, 255, 7] ∧
    l 5 = some [0, 0, 0, 0, 0] ∧ s.mem.length = 10 := by
  have h0 : History 5 ⟨[], 5, npos⟩ (fun _ => none) := .init (by decide)
  have h1 := h0.emplace (s' := ⟨[0, 0, 0, 0, 0], 5, npos⟩) (p := 0) (by decide) (by decide)
  have h2 := h1.emplace (s' := ⟨[0, 0, 0, 0, 0, 0, 0, 0, 0, 0], 5, npos⟩) (p := 5) (by decide)
    (by decide)
  have h3 := h2.fill (s' := ⟨[7, 7, 7, 7, 7, 0, 0, 0, 0, 0], 5, npos⟩) (p := 0) (v := 7)
    (c := [0, 0, 0, 0, 0]) (by decide) (by decide)
  have h4 := h3.remove (s' := ⟨[255, 255, 255, 255, 7, 0, 0, 0, 0, 0], 5, 0⟩) (p := 0)
    (c := [7, 7, 7, 7, 7]) (by decide) (by decide)
  have h5 := h4.emplace (s' := ⟨[255, 255, 255, 255, 7, 0, 0, 0, 0, 0], 5, npos⟩) (p := 0)
    (by decide) (by decide)
  exact ⟨_, _, h5, by decide, by decide, by decide⟩

end Subvector

end Bx
