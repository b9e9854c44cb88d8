import Verif.Proofs.OverflowRows

/-! Lemmas about the functions with a 32 bits `int`: the solver with integer coefficients. -/

namespace Bx.Checked

open Merge SolverCtor Spec Exhaustive Itm ZSolver BranchBound

/-! ## The constructor -/

theorem sums_eq : ∀ (es : List FunElem) (lo up : Int),
    sumAbs es + lo.natAbs + up.natAbs ≤ 2147483647 →
      sums lo up es = (do
        check (es.all fun e => decide (e.factor ≠ 0)) "cst.factor"
        .ok (lo + lowerSum es, up + upperSum es))
  | [], lo, up, _ => by simp [sums, lowerSum, upperSum]
  | e :: es, lo, up, h => by
    rw [sumAbs_cons] at h
    unfold sums
    rw [lowerSum_cons, upperSum_cons, List.all_cons]
    by_cases h0 : e.factor = 0
    · simp [h0, check]
    · rw [check_of (by simpa using h0), ok_bind]
      have hd : (decide (e.factor ≠ 0) && es.all fun e => decide (e.factor ≠ 0)) =
          es.all fun e => decide (e.factor ≠ 0) := by simp [h0]
      rw [hd]
      by_cases hp : e.factor > 0
      · rw [if_pos hp, if_pos hp, if_pos hp, int32_of (by omega), ok_bind,
          sums_eq es _ _ (by omega), Int.zero_add, Int.add_assoc]
      · rw [if_neg hp, if_neg hp, if_neg hp, int32_of (by omega), ok_bind,
          sums_eq es _ _ (by omega), Int.zero_add, Int.add_assoc]

theorem sumOf_eq : ∀ (es : List FunElem) (w : List Bool) (acc : Int),
    sumAbs es + acc.natAbs ≤ 2147483647 →
      sumOf acc es w = .ok (acc + Exhaustive.sumOf es w)
  | [], w, acc, _ => by simp [sumOf, Exhaustive.sumOf]
  | e :: es, [], acc, _ => by simp [sumOf, Exhaustive.sumOf]
  | e :: es, b :: w, acc, h => by
    rw [sumAbs_cons] at h
    unfold sumOf Exhaustive.sumOf
    cases b
    · simp only [Bool.false_eq_true, if_false, Int.zero_add]
      exact sumOf_eq es w acc (by omega)
    · simp only [if_true]
      rw [int32_of (by omega), ok_bind, sumOf_eq es w _ (by omega), Int.add_assoc]

theorem good_eq {es : List FunElem} (h : sumAbs es ≤ 2147483647) (bmin bmax : Int) :
    ∀ ws : List (List Bool), good es bmin bmax ws = .ok (ws.filter (keep es bmin bmax))
  | [] => rfl
  | w :: ws => by
    unfold good
    rw [sumOf_eq es w 0 (by simpa using h), ok_bind, good_eq h bmin bmax ws, ok_bind,
      List.filter_cons, Int.zero_add]
    unfold keep
    split <;> rfl

theorem build_eq (ex : Ex) (k : Nat) {es : List FunElem} (h : sumAbs es ≤ 2147483647)
    (bmin bmax : Int) : build ex k es bmin bmax = Exhaustive.build ex k es bmin bmax := by
  unfold build Exhaustive.build
  congr 1; funext _
  congr 1; funext ws
  rw [good_eq h, ok_bind]

theorem kindWith_eq (m : Merged) : kindWith (lowerSum m.elems) (upperSum m.elems) m = kindOf m := by
  unfold kindWith kindOf
  split
  · rfl
  · split
    · cases baseKind m.elems <;> rfl
    · rfl

theorem boundWith_eq (m : Merged) :
    boundWith (lowerSum m.elems) (upperSum m.elems) m = rowBound m := rfl

theorem tail_eq {α β γ : Type} (c : Outcome Unit) (p : Outcome α) (f : α → β) (g : β → γ) :
    (do c; let r ← (p.bind fun a => .ok (f a)); (.ok (g r) : Outcome γ)) =
      Except.bind (do c; p) fun a => .ok (g (f a)) := by
  cases c <;> cases p <;> rfl

theorem bind_bind {α β γ : Type} (b : Outcome α) (p : α → Outcome β) (f : β → Outcome γ) :
    (b >>= fun a => Except.bind (p a) f) = Except.bind (b >>= p) f := by
  cases b <;> rfl

theorem prepareAll_eq : ∀ (ms : List Merged) (ex : Ex) (i : Nat), (∀ m ∈ ms, Fit m) →
    prepareAll ex i ms =
      (ZSolver.prepareAll ex i ms).bind fun e => .ok (e, ms.map rowBound, ms.map kindOf)
  | [], ex, i, _ => rfl
  | m :: ms, ex, i, h => by
    have hm := h m List.mem_cons_self
    have ih := fun ex i => prepareAll_eq ms ex i fun m hm => h m (List.mem_cons_of_mem _ hm)
    unfold prepareAll ZSolver.prepareAll
    rw [sums_eq _ _ _ (by simpa using hm.1), Int.zero_add, Int.zero_add]
    by_cases hz : (m.elems.all fun e => decide (e.factor ≠ 0)) = true
    · rw [check_of hz]
      simp only [ok_bind, kindWith_eq, boundWith_eq, ih]
      unfold prepare
      cases hk : kindOf m <;> dsimp only <;> simp only [build_eq ex i hm.1, ok_bind]
      · rw [List.map_cons, List.map_cons, hk]
        exact tail_eq _ _ _ _
      · rw [List.map_cons, List.map_cons, hk, ← bind_bind]
        congr 1
        funext ex'
        exact tail_eq _ _ _ _
      · rw [List.map_cons, List.map_cons, hk]
        exact tail_eq _ _ _ _
      · rw [List.map_cons, List.map_cons, hk, ← bind_bind]
        congr 1
        funext ex'
        exact tail_eq _ _ _ _
      · rw [List.map_cons, List.map_cons, hk]
        exact tail_eq _ _ _ _
    · have : check (m.elems.all fun e => decide (e.factor ≠ 0)) "cst.factor" =
          .error (.contract "cst.factor") := by
        unfold check
        rw [if_neg hz]
      rw [this]
      rfl

theorem makeZ_eq {csts : List Merged} (h : ∀ m ∈ csts, Fit m) (n : Nat) :
    makeZ csts n = ZSolver.makeZ csts n := by
  unfold makeZ ZSolver.makeZ
  rw [prepareAll_eq csts _ _ h]
  congr 1; funext _
  congr 1; funext _
  cases ZSolver.prepareAll {} 0 csts with
  | error e => rfl
  | ok ex => rfl

theorem prepareAll_bounds : ∀ {ms : List Merged} {ex ex' : Ex} {i : Nat},
    ZSolver.prepareAll ex i ms = .ok ex' → ∀ m ∈ ms, (rowBound m).min ≤ (rowBound m).max
  | [], _, _, _, _, m, hm => by simp at hm
  | m0 :: ms, ex, ex', i, h, m, hm => by
    unfold ZSolver.prepareAll at h
    obtain ⟨_, _, h⟩ := bind_eq_ok.1 h
    obtain ⟨_, _, h⟩ := bind_eq_ok.1 h
    obtain ⟨_, h1, h⟩ := bind_eq_ok.1 h
    rcases List.mem_cons.1 hm with rfl | hm
    · rw [check_eq_ok] at h1
      exact of_decide_eq_true h1
    · exact prepareAll_bounds h m hm

theorem rowBound_near {m : Merged} (hf : Fit m) (h : (rowBound m).min ≤ (rowBound m).max) :
    Near m.elems (rowBound m) := by
  unfold rowBound at h ⊢
  split at h
  · next he => rw [if_pos he]; exact ⟨hf.1, .inl ⟨he, hf.point he⟩⟩
  · next he =>
    rw [if_neg he]
    exact ⟨hf.1, .inr ⟨Int.le_max_left _ _, h, Int.min_le_left _ _⟩⟩

theorem makeZ_ok {csts : List Merged} {n : Nat} {z : ZSlv} (hf : ∀ m ∈ csts, Fit m)
    (h : ZSolver.makeZ csts n = .ok z) : SlvOk z.slv := by
  unfold ZSolver.makeZ at h
  obtain ⟨_, _, h⟩ := bind_eq_ok.1 h
  obtain ⟨_, _, h⟩ := bind_eq_ok.1 h
  obtain ⟨ex, hex, h⟩ := bind_eq_ok.1 h
  cases h
  intro k row b hrow hbk
  dsimp only at hrow hbk ⊢
  rw [List.getElem?_map] at hrow hbk
  cases hm : csts[k]? with
  | none => rw [hm] at hrow; cases hrow
  | some m =>
    rw [hm] at hrow hbk
    cases hrow
    cases hbk
    have hmem := List.mem_of_getElem? hm
    exact ⟨rowBound_near (hf m hmem) (prepareAll_bounds hex m hmem), fun e _ => rfl⟩

/-! ## Selection -/

/-- The sum of the absolute values of the factors of `R`. -/
def rcWeight (rc : List Rc) : Nat := (rc.map fun c => c.f.natAbs).sum

theorem rcWeight_cons (c : Rc) (rc : List Rc) : rcWeight (c :: rc) = c.f.natAbs + rcWeight rc := by
  simp [rcWeight]

theorem rcWeight_perm {a b : List Rc} (h : a.Perm b) : rcWeight a = rcWeight b := by
  unfold rcWeight
  exact (h.map _).sum_eq

theorem rcWeight_reduced (cost : Nat → Rat) (row : List FunElem) :
    rcWeight (reduced cost row) = sumAbs row := by
  unfold rcWeight reduced sumAbs
  rw [List.map_map]
  have : ((fun c : Rc => c.f.natAbs) ∘ fun p : FunElem × Nat => (⟨cost p.2, p.2, p.1.factor⟩ : Rc)) =
      (fun e : FunElem => e.factor.natAbs) ∘ Prod.fst := rfl
  rw [this, ← List.map_map, List.zipIdx_map_fst]

theorem selectLoop_eq (t : ObjType) (cap : Nat) (stale : Rc) (rc : List Rc) (bmin bmax : Int) :
    ∀ (n j : Nat) (sum : Int) (best : Option Int), j + n = rc.length + 1 →
      (n ≠ 0 → sum.natAbs + rcWeight (rc.drop j) + stale.f.natAbs ≤ 2147483647) →
      selectLoop t (cell cap stale rc) bmin bmax n j sum best =
        ZSolver.selectLoop t (cell cap stale rc) bmin bmax n j sum best
  | 0, _, _, _, _, _ => rfl
  | n + 1, j, sum, best, hj, h => by
    have h := h (by omega)
    unfold selectLoop ZSolver.selectLoop
    cases hc : cell cap stale rc j with
    | error e => rfl
    | ok c =>
      simp only [ok_bind]
      generalize (if bmin ≤ sum ∧ sum ≤ bmax then some ((j : Int) - 1) else best) = best'
      split
      · rfl
      · have hsum : (sum + c.f).natAbs ≤ 2147483647 ∧
            (n ≠ 0 → (sum + c.f).natAbs + rcWeight (rc.drop (j + 1)) + stale.f.natAbs ≤
              2147483647) := by
          unfold cell at hc
          cases hg : rc[j]? with
          | none =>
            rw [hg] at hc
            dsimp only at hc
            split at hc
            · cases hc
              have := List.getElem?_eq_none_iff.1 hg
              exact ⟨by omega, by omega⟩
            · cases hc
          | some d =>
            rw [hg] at hc
            cases hc
            obtain ⟨hlt, hget⟩ := List.getElem?_eq_some_iff.1 hg
            rw [List.drop_eq_getElem_cons hlt, rcWeight_cons, hget] at h
            exact ⟨by omega, fun _ => by omega⟩
        rw [int32_of hsum.1, ok_bind]
        exact selectLoop_eq t cap stale rc bmin bmax n (j + 1) _ _ (by omega) hsum.2

theorem selectZ_eq (t : ObjType) (cap : Nat) {stale : Rc} {rc : List Rc} (b : Bound)
    (h : rcWeight rc + stale.f.natAbs ≤ 2147483647) :
    selectZ t cap stale rc b = ZSolver.selectZ t cap stale rc b :=
  selectLoop_eq t cap stale rc b.min b.max _ _ _ _ (by omega) fun _ => by simpa using h

/-! ## Branch and bound -/

/-- The factors of the items from the level `l`. -/
def rest (items : List Item) (l : Nat) : Int := ((items.drop l).map Item.factor).sum

theorem rest_step {items : List Item} {l : Nat} {it : Item} (h : items[l]? = some it) :
    rest items l = it.factor + rest items (l + 1) := by
  obtain ⟨hlt, hget⟩ := List.getElem?_eq_some_iff.1 h
  unfold rest
  rw [List.drop_eq_getElem_cons hlt, hget, List.map_cons, List.sum_cons]

theorem sum_nonneg : ∀ {l : List Item}, (∀ i ∈ l, 0 ≤ i.factor) → 0 ≤ (l.map Item.factor).sum
  | [], _ => Int.le_refl 0
  | i :: l, h => by
    have h1 := h i List.mem_cons_self
    have h2 := sum_nonneg fun i hi => h i (List.mem_cons_of_mem _ hi)
    rw [List.map_cons, List.sum_cons]
    omega

theorem rest_nonneg {items : List Item} (h : ∀ i ∈ items, 0 ≤ i.factor) (l : Nat) :
    0 ≤ rest items l :=
  sum_nonneg fun i hi => h i (List.mem_of_mem_drop hi)

/-- A node can receive every item that comes after it. -/
def NodeOk (items : List Item) (n : Node) : Prop :=
  0 ≤ n.sumfactor ∧ n.sumfactor + rest items (n.level + 1) ≤ 2147483647

theorem nextEquality_eq {items : List Item} (hi : ∀ i ∈ items, 0 ≤ i.factor) (t : ObjType)
    (bmin : Int) {st : St} (h : ∀ n ∈ st.nodes, NodeOk items n) :
    nextEquality rnd t items bmin st = BranchBound.nextEquality rnd t items bmin st ∧
      ∀ st', BranchBound.nextEquality rnd t items bmin st = .ok st' →
        ∀ n ∈ st'.nodes, NodeOk items n := by
  unfold nextEquality BranchBound.nextEquality
  cases hn : st.nodes with
  | nil => exact ⟨rfl, fun st' e => by cases e⟩
  | cons n0 rest0 =>
    rw [hn] at h
    obtain ⟨h0, h1⟩ := h n0 List.mem_cons_self
    have hrest : ∀ n ∈ rest0, NodeOk items n := fun n hn => h n (List.mem_cons_of_mem _ hn)
    dsimp only
    cases hg : items[n0.level + 1]? with
    | none =>
      refine ⟨rfl, fun st' e => ?_⟩
      cases e
      exact hrest
    | some it =>
      have hr := rest_step hg
      have hit := hi it (List.mem_of_getElem? hg)
      have hnn := rest_nonneg hi (n0.level + 1 + 1)
      dsimp only
      rw [int32_of (by omega), ok_bind]
      refine ⟨rfl, fun st' e => ?_⟩
      have hA : NodeOk items { n0 with level := n0.level + 1 } :=
        ⟨h0, by dsimp only; omega⟩
      have hB : NodeOk items ⟨n0.bits.set (n0.level + 1) true, rnd (n0.sumr + it.r),
          n0.sumfactor + it.factor, n0.level + 1⟩ := ⟨by dsimp only; omega, by dsimp only; omega⟩
      split at e
      · cases e
        intro n hn
        unfold record at hn
        split at hn <;>
        · rcases List.mem_cons.1 hn with rfl | hn
          · exact hA
          · exact hrest n hn
      · cases e
        intro n hn
        rcases List.mem_cons.1 hn with rfl | hn
        · exact hB
        · rcases List.mem_cons.1 hn with rfl | hn
          · exact hA
          · exact hrest n hn

theorem nextInequality_eq {items : List Item} (hi : ∀ i ∈ items, 0 ≤ i.factor) (t : ObjType)
    (bmin bmax : Int) {st : St} (h : ∀ n ∈ st.nodes, NodeOk items n) :
    nextInequality rnd t items bmin bmax st = BranchBound.nextInequality rnd t items bmin bmax st ∧
      ∀ st', BranchBound.nextInequality rnd t items bmin bmax st = .ok st' →
        ∀ n ∈ st'.nodes, NodeOk items n := by
  unfold nextInequality BranchBound.nextInequality
  cases hn : st.nodes with
  | nil => exact ⟨rfl, fun st' e => by cases e⟩
  | cons n0 rest0 =>
    rw [hn] at h
    obtain ⟨h0, h1⟩ := h n0 List.mem_cons_self
    have hrest : ∀ n ∈ rest0, NodeOk items n := fun n hn => h n (List.mem_cons_of_mem _ hn)
    dsimp only
    cases hg : items[n0.level + 1]? with
    | none =>
      refine ⟨rfl, fun st' e => ?_⟩
      cases e
      exact hrest
    | some it =>
      have hr := rest_step hg
      have hit := hi it (List.mem_of_getElem? hg)
      have hnn := rest_nonneg hi (n0.level + 1 + 1)
      dsimp only
      rw [int32_of (by omega), ok_bind]
      refine ⟨rfl, fun st' e => ?_⟩
      have hA : NodeOk items { n0 with level := n0.level + 1 } :=
        ⟨h0, by dsimp only; omega⟩
      have hB : NodeOk items ⟨n0.bits.set (n0.level + 1) true, rnd (n0.sumr + it.r),
          n0.sumfactor + it.factor, n0.level + 1⟩ := ⟨by dsimp only; omega, by dsimp only; omega⟩
      split at e
      · cases e
        intro n hn
        unfold record at hn
        split at hn <;>
        · rcases List.mem_cons.1 hn with rfl | hn
          · exact hB
          · rcases List.mem_cons.1 hn with rfl | hn
            · exact hA
            · exact hrest n hn
      · split at e
        · cases e
          intro n hn
          rcases List.mem_cons.1 hn with rfl | hn
          · exact hA
          · exact hrest n hn
        · cases e
          intro n hn
          rcases List.mem_cons.1 hn with rfl | hn
          · exact hB
          · rcases List.mem_cons.1 hn with rfl | hn
            · exact hA
            · exact hrest n hn

theorem loop_congr {f g : St → Outcome St} {J : St → Prop}
    (h : ∀ st, J st → f st = g st ∧ ∀ st', g st = .ok st' → J st') :
    ∀ (fuel : Nat) (st : St), J st → loop f fuel st = loop g fuel st
  | 0, _, _ => rfl
  | fuel + 1, st, hj => by
    unfold loop
    split
    · rfl
    · obtain ⟨h1, h2⟩ := h st hj
      rw [h1]
      cases hg : g st with
      | error e => rfl
      | ok st' =>
        simp only [ok_bind]
        exact loop_congr h fuel st' (h2 st' hg)

theorem init_ok {items : List Item} (hi : ∀ i ∈ items, 0 ≤ i.factor)
    (hs : (items.map Item.factor).sum ≤ 2147483647) (n : Nat) :
    NodeOk items (init0 n) ∧ ∀ it, items[0]? = some it → NodeOk items (init1 n it) := by
  have h0 : rest items 0 = (items.map Item.factor).sum := by simp [rest]
  have h1 : rest items 1 ≤ rest items 0 := by
    cases items with
    | nil => exact Int.le_refl _
    | cons i is =>
      have := rest_step (items := i :: is) (l := 0) (it := i) rfl
      have hi0 := hi i List.mem_cons_self
      simp only [Nat.zero_add] at this
      omega
  refine ⟨⟨Int.le_refl 0, ?_⟩, fun it hit => ⟨hi it (List.mem_of_getElem? hit), ?_⟩⟩
  · show (0 : Int) + rest items 1 ≤ _
    omega
  · have := rest_step hit
    show it.factor + rest items 1 ≤ _
    simp only [Nat.zero_add] at this
    omega

theorem solveEquality_eq {items : List Item} (hi : ∀ i ∈ items, 0 ≤ i.factor)
    (hs : (items.map Item.factor).sum ≤ 2147483647) (t : ObjType) (bmin : Int) :
    solveEquality rnd t items bmin = BranchBound.solveEquality rnd t items bmin := by
  unfold solveEquality BranchBound.solveEquality
  cases items with
  | nil => rfl
  | cons it is =>
    obtain ⟨h0, h1⟩ := init_ok hi hs (it :: is).length
    have h1 := h1 it rfl
    dsimp only
    split
    · rfl
    · rw [loop_congr (J := fun st => ∀ n ∈ st.nodes, NodeOk (it :: is) n)
        (fun st hj => nextEquality_eq hi t bmin hj)]
      split
      · intro n hn
        simp only [List.mem_singleton] at hn
        exact hn ▸ h0
      · intro n hn
        simp only [List.mem_cons, List.not_mem_nil, or_false] at hn
        rcases hn with rfl | rfl
        · exact h1
        · exact h0

theorem solveInequality_eq {items : List Item} (hi : ∀ i ∈ items, 0 ≤ i.factor)
    (hs : (items.map Item.factor).sum ≤ 2147483647) (t : ObjType) (bmin bmax : Int) :
    solveInequality rnd t items bmin bmax = BranchBound.solveInequality rnd t items bmin bmax := by
  unfold solveInequality BranchBound.solveInequality
  cases items with
  | nil => rfl
  | cons it is =>
    obtain ⟨h0, h1⟩ := init_ok hi hs (it :: is).length
    have h1 := h1 it rfl
    dsimp only
    rw [loop_congr (J := fun st => ∀ n ∈ st.nodes, NodeOk (it :: is) n)
      (fun st hj => nextInequality_eq hi t bmin bmax hj)]
    have hs0 : ∀ n ∈ (if (init0 (it :: is).length).sumfactor > bmax then
        (⟨[], none, (init0 (it :: is).length).bits⟩ : St)
        else ⟨[init0 (it :: is).length], none, (init0 (it :: is).length).bits⟩).nodes,
        NodeOk (it :: is) n := by
      split
      · intro n hn
        cases hn
      · intro n hn
        simp only [List.mem_singleton] at hn
        exact hn ▸ h0
    split
    · intro n hn
      rcases List.mem_cons.1 hn with rfl | hn
      · exact h1
      · exact hs0 n hn
    · split
      · exact hs0
      · intro n hn
        rcases List.mem_cons.1 hn with rfl | hn
        · exact h1
        · exact hs0 n hn

theorem itemsOf_eq : ∀ {rc : List Rc}, rcWeight rc ≤ 2147483647 →
    itemsOf rc = .ok (rc.map itemOf)
  | [], _ => rfl
  | c :: rc, h => by
    rw [rcWeight_cons] at h
    unfold itemsOf
    rw [int32_of (by omega), ok_bind, itemsOf_eq (by omega), ok_bind]
    rfl

theorem shift_cons (i : Item) (is : List Item) :
    shift (i :: is) = (if i.original < 0 then i.factor else 0) + shift is := by
  simp [shift]

theorem shift_nonneg : ∀ {items : List Item}, (∀ i ∈ items, 0 ≤ i.factor) → 0 ≤ shift items
  | [], _ => Int.le_refl 0
  | i :: is, h => by
    rw [shift_cons]
    have h1 := h i List.mem_cons_self
    have h2 := shift_nonneg fun i hi => h i (List.mem_cons_of_mem _ hi)
    split <;> omega

theorem shifted_eq : ∀ {items : List Item} (bmin bmax : Int), (∀ i ∈ items, 0 ≤ i.factor) →
    -2147483647 ≤ bmin → bmin ≤ bmax → bmax + shift items ≤ 2147483647 →
      shifted bmin bmax items = .ok (bmin + shift items, bmax + shift items)
  | [], bmin, bmax, _, _, _, _ => by simp [shifted, shift]
  | i :: is, bmin, bmax, hi, h1, h2, h3 => by
    have hi0 := hi i List.mem_cons_self
    have his : ∀ i ∈ is, 0 ≤ i.factor := fun i hx => hi i (List.mem_cons_of_mem _ hx)
    have hsn := shift_nonneg his
    rw [shift_cons] at h3 ⊢
    unfold shifted
    split
    · next hneg =>
      rw [if_pos hneg] at h3
      rw [int32_of (by omega), ok_bind, int32_of (by omega), ok_bind,
        shifted_eq _ _ his (by omega) (by omega) (by omega), Int.add_assoc, Int.add_assoc]
    · next hneg =>
      rw [if_neg hneg] at h3
      rw [shifted_eq _ _ his h1 h2 (by omega), Int.zero_add]

theorem shift_perm {a b : List Item} (h : a.Perm b) : shift a = shift b := by
  unfold shift
  exact (h.map _).sum_eq

theorem items_nonneg (rc : List Rc) : ∀ i ∈ rc.map itemOf, 0 ≤ i.factor := by
  intro i hi
  obtain ⟨c, _, rfl⟩ := List.mem_map.1 hi
  simp [itemOf]

theorem items_sum : ∀ rc : List Rc, ((rc.map itemOf).map Item.factor).sum = (rcWeight rc : Int)
  | [] => rfl
  | c :: rc => by
    rw [rcWeight_cons, List.map_cons, List.map_cons, List.sum_cons, items_sum rc]
    simp [itemOf]

/-- What the negative factors of `R` add up to. -/
theorem shift_reduced (cost : Nat → Rat) (row : List FunElem) :
    shift ((reduced cost row).map itemOf) = -lowerSum row := by
  unfold shift reduced lowerSum
  rw [List.map_map, List.map_map]
  have : (((fun i : Item => if i.original < 0 then i.factor else 0) ∘ itemOf) ∘
      fun p : FunElem × Nat => (⟨cost p.2, p.2, p.1.factor⟩ : Rc)) =
      (fun e : FunElem => if e.factor < 0 then (e.factor.natAbs : Int) else 0) ∘ Prod.fst := rfl
  rw [this, ← List.map_map, List.zipIdx_map_fst]
  induction row with
  | nil => rfl
  | cons e es ih =>
    rw [List.map_cons, List.map_cons, List.sum_cons, List.sum_cons, ih]
    split <;> split <;> omega

theorem solve_eq {rc : List Rc} {row : List FunElem} {cost : Nat → Rat}
    (hp : rc.Perm (reduced cost row)) {b : Bound} (hn : Near row b) (t : ObjType)
    {sort1 : List Item → List Item} (h1 : ∀ l, (sort1 l).Perm l)
    (sort2 : List (Rc × Bool) → List (Rc × Bool)) :
    solve rnd t sort1 sort2 rc b.min b.max = BranchBound.solve rnd t sort1 sort2 rc b.min b.max := by
  unfold solve BranchBound.solve
  congr 1; funext _
  by_cases hle : b.min ≤ b.max
  · rw [check_of (by simpa using hle), ok_bind]
    have hw : rcWeight rc ≤ 2147483647 := by
      rw [rcWeight_perm hp, rcWeight_reduced]
      exact hn.1
    have hi : ∀ i ∈ sort1 (rc.map itemOf), 0 ≤ i.factor := fun i hx =>
      items_nonneg rc i ((h1 _).mem_iff.1 hx)
    have hsum : ((sort1 (rc.map itemOf)).map Item.factor).sum ≤ 2147483647 := by
      rw [((h1 (rc.map itemOf)).map _).sum_eq, items_sum]
      omega
    have hsh : shift (sort1 (rc.map itemOf)) = -lowerSum row := by
      rw [shift_perm (h1 _), shift_perm (hp.map _), shift_reduced]
    have h5 := upper_sub_lower row
    have h6 := lowerSum_nonpos row
    have h7 := upperSum_nonneg row
    obtain ⟨hw', hb⟩ := hn
    rw [itemsOf_eq hw, ok_bind]
    dsimp only
    rw [shifted_eq _ _ hi (by omega) hle (by rw [hsh]; omega), ok_bind, ok_bind]
    unfold explore BranchBound.explore
    dsimp only
    split
    · rw [solveEquality_eq hi hsum]
    · rw [solveInequality_eq hi hsum]
  · have : check (decide (b.min ≤ b.max)) "bk_min <= bk_max" =
        .error (.contract "bk_min <= bk_max") := by
      unfold check
      rw [if_neg (by simpa using hle)]
    rw [this]
    rfl

theorem localAffect_eq {s : Slv} (hs : SlvOk s) (k : Nat) (row : List FunElem) (ids : List Nat)
    (selected : Int) (x : Assign) :
    localAffect s k row ids selected x = ZSolver.localAffect s k row ids selected x := by
  unfold localAffect ZSolver.localAffect
  simp only [isValidConstraint_eq hs]

theorem choose_eq (t : ObjType) (z : ZSlv) {o : ZRow} (ho : o.Ok t) (k : Nat) (kind : ZSolver.Kind)
    {row : List FunElem} {b : Bound} (hn : Near row b)
    (hstale : sumAbs row + o.stale.f.natAbs ≤ 2147483647) :
    choose t z o k kind b (reduced o.cost row) =
      ZSolver.choose t z o k kind b (reduced o.cost row) := by
  have hp : (o.sort (reduced o.cost row)).Perm (reduced o.cost row) := ho.1 _
  have hsel := selectZ_eq t z.slv.cap (stale := o.stale) (rc := o.sort (reduced o.cost row)) b
    (by rw [rcWeight_perm hp, rcWeight_reduced]; exact hstale)
  have hsolve := solve_eq (rnd := o.rnd) hp hn t ho.2.1 o.sort2
  unfold choose ZSolver.choose
  cases kind <;> dsimp only
  · exact hsolve
  · rw [hsel, hsolve]
  · rw [hsel]
  · rw [hsel]

theorem updateRowZ_eq (t : ObjType) {z : ZSlv} (hs : SlvOk z.slv) {o : ZRow} (ho : o.Ok t)
    {k : Nat} (hstale : ∀ row, z.slv.rows[k]? = some row →
      sumAbs row + o.stale.f.natAbs ≤ 2147483647) (x : Assign) :
    updateRowZ t z o k x = ZSolver.updateRowZ t z o k x := by
  unfold updateRowZ ZSolver.updateRowZ rowOf boundOf
  cases hr : z.slv.rows[k]? with
  | none => rfl
  | some row =>
    cases hb : z.slv.bounds[k]? with
    | none => rfl
    | some b =>
      obtain ⟨h1, h2⟩ := hs k row b hr hb
      simp only [ok_bind, choose_eq t z ho k _ h1 (hstale row hr), localAffect_eq hs]

end Bx.Checked
