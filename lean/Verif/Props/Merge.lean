import Verif.Proofs.SolverCtor
import Verif.Proofs.StdSorts

/-!
# C12-C16: classification and merge of the constraints
-/

namespace Bx.Merge

open Spec

/-- Every possible left-hand side of every constraint fits in an `int`. -/
def IntSums (pb : Problem) : Prop :=
  ∀ c ∈ pb.eqs ++ pb.ges ++ pb.les, ∀ x, -2147483648 ≤ lhs x c.elems ∧ lhs x c.elems ≤ 2147483647

/-- `x` respects the bounds of every merged constraint. -/
def Within (x : Assign) (ms : List Merged) : Prop :=
  ∀ m ∈ ms, m.min ≤ lhs x m.elems ∧ lhs x m.elems ≤ m.max

private theorem fits {pb : Problem} (h : IntSums pb) : ∀ op, ∀ c ∈ cstsOf pb op, Fits c := by
  intro op c hc x
  refine h c ?_ x
  simp only [List.mem_append]
  cases op
  · exact Or.inl (Or.inl hc)
  · exact Or.inl (Or.inr hc)
  · exact Or.inr hc

private theorem all_sat (pb : Problem) (o : Order) (x : Assign) :
    (∀ op ∈ fillOrder o, ∀ c ∈ cstsOf pb op, sat op c x) ↔ Satisfies pb.eqs pb.ges pb.les x := by
  constructor
  · intro h
    exact ⟨h .equal (mem_fillOrder o _), h .greater (mem_fillOrder o _),
      h .less (mem_fillOrder o _)⟩
  · rintro ⟨h1, h2, h3⟩ op _
    cases op
    · exact h1
    · exact h2
    · exact h3

/-! ## Example -/

/-- x0 + x1 + x2 = 1, x0 + x1 >= 1, x1 + x2 <= 1, x0 + x1 <= 1, x0 + x1 + x2 <= 2. -/
def exPb : Problem where
  objective := { elems := [⟨3, 0⟩, ⟨1, 1⟩, ⟨2, 2⟩] }
  eqs := [{ elems := [⟨1, 0⟩, ⟨1, 1⟩, ⟨1, 2⟩], value := 1, id := 0 }]
  ges := [{ elems := [⟨1, 1⟩, ⟨1, 0⟩], value := 1, id := 1 }]
  les := [{ elems := [⟨1, 1⟩, ⟨1, 2⟩], value := 1, id := 2 },
          { elems := [⟨1, 1⟩, ⟨1, 0⟩], value := 1, id := 3 },
          { elems := [⟨1, 0⟩, ⟨1, 1⟩, ⟨1, 2⟩], value := 2, id := 4 }]
  names := ["x0", "x1", "x2"]
  values := [⟨0, 1, .binary⟩, ⟨0, 1, .binary⟩, ⟨0, 1, .binary⟩]
  ptype := .inequalities01

def exMerged : List Merged :=
  [⟨[⟨1, 0⟩, ⟨1, 1⟩, ⟨1, 2⟩], 1, 1, 0⟩, ⟨[⟨1, 1⟩, ⟨1, 2⟩], -2147483648, 1, 2⟩,
   ⟨[⟨1, 0⟩, ⟨1, 1⟩], 1, 1, 3⟩]

theorem exPb_runs : make stdSorts .memory exPb = .ok exMerged := by decide +kernel

theorem exPb_ints : IntSums exPb := by
  intro c hc x
  have h1 := SolverCtor.lhs_ge_lower x c.elems
  have h2 := SolverCtor.lhs_le_upper x c.elems
  have : -2147483648 ≤ SolverCtor.lowerSum c.elems ∧ SolverCtor.upperSum c.elems ≤ 2147483647 := by
    clear h1 h2 x
    revert c
    decide +kernel
  omega

/-! ## C12 -/

/-- C12: the problem type is an equality type exactly when there is no
inequality, and its coefficient class is the smallest of {0,1}, {-1,0,1}, Z
that holds every factor. -/
theorem C12_classification (eqs ges les : List Constr) :
    let fs := (eqs ++ ges ++ les).flatMap fun c => c.elems.map FunElem.factor
    ProblemType.whichProblemType eqs ges les =
      if ges = [] ∧ les = [] then
        if ∀ f ∈ fs, f = 0 ∨ f = 1 then .equalities01
        else if ∀ f ∈ fs, f = -1 ∨ f = 0 ∨ f = 1 then .equalities101
        else .equalitiesZ
      else
        if ∀ f ∈ fs, f = 0 ∨ f = 1 then .inequalities01
        else if ∀ f ∈ fs, f = -1 ∨ f = 0 ∨ f = 1 then .inequalities101
        else .inequalitiesZ := by
  intro fs
  have hz := ProblemType.type_zero eqs ges les
  have ht := ProblemType.type_two eqs ges les
  have hl := ProblemType.type_le eqs ges les
  have e1 : (∀ f ∈ fs, f = 0 ∨ f = 1) ↔ ProblemType.coefficientType eqs ges les = 0 := by
    rw [hz]
    simp only [fs, List.mem_flatMap, List.mem_map]
    constructor
    · intro h c hc e he; exact h _ ⟨c, hc, e, he, rfl⟩
    · rintro h f ⟨c, hc, e, he, rfl⟩; exact h c hc e he
  have e2 : (∀ f ∈ fs, f = -1 ∨ f = 0 ∨ f = 1) ↔
      ProblemType.coefficientType eqs ges les ≠ 2 := by
    rw [Ne, ht]
    simp only [fs, List.mem_flatMap, List.mem_map]
    constructor
    · rintro h ⟨c, hc, e, he, h2⟩
      have := h _ ⟨c, hc, e, he, rfl⟩
      omega
    · rintro h f ⟨c, hc, e, he, rfl⟩
      by_contra hn
      exact h ⟨c, hc, e, he, by omega⟩
  simp only [e1, e2]
  unfold ProblemType.whichProblemType
  have hi : (ges.isEmpty && les.isEmpty) = true ↔ ges = [] ∧ les = [] := by
    simp [List.isEmpty_iff]
  generalize ProblemType.coefficientType eqs ges les = k at hl
  by_cases hb : ges = [] ∧ les = []
  · rw [if_pos hb, if_pos (hi.mpr hb)]
    have : k = 0 ∨ k = 1 ∨ k = 2 := by omega
    rcases this with rfl | rfl | rfl <;> rfl
  · rw [if_neg hb, if_neg (fun h => hb (hi.mp h))]
    have : k = 0 ∨ k = 1 ∨ k = 2 := by omega
    rcases this with rfl | rfl | rfl <;> rfl

example : ProblemType.whichProblemType exPb.eqs exPb.ges exPb.les = .inequalities01 := by
  decide +kernel

example : ProblemType.whichProblemType [{ elems := [⟨-1, 0⟩, ⟨1, 1⟩], value := 0 }] [] [] =
    .equalities101 := by decide +kernel

/-! ## C13 -/

/-- C13: whatever the order option, when the merge returns, the merged
constraints have exactly the solutions of the problem. -/
theorem C13_merge_preserves_solutions (s : Sorts) (hs : s.Ok) (o : Order) (pb : Problem)
    (hi : IntSums pb) (ms : List Merged) (h : make s o pb = .ok ms) (x : Assign) :
    Within x ms ↔ Satisfies pb.eqs pb.ges pb.les x := by
  rcases make_cases s hs o pb with ⟨f, _, h2⟩ | ⟨r, h1, ⟨ret, h2, h3⟩ | ⟨⟨w, h2⟩, _⟩⟩
  · exact absurd (h2.symm.trans h) (by simp)
  · have : ret = ms := Except.ok.inj (h2.symm.trans h)
    subst this
    have h4 := fills_sat pb x (fits hi) _ _ _ h1
    simp only [List.not_mem_nil, false_imp_iff, implies_true, true_and] at h4
    rw [← all_sat pb o x, ← h4]
    exact h3.sat x
  · exact absurd (h2.symm.trans h) (by simp)

example (x : Assign) : Within x exMerged ↔ Satisfies exPb.eqs exPb.ges exPb.les x :=
  C13_merge_preserves_solutions stdSorts stdSorts_ok .memory exPb exPb_ints _ exPb_runs x

/-! ## C14 -/

/-- C14: there are at most as many merged constraints as constraints, and the
elements of each are, up to their order, those of some constraint. -/
theorem C14_merge_never_grows (s : Sorts) (hs : s.Ok) (o : Order) (pb : Problem)
    (ms : List Merged) (h : make s o pb = .ok ms) :
    ms.length ≤ pb.eqs.length + pb.ges.length + pb.les.length ∧
    ∀ m ∈ ms, ∃ c ∈ pb.eqs ++ pb.ges ++ pb.les, m.elems.Perm c.elems := by
  rcases make_cases s hs o pb with ⟨f, _, h2⟩ | ⟨r, h1, ⟨ret, h2, h3⟩ | ⟨⟨w, h2⟩, _⟩⟩
  · exact absurd (h2.symm.trans h) (by simp)
  · have : ret = ms := Except.ok.inj (h2.symm.trans h)
    subst this
    obtain ⟨_, _, h5, h6⟩ := fills_inv pb _ _ _ h1
    rw [sum_fillOrder] at h5
    refine ⟨by rw [h3.len]; simpa using h5, ?_⟩
    intro m hm
    obtain ⟨a, ha, _, _, hp⟩ := h3.bwd m hm
    rcases h6 a ha with ⟨op, _, c, hc, he⟩ | ⟨m0, hm0, _⟩
    · refine ⟨c, ?_, by rw [he]; exact hp⟩
      simp only [List.mem_append]
      cases op
      · exact Or.inl (Or.inl hc)
      · exact Or.inl (Or.inr hc)
      · exact Or.inr hc
    · simp at hm0
  · exact absurd (h2.symm.trans h) (by simp)

theorem fills_cover (pb : Problem) : ∀ (l : List Op) (ret ret' : List Merged),
    l.foldlM (fill pb) ret = .ok ret' → ∀ op ∈ l, ∀ c ∈ cstsOf pb op,
      ∃ m ∈ ret', Tight op c m
  | [], _, _, _ => by simp
  | op :: l, ret, ret', h => by
    rw [List.foldlM_cons] at h
    obtain ⟨r1, h1, h2⟩ := bind_eq_ok.mp h
    intro op' hop c hc
    rcases List.mem_cons.mp hop with rfl | hop
    · rw [fill_eq] at h1
      obtain ⟨m, hm, ht⟩ := foldl_tight _ _ _ h1 c hc
      obtain ⟨m', hm', e1, e2, e3⟩ := (fills_inv pb _ _ _ h2).2.1 m hm
      exact ⟨m', hm', e1.trans ht.1, fun h => (ht.2.1 h).trans e2, fun h => e3.trans (ht.2.2 h)⟩
    · exact fills_cover pb l r1 ret' h2 op' hop c hc

/-- C14: no constraint is lost: each of them has a merged constraint with the
same elements, up to their order, and bounds at least as tight. -/
theorem C14_no_constraint_lost (s : Sorts) (hs : s.Ok) (o : Order) (pb : Problem)
    (ms : List Merged) (h : make s o pb = .ok ms) :
    (∀ c ∈ pb.eqs, ∃ m ∈ ms, m.elems.Perm c.elems ∧ c.value ≤ m.min ∧ m.max ≤ c.value) ∧
    (∀ c ∈ pb.ges, ∃ m ∈ ms, m.elems.Perm c.elems ∧ c.value ≤ m.min) ∧
    (∀ c ∈ pb.les, ∃ m ∈ ms, m.elems.Perm c.elems ∧ m.max ≤ c.value) := by
  rcases make_cases s hs o pb with ⟨f, _, h2⟩ | ⟨r, h1, ⟨ret, h2, h3⟩ | ⟨⟨w, h2⟩, _⟩⟩
  · exact absurd (h2.symm.trans h) (by simp)
  · have : ret = ms := Except.ok.inj (h2.symm.trans h)
    subst this
    have hop : ∀ op, op ∈ fillOrder o := by
      intro op; cases o <;> cases op <;> decide
    have key : ∀ op, ∀ c ∈ cstsOf pb op, ∃ m ∈ ret, m.elems.Perm c.elems ∧
        (op ≠ .less → c.value ≤ m.min) ∧ (op ≠ .greater → m.max ≤ c.value) := by
      intro op c hc
      obtain ⟨a, ha, ht⟩ := fills_cover pb _ _ _ h1 op (hop op) c hc
      obtain ⟨b, hb, e1, e2, e3⟩ := h3.fwd a ha
      exact ⟨b, hb, by rw [← ht.1]; exact e3, fun h => by rw [e1]; exact ht.2.1 h,
        fun h => by rw [e2]; exact ht.2.2 h⟩
    refine ⟨fun c hc => ?_, fun c hc => ?_, fun c hc => ?_⟩
    · obtain ⟨m, h1, h2, h3, h4⟩ := key .equal c hc
      exact ⟨m, h1, h2, h3 (by simp), h4 (by simp)⟩
    · obtain ⟨m, h1, h2, h3, _⟩ := key .greater c hc
      exact ⟨m, h1, h2, h3 (by simp)⟩
    · obtain ⟨m, h1, h2, _, h4⟩ := key .less c hc
      exact ⟨m, h1, h2, h4 (by simp)⟩
  · exact absurd (h2.symm.trans h) (by simp)

/-- C14: the order option does not change the solutions. -/
theorem C14_order_independent (s s' : Sorts) (hs : s.Ok) (hs' : s'.Ok) (o o' : Order) (pb : Problem)
    (hi : IntSums pb) (ms ms' : List Merged) (h : make s o pb = .ok ms)
    (h' : make s' o' pb = .ok ms') (x : Assign) : Within x ms ↔ Within x ms' := by
  rw [C13_merge_preserves_solutions s hs o pb hi ms h,
    C13_merge_preserves_solutions s' hs' o' pb hi ms' h']

example : exMerged.length ≤ 5 :=
  (C14_merge_never_grows stdSorts stdSorts_ok .memory exPb _ exPb_runs).1

/-! ## C15 -/

/-- C15: when the merge throws, the problem has no solution; and the exception
is the only way it stops, apart from undefined behaviour in the orders p1 to p4
(empty constraint or index out of range). -/
theorem C15_conflict_means_infeasible (s : Sorts) (hs : s.Ok) (o : Order) (pb : Problem)
    (hi : IntSums pb) :
    (∀ t, make s o pb = .error (.exn t) → t = "multiple_constraint" ∧
      ¬ ∃ x, Satisfies pb.eqs pb.ges pb.les x) ∧
    (∀ t, make s o pb ≠ .error (.contract t)) ∧ make s o pb ≠ .error .fuel ∧
    (∀ t, make s o pb = .error (.ub t) → o = .p1 ∨ o = .p2 ∨ o = .p3 ∨ o = .p4) := by
  rcases make_cases s hs o pb with ⟨f, h1, h2⟩ | ⟨r, h1, ⟨ret, h2, h3⟩ | ⟨⟨w, h2⟩, h3⟩⟩
  · obtain ⟨rfl, h4⟩ := fills_err pb (fits hi) _ _ h1
    rw [h2]
    refine ⟨?_, by simp, by simp, by simp⟩
    intro t ht
    simp only [Except.error.injEq, Fault.exn.injEq] at ht
    refine ⟨ht.symm, ?_⟩
    rintro ⟨x, hx⟩
    exact h4 x ⟨by simp, (all_sat pb o x).mpr hx⟩
  · rw [h2]; simp
  · rw [h2]; simp [h3]

/-- C15, the converse, partial: when the merge returns, two equalities with the
same left-hand side have the same right-hand side; and in the two orders that
fill the equalities last, an equality is compatible with every inequality with
the same left-hand side.  Missing: the other contradictions, see
`C15_contradiction_not_reported`. -/
theorem C15_contradictions_reported_partial (s : Sorts) (hs : s.Ok) (o : Order) (pb : Problem)
    (ms : List Merged) (h : make s o pb = .ok ms) :
    (∀ c ∈ pb.eqs, ∀ d ∈ pb.eqs, c.elems = d.elems → c.value = d.value) ∧
    (o = .lessGreaterEqual ∨ o = .greaterLessEqual → ∀ c ∈ pb.eqs,
      (∀ d ∈ pb.les, c.elems = d.elems → c.value ≤ d.value) ∧
      (∀ d ∈ pb.ges, c.elems = d.elems → c.value ≥ d.value)) := by
  have hr : ∃ r, (fillOrder o).foldlM (fill pb) [] = .ok r := by
    rcases make_cases s hs o pb with ⟨f, _, h2⟩ | ⟨r, h1, _⟩
    · exact absurd (h2.symm.trans h) (by simp)
    · exact ⟨r, h1⟩
  obtain ⟨r, hr⟩ := hr
  -- the state before and after the fill of the equalities
  have hsplit : ∃ pre post r0 r1, fillOrder o = pre ++ .equal :: post ∧
      pre.foldlM (fill pb) [] = .ok r0 ∧ fill pb r0 .equal = .ok r1 := by
    have : ∃ pre post, fillOrder o = pre ++ .equal :: post :=
      List.append_of_mem (mem_fillOrder o .equal)
    obtain ⟨pre, post, hp⟩ := this
    rw [hp, List.foldlM_append] at hr
    obtain ⟨r0, h1, h2⟩ := bind_eq_ok.mp hr
    rw [List.foldlM_cons] at h2
    obtain ⟨r1, h3, _⟩ := bind_eq_ok.mp h2
    exact ⟨pre, post, r0, r1, hp, h1, h3⟩
  obtain ⟨pre, post, r0, r1, hp, h0, h1⟩ := hsplit
  have hnd0 := (fills_inv pb _ _ _ h0).1 (by simp)
  rw [fill_eq] at h1
  have hinv := foldl_inv (step_spec .equal) _ _ _ h1
  have hnd := hinv.1 hnd0
  have hpt := (foldl_point _ _ _ h1).2
  have huniq : ∀ a ∈ r1, ∀ b ∈ r1, a.elems = b.elems → a = b := by
    intro a ha b hb hab
    exact List.inj_on_of_nodup_map hnd ha hb hab
  constructor
  · intro c hc d hd hcd
    obtain ⟨m, m1, m2, m3, m4⟩ := hpt c hc
    obtain ⟨m', n1, n2, n3, n4⟩ := hpt d hd
    have := huniq m m1 m' n1 (by rw [m2, n2, hcd])
    subst this
    omega
  · intro ho
    have hmem : ∀ op, op ≠ .equal → op ∈ pre := by
      intro op hop
      have : fillOrder o = [.less, .greater, .equal] ∨ fillOrder o = [.greater, .less, .equal] := by
        rcases ho with rfl | rfl
        · exact Or.inl rfl
        · exact Or.inr rfl
      rcases this with h2 | h2 <;> rw [h2] at hp <;>
        rcases pre with _ | ⟨a, _ | ⟨b, _ | ⟨c, pre⟩⟩⟩ <;> simp at hp <;>
        (obtain ⟨rfl, rfl, _⟩ := hp; cases op <;> simp at hop ⊢)
    -- an inequality filled before leaves its trace
    have htr : ∀ op, op ≠ .equal → ∀ d ∈ cstsOf pb op, ∃ m ∈ r1, Tight op d m := by
      intro op hop d hd
      obtain ⟨p1, p2, hpp⟩ := List.append_of_mem (hmem op hop)
      rw [hpp, List.foldlM_append] at h0
      obtain ⟨q0, k1, k2⟩ := bind_eq_ok.mp h0
      rw [List.foldlM_cons] at k2
      obtain ⟨q1, k3, k4⟩ := bind_eq_ok.mp k2
      rw [fill_eq] at k3
      obtain ⟨m, t1, t2⟩ := foldl_tight _ _ _ k3 d hd
      obtain ⟨m', u1, u2, u3, u4⟩ := (fills_inv pb _ _ _ k4).2.1 m t1
      obtain ⟨m'', v1, v2, v3, v4⟩ := hinv.2.1 m' u1
      exact ⟨m'', v1, (v2.trans u2).trans t2.1,
        fun h => le_trans (le_trans (t2.2.1 h) u3) v3,
        fun h => le_trans (le_trans v4 u4) (t2.2.2 h)⟩
    intro c hc
    obtain ⟨m, m1, m2, m3, m4⟩ := hpt c hc
    constructor
    · intro d hd hcd
      obtain ⟨m', n1, n2, n3, n4⟩ := htr .less (by simp) d hd
      have := huniq m m1 m' n1 (by rw [m2, n2, hcd])
      subst this
      have := n4 (by simp)
      omega
    · intro d hd hcd
      obtain ⟨m', n1, n2, n3, n4⟩ := htr .greater (by simp) d hd
      have := huniq m m1 m' n1 (by rw [m2, n2, hcd])
      subst this
      have := n3 (by simp)
      omega

/-- x0 + x1 <= 0 and x0 + x1 >= 1. -/
def exContradiction : Problem where
  objective := { elems := [⟨3, 0⟩, ⟨1, 1⟩] }
  ges := [{ elems := [⟨1, 0⟩, ⟨1, 1⟩], value := 1, id := 0 }]
  les := [{ elems := [⟨1, 0⟩, ⟨1, 1⟩], value := 0, id := 1 }]
  names := ["x0", "x1"]
  values := [⟨0, 1, .binary⟩, ⟨0, 1, .binary⟩]
  ptype := .inequalities01

/-- C15, the converse is false: two contradictory inequalities with the same
left-hand side are not reported, whatever the order option; the merged
constraint has min > max. -/
theorem C15_contradiction_not_reported (o : Order) :
    (¬ ∃ x, Satisfies exContradiction.eqs exContradiction.ges exContradiction.les x) ∧
    ∃ ms, make stdSorts o exContradiction = .ok ms ∧ ∃ m ∈ ms, m.max < m.min := by
  constructor
  · rintro ⟨x, _, h1, h2⟩
    have a := h1 _ (List.mem_singleton.mpr rfl)
    have b := h2 _ (List.mem_singleton.mpr rfl)
    simp only at a b
    omega
  · cases o
    · exact ⟨[⟨[⟨1, 0⟩, ⟨1, 1⟩], 1, 0, 1⟩], by decide +kernel, by decide +kernel⟩
    · exact ⟨[⟨[⟨1, 0⟩, ⟨1, 1⟩], 1, 0, 1⟩], by decide +kernel, by decide +kernel⟩
    · exact ⟨[⟨[⟨1, 0⟩, ⟨1, 1⟩], 1, 0, 1⟩], by decide +kernel, by decide +kernel⟩
    · exact ⟨[⟨[⟨1, 0⟩, ⟨1, 1⟩], 1, 0, 1⟩], by decide +kernel, by decide +kernel⟩
    · exact ⟨[⟨[⟨1, 0⟩, ⟨1, 1⟩], 1, 0, 0⟩], by decide +kernel, by decide +kernel⟩
    · exact ⟨[⟨[⟨1, 0⟩, ⟨1, 1⟩], 1, 0, 0⟩], by decide +kernel, by decide +kernel⟩
    · exact ⟨[⟨[⟨1, 0⟩, ⟨1, 1⟩], 1, 0, 1⟩], by decide +kernel, by decide +kernel⟩
    · exact ⟨[⟨[⟨1, 0⟩, ⟨1, 1⟩], 1, 0, 0⟩], by decide +kernel, by decide +kernel⟩
    · exact ⟨[⟨[⟨1, 0⟩, ⟨1, 1⟩], 1, 0, 0⟩], by decide +kernel, by decide +kernel⟩
    · exact ⟨[⟨[⟨1, 0⟩, ⟨1, 1⟩], 1, 0, 0⟩], by decide +kernel, by decide +kernel⟩
    · exact ⟨[⟨[⟨1, 0⟩, ⟨1, 1⟩], 1, 0, 0⟩], by decide +kernel, by decide +kernel⟩
    · exact ⟨[⟨[⟨1, 0⟩, ⟨1, 1⟩], 1, 0, 0⟩], by decide +kernel, by decide +kernel⟩

/-- The exception is reachable: x0 + x1 = 1 and x0 + x1 = 2. -/
example : make stdSorts .memory
    { eqs := [{ elems := [⟨1, 0⟩, ⟨1, 1⟩], value := 1, id := 0 },
              { elems := [⟨1, 0⟩, ⟨1, 1⟩], value := 2, id := 1 }],
      names := ["x0", "x1"], values := [⟨0, 1, .binary⟩, ⟨0, 1, .binary⟩] } =
    .error (.exn "multiple_constraint") := by decide +kernel

/-! ## C16 -/

/-- C16: for a problem that has a solution and no null coefficient, merging
succeeds into constraints that satisfy the contract of the solver chosen by the
problem type: its constructor does not abort, and the bounds it keeps have the
same solutions as the constraint.  Partial: null coefficients and infeasible
problems break it, see below. -/
theorem C16_solver_contract_partial (s : Sorts) (hs : s.Ok) (o : Order) (pb : Problem)
    (hi : IntSums pb) (hF : ∃ x, Satisfies pb.eqs pb.ges pb.les x)
    (hz : ∀ c ∈ pb.eqs ++ pb.ges ++ pb.les, ∀ e ∈ c.elems, e.factor ≠ 0)
    (ms : List Merged) (h : make s o pb = .ok ms) :
    ∀ m ∈ ms, ∃ b, SolverCtor.ctor (ProblemType.whichProblemType pb.eqs pb.ges pb.les) m = .ok b ∧
      ∀ x, (b.min ≤ lhs x m.elems ∧ lhs x m.elems ≤ b.max ↔
        m.min ≤ lhs x m.elems ∧ lhs x m.elems ≤ m.max) := by
  intro m hm
  obtain ⟨c, hc, hp⟩ := (C14_merge_never_grows s hs o pb ms h).2 m hm
  have hel : ∀ e ∈ m.elems, e ∈ c.elems := fun e he => hp.mem_iff.mp he
  have hcl := C12_classification pb.eqs pb.ges pb.les
  simp only at hcl
  have hfs : ∀ e ∈ m.elems, e.factor ∈ (pb.eqs ++ pb.ges ++ pb.les).flatMap
      fun c => c.elems.map FunElem.factor := fun e he =>
    List.mem_flatMap.mpr ⟨c, hc, List.mem_map_of_mem (hel e he)⟩
  have hne : ∀ e ∈ m.elems, e.factor ≠ 0 := fun e he => hz c hc e (hel e he)
  have hsat : ∃ x, satM x m := by
    obtain ⟨x, hx⟩ := hF
    exact ⟨x, (C13_merge_preserves_solutions s hs o pb hi ms h x).mpr hx m hm⟩
  generalize ProblemType.whichProblemType pb.eqs pb.ges pb.les = t at hcl
  have key : ∃ b, SolverCtor.ctor t m = .ok b := by
    refine SolverCtor.ctor_ok ?_ ?_ (fun _ => hne) ?_ hsat
    · intro ht e he
      by_cases h0 : ∀ f ∈ (pb.eqs ++ pb.ges ++ pb.les).flatMap
          fun c => c.elems.map FunElem.factor, f = 0 ∨ f = 1
      · rcases h0 _ (hfs e he) with h1 | h1
        · exact absurd h1 (hne e he)
        · exact h1
      · rw [hcl] at ht
        simp only [if_neg h0] at ht
        split at ht <;> split at ht <;> simp at ht
    · intro ht e he
      by_cases h0 : ∀ f ∈ (pb.eqs ++ pb.ges ++ pb.les).flatMap
          fun c => c.elems.map FunElem.factor, f = -1 ∨ f = 0 ∨ f = 1
      · rcases h0 _ (hfs e he) with h1 | h1 | h1
        · rw [h1]; rfl
        · exact absurd h1 (hne e he)
        · rw [h1]; rfl
      · rw [hcl] at ht
        simp only [if_neg h0] at ht
        split at ht <;> split at ht <;> simp at ht
    · intro ht
      by_cases h0 : pb.ges = [] ∧ pb.les = []
      · -- only equalities
        rcases make_cases s hs o pb with ⟨f, _, h2⟩ | ⟨r, h1, ⟨ret, h2, h3⟩ | ⟨⟨w, h2⟩, _⟩⟩
        · exact absurd (h2.symm.trans h) (by simp)
        · have : ret = ms := Except.ok.inj (h2.symm.trans h)
          subst this
          have hfill : fill pb [] .equal = .ok r := by
            have e1 : ∀ q, fill pb q .less = .ok q := by
              intro q; simp [fill, h0.2, pure_eq_ok]
            have e2 : ∀ q, fill pb q .greater = .ok q := by
              intro q; simp [fill, h0.1, pure_eq_ok]
            have e3 : ∀ q : Outcome (List Merged), (q >>= fun r => Except.ok r) = q := by
              intro q; cases q <;> rfl
            have : (fillOrder o).foldlM (fill pb) [] = fill pb [] .equal := by
              cases o <;> simp only [fillOrder, ops, List.foldlM_cons, List.foldlM_nil, e1, e2,
                ok_bind, pure_eq_ok, e3]
            rw [← this]; exact h1
          obtain ⟨a, ha, a1, a2, _⟩ := h3.bwd m hm
          rw [a1, a2]
          rw [fill_eq] at hfill
          have hinv := foldl_inv (step_spec .equal) _ _ _ hfill
          rcases hinv.2.2.2 a ha with ⟨c', hc', he'⟩ | ⟨m0, hm0, _⟩
          · obtain ⟨m', n1, n2, n3, n4⟩ := (foldl_point _ _ _ hfill).2 c' hc'
            have : a = m' := List.inj_on_of_nodup_map (hinv.1 (by simp)) ha n1
              (he'.symm.trans n2.symm)
            rw [this, n3, n4]
          · simp at hm0
        · exact absurd (h2.symm.trans h) (by simp)
      · rw [hcl] at ht
        simp only [if_neg h0] at ht
        split at ht
        · simp at ht
        · split at ht <;> simp at ht
  obtain ⟨b, hb⟩ := key
  exact ⟨b, hb, fun x => SolverCtor.ctor_exact hb x⟩

example : ∀ m ∈ exMerged, ∃ b, SolverCtor.ctor .inequalities01 m = .ok b ∧
      ∀ x, (b.min ≤ lhs x m.elems ∧ lhs x m.elems ≤ b.max ↔
        m.min ≤ lhs x m.elems ∧ lhs x m.elems ≤ m.max) :=
  C16_solver_contract_partial stdSorts stdSorts_ok .memory exPb exPb_ints
    ⟨fun i => i = 0, by decide +kernel⟩ (by decide +kernel) _ exPb_runs

/-- C16 is false in general, null coefficients: x0 + 0 x1 = 1 is feasible and
classified as a 0/1 equality problem, whose solver aborts. -/
theorem C16_null_coefficient_aborts :
    ∃ (pb : Problem) (ms : List Merged) (m : Merged),
      (∃ x, Satisfies pb.eqs pb.ges pb.les x) ∧ make stdSorts .memory pb = .ok ms ∧ m ∈ ms ∧
      SolverCtor.ctor (ProblemType.whichProblemType pb.eqs pb.ges pb.les) m =
        .error (.contract "factor == 1") := by
  refine ⟨{ eqs := [{ elems := [⟨1, 0⟩, ⟨0, 1⟩], value := 1, id := 0 }],
            names := ["x0", "x1"], values := [⟨0, 1, .binary⟩, ⟨0, 1, .binary⟩] },
    [⟨[⟨1, 0⟩, ⟨0, 1⟩], 1, 1, 0⟩], ⟨[⟨1, 0⟩, ⟨0, 1⟩], 1, 1, 0⟩,
    ⟨fun i => i = 0, ?_⟩, ?_, ?_, ?_⟩ <;> decide +kernel

/-- C16 is false in general, infeasible problems: instead of reporting that
x0 + x1 >= 3 cannot hold, the solver's constructor aborts. -/
theorem C16_infeasible_row_aborts :
    ∃ (pb : Problem) (ms : List Merged) (m : Merged),
      make stdSorts .memory pb = .ok ms ∧ m ∈ ms ∧
      SolverCtor.ctor (ProblemType.whichProblemType pb.eqs pb.ges pb.les) m =
        .error (.contract "b[i].min <= b[i].max") := by
  refine ⟨{ ges := [{ elems := [⟨1, 0⟩, ⟨1, 1⟩], value := 3, id := 0 }],
            names := ["x0", "x1"], values := [⟨0, 1, .binary⟩, ⟨0, 1, .binary⟩] },
    [⟨[⟨1, 0⟩, ⟨1, 1⟩], 3, 2147483647, 0⟩], ⟨[⟨1, 0⟩, ⟨1, 1⟩], 3, 2147483647, 0⟩,
    ?_, ?_, ?_⟩ <;> decide +kernel

end Bx.Merge
