import Mathlib.Algebra.Order.BigOperators.Group.List
import Verif.Proofs.Preferences
import Verif.Proofs.RandomSolver
import Verif.Props.Multipliers
import Verif.Props.Solve

/-!
# C73-C74: the random solver

`make` builds the solver from the merged constraints, `update` is the update of one constraint.  The
sort, the shuffle, the draws, the costs, the multipliers and the preferences are arbitrary.
-/

namespace Bx.Rand

open Merge SolverCtor Spec Itm Mult

/-! ## C73 -/

/-- C73, what an update that returns guarantees: the constraint holds and no other variable
changed. -/
theorem C73_update_is_sound (csts : List Merged) (n : Nat) (s : Slv) (hs : make csts n = .ok s)
    (k : Nat) (c : Merged) (hk : csts[k]? = some c) (hnd : (c.elems.map FunElem.var).Nodup)
    (mode : ObjType) (o : Oracle) (ho : o.Ok mode) (p : Param) (cost : CostFun) (x x' : Assign)
    (m m' : Mem) (h : update mode o p s cost k x m = .ok (x', m')) :
    Respects c x' ∧ ∀ j, (∀ e ∈ c.elems, e.var ≠ j) → x' j = x j := by
  obtain ⟨_, _, hrows⟩ := make_facts hs
  obtain ⟨b, hr, hb, hc⟩ := hrows k c hk
  by_cases hne : c.elems ≠ [] ∨ b.min ≤ 0
  · obtain ⟨A, B, P, _, _, _, _, _, h3, h4, h5, _⟩ :=
      update_eq hs hk hb hnd ho p cost x m hne
    by_cases hR : Respects c (put c.elems false (put c.elems true x A) B)
    · rw [h4 hR] at h
      have := (Prod.mk.injEq .. ▸ Except.ok.inj h : _ ∧ _).1
      rw [← this]
      exact ⟨hR, h3⟩
    · rw [h5 hR] at h
      cases h
  · exfalso
    have h0 : c.elems = [] := by
      by_contra h0; exact hne (Or.inl h0)
    have hm : ¬ b.min ≤ 0 := fun h0 => hne (Or.inr h0)
    unfold update at h
    rw [hr, hb] at h
    simp only [ok_bind] at h
    have hnil : o.sort (cells s cost (decrease m k c.elems p.theta) x c.elems) = [] := by
      have := ((ho (cells s cost (decrease m k c.elems p.theta) x c.elems)).1).length_eq
      have h2 : cells s cost (decrease m k c.elems p.theta) x c.elems = [] := by
        rw [h0]; rfl
      rw [h2] at this ⊢
      exact List.length_eq_zero_iff.mp this
    rw [hnil] at h
    unfold loops at h
    simp only [hm, if_false, fill, error_bind] at h
    cases h

/-- C73, when it returns: for every satisfiable constraint whose coefficients are positive and for
every constraint that accepts the value 0, the update returns.  What is missing: the other
satisfiable constraints (`C73_negative_bound_aborts`, `C73_mixed_row_aborts`). -/
theorem C73_update_returns_partial (csts : List Merged) (n : Nat) (s : Slv)
    (hs : make csts n = .ok s) (k : Nat) (c : Merged) (hk : csts[k]? = some c)
    (hnd : (c.elems.map FunElem.var).Nodup)
    (hc : ((∀ e ∈ c.elems, 0 < e.factor) ∧ ∃ y, Respects c y) ∨ (c.min ≤ 0 ∧ 0 ≤ c.max))
    (mode : ObjType) (o : Oracle) (ho : o.Ok mode) (p : Param) (cost : CostFun) (x : Assign)
    (m : Mem) :
    ∃ x' m', update mode o p s cost k x m = .ok (x', m') ∧ Respects c x' ∧
      ∀ j, (∀ e ∈ c.elems, e.var ≠ j) → x' j = x j := by
  obtain ⟨_, _, hrows⟩ := make_facts hs
  obtain ⟨b, hr, hb, hcb⟩ := hrows k c hk
  obtain ⟨hu, hbb, hres, hmin, hmax, _⟩ := ctor_facts hcb
  have hne : c.elems ≠ [] ∨ b.min ≤ 0 := by
    rcases hc with ⟨_, y, hy⟩ | ⟨h, _⟩
    · by_cases h0 : c.elems = []
      · right
        have := (hres y).mpr hy
        rw [h0] at this
        simpa [lhs] using this.1
      · exact Or.inl h0
    · exact Or.inr (hmin h)
  obtain ⟨A, B, P, _, hperm, hl, _, _, h3, h4, _, h6, h7, h8⟩ :=
    update_eq hs hk hb hnd ho p cost x m hne
  have key : b.min ≤ sumF c.elems A ∧ sumF c.elems A ≤ b.max := by
    by_cases hbm : b.min ≤ 0
    · have hbx : 0 ≤ b.max := by
        rcases hc with ⟨hp, y, hy⟩ | ⟨_, h⟩
        · have h1 := (hres y).mpr hy
          have h2 : 0 ≤ lhs y c.elems := by
            unfold lhs
            apply List.sum_nonneg
            intro a ha
            obtain ⟨e, he, rfl⟩ := List.mem_map.mp ha
            have := hp e he
            split <;> omega
          omega
        · exact hmax h
      exact ⟨(h6 hbm hbx).1, (h6 hbm hbx).2.1⟩
    · have hbm' : 0 < b.min := by omega
      obtain ⟨hp, y, hy⟩ : (∀ e ∈ c.elems, 0 < e.factor) ∧ ∃ y, Respects c y := by
        rcases hc with h | ⟨h, _⟩
        · exact h
        · exact absurd (hmin h) hbm
      have hone : ∀ e ∈ c.elems, e.factor = 1 := by
        intro e he
        have := hp e he
        rcases hu e he with h | h <;> omega
      have hI := mem_ids hperm
      have hsum : ∀ l, (∀ r ∈ l, r ∈ A ++ B) → sumF c.elems l = l.length := by
        intro l hl
        unfold sumF
        have : (l.map fun r => (get c.elems r).factor) = l.map fun _ => (1 : Int) := by
          apply List.map_congr_left
          intro r hr
          apply hone
          unfold get
          rw [List.getElem?_eq_getElem (hI r (hl r hr))]
          exact List.getElem_mem _
        rw [this]
        simp
      obtain ⟨C, D, hA, hpre, g1, g2⟩ := h8 hbm'
      have hlen : (A ++ B).length = c.elems.length := by
        have := hperm.length_eq
        simpa using this
      have hreach : b.min ≤ sumF c.elems C := by
        by_contra hlt
        obtain ⟨hAC, hB⟩ := g2 (by omega)
        have h1 : sumF c.elems A = c.elems.length := by
          rw [hsum A (by simp +contextual), ← hlen, hB]
          simp
        have h2 := (hres y).mpr hy
        have h3 : lhs y c.elems ≤ c.elems.length := by
          have hone' := hone
          unfold lhs
          generalize c.elems = es at hone'
          induction es with
          | nil => simp
          | cons e es ih =>
            have := ih fun d hd => hone' d (by simp [hd])
            simp only [List.map_cons, List.sum_cons, List.length_cons]
            have he := hone' e (by simp)
            split <;> push_cast <;> omega
        rw [hAC] at h1
        omega
      have hle : sumF c.elems C ≤ b.max := by
        rcases List.eq_nil_or_concat C with h0 | ⟨C', r, h0⟩
        · rw [h0] at hreach
          simp [sumF] at hreach
          omega
        · have h1 := hpre C' r [] (by simpa using h0)
          have h2 : sumF c.elems C = sumF c.elems C' + 1 := by
            rw [hsum C (fun q hq => by rw [hA]; simp [hq]),
              hsum C' (fun q hq => by rw [hA, h0]; simp [hq]), h0]
            simp
          omega
      exact ⟨(g1 hreach hle).1, (g1 hreach hle).2.1⟩
  have hR : Respects c (put c.elems false (put c.elems true x A) B) := by
    rw [← hres, hl]
    exact key
  exact ⟨_, _, h4 hR, hR, h3⟩

/-- C73 is false of the code: the update of a satisfiable constraint with a negative upper bound
always stops the process. -/
theorem C73_negative_bound_aborts (csts : List Merged) (n : Nat) (s : Slv)
    (hs : make csts n = .ok s) (k : Nat) (c : Merged) (hk : csts[k]? = some c)
    (hnd : (c.elems.map FunElem.var).Nodup) (hneg : c.max < 0)
    (mode : ObjType) (o : Oracle) (ho : o.Ok mode) (p : Param) (cost : CostFun) (x : Assign)
    (m : Mem) :
    update mode o p s cost k x m = .error (.contract "is_valid_constraint(*this, k, x)") := by
  obtain ⟨_, _, hrows⟩ := make_facts hs
  obtain ⟨b, hr, hb, hcb⟩ := hrows k c hk
  obtain ⟨hu, hbb, hres, hmin, hmax, hmax'⟩ := ctor_facts hcb
  have hbx := hmax' hneg
  obtain ⟨A, B, P, _, hperm, hl, _, _, h3, _, h5, _, h7, _⟩ :=
    update_eq hs hk hb hnd ho p cost x m (Or.inr (by omega))
  apply h5
  rw [← hres, hl, h7 (by omega) hbx]
  simp [sumF]
  omega

/-- The constraints of the examples: 1 ≤ x0 + x1 + x2 ≤ 2, 0 ≤ x0 - x1 ≤ 1, x0 - x1 = 1 and
-x0 - x1 ≤ -1. -/
def rCsts : List Merged :=
  [⟨[⟨1, 0⟩, ⟨1, 1⟩, ⟨1, 2⟩], 1, 2, 0⟩, ⟨[⟨1, 0⟩, ⟨-1, 1⟩], 0, 1, 1⟩, ⟨[⟨1, 0⟩, ⟨-1, 1⟩], 1, 1, 2⟩,
    ⟨[⟨-1, 0⟩, ⟨-1, 1⟩], -2147483648, -1, 3⟩]

def rSlv : Slv := ⟨.inequalities101, rCsts.map Merged.elems, [⟨1, 2, 0⟩, ⟨0, 1, 0⟩, ⟨1, 1, 0⟩, ⟨-2, -1, 0⟩], 3⟩

theorem rSlv_make : make rCsts 3 = .ok rSlv := by decide +kernel

/-- The sort of `exOracle` after a reversal: equal values are left in the reverse order. -/
def revOracle (mode : ObjType) : Oracle :=
  { exOracle mode with sort := fun l => (exOracle mode).sort l.reverse }

theorem revOracle_ok (mode : ObjType) : (revOracle mode).Ok mode := fun l =>
  ⟨((exOracle_ok mode l.reverse).1).trans (List.reverse_perm l), (exOracle_ok mode l.reverse).2⟩

/-- The hypotheses of `C73_update_returns_partial` are met, in its two cases. -/
example : ∃ x' m' x'' m'',
    update .minimize (exOracle .minimize) ⟨1 / 2, 0, 1 / 2, none⟩ rSlv (costOf [3, -2, 1]) 0
      (fun _ => false) mem0 = .ok (x', m') ∧
    update .minimize (exOracle .minimize) ⟨1 / 2, 0, 1 / 2, none⟩ rSlv (costOf [3, -2, 1]) 1
      (fun _ => false) mem0 = .ok (x'', m'') ∧
    Respects ⟨[⟨1, 0⟩, ⟨1, 1⟩, ⟨1, 2⟩], 1, 2, 0⟩ x' ∧
    Respects ⟨[⟨1, 0⟩, ⟨-1, 1⟩], 0, 1, 1⟩ x'' := by
  obtain ⟨x', m', h1, h2, _⟩ := C73_update_returns_partial rCsts 3 rSlv rSlv_make 0 _ rfl
    (by decide +kernel)
    (Or.inl ⟨by decide +kernel, fun j => decide (j = 2), by unfold Respects; decide +kernel⟩)
    .minimize _ (exOracle_ok _) ⟨1 / 2, 0, 1 / 2, none⟩ (costOf [3, -2, 1]) (fun _ => false) mem0
  obtain ⟨x'', m'', h3, h4, _⟩ := C73_update_returns_partial rCsts 3 rSlv rSlv_make 1 _ rfl
    (by decide +kernel) (Or.inr (by decide +kernel))
    .minimize _ (exOracle_ok _) ⟨1 / 2, 0, 1 / 2, none⟩ (costOf [3, -2, 1]) (fun _ => false) mem0
  exact ⟨x', m', x'', m'', h1, h3, h2, h4⟩

/-- The constraint -x0 - x1 ≤ -1 is satisfiable. -/
example : (∃ y, Respects ⟨[⟨-1, 0⟩, ⟨-1, 1⟩], -2147483648, -1, 3⟩ y) ∧
    update .minimize (exOracle .minimize) ⟨1 / 2, 0, 1 / 2, none⟩ rSlv (costOf [3, -2, 1]) 3
      (fun _ => true) mem0 = .error (.contract "is_valid_constraint(*this, k, x)") :=
  ⟨⟨fun j => decide (j = 0), by unfold Respects; decide +kernel⟩,
    C73_negative_bound_aborts rCsts 3 rSlv rSlv_make 3 _ rfl (by decide +kernel) (by decide)
      .minimize _ (exOracle_ok _) _ _ _ _⟩

/-- C73 is false of the code: with another order of equal values, the update of x0 - x1 = 1 stops
the process, although the same update returns with the first order. -/
theorem C73_mixed_row_aborts :
    (∃ y, Respects ⟨[⟨1, 0⟩, ⟨-1, 1⟩], 1, 1, 2⟩ y) ∧ (revOracle .minimize).Ok .minimize ∧
    update .minimize (revOracle .minimize) ⟨1 / 2, 0, 1 / 2, none⟩ rSlv (costOf [3, -2, 1]) 2
      (fun _ => false) mem0 = .error (.contract "is_valid_constraint(*this, k, x)") ∧
    ∃ x' m', update .minimize (exOracle .minimize) ⟨1 / 2, 0, 1 / 2, none⟩ rSlv (costOf [3, -2, 1]) 2
      (fun _ => false) mem0 = .ok (x', m') := by
  refine ⟨⟨fun j => decide (j = 0), by unfold Respects; decide +kernel⟩, revOracle_ok _, ?_, ?_⟩
  · have h : peek (update .minimize (revOracle .minimize) ⟨1 / 2, 0, 1 / 2, none⟩ rSlv
        (costOf [3, -2, 1]) 2 (fun _ => false) mem0) =
        .error (.contract "is_valid_constraint(*this, k, x)") := by decide +kernel
    cases hu : update .minimize (revOracle .minimize) ⟨1 / 2, 0, 1 / 2, none⟩ rSlv
        (costOf [3, -2, 1]) 2 (fun _ => false) mem0 with
    | error f => rw [hu] at h; simpa [peek] using h
    | ok v => rw [hu] at h; simp [peek] at h
  · obtain ⟨x', m', h, _⟩ := peek_ok (r := update .minimize (exOracle .minimize)
      ⟨1 / 2, 0, 1 / 2, none⟩ rSlv (costOf [3, -2, 1]) 2 (fun _ => false) mem0)
      (xs := [true, false, false]) (ps := [0, 0]) (qs := [0, 0, 0]) (by decide +kernel)
    exact ⟨x', m', h⟩

/-! ## C74 -/

/-- The price that an update of the row `k` gives to the variable `j`: the cost of the variable
`first` minus the preferences, after the decay of those of the row. -/
def priceFor (csts : List Merged) (m : Mem) (k : Nat) (theta : Rat) (cost : CostFun) (x : Assign)
    (first j : Nat) : Rat :=
  reducedCost csts (fun _ => 0) (decayed m.P k theta) (cost first x) j

theorem price_eq {csts : List Merged} {n : Nat} {s : Slv} (hs : make csts n = .ok s) {k : Nat}
    {c : Merged} (hk : csts[k]? = some c) (m : Mem) (theta : Rat) (cost : CostFun) (x : Assign)
    (first j : Nat) :
    price s cost (decrease m k c.elems theta) x first j = priceFor csts m k theta cost x first j := by
  obtain ⟨hkind, hrows, _⟩ := make_facts hs
  unfold priceFor
  rw [← reducedCost_decrease hk]
  unfold price reducedCost column
  rw [hkind, hrows, column_sum (t := .inequalities101)
    (fun i => (decrease m k c.elems theta).P i j) _ (fun _ _ _ _ => rfl), List.zipIdx_map]
  simp only [List.map_map, zero_add]
  rfl

/-- `a` does not improve the objective. -/
def NoGain (mode : ObjType) (a : Rat) : Prop :=
  match mode with
  | .minimize => 0 ≤ a
  | .maximize => a ≤ 0

/-- C74 is false of the code, and the opposite holds: in a constraint that accepts the value 0, the
update sets only variables whose price does not improve the objective.  Moreover the price of each
variable of the constraint is computed with the cost of the first one. -/
theorem C74_no_improving_variable_is_set (csts : List Merged) (n : Nat) (s : Slv)
    (hs : make csts n = .ok s) (k : Nat) (c : Merged) (hk : csts[k]? = some c)
    (hnd : (c.elems.map FunElem.var).Nodup) (hmin : c.min ≤ 0) (hmax : 0 ≤ c.max)
    (mode : ObjType) (o : Oracle) (ho : o.Ok mode) (p : Param) (cost : CostFun) (x x' : Assign)
    (m m' : Mem) (h : update mode o p s cost k x m = .ok (x', m')) (first : FunElem)
    (hf : c.elems.head? = some first) (e : FunElem) (he : e ∈ c.elems) (hx : x' e.var = true) :
    NoGain mode (priceFor csts m k p.theta cost x first.var e.var) := by
  obtain ⟨_, _, hrows⟩ := make_facts hs
  obtain ⟨b, hr, hb, hcb⟩ := hrows k c hk
  obtain ⟨hu, hbb, hres, hmin', hmax', _⟩ := ctor_facts hcb
  obtain ⟨A, B, P, hsort, hperm, hl, g1, g2, h3, h4, h5, h6, _⟩ :=
    update_eq hs hk hb hnd ho p cost x m (Or.inr (hmin' hmin))
  by_cases hR : Respects c (put c.elems false (put c.elems true x A) B)
  · rw [h4 hR] at h
    have hxx := (Prod.mk.injEq .. ▸ Except.ok.inj h : _ ∧ _).1
    obtain ⟨i, hi⟩ := List.getElem?_of_mem he
    have hil : i < c.elems.length := by
      by_contra hn
      rw [List.getElem?_eq_none (by omega)] at hi
      cases hi
    have hmem : i ∈ (A ++ B).map RC.id := hperm.mem_iff.mpr (List.mem_range.mpr hil)
    obtain ⟨r, hrm, hri⟩ := List.mem_map.mp hmem
    have hge : get c.elems r = e := by
      unfold get
      rw [hri, hi]
      rfl
    rcases List.mem_append.mp hrm with hA | hB
    · have hstop := (h6 (hmin' hmin) (hmax' hmax)).2.2 r hA
      have hcell : r ∈ cells s cost (decrease m k c.elems p.theta) x c.elems := by
        have := (ho (cells s cost (decrease m k c.elems p.theta) x c.elems)).1
        rw [hsort] at this
        exact this.mem_iff.mp hrm
      have hval : r.value = priceFor csts m k p.theta cost x first.var e.var := by
        unfold cells at hcell
        obtain ⟨q, hq, hqr⟩ := List.mem_map.mp hcell
        have hq2 := List.mem_zipIdx' hq
        have hid : q.2 = i := by rw [← hri, ← hqr]
        have hqe : q.1 = e := by
          rw [hq2.2]
          simp only [hid]
          rw [List.getElem?_eq_getElem hil] at hi
          exact Option.some.inj hi
        rw [← hqr]
        simp only
        rw [price_eq hs hk, hqe]
        unfold firstVar
        rw [hf]
        rfl
      rw [← hval]
      unfold stopIterating at hstop
      unfold NoGain
      by_cases h0 : r.value = 0
      · rw [h0]
        cases mode <;> simp
      · rw [if_neg h0] at hstop
        cases mode <;> simp at hstop ⊢ <;> exact le_of_lt hstop
    · have := g2 r hB
      rw [hge, hxx, hx] at this
      cases this
  · rw [h5 hR] at h
    cases h

/-- C74, what the update remembers: the preference of each variable of the constraint is multiplied
by `theta` and moves by `delta` plus `kappa / (1 - kappa)` times half the price, upward for a variable
that is set and downward for the others.  The price is computed with the cost of the first variable.
The other preferences and the multipliers are kept. -/
theorem C74_preferences_follow_the_values (csts : List Merged) (n : Nat) (s : Slv)
    (hs : make csts n = .ok s) (k : Nat) (c : Merged) (hk : csts[k]? = some c)
    (hnd : (c.elems.map FunElem.var).Nodup)
    (mode : ObjType) (o : Oracle) (ho : o.Ok mode) (p : Param) (cost : CostFun) (x x' : Assign)
    (m m' : Mem) (h : update mode o p s cost k x m = .ok (x', m')) (first : FunElem)
    (hf : c.elems.head? = some first) :
    (∀ e ∈ c.elems, m'.P k e.var = m.P k e.var * p.theta + (if x' e.var then 1 else -1) *
      (p.delta + p.kappa / (1 - p.kappa) *
        (priceFor csts m k p.theta cost x first.var e.var / 2))) ∧
    (∀ i j, (i ≠ k ∨ ∀ e ∈ c.elems, e.var ≠ j) → m'.P i j = m.P i j) ∧ m'.pi = m.pi := by
  obtain ⟨_, _, hrows⟩ := make_facts hs
  obtain ⟨b, hr, hb, hcb⟩ := hrows k c hk
  unfold update at h
  rw [hr, hb] at h
  simp only [ok_bind] at h
  obtain ⟨v, hv, h⟩ := bind_eq_ok.mp h
  obtain ⟨ok, _, h⟩ := bind_eq_ok.mp h
  obtain ⟨_, _, h⟩ := bind_eq_ok.mp h
  have := Except.ok.inj h
  simp only [Prod.mk.injEq] at this
  obtain ⟨rfl, rfl⟩ := this
  have hperm : ((o.sort (cells s cost (decrease m k c.elems p.theta) x c.elems)).map RC.id).Perm
      (List.range c.elems.length) := by
    have := ((ho (cells s cost (decrease m k c.elems p.theta) x c.elems)).1).map RC.id
    rwa [cells_ids] at this
  have hm := loops_moved (e := ⟨mode, k, c.elems, b, p.kappa, p.delta, o.coin⟩)
    (apart_of_perm hnd hperm) hv
  have hget : ∀ (i : Nat) (e : FunElem), c.elems[i]? = some e →
      ∃ r ∈ o.sort (cells s cost (decrease m k c.elems p.theta) x c.elems),
        get c.elems r = e ∧ r.value = priceFor csts m k p.theta cost x first.var e.var := by
    intro i e hi
    have hil : i < c.elems.length := (List.getElem?_eq_some_iff.mp hi).1
    have hmem := hperm.mem_iff.mpr (List.mem_range.mpr hil)
    obtain ⟨r, hrm, hri⟩ := List.mem_map.mp hmem
    refine ⟨r, hrm, ?_, ?_⟩
    · unfold get
      rw [hri, hi]
      rfl
    · have hcell : r ∈ cells s cost (decrease m k c.elems p.theta) x c.elems :=
        (ho _).1.mem_iff.mp hrm
      unfold cells at hcell
      obtain ⟨q, hq, hqr⟩ := List.mem_map.mp hcell
      have hq2 := List.mem_zipIdx' hq
      have hid : q.2 = i := by rw [← hri, ← hqr]
      have hqe : q.1 = e := by
        rw [hq2.2]
        simp only [hid]
        rw [List.getElem?_eq_getElem hil] at hi
        exact Option.some.inj hi
      rw [← hqr]
      simp only
      rw [price_eq hs hk, hqe]
      unfold firstVar
      rw [hf]
      rfl
  have hkeep : ∀ i j, (i ≠ k ∨ ∀ e ∈ c.elems, e.var ≠ j) →
      (decrease m k c.elems p.theta).P i j = m.P i j := by
    intro i j hij
    unfold decrease
    simp only
    rw [if_neg]
    rintro ⟨h1, h2⟩
    obtain ⟨e, he, hv⟩ := List.mem_map.mp h2
    rcases hij with h | h
    · exact h h1
    · exact h e he hv
  refine ⟨?_, ?_, rfl⟩
  · intro e he
    obtain ⟨i, hi⟩ := List.getElem?_of_mem he
    obtain ⟨r, hrm, hre, hrv⟩ := hget i e hi
    have := hm.at_ r hrm
    simp only [hre] at this
    simp only
    rw [this]
    have hdec : (decrease m k c.elems p.theta).P k e.var = m.P k e.var * p.theta := by
      unfold decrease
      simp only
      rw [if_pos ⟨trivial, List.mem_map.mpr ⟨e, he, rfl⟩⟩]
    rw [hdec, ← hrv]
    unfold step Mult.ratio
    cases v.x e.var <;> simp <;> ring
  · intro i j hij
    simp only
    refine (hm.P i j ?_).trans (hkeep i j hij)
    rcases hij with h | h
    · exact Or.inl h
    · refine Or.inr fun r hr => h _ ?_
      unfold get
      rw [List.getElem?_eq_getElem (mem_ids hperm r hr)]
      exact List.getElem_mem _

/-- The hypotheses are met by the update of 1 ≤ x0 + x1 + x2 ≤ 2 with the costs 3, -2 and 1. -/
example : ∃ x' m', update .minimize (exOracle .minimize) ⟨1 / 2, 0, 1 / 2, none⟩ rSlv
      (costOf [3, -2, 1]) 0 (fun _ => false) mem0 = .ok (x', m') ∧
    m'.P 0 0 = (if x' 0 then 1 else -1) * (3 / 2) := by
  obtain ⟨x', m', h, _⟩ := C73_update_returns_partial rCsts 3 rSlv rSlv_make 0 _ rfl
    (by decide +kernel)
    (Or.inl ⟨by decide +kernel, fun j => decide (j = 2), by unfold Respects; decide +kernel⟩)
    .minimize _ (exOracle_ok _) ⟨1 / 2, 0, 1 / 2, none⟩ (costOf [3, -2, 1]) (fun _ => false) mem0
  refine ⟨x', m', h, ?_⟩
  have := (C74_preferences_follow_the_values rCsts 3 rSlv rSlv_make 0 _ rfl (by decide +kernel)
    .minimize _ (exOracle_ok _) _ _ _ _ _ _ h ⟨1, 0⟩ rfl).1 ⟨1, 0⟩ (by simp)
  rw [this]
  have hp : priceFor rCsts mem0 0 (1 / 2) (costOf [3, -2, 1]) (fun _ => false) 0 0 = 3 := by
    simp [priceFor, reducedCost, decayed, mem0, costOf]
  simp only [hp]
  cases x' 0 <;> simp [mem0] <;> norm_num

/-- C74 is false of the code: to minimise 5 x0 + 3 x1 under 0 ≤ x0 + x1 ≤ 2, the update from the
null vector sets the two variables; to minimise -5 x0 - 3 x1, it sets none; to minimise 5 x0 - 3 x1,
it sets the two variables; to minimise -5 x0 + 3 x1, it sets none. -/
theorem C74_costly_variables_are_set :
    ∀ q ∈ [([5, 3], true), ([-5, -3], false), ([5, -3], true), ([-5, 3], false)],
    ∃ s x' m', make [⟨[⟨1, 0⟩, ⟨1, 1⟩], 0, 2, 0⟩] 2 = .ok s ∧
      update .minimize (exOracle .minimize) ⟨1 / 2, 0, 1 / 2, none⟩ s (costOf q.1) 0
        (fun _ => false) mem0 = .ok (x', m') ∧ x' 0 = q.2 ∧ x' 1 = q.2 := by
  have hs : make [⟨[⟨1, 0⟩, ⟨1, 1⟩], 0, 2, 0⟩] 2 =
      .ok ⟨.inequalities101, [[⟨1, 0⟩, ⟨1, 1⟩]], [⟨0, 2, 0⟩], 2⟩ := by decide +kernel
  have key : ∀ q ∈ [([5, 3], true), ([-5, -3], false), ([5, -3], true), ([-5, 3], false)],
      ∃ qs, peek (update .minimize (exOracle .minimize) ⟨1 / 2, 0, 1 / 2, none⟩
        ⟨.inequalities101, [[⟨1, 0⟩, ⟨1, 1⟩]], [⟨0, 2, 0⟩], 2⟩ (costOf q.1) 0 (fun _ => false) mem0) =
        .ok ([q.2, q.2, false], [0, 0], qs) := by
    intro q hq
    simp only [List.mem_cons, List.not_mem_nil, or_false] at hq
    rcases hq with rfl | rfl | rfl | rfl
    · exact ⟨[5 / 2, 5 / 2, 0], by decide +kernel⟩
    · exact ⟨[5 / 2, 5 / 2, 0], by decide +kernel⟩
    · exact ⟨[5 / 2, 5 / 2, 0], by decide +kernel⟩
    · exact ⟨[5 / 2, 5 / 2, 0], by decide +kernel⟩
  intro q hq
  obtain ⟨qs, hqs⟩ := key q hq
  obtain ⟨x', m', h, hx, _⟩ := peek_ok hqs
  simp only [List.cons.injEq] at hx
  exact ⟨_, x', m', hs, h, hx.1.symm, hx.2.1.symm⟩

end Bx.Rand
