import Mathlib.Data.List.Sort
import Verif.Proofs.Multipliers
import Verif.Proofs.Preferences

/-!
# C69-C72: what a row update optimises and remembers

The prices are the reduced costs of `Verif.Spec.Multipliers`: the cost of a variable minus its
coefficients times the multipliers and the preferences.  The sort, the shuffle, the draws and the
cost function are arbitrary.
-/

namespace Bx.Mult

open Merge SolverCtor Spec Itm

/-- The reduced cost that an update of the row `k` works with: the one of the multipliers and
preferences that it receives, where the preferences of the row are first multiplied by `theta`. -/
def priceIn (csts : List Merged) (m : Mem) (k : Nat) (theta : Rat) (cost : CostFun) (x : Assign)
    (j : Nat) : Rat :=
  reducedCost csts m.pi (decayed m.P k theta) (cost j x) j

/-! ## C69 -/

/-- C69: a row update returns an assignment of the variables of its row that respects the
constraint, that no other respecting assignment beats for the reduced costs, and it leaves the other
variables. -/
theorem C69_cheapest_row (t : SolverType) (ht : t ≠ .equalitiesZ ∧ t ≠ .inequalitiesZ)
    (csts : List Merged) (n : Nat) (s : Slv) (hs : makeSlv t csts n = .ok s)
    (k : Nat) (c : Merged) (hk : csts[k]? = some c) (hnd : (c.elems.map FunElem.var).Nodup)
    (hsat : ∃ y, Respects c y) (mode : ObjType) (o : Oracle) (ho : o.Ok mode)
    (kappa delta theta : Rat) (cost : CostFun) (x x' : Assign) (m m' : Mem)
    (h : update mode o ⟨kappa, delta, theta, none⟩ s cost k x m = .ok (x', m')) :
    Respects c x' ∧
    (∀ y, Respects c y → AtLeastAsGood mode (priceOf (priceIn csts m k theta cost x) c.elems x')
      (priceOf (priceIn csts m k theta cost x) c.elems y)) ∧
    (∀ j, (∀ e ∈ c.elems, e.var ≠ j) → x' j = x j) := by
  have hpr : ∀ (i : Nat) (e : FunElem), c.elems[i]? = some e →
      valueOf s cost (decrease m k c.elems theta) x none i e =
        if isNegative s.kind e then -priceIn csts m k theta cost x e.var
          else priceIn csts m k theta cost x e.var := by
    intro i e _
    unfold valueOf priceIn
    rw [reduced_eq hs, ← reducedCost_decrease hk]
    simp only [add_zero]
    rfl
  obtain ⟨y0, hy0⟩ := hsat
  obtain ⟨_, _, _, _, _, _, hrows⟩ := makeSlv_facts hs
  obtain ⟨_, hr, _, _⟩ := hrows k c hk
  refine ⟨(update_opt hs ht hk hnd ho h _ hpr hy0).1,
    fun y hy => (update_opt hs ht hk hnd ho h _ hpr hy).2, fun j hj => ?_⟩
  rcases update_updateRow (mode := mode) (o := o) (p := ⟨kappa, delta, theta, none⟩) (c := cost)
    (x := x) (m := m) hr with ⟨x1, h1, m1, h2⟩ | ⟨f, _, h2⟩
  · rw [h] at h2
    have := (Prod.mk.injEq .. ▸ Except.ok.inj h2 : x' = x1 ∧ m' = m1).1
    subst this
    exact updateRow_frame h1 hr hj
  · rw [h] at h2
    cases h2

/-- C69, when it returns: always with the equality solvers; with the inequality solvers the only
other outcome is the read past the end of the reduced costs, which needs a row as long as the
longest one (C24). -/
theorem C69_update_returns (t : SolverType) (ht : t ≠ .equalitiesZ ∧ t ≠ .inequalitiesZ)
    (csts : List Merged) (n : Nat) (s : Slv) (hs : makeSlv t csts n = .ok s)
    (k : Nat) (c : Merged) (hk : csts[k]? = some c) (hnd : (c.elems.map FunElem.var).Nodup)
    (hsat : ∃ y, Respects c y) (mode : ObjType) (o : Oracle) (ho : o.Ok mode) (p : Param)
    (cost : CostFun) (x : Assign) (m : Mem) :
    (∃ x' m', update mode o p s cost k x m = .ok (x', m')) ∨
    ((t = .inequalities01 ∨ t = .inequalities101) ∧
      (∀ d ∈ csts, d.elems.length ≤ c.elems.length) ∧
      update mode o p s cost k x m = .error (.ub "R[i]")) := by
  obtain ⟨_, _, _, hcap, _, _, hrows⟩ := makeSlv_facts hs
  obtain ⟨b, hr, _, hc⟩ := hrows k c hk
  have hok := toRow_ok ho s cost (decrease m k c.elems p.theta) x p.push c.elems
  have hu := update_updateRow (mode := mode) (o := o) (p := p) (c := cost) (x := x) (m := m) hr
  by_cases he : t = .equalities01 ∨ t = .equalities101
  · left
    obtain ⟨_, _, hmm⟩ := ctor_eq_bounds hc he
    obtain ⟨x1, _, h2, h3⟩ := updateRow_eq hs he hk hnd hok x
    obtain ⟨y, hy1, hy2⟩ := hsat
    rw [if_pos (h3 ⟨y, by omega⟩)] at h2
    rcases hu with ⟨x', _, m', h⟩ | ⟨f, h, _⟩
    · exact ⟨x', m', h⟩
    · rw [h2] at h
      cases h
  · have hi : t = .inequalities01 ∨ t = .inequalities101 := by
      cases t <;> simp at he ht ⊢
    rcases hu with ⟨x', _, m', h⟩ | ⟨f, h, h'⟩
    · exact Or.inl ⟨x', m', h⟩
    · right
      rcases updateRow_ineq hs hi hk hnd hsat hok x with ⟨x1, h1, _⟩ | ⟨h1, h2⟩
      · rw [h1] at h
        cases h
      · rw [h1] at h
        cases h
        exact ⟨hi, fun d hd => h2 ▸ hcap d hd, h'⟩

/-- An oracle that sorts and never stops on a null value. -/
def exOracle (mode : ObjType) : Oracle where
  sort := match mode with
    | .minimize => List.insertionSort fun a b => a.value ≤ b.value
    | .maximize => List.insertionSort fun a b => b.value ≤ a.value
  coin _ := false
  stale _ := 0

theorem exOracle_ok (mode : ObjType) : (exOracle mode).Ok mode := by
  intro l
  cases mode
  · refine ⟨List.perm_insertionSort _ _, ?_⟩
    have : Std.Total (fun a b : RC => b.value ≤ a.value) := ⟨fun a b => le_total _ _⟩
    have : IsTrans RC (fun a b : RC => b.value ≤ a.value) := ⟨fun a b c h1 h2 => le_trans h2 h1⟩
    exact List.pairwise_insertionSort (fun a b : RC => b.value ≤ a.value) l
  · refine ⟨List.perm_insertionSort _ _, ?_⟩
    have : Std.Total (fun a b : RC => a.value ≤ b.value) := ⟨fun a b => le_total _ _⟩
    have : IsTrans RC (fun a b : RC => a.value ≤ b.value) := ⟨fun a b c h1 h2 => le_trans h1 h2⟩
    exact List.pairwise_insertionSort (fun a b : RC => a.value ≤ b.value) l

/-- What an update returns on the first variables, multipliers and preferences. -/
def peek (r : Outcome (Assign × Mem)) : Outcome (List Bool × List Rat × List Rat) := do
  let (x, m) ← r
  .ok ([x 0, x 1, x 2], [m.pi 0, m.pi 1], [m.P 0 0, m.P 0 1, m.P 0 2])

theorem peek_ok {r : Outcome (Assign × Mem)} {xs : List Bool} {ps qs : List Rat}
    (h : peek r = .ok (xs, ps, qs)) : ∃ x m, r = .ok (x, m) ∧ xs = [x 0, x 1, x 2] ∧
      ps = [m.pi 0, m.pi 1] ∧ qs = [m.P 0 0, m.P 0 1, m.P 0 2] := by
  unfold peek at h
  obtain ⟨⟨x, m⟩, h1, h⟩ := bind_eq_ok.mp h
  have := Except.ok.inj h
  simp only [Prod.mk.injEq] at this
  exact ⟨x, m, h1, this.1.symm, this.2.1.symm, this.2.2.symm⟩

/-- The costs of the examples. -/
def costOf (l : List Rat) : CostFun := fun j _ => l.getD j 0

/-- Memory at the start. -/
def mem0 : Mem := ⟨fun _ => 0, fun _ _ => 0⟩

/-- x0 - x1 + x2 = 1, and 0 ≤ x0 + x1 ≤ 1. -/
def mCsts : List Merged :=
  [⟨[⟨1, 0⟩, ⟨-1, 1⟩, ⟨1, 2⟩], 1, 1, 0⟩, ⟨[⟨1, 0⟩, ⟨1, 1⟩], 0, 1, 1⟩]

/-- With the costs 3, -2 and 1, the first row can be met by x0 alone (3), by x2 alone (1) and by the
three (2): the update takes x2. -/
example : ∃ s x' m', makeSlv .inequalities101 mCsts 3 = .ok s ∧
    update .minimize (exOracle .minimize) ⟨1 / 2, 0, 1 / 2, none⟩ s (costOf [3, -2, 1]) 0
      (fun _ => false) mem0 = .ok (x', m') ∧ (exOracle .minimize).Ok .minimize ∧
    (∃ y, Respects ⟨[⟨1, 0⟩, ⟨-1, 1⟩, ⟨1, 2⟩], 1, 1, 0⟩ y) ∧
    [x' 0, x' 1, x' 2] = [false, false, true] ∧ [m'.pi 0, m'.pi 1] = [5 / 2, 0] := by
  have hs : makeSlv .inequalities101 mCsts 3 =
      .ok ⟨.inequalities101, mCsts.map Merged.elems, [⟨1, 1, 1⟩, ⟨0, 1, 0⟩], 3⟩ := by
    decide +kernel
  obtain ⟨x', m', h, hx, hp, _⟩ := peek_ok (r := update .minimize (exOracle .minimize)
    ⟨1 / 2, 0, 1 / 2, none⟩ ⟨.inequalities101, mCsts.map Merged.elems, [⟨1, 1, 1⟩, ⟨0, 1, 0⟩], 3⟩
    (costOf [3, -2, 1]) 0 (fun _ => false) mem0)
    (xs := [false, false, true]) (ps := [5 / 2, 0]) (qs := [-1, -1, 1]) (by decide +kernel)
  exact ⟨_, x', m', hs, h, exOracle_ok _, ⟨fun j => decide (j = 2), by unfold Respects; decide +kernel⟩, hx.symm, hp.symm⟩

/-! ## C70 -/

/-- The prices of a push: the reduced cost plus the cost of the variable times the amplifier. -/
def pushPrice (csts : List Merged) (m : Mem) (k : Nat) (theta amp : Rat) (cost : CostFun) (x : Assign)
    (j : Nat) : Rat :=
  priceIn csts m k theta cost x j + amp * cost j x

/-- C70, for the rows without negative coefficients, where moreover, with the 0/1 solvers, the
position of each element is the index of its variable: the update of a push returns the cheapest
assignment of the row for the reduced costs plus the amplified costs.  What is missing: the rows
with negative coefficients and, with the 0/1 solvers, the rows on other variables
(`C70_push_reads_other_costs`, `C70_push_negative_coefficient`). -/
theorem C70_push_partial (t : SolverType) (ht : t ≠ .equalitiesZ ∧ t ≠ .inequalitiesZ)
    (csts : List Merged) (n : Nat) (s : Slv) (hs : makeSlv t csts n = .ok s)
    (k : Nat) (c : Merged) (hk : csts[k]? = some c) (hnd : (c.elems.map FunElem.var).Nodup)
    (hsat : ∃ y, Respects c y) (hpos : ∀ e ∈ c.elems, 0 < e.factor)
    (hidx : t = .equalities101 ∨ t = .inequalities101 ∨
      ∀ (i : Nat) (e : FunElem), c.elems[i]? = some e → e.var = i)
    (mode : ObjType) (o : Oracle) (ho : o.Ok mode)
    (kappa delta theta amp : Rat) (cost : CostFun) (x x' : Assign) (m m' : Mem)
    (h : update mode o ⟨kappa, delta, theta, some amp⟩ s cost k x m = .ok (x', m')) :
    Respects c x' ∧
    ∀ y, Respects c y → AtLeastAsGood mode
      (priceOf (pushPrice csts m k theta amp cost x) c.elems x')
      (priceOf (pushPrice csts m k theta amp cost x) c.elems y) := by
  obtain ⟨hkind, _, _, _, _, _, hrows⟩ := makeSlv_facts hs
  obtain ⟨_, hr, _, hc⟩ := hrows k c hk
  have hneg : ∀ e ∈ c.elems, isNegative s.kind e = false := by
    intro e he
    have := hpos e he
    unfold isNegative
    split <;> simp
    omega
  have hpr : ∀ (i : Nat) (e : FunElem), c.elems[i]? = some e →
      valueOf s cost (decrease m k c.elems theta) x (some amp) i e =
        if isNegative s.kind e then -pushPrice csts m k theta amp cost x e.var
          else pushPrice csts m k theta amp cost x e.var := by
    intro i e he
    have hp : pushed s.kind cost x amp i e = amp * cost e.var x := by
      unfold pushed
      rw [hkind]
      rcases hidx with rfl | rfl | hi
      · rfl
      · rfl
      · rw [hi i e he]
        cases t <;> rfl
    unfold valueOf pushPrice priceIn
    rw [hneg e (List.mem_of_getElem? he), reduced_eq hs, ← reducedCost_decrease hk]
    simp only [Bool.false_eq_true, if_false, hp]
    rfl
  obtain ⟨y0, hy0⟩ := hsat
  exact ⟨(update_opt hs ht hk hnd ho h _ hpr hy0).1,
    fun y hy => (update_opt hs ht hk hnd ho h _ hpr hy).2⟩

/-- x0 + x1 + x2 = 1 with the costs 3, 1 and 2 and the multiplier 0. -/
example : ∃ s x' m', makeSlv .equalities01 [⟨[⟨1, 0⟩, ⟨1, 1⟩, ⟨1, 2⟩], 1, 1, 0⟩] 3 = .ok s ∧
    update .minimize (exOracle .minimize) ⟨1 / 2, 0, 1 / 2, some 10⟩ s (costOf [3, 1, 2]) 0
      (fun _ => false) mem0 = .ok (x', m') ∧
    [x' 0, x' 1, x' 2] = [false, true, false] := by
  have hs : makeSlv .equalities01 [⟨[⟨1, 0⟩, ⟨1, 1⟩, ⟨1, 2⟩], 1, 1, 0⟩] 3 =
      .ok ⟨.equalities01, [[⟨1, 0⟩, ⟨1, 1⟩, ⟨1, 2⟩]], [⟨1, 1, 0⟩], 3⟩ := by decide +kernel
  obtain ⟨x', m', h, hx, _⟩ := peek_ok (r := update .minimize (exOracle .minimize)
    ⟨1 / 2, 0, 1 / 2, some 10⟩ ⟨.equalities01, [[⟨1, 0⟩, ⟨1, 1⟩, ⟨1, 2⟩]], [⟨1, 1, 0⟩], 3⟩
    (costOf [3, 1, 2]) 0 (fun _ => false) mem0)
    (xs := [false, true, false]) (ps := [33 / 2, 0]) (qs := [-11, 11, -11]) (by decide +kernel)
  exact ⟨_, x', m', hs, h, hx.symm⟩

/-- C70 fails with the 0/1 solvers: they add to each position of the row the cost of the variable
that has this position as an index.  On x1 + x2 = 1 with the costs 5 and 1, the push takes x1. -/
theorem C70_push_reads_other_costs :
    ∃ (csts : List Merged) (s : Slv) (c : Merged) (x' y : Assign) (m' : Mem),
      makeSlv .equalities01 csts 3 = .ok s ∧ csts[0]? = some c ∧ (∀ e ∈ c.elems, 0 < e.factor) ∧
      update .minimize (exOracle .minimize) ⟨1 / 2, 0, 1 / 2, some 10⟩ s (costOf [0, 5, 1]) 0
        (fun _ => false) mem0 = .ok (x', m') ∧
      Respects c y ∧
      priceOf (pushPrice csts mem0 0 (1 / 2) 10 (costOf [0, 5, 1]) fun _ => false) c.elems y <
        priceOf (pushPrice csts mem0 0 (1 / 2) 10 (costOf [0, 5, 1]) fun _ => false) c.elems x' := by
  have hs : makeSlv .equalities01 [⟨[⟨1, 1⟩, ⟨1, 2⟩], 1, 1, 0⟩] 3 =
      .ok ⟨.equalities01, [[⟨1, 1⟩, ⟨1, 2⟩]], [⟨1, 1, 0⟩], 2⟩ := by decide +kernel
  obtain ⟨x', m', h, hx, _⟩ := peek_ok (r := update .minimize (exOracle .minimize)
    ⟨1 / 2, 0, 1 / 2, some 10⟩ ⟨.equalities01, [[⟨1, 1⟩, ⟨1, 2⟩]], [⟨1, 1, 0⟩], 2⟩
    (costOf [0, 5, 1]) 0 (fun _ => false) mem0)
    (xs := [false, true, false]) (ps := [28, 0]) (qs := [0, 46, -46]) (by decide +kernel)
  refine ⟨_, _, ⟨[⟨1, 1⟩, ⟨1, 2⟩], 1, 1, 0⟩, x', fun j => decide (j = 2), m', hs, rfl,
    by decide +kernel, h, by unfold Respects; decide +kernel, ?_⟩
  simp only [List.cons.injEq] at hx
  obtain ⟨_, h1, h2, _⟩ := hx
  have e1 : priceOf (pushPrice [⟨[⟨1, 1⟩, ⟨1, 2⟩], 1, 1, 0⟩] mem0 0 (1 / 2) 10 (costOf [0, 5, 1])
      fun _ => false) [⟨1, 1⟩, ⟨1, 2⟩] x' = pushPrice [⟨[⟨1, 1⟩, ⟨1, 2⟩], 1, 1, 0⟩] mem0 0 (1 / 2) 10
        (costOf [0, 5, 1]) (fun _ => false) 1 := by
    simp [priceOf, ← h1, ← h2]
  rw [e1]
  decide +kernel

/-- C70 fails with a negative coefficient: the amplified cost is added after the change of sign.  On
x0 - x1 = 0 with the costs 1 and 3, the push sets the two variables. -/
theorem C70_push_negative_coefficient :
    ∃ (csts : List Merged) (s : Slv) (c : Merged) (x' y : Assign) (m' : Mem),
      makeSlv .equalities101 csts 2 = .ok s ∧ csts[0]? = some c ∧
      update .minimize (exOracle .minimize) ⟨1 / 2, 0, 1 / 2, some 10⟩ s (costOf [1, 3]) 0
        (fun _ => false) mem0 = .ok (x', m') ∧
      Respects c y ∧
      priceOf (pushPrice csts mem0 0 (1 / 2) 10 (costOf [1, 3]) fun _ => false) c.elems y <
        priceOf (pushPrice csts mem0 0 (1 / 2) 10 (costOf [1, 3]) fun _ => false) c.elems x' := by
  have hs : makeSlv .equalities101 [⟨[⟨1, 0⟩, ⟨-1, 1⟩], 0, 0, 0⟩] 2 =
      .ok ⟨.equalities101, [[⟨1, 0⟩, ⟨-1, 1⟩]], [⟨0, 0, 1⟩], 2⟩ := by decide +kernel
  obtain ⟨x', m', h, hx, _⟩ := peek_ok (r := update .minimize (exOracle .minimize)
    ⟨1 / 2, 0, 1 / 2, some 10⟩ ⟨.equalities101, [[⟨1, 0⟩, ⟨-1, 1⟩]], [⟨0, 0, 1⟩], 2⟩
    (costOf [1, 3]) 0 (fun _ => false) mem0)
    (xs := [true, true, false]) (ps := [19, 0]) (qs := [16, 16, 0]) (by decide +kernel)
  refine ⟨_, _, ⟨[⟨1, 0⟩, ⟨-1, 1⟩], 0, 0, 0⟩, x', fun _ => false, m', hs, rfl, h,
    by unfold Respects; decide +kernel, ?_⟩
  simp only [List.cons.injEq] at hx
  obtain ⟨h0, h1, _⟩ := hx
  have e1 : priceOf (pushPrice [⟨[⟨1, 0⟩, ⟨-1, 1⟩], 0, 0, 0⟩] mem0 0 (1 / 2) 10 (costOf [1, 3])
      fun _ => false) [⟨1, 0⟩, ⟨-1, 1⟩] x' =
      pushPrice [⟨[⟨1, 0⟩, ⟨-1, 1⟩], 0, 0, 0⟩] mem0 0 (1 / 2) 10 (costOf [1, 3]) (fun _ => false) 0 +
      pushPrice [⟨[⟨1, 0⟩, ⟨-1, 1⟩], 0, 0, 0⟩] mem0 0 (1 / 2) 10 (costOf [1, 3]) (fun _ => false) 1 := by
    simp [priceOf, ← h0, ← h1]
  rw [e1]
  decide +kernel

/-! ## C71 -/

/-- C71: when the value that the update gives to the row is neither the least nor the greatest that
the row can take, the new multiplier separates its variables: with it, the reduced cost of each
variable at 1 is on the good side of zero and the one of each variable at 0 on the other side.  The
other multipliers are kept. -/
theorem C71_multiplier_separates (t : SolverType) (ht : t ≠ .equalitiesZ ∧ t ≠ .inequalitiesZ)
    (csts : List Merged) (n : Nat) (s : Slv) (hs : makeSlv t csts n = .ok s)
    (k : Nat) (c : Merged) (hk : csts[k]? = some c) (hnd : (c.elems.map FunElem.var).Nodup)
    (hsat : ∃ y, Respects c y) (mode : ObjType) (o : Oracle) (ho : o.Ok mode)
    (kappa delta theta : Rat) (cost : CostFun) (x x' : Assign) (m m' : Mem)
    (h : update mode o ⟨kappa, delta, theta, none⟩ s cost k x m = .ok (x', m'))
    (hint : ∃ y z, lhs y c.elems < lhs x' c.elems ∧ lhs x' c.elems < lhs z c.elems) :
    (∀ i, i ≠ k → m'.pi i = m.pi i) ∧
    ∀ e ∈ c.elems,
      (x' e.var = true → AtLeastAsGood mode
        (reducedCost csts m'.pi (decayed m.P k theta) (cost e.var x) e.var) 0) ∧
      (x' e.var = false → AtLeastAsGood mode 0
        (reducedCost csts m'.pi (decayed m.P k theta) (cost e.var x) e.var)) := by
  obtain ⟨hkind, _, _, _, _, _, hrows⟩ := makeSlv_facts hs
  obtain ⟨_, _, _, hc⟩ := hrows k c hk
  have hu := ctor_unit hc ht
  obtain ⟨a, b, hab, h1, h2, h3, _, _⟩ := update_interior hs ht hk hnd ho h hsat hint
  refine ⟨h1, fun e he => ?_⟩
  obtain ⟨i, hi⟩ := List.getElem?_of_mem he
  have hcoef := coef_of_nodup hnd he rfl
  have hfac : e.factor = if isNegative t e then -1 else 1 := by
    rw [← hu.1 e he]
    exact hu.2 e he
  have hd := reducedCost_diff hk (pi := m.pi) (pi' := m'.pi) (P := decayed m.P k theta)
    (P' := decayed m.P k theta) e.var h1 (fun _ _ => rfl) (cost e.var x)
  rw [hcoef, h2] at hd
  have hv : valueOf s cost (decrease m k c.elems theta) x none i e =
      if isNegative t e then -reducedCost csts m.pi (decayed m.P k theta) (cost e.var x) e.var
        else reducedCost csts m.pi (decayed m.P k theta) (cost e.var x) e.var := by
    unfold valueOf
    rw [reduced_eq hs, ← reducedCost_decrease hk, hkind]
    simp only [add_zero]
    rfl
  obtain ⟨h4, h5⟩ := h3 i e hi
  rw [hv] at h4 h5
  rw [good_iff, good_iff, hd]
  cases hn : isNegative t e
  · rw [hn] at hfac h4 h5
    simp only [Bool.false_eq_true, if_false] at hfac h4 h5
    rw [hfac]
    constructor
    · intro hx
      have := h4 (by rw [hx]; rfl)
      push_cast
      nlinarith
    · intro hx
      have := h5 (by rw [hx]; rfl)
      push_cast
      nlinarith
  · rw [hn] at hfac h4 h5
    simp only [if_true] at hfac h4 h5
    rw [hfac]
    constructor
    · intro hx
      have := h5 (by rw [hx]; rfl)
      push_cast
      nlinarith
    · intro hx
      have := h4 (by rw [hx]; rfl)
      push_cast
      nlinarith

/-- C71, other case: when the value given to the row is the least or the greatest that it can take,
every multiplier is kept. -/
theorem C71_multiplier_kept (t : SolverType) (ht : t ≠ .equalitiesZ ∧ t ≠ .inequalitiesZ)
    (csts : List Merged) (n : Nat) (s : Slv) (hs : makeSlv t csts n = .ok s)
    (k : Nat) (c : Merged) (hk : csts[k]? = some c) (hnd : (c.elems.map FunElem.var).Nodup)
    (mode : ObjType) (o : Oracle) (ho : o.Ok mode) (p : Param) (cost : CostFun) (x x' : Assign)
    (m m' : Mem) (h : update mode o p s cost k x m = .ok (x', m'))
    (hext : (∀ y, lhs x' c.elems ≤ lhs y c.elems) ∨ (∀ y, lhs y c.elems ≤ lhs x' c.elems)) :
    m'.pi = m.pi :=
  update_extreme hs ht hk hnd ho h hext

/-- x0 + x1 + x2 = 1: one variable at 1 is neither the least nor the greatest, and the multiplier
becomes 3/2, between the two smallest costs. -/
example : ∃ s x' m', makeSlv .equalities01 [⟨[⟨1, 0⟩, ⟨1, 1⟩, ⟨1, 2⟩], 1, 1, 0⟩] 3 = .ok s ∧
    update .minimize (exOracle .minimize) ⟨1 / 2, 0, 1 / 2, none⟩ s (costOf [3, 1, 2]) 0
      (fun _ => false) mem0 = .ok (x', m') ∧
    [x' 0, x' 1, x' 2] = [false, true, false] ∧ [m'.pi 0, m'.pi 1] = [3 / 2, 0] := by
  have hs : makeSlv .equalities01 [⟨[⟨1, 0⟩, ⟨1, 1⟩, ⟨1, 2⟩], 1, 1, 0⟩] 3 =
      .ok ⟨.equalities01, [[⟨1, 0⟩, ⟨1, 1⟩, ⟨1, 2⟩]], [⟨1, 1, 0⟩], 3⟩ := by decide +kernel
  obtain ⟨x', m', h, hx, hp, _⟩ := peek_ok (r := update .minimize (exOracle .minimize)
    ⟨1 / 2, 0, 1 / 2, none⟩ ⟨.equalities01, [[⟨1, 0⟩, ⟨1, 1⟩, ⟨1, 2⟩]], [⟨1, 1, 0⟩], 3⟩
    (costOf [3, 1, 2]) 0 (fun _ => false) mem0)
    (xs := [false, true, false]) (ps := [3 / 2, 0]) (qs := [-1, 1, -1]) (by decide +kernel)
  exact ⟨_, x', m', hs, h, hx.symm, hp.symm⟩

/-! ## C72 -/

/-- C72, for the positive coefficients, when the value given to the row is neither the least nor the
greatest that it can take, with `0 ≤ kappa < 1` and a `delta` that has the sign of the direction:
the new preferences move the reduced cost of each variable of the row towards the value it got.  The
preferences of the other constraints and variables are kept.  What is missing: the negative
coefficients, the extreme rows, and a positive `delta` when the problem maximises
(`C72_negative_coefficient`, `C72_extreme_row`, `C72_maximise`). -/
theorem C72_preferences_reinforce_partial (t : SolverType)
    (ht : t ≠ .equalitiesZ ∧ t ≠ .inequalitiesZ)
    (csts : List Merged) (n : Nat) (s : Slv) (hs : makeSlv t csts n = .ok s)
    (k : Nat) (c : Merged) (hk : csts[k]? = some c) (hnd : (c.elems.map FunElem.var).Nodup)
    (hsat : ∃ y, Respects c y) (mode : ObjType) (o : Oracle) (ho : o.Ok mode)
    (p : Param) (hk0 : 0 ≤ p.kappa) (hk1 : p.kappa < 1)
    (hdelta : match mode with | .minimize => 0 ≤ p.delta | .maximize => p.delta ≤ 0)
    (cost : CostFun) (x x' : Assign) (m m' : Mem)
    (h : update mode o p s cost k x m = .ok (x', m'))
    (hint : ∃ y z, lhs y c.elems < lhs x' c.elems ∧ lhs x' c.elems < lhs z c.elems) :
    (∀ e ∈ c.elems, 0 < e.factor → ∀ (pi : Nat → Rat) (q : Rat),
      (x' e.var = true → AtLeastAsGood mode (reducedCost csts pi m'.P q e.var)
        (reducedCost csts pi (decayed m.P k p.theta) q e.var)) ∧
      (x' e.var = false → AtLeastAsGood mode (reducedCost csts pi (decayed m.P k p.theta) q e.var)
        (reducedCost csts pi m'.P q e.var))) ∧
    (∀ i j, (i ≠ k ∨ ∀ e ∈ c.elems, e.var ≠ j) → m'.P i j = m.P i j) := by
  obtain ⟨hkind, _, _, _, _, _, hrows⟩ := makeSlv_facts hs
  obtain ⟨_, _, _, hc⟩ := hrows k c hk
  have hu := ctor_unit hc ht
  obtain ⟨a, b, hab, _, _, _, h4, h5⟩ := update_interior hs ht hk hnd ho h hsat hint
  refine ⟨fun e he hpos pi q => ?_, h4⟩
  have hcoef := coef_of_nodup hnd he rfl
  have hfac : e.factor = 1 := by
    have := hu.1 e he
    have h2 := hu.2 e he
    rw [this] at h2
    split at h2 <;> omega
  have hd := reducedCost_diff hk (pi := pi) (pi' := pi) (P := decayed m.P k p.theta)
    (P' := m'.P) e.var (fun _ _ => rfl) (fun i hi => by
      rw [h4 i e.var (Or.inl hi)]
      simp [decayed, hi]) q
  have hdk : decayed m.P k p.theta k e.var = m.P k e.var * p.theta := by simp [decayed]
  rw [hcoef, hfac, h5 e he, hdk] at hd
  have hratio : 0 ≤ ratio p.kappa := by
    unfold ratio
    exact div_nonneg hk0 (by linarith)
  have hdd : 0 ≤ sg mode * (p.delta + ratio p.kappa * (b - a)) := by
    cases mode
    · simp only [sg] at hab ⊢
      simp only at hdelta
      nlinarith
    · simp only [sg] at hab ⊢
      simp only at hdelta
      nlinarith
  rw [good_iff, good_iff, hd]
  constructor
  · intro hx
    rw [hx]
    push_cast
    simp only [if_true]
    linarith
  · intro hx
    rw [hx]
    push_cast
    linarith

/-- The example of C71 again: `kappa = 1/2`, and the preferences become -1, 1 and -1. -/
example : ∃ s x' m', makeSlv .equalities01 [⟨[⟨1, 0⟩, ⟨1, 1⟩, ⟨1, 2⟩], 1, 1, 0⟩] 3 = .ok s ∧
    update .minimize (exOracle .minimize) ⟨1 / 2, 0, 1 / 2, none⟩ s (costOf [3, 1, 2]) 0
      (fun _ => false) mem0 = .ok (x', m') ∧
    (∃ y z, lhs y [⟨1, 0⟩, ⟨1, 1⟩, ⟨1, 2⟩] < lhs x' [⟨1, 0⟩, ⟨1, 1⟩, ⟨1, 2⟩] ∧
      lhs x' [⟨1, 0⟩, ⟨1, 1⟩, ⟨1, 2⟩] < lhs z [⟨1, 0⟩, ⟨1, 1⟩, ⟨1, 2⟩]) ∧
    [m'.P 0 0, m'.P 0 1, m'.P 0 2] = [-1, 1, -1] := by
  have hs : makeSlv .equalities01 [⟨[⟨1, 0⟩, ⟨1, 1⟩, ⟨1, 2⟩], 1, 1, 0⟩] 3 =
      .ok ⟨.equalities01, [[⟨1, 0⟩, ⟨1, 1⟩, ⟨1, 2⟩]], [⟨1, 1, 0⟩], 3⟩ := by decide +kernel
  obtain ⟨x', m', h, hx, _, hP⟩ := peek_ok (r := update .minimize (exOracle .minimize)
    ⟨1 / 2, 0, 1 / 2, none⟩ ⟨.equalities01, [[⟨1, 0⟩, ⟨1, 1⟩, ⟨1, 2⟩]], [⟨1, 1, 0⟩], 3⟩
    (costOf [3, 1, 2]) 0 (fun _ => false) mem0)
    (xs := [false, true, false]) (ps := [3 / 2, 0]) (qs := [-1, 1, -1]) (by decide +kernel)
  simp only [List.cons.injEq] at hx
  obtain ⟨h0, h1, h2, _⟩ := hx
  exact ⟨_, x', m', hs, h, ⟨fun _ => false, fun _ => true, by simp [lhs, ← h0, ← h1, ← h2],
    by simp [lhs, ← h0, ← h1, ← h2]⟩, hP.symm⟩

/-- C72, for the positive coefficients, when the value given to the row is the least or the greatest
that it can take and no variable of the row would improve the objective by its price: the new
preferences move the reduced cost of each variable of the row towards the value it got.  What is
missing: the negative coefficients, the rows with an improving variable (`C72_extreme_row`), the push
and a positive `delta` when the problem maximises. -/
theorem C72_extreme_rows_reinforce_partial (t : SolverType)
    (ht : t ≠ .equalitiesZ ∧ t ≠ .inequalitiesZ)
    (csts : List Merged) (n : Nat) (s : Slv) (hs : makeSlv t csts n = .ok s)
    (k : Nat) (c : Merged) (hk : csts[k]? = some c) (hnd : (c.elems.map FunElem.var).Nodup)
    (hsat : ∃ y, Respects c y) (mode : ObjType) (o : Oracle) (ho : o.Ok mode)
    (kappa delta theta : Rat) (hk0 : 0 ≤ kappa) (hk1 : kappa < 1)
    (hdelta : match mode with | .minimize => 0 ≤ delta | .maximize => delta ≤ 0)
    (cost : CostFun) (x x' : Assign) (m m' : Mem)
    (h : update mode o ⟨kappa, delta, theta, none⟩ s cost k x m = .ok (x', m'))
    (hext : (∀ y, lhs x' c.elems ≤ lhs y c.elems) ∨ (∀ y, lhs y c.elems ≤ lhs x' c.elems))
    (hprice : ∀ e ∈ c.elems,
      AtLeastAsGood mode 0 ((e.factor : Rat) * priceIn csts m k theta cost x e.var)) :
    (∀ e ∈ c.elems, 0 < e.factor → ∀ (pi : Nat → Rat) (q : Rat),
      (x' e.var = true → AtLeastAsGood mode (reducedCost csts pi m'.P q e.var)
        (reducedCost csts pi (decayed m.P k theta) q e.var)) ∧
      (x' e.var = false → AtLeastAsGood mode (reducedCost csts pi (decayed m.P k theta) q e.var)
        (reducedCost csts pi m'.P q e.var))) ∧
    (∀ i j, (i ≠ k ∨ ∀ e ∈ c.elems, e.var ≠ j) → m'.P i j = m.P i j) := by
  obtain ⟨hkind, _, _, _, _, _, hrows⟩ := makeSlv_facts hs
  obtain ⟨_, _, _, hc⟩ := hrows k c hk
  have hu := ctor_unit hc ht
  obtain ⟨i0, r, hr, hi0, h4, h5⟩ := update_extreme_P hs ht hk hnd ho h hsat hext
  refine ⟨fun e he hpos pi q => ?_, h4⟩
  have hcoef := coef_of_nodup hnd he rfl
  have hfac : e.factor = 1 := by
    have := hu.1 e he
    have h2 := hu.2 e he
    rw [this] at h2
    split at h2 <;> omega
  have hd := reducedCost_diff hk (pi := pi) (pi' := pi) (P := decayed m.P k theta)
    (P' := m'.P) e.var (fun _ _ => rfl) (fun i hi => by
      rw [h4 i e.var (Or.inl hi)]
      simp [decayed, hi]) q
  have hdk : decayed m.P k theta k e.var = m.P k e.var * theta := by simp [decayed]
  rw [hcoef, hfac, h5 e he, hdk] at hd
  have hratio : 0 ≤ ratio kappa := by
    unfold ratio
    exact div_nonneg hk0 (by linarith)
  have hlen := hi0 (by intro h0; rw [h0] at he; simp at he)
  have hV : 0 ≤ sg mode * val s cost (decrease m k c.elems theta) x none c.elems i0 := by
    have he0 := List.getElem?_eq_getElem hlen
    have hm0 := List.mem_of_getElem? he0
    have hp := good_iff.mp (hprice _ hm0)
    have hval : val s cost (decrease m k c.elems theta) x none c.elems i0 =
        (c.elems[i0].factor : Rat) * priceIn csts m k theta cost x c.elems[i0].var := by
      unfold val
      rw [he0]
      simp only [Option.map_some, Option.getD_some]
      unfold valueOf priceIn
      rw [reduced_eq hs, ← reducedCost_decrease hk, hkind]
      have g1 := hu.1 _ hm0
      have g2 := hu.2 _ hm0
      rw [← g1, g2]
      cases isNegative t c.elems[i0] <;> simp <;> rfl
    rw [hval]
    simpa using hp
  generalize val s cost (decrease m k c.elems theta) x none c.elems i0 = V at hV hd
  have hr0 : 0 ≤ r := by rcases hr with rfl | rfl <;> norm_num
  have hdd : 0 ≤ sg mode * (delta + ratio kappa * (V * r)) := by
    have h1 := mul_nonneg hratio (mul_nonneg hV hr0)
    cases mode
    · simp only [sg] at h1 ⊢
      simp only at hdelta
      nlinarith
    · simp only [sg] at h1 ⊢
      simp only at hdelta
      nlinarith
  rw [good_iff, good_iff, hd]
  constructor
  · intro hx
    rw [hx]
    push_cast
    simp only [if_true]
    linarith
  · intro hx
    rw [hx]
    push_cast
    linarith

/-- On x0 + x1 = 0 with the costs 1 and 2, the update puts the two variables at 0 and their
preferences become -1/2. -/
example : ∃ s x' m', makeSlv .equalities01 [⟨[⟨1, 0⟩, ⟨1, 1⟩], 0, 0, 0⟩] 2 = .ok s ∧
    update .minimize (exOracle .minimize) ⟨1 / 2, 0, 1 / 2, none⟩ s (costOf [1, 2]) 0
      (fun _ => true) mem0 = .ok (x', m') ∧
    (∀ y, lhs x' [⟨1, 0⟩, ⟨1, 1⟩] ≤ lhs y [⟨1, 0⟩, ⟨1, 1⟩]) ∧
    (∀ e ∈ ([⟨1, 0⟩, ⟨1, 1⟩] : List FunElem), AtLeastAsGood .minimize 0 ((e.factor : Rat) *
      priceIn [⟨[⟨1, 0⟩, ⟨1, 1⟩], 0, 0, 0⟩] mem0 0 (1 / 2) (costOf [1, 2]) (fun _ => true) e.var)) ∧
    [m'.P 0 0, m'.P 0 1] = [-1 / 2, -1 / 2] := by
  have hs : makeSlv .equalities01 [⟨[⟨1, 0⟩, ⟨1, 1⟩], 0, 0, 0⟩] 2 =
      .ok ⟨.equalities01, [[⟨1, 0⟩, ⟨1, 1⟩]], [⟨0, 0, 0⟩], 2⟩ := by decide +kernel
  obtain ⟨x', m', h, hx, _, hP⟩ := peek_ok (r := update .minimize (exOracle .minimize)
    ⟨1 / 2, 0, 1 / 2, none⟩ ⟨.equalities01, [[⟨1, 0⟩, ⟨1, 1⟩]], [⟨0, 0, 0⟩], 2⟩
    (costOf [1, 2]) 0 (fun _ => true) mem0)
    (xs := [false, false, true]) (ps := [0, 0]) (qs := [-1 / 2, -1 / 2, 0]) (by decide +kernel)
  simp only [List.cons.injEq] at hx hP
  refine ⟨_, x', m', hs, h, ?_, ?_, by rw [← hP.1, ← hP.2.1]⟩
  · intro y
    simp only [lhs, List.map_cons, List.map_nil, List.sum_cons, List.sum_nil, ← hx.1, ← hx.2.1]
    cases y 0 <;> cases y 1 <;> simp
  · intro e he
    simp only [List.mem_cons, List.not_mem_nil, or_false] at he
    rcases he with rfl | rfl <;>
      simp [AtLeastAsGood, priceIn, reducedCost, coef, decayed, mem0, costOf]

/-- C72 fails for a negative coefficient: on x0 - x1 = 0 with the costs 1 and 1, the update puts x1
at 0 and the new preferences lower its reduced cost. -/
theorem C72_negative_coefficient :
    ∃ (csts : List Merged) (s : Slv) (x' : Assign) (m' : Mem),
      makeSlv .equalities101 csts 2 = .ok s ∧
      update .minimize (exOracle .minimize) ⟨1 / 2, 0, 1 / 2, none⟩ s (costOf [1, 1]) 0
        (fun _ => false) mem0 = .ok (x', m') ∧ x' 1 = false ∧
      reducedCost csts mem0.pi m'.P 1 1 <
        reducedCost csts mem0.pi (decayed mem0.P 0 (1 / 2)) 1 1 := by
  have hs : makeSlv .equalities101 [⟨[⟨1, 0⟩, ⟨-1, 1⟩], 0, 0, 0⟩] 2 =
      .ok ⟨.equalities101, [[⟨1, 0⟩, ⟨-1, 1⟩]], [⟨0, 0, 1⟩], 2⟩ := by decide +kernel
  obtain ⟨x', m', h, hx, _, hP⟩ := peek_ok (r := update .minimize (exOracle .minimize)
    ⟨1 / 2, 0, 1 / 2, none⟩ ⟨.equalities101, [[⟨1, 0⟩, ⟨-1, 1⟩]], [⟨0, 0, 1⟩], 2⟩
    (costOf [1, 1]) 0 (fun _ => false) mem0)
    (xs := [false, false, false]) (ps := [0, 0]) (qs := [-2, -2, 0]) (by decide +kernel)
  simp only [List.cons.injEq] at hx hP
  refine ⟨_, _, x', m', hs, h, hx.2.1.symm, ?_⟩
  simp [reducedCost, coef, decayed, mem0, ← hP.2.1]

/-- C72 fails when the problem maximises and `delta` is positive: on x0 + x1 = 1 with equal costs
and `delta = 1`, the new preferences lower the reduced cost of the variable put at 1. -/
theorem C72_maximise :
    ∃ (csts : List Merged) (s : Slv) (x' : Assign) (m' : Mem),
      makeSlv .equalities01 csts 2 = .ok s ∧
      update .maximize (exOracle .maximize) ⟨1 / 2, 1, 1 / 2, none⟩ s (costOf [1, 1]) 0
        (fun _ => false) mem0 = .ok (x', m') ∧ x' 0 = true ∧
      reducedCost csts mem0.pi m'.P 1 0 <
        reducedCost csts mem0.pi (decayed mem0.P 0 (1 / 2)) 1 0 := by
  have hs : makeSlv .equalities01 [⟨[⟨1, 0⟩, ⟨1, 1⟩], 1, 1, 0⟩] 2 =
      .ok ⟨.equalities01, [[⟨1, 0⟩, ⟨1, 1⟩]], [⟨1, 1, 0⟩], 2⟩ := by decide +kernel
  obtain ⟨x', m', h, hx, _, hP⟩ := peek_ok (r := update .maximize (exOracle .maximize)
    ⟨1 / 2, 1, 1 / 2, none⟩ ⟨.equalities01, [[⟨1, 0⟩, ⟨1, 1⟩]], [⟨1, 1, 0⟩], 2⟩
    (costOf [1, 1]) 0 (fun _ => false) mem0)
    (xs := [true, false, false]) (ps := [1, 0]) (qs := [1, -1, 0]) (by decide +kernel)
  simp only [List.cons.injEq] at hx hP
  refine ⟨_, _, x', m', hs, h, hx.1.symm, ?_⟩
  simp [reducedCost, coef, decayed, mem0, ← hP.1]

/-- C72 fails for an extreme row: on x0 + x1 = 2 with the costs -1 and -1, the update puts x0 at 1
and the new preferences raise its reduced cost. -/
theorem C72_extreme_row :
    ∃ (csts : List Merged) (s : Slv) (x' : Assign) (m' : Mem),
      makeSlv .equalities01 csts 2 = .ok s ∧
      update .minimize (exOracle .minimize) ⟨1 / 2, 0, 1 / 2, none⟩ s (costOf [-1, -1]) 0
        (fun _ => false) mem0 = .ok (x', m') ∧ x' 0 = true ∧
      reducedCost csts mem0.pi (decayed mem0.P 0 (1 / 2)) (-1) 0 <
        reducedCost csts mem0.pi m'.P (-1) 0 := by
  have hs : makeSlv .equalities01 [⟨[⟨1, 0⟩, ⟨1, 1⟩], 2, 2, 0⟩] 2 =
      .ok ⟨.equalities01, [[⟨1, 0⟩, ⟨1, 1⟩]], [⟨2, 2, 0⟩], 2⟩ := by decide +kernel
  obtain ⟨x', m', h, hx, _, hP⟩ := peek_ok (r := update .minimize (exOracle .minimize)
    ⟨1 / 2, 0, 1 / 2, none⟩ ⟨.equalities01, [[⟨1, 0⟩, ⟨1, 1⟩]], [⟨2, 2, 0⟩], 2⟩
    (costOf [-1, -1]) 0 (fun _ => false) mem0)
    (xs := [true, true, false]) (ps := [0, 0]) (qs := [-3 / 2, -3 / 2, 0]) (by decide +kernel)
  simp only [List.cons.injEq] at hx hP
  refine ⟨_, _, x', m', hs, h, hx.1.symm, ?_⟩
  simp [reducedCost, coef, decayed, mem0, ← hP.1]
  norm_num

end Bx.Mult
