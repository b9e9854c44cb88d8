import Verif.Proofs.RoundedRows
import Verif.Props.Multipliers

/-!
# C117, C118: row updates in floating point

C69-C72 say what a row update optimises and remembers when its numbers are exact.  Here each operation
of the update is rounded.  The specification of the computed reduced costs is
`Verif.Spec.RoundedRows`.
-/

namespace Bx.RoundedRows

open Merge SolverCtor Spec Itm Mult

/-- The reduced cost that an update of the row `k` computes. -/
def computedIn (rnd : Rat → Rat) (csts : List Merged) (m : Mem) (k : Nat) (theta : Rat)
    (cost : CostFun) (x : Assign) (j : Nat) : Rat :=
  computedCost rnd csts m.pi (decayedR rnd m.P k theta) (cost j x) j

/-- The exact reduced cost for the numbers in memory when the row `k` is updated: the multipliers, and
the preferences once those of the row are multiplied by `theta`. -/
def storedIn (rnd : Rat → Rat) (csts : List Merged) (m : Mem) (k : Nat) (theta : Rat)
    (cost : CostFun) (x : Assign) (j : Nat) : Rat :=
  reducedCost csts m.pi (decayedR rnd m.P k theta) (cost j x) j

/-- `a` is at least as good as `b`, up to `E`. -/
def NearlyAsGood (mode : ObjType) (E a b : Rat) : Prop :=
  match mode with
  | .minimize => a ≤ b + E
  | .maximize => b ≤ a + E

/-! ## C117 -/

theorem valueOf_none {t : SolverType} {csts : List Merged} {n : Nat} {s : Slv}
    (hs : makeSlv t csts n = .ok s) {k : Nat} {c : Merged} (hk : csts[k]? = some c) (rnd : Rat → Rat)
    (theta : Rat) (cost : CostFun) (x : Assign) (m : Mem) (i : Nat) (e : FunElem) :
    valueOf rnd s cost (decrease rnd m k c.elems theta) x none i e =
      if isNegative s.kind e then -computedIn rnd csts m k theta cost x e.var
        else computedIn rnd csts m k theta cost x e.var := by
  unfold valueOf computedIn
  rw [reduced_eq hs, ← computedCost_decrease hk]
  rfl

/-- C117: whatever the rounding, a row update returns an assignment of the variables of its row that
respects the constraint and that no other respecting assignment beats for the reduced costs as they
are computed, and it leaves the other variables. -/
theorem C117_cheapest_as_computed (t : SolverType) (ht : t ≠ .equalitiesZ ∧ t ≠ .inequalitiesZ)
    (csts : List Merged) (n : Nat) (s : Slv) (hs : makeSlv t csts n = .ok s)
    (k : Nat) (c : Merged) (hk : csts[k]? = some c) (hnd : (c.elems.map FunElem.var).Nodup)
    (hsat : ∃ y, Respects c y) (rnd : Rat → Rat) (mode : ObjType) (o : Oracle) (ho : o.Ok mode)
    (kappa delta theta : Rat) (cost : CostFun) (x x' : Assign) (m m' : Mem)
    (h : update rnd mode o ⟨kappa, delta, theta, none⟩ s cost k x m = .ok (x', m')) :
    Respects c x' ∧
    (∀ y, Respects c y → AtLeastAsGood mode
      (priceOf (computedIn rnd csts m k theta cost x) c.elems x')
      (priceOf (computedIn rnd csts m k theta cost x) c.elems y)) ∧
    (∀ j, (∀ e ∈ c.elems, e.var ≠ j) → x' j = x j) := by
  have hpr := fun (i : Nat) (e : FunElem) (_ : c.elems[i]? = some e) =>
    valueOf_none hs hk rnd theta cost x m i e
  obtain ⟨y0, hy0⟩ := hsat
  exact ⟨(update_opt hs ht hk hnd ho h _ hpr hy0).1,
    fun y hy => (update_opt hs ht hk hnd ho h _ hpr hy).2, fun j hj => update_frame hs hk hnd h hj⟩

/-- C117, when it returns: always with the equality solvers; with the inequality solvers the only
other outcome is the read past the end of the reduced costs, which needs a row as long as the
longest one (C24). -/
theorem C117_update_returns (t : SolverType) (ht : t ≠ .equalitiesZ ∧ t ≠ .inequalitiesZ)
    (csts : List Merged) (n : Nat) (s : Slv) (hs : makeSlv t csts n = .ok s)
    (k : Nat) (c : Merged) (hk : csts[k]? = some c) (hnd : (c.elems.map FunElem.var).Nodup)
    (hsat : ∃ y, Respects c y) (rnd : Rat → Rat) (mode : ObjType) (o : Oracle) (ho : o.Ok mode)
    (p : Param) (cost : CostFun) (x : Assign) (m : Mem) :
    (∃ x' m', update rnd mode o p s cost k x m = .ok (x', m')) ∨
    ((t = .inequalities01 ∨ t = .inequalities101) ∧
      (∀ d ∈ csts, d.elems.length ≤ c.elems.length) ∧
      update rnd mode o p s cost k x m = .error (.ub "R[i]")) := by
  obtain ⟨_, _, _, _, _, _, hrows⟩ := makeSlv_facts hs
  obtain ⟨_, hr, _, _⟩ := hrows k c hk
  have h := update_exact (rnd := rnd) (mode := mode) (o := o) (p := p) (c := cost) (x := x) (m := m)
    hr hnd 0 0 0
  have h' := C69_update_returns t ht csts n s hs k c hk hnd hsat mode o ho ⟨0, 0, 0, none⟩
    (costsOf s c.elems (valueOf rnd s cost (decrease rnd m k c.elems p.theta) x p.push)) x noMem
  rcases h with ⟨x', m', _, h1, _⟩ | ⟨f, h1, h2⟩
  · exact Or.inl ⟨x', m', h1⟩
  · rcases h' with ⟨_, _, h3⟩ | ⟨ha, hb, h3⟩
    · rw [h3] at h2
      cases h2
    · rw [h3] at h2
      cases h2
      exact Or.inr ⟨ha, hb, h1⟩

/-- C117, with the exact reduced costs: when each operation has a relative error of at most `u`, no
respecting assignment beats the one of the update by more than the rounding errors on the variables
where they differ.  For a variable that is in `q` constraints, this error is at most
`(1 + u) ^ (q + 2) - 1` times the sum of its cost, multipliers and preferences without their signs. -/
theorem C117_nearly_cheapest (t : SolverType) (ht : t ≠ .equalitiesZ ∧ t ≠ .inequalitiesZ)
    (csts : List Merged) (n : Nat) (s : Slv) (hs : makeSlv t csts n = .ok s)
    (k : Nat) (c : Merged) (hk : csts[k]? = some c) (hnd : (c.elems.map FunElem.var).Nodup)
    (rnd : Rat → Rat) (u : Rat) (hu : 0 ≤ u) (hr : ∀ q, |rnd q - q| ≤ u * |q|)
    (mode : ObjType) (o : Oracle) (ho : o.Ok mode)
    (kappa delta theta : Rat) (cost : CostFun) (x x' : Assign) (m m' : Mem)
    (h : update rnd mode o ⟨kappa, delta, theta, none⟩ s cost k x m = .ok (x', m'))
    (y : Assign) (hy : Respects c y) :
    NearlyAsGood mode
      (c.elems.map fun e => if x' e.var = y e.var then 0 else
        ((1 + u) ^ ((occurrences csts e.var).length + 2) - 1) *
          magnitude csts m.pi (decayedR rnd m.P k theta) (cost e.var x) e.var).sum
      (priceOf (storedIn rnd csts m k theta cost x) c.elems x')
      (priceOf (storedIn rnd csts m k theta cost x) c.elems y) := by
  have h1 := (C117_cheapest_as_computed t ht csts n s hs k c hk hnd ⟨y, hy⟩ rnd mode o ho kappa delta
    theta cost x x' m m' h).2.1 y hy
  have h2 := priceOf_diff (computedIn rnd csts m k theta cost x) (storedIn rnd csts m k theta cost x)
    (fun j => ((1 + u) ^ ((occurrences csts j).length + 2) - 1) *
      magnitude csts m.pi (decayedR rnd m.P k theta) (cost j x) j) x' y c.elems
    (fun e _ => computedCost_error hs hu hr _ _ _ _)
  rw [abs_le] at h2
  unfold NearlyAsGood
  cases mode <;> simp only [AtLeastAsGood] at h1 ⊢ <;> linarith

/-- C117, for `float` (`p = 24`) and `double` (`p = 53`): the same with `u = 2 ^ -p`. -/
theorem C117_nearly_cheapest_binary (p : Nat) (t : SolverType)
    (ht : t ≠ .equalitiesZ ∧ t ≠ .inequalitiesZ)
    (csts : List Merged) (n : Nat) (s : Slv) (hs : makeSlv t csts n = .ok s)
    (k : Nat) (c : Merged) (hk : csts[k]? = some c) (hnd : (c.elems.map FunElem.var).Nodup)
    (mode : ObjType) (o : Oracle) (ho : o.Ok mode)
    (kappa delta theta : Rat) (cost : CostFun) (x x' : Assign) (m m' : Mem)
    (h : update (binary p) mode o ⟨kappa, delta, theta, none⟩ s cost k x m = .ok (x', m'))
    (y : Assign) (hy : Respects c y) :
    NearlyAsGood mode
      (c.elems.map fun e => if x' e.var = y e.var then 0 else
        ((1 + 1 / 2 ^ p) ^ ((occurrences csts e.var).length + 2) - 1) *
          magnitude csts m.pi (decayedR (binary p) m.P k theta) (cost e.var x) e.var).sum
      (priceOf (storedIn (binary p) csts m k theta cost x) c.elems x')
      (priceOf (storedIn (binary p) csts m k theta cost x) c.elems y) :=
  C117_nearly_cheapest t ht csts n s hs k c hk hnd (binary p) (1 / 2 ^ p) (by positivity)
    (binary_error_abs p) mode o ho kappa delta theta cost x x' m m' h y hy

/-- C117, without error: when the costs, the multipliers and the preferences of the variables of the
row are multiples of one power of 2 and are not too large for the `p` digits of the numbers, the
assignment of the update is the cheapest for the exact reduced costs. -/
theorem C117_cheapest_on_a_grid (p : Nat) (hp : 0 < p) (t : SolverType)
    (ht : t ≠ .equalitiesZ ∧ t ≠ .inequalitiesZ)
    (csts : List Merged) (n : Nat) (s : Slv) (hs : makeSlv t csts n = .ok s)
    (k : Nat) (c : Merged) (hk : csts[k]? = some c) (hnd : (c.elems.map FunElem.var).Nodup)
    (mode : ObjType) (o : Oracle) (ho : o.Ok mode)
    (kappa delta theta : Rat) (cost : CostFun) (x x' : Assign) (m m' : Mem) (g : Int)
    (hg : ∀ e ∈ c.elems, Grid g (cost e.var x) ∧ (∀ i, Grid g (m.pi i)) ∧
      (∀ i, Grid g (decayedR (binary p) m.P k theta i e.var)) ∧
      magnitude csts m.pi (decayedR (binary p) m.P k theta) (cost e.var x) e.var ≤ 2 ^ p * 2 ^ g)
    (h : update (binary p) mode o ⟨kappa, delta, theta, none⟩ s cost k x m = .ok (x', m'))
    (y : Assign) (hy : Respects c y) :
    AtLeastAsGood mode (priceOf (storedIn (binary p) csts m k theta cost x) c.elems x')
      (priceOf (storedIn (binary p) csts m k theta cost x) c.elems y) := by
  have h1 := (C117_cheapest_as_computed t ht csts n s hs k c hk hnd ⟨y, hy⟩ (binary p) mode o ho kappa
    delta theta cost x x' m m' h).2.1 y hy
  have key : ∀ z, priceOf (storedIn (binary p) csts m k theta cost x) c.elems z =
      priceOf (computedIn (binary p) csts m k theta cost x) c.elems z := by
    intro z
    unfold priceOf
    congr 1
    apply List.map_congr_left
    intro e he
    obtain ⟨g1, g2, g3, g4⟩ := hg e he
    have : computedIn (binary p) csts m k theta cost x e.var =
        storedIn (binary p) csts m k theta cost x e.var := computedCost_exact hs hp g1 g2 g3 g4
    rw [this]
  rw [key, key]
  exact h1

/-- Without rounding, the reduced costs as computed are the ones of C69. -/
theorem C117_without_rounding {t : SolverType} {csts : List Merged} {n : Nat} {s : Slv}
    (hs : makeSlv t csts n = .ok s) (m : Mem) (k : Nat) (theta : Rat) (cost : CostFun) (x : Assign)
    (j : Nat) : computedIn id csts m k theta cost x j = priceIn csts m k theta cost x j := by
  have h := computedCost_error hs (rnd := id) (u := 0) le_rfl (by simp) m.pi (decayedR id m.P k theta)
    (cost j x) j
  simp only [add_zero, one_pow, sub_self, zero_mul] at h
  have := abs_nonpos_iff.mp h
  unfold computedIn priceIn
  rw [sub_eq_zero] at this
  exact this

/-! ### Concrete updates -/

/-- Two of x0, x1 and x2, and one of x0 and x1. -/
def rCsts : List Merged :=
  [⟨[⟨1, 0⟩, ⟨1, 1⟩, ⟨1, 2⟩], 2, 2, 0⟩, ⟨[⟨1, 0⟩, ⟨1, 1⟩], 1, 1, 1⟩]

def rSlv : Slv := ⟨.equalities01, rCsts.map Merged.elems, [⟨2, 2, 0⟩, ⟨1, 1, 0⟩], 3⟩

theorem rSlv_ok : makeSlv .equalities01 rCsts 3 = .ok rSlv := by decide +kernel

/-- The costs 2 ^ -60, 0 and 2. -/
def rCost : CostFun := costOf [1 / 2 ^ 60, 0, 2]

/-- What an update returns on x0, x1, the two multipliers and the four preferences. -/
def look (r : Outcome (Assign × Mem)) : Outcome (List Bool × List Rat × List Rat) := do
  let (x, m) ← r
  .ok ([x 0, x 1], [m.pi 0, m.pi 1], [m.P 0 0, m.P 0 1, m.P 1 0, m.P 1 1])

theorem look_ok {r : Outcome (Assign × Mem)} {xs : List Bool} {ps qs : List Rat}
    (h : look r = .ok (xs, ps, qs)) : ∃ x m, r = .ok (x, m) ∧ [x 0, x 1] = xs ∧
      [m.pi 0, m.pi 1] = ps ∧ [m.P 0 0, m.P 0 1, m.P 1 0, m.P 1 1] = qs := by
  unfold look at h
  obtain ⟨⟨x, m⟩, h1, h⟩ := bind_eq_ok.mp h
  have := Except.ok.inj h
  simp only [Prod.mk.injEq] at this
  exact ⟨x, m, h1, this.1, this.2.1, this.2.2⟩

/-- The update of the first row, from the start. -/
def rFirst (rnd : Rat → Rat) : Outcome (Assign × Mem) :=
  update rnd .minimize (exOracle .minimize) ⟨0, 0, 1 / 2, none⟩ rSlv rCost 0 (fun _ => false) mem0

/-- The updates of the two rows, one after the other, from the start. -/
def rRun (rnd : Rat → Rat) : Outcome (Assign × Mem) := do
  let (x, m) ← rFirst rnd
  update rnd .minimize (exOracle .minimize) ⟨0, 0, 1 / 2, none⟩ rSlv rCost 1 x m

/-- In `double`, the first update stores the multiplier 1, and the second one takes x0. -/
theorem rRun_double : ∃ x m x' m', rFirst (binary 53) = .ok (x, m) ∧
    update (binary 53) .minimize (exOracle .minimize) ⟨0, 0, 1 / 2, none⟩ rSlv rCost 1 x m =
      .ok (x', m') ∧
    (m.pi 0 = 1 ∧ m.pi 1 = 0) ∧ (m.P 0 0 = 0 ∧ m.P 0 1 = 0 ∧ m.P 1 0 = 0 ∧ m.P 1 1 = 0) ∧
    (x' 0 = true ∧ x' 1 = false) ∧ m'.pi 0 = 1 ∧ m'.pi 1 = -1 := by
  obtain ⟨x, m, h1, _, hp, hP⟩ := look_ok (show look (rFirst (binary 53)) =
    .ok ([true, true], [1, 0], [0, 0, 0, 0]) by decide +kernel)
  obtain ⟨x', m', h2, hx', hp', _⟩ := look_ok (show look (rRun (binary 53)) =
    .ok ([true, false], [1, -1], [0, 0, 0, 0]) by decide +kernel)
  unfold rRun at h2
  rw [h1] at h2
  simp only [List.cons.injEq, and_true] at hp hx' hp' hP
  exact ⟨x, m, x', m', h1, h2, hp, hP, hx', hp'⟩

/-- Without rounding, the second update takes x1. -/
example : look (rRun id) =
    .ok ([false, true], [2305843009213693953 / 2305843009213693952, -1], [0, 0, 0, 0]) := by
  decide +kernel

/-- The hypotheses of C117 on the second update. -/
example : ∃ x m x' m', update (binary 53) .minimize (exOracle .minimize) ⟨0, 0, 1 / 2, none⟩ rSlv
      rCost 1 x m = .ok (x', m') ∧ makeSlv .equalities01 rCsts 3 = .ok rSlv ∧
    rCsts[1]? = some ⟨[⟨1, 0⟩, ⟨1, 1⟩], 1, 1, 1⟩ ∧
    (([⟨1, 0⟩, ⟨1, 1⟩] : List FunElem).map FunElem.var).Nodup ∧
    (∃ y, Respects ⟨[⟨1, 0⟩, ⟨1, 1⟩], 1, 1, 1⟩ y) ∧ (exOracle .minimize).Ok .minimize := by
  obtain ⟨x, m, x', m', _, h, _⟩ := rRun_double
  exact ⟨x, m, x', m', h, rSlv_ok, rfl, by decide, ⟨fun j => decide (j = 1), by
    unfold Respects; decide +kernel⟩, exOracle_ok _⟩

/-- The hypothesis of `C117_cheapest_on_a_grid` on the first update: from the start, with the costs 3,
1 and 2. -/
example : ∀ e ∈ ([⟨1, 0⟩, ⟨1, 1⟩, ⟨1, 2⟩] : List FunElem),
    Grid 0 (costOf [3, 1, 2] e.var fun _ => false) ∧ (∀ i, Grid 0 (mem0.pi i)) ∧
    (∀ i, Grid 0 (decayedR (binary 53) mem0.P 0 (1 / 2) i e.var)) ∧
    magnitude rCsts mem0.pi (decayedR (binary 53) mem0.P 0 (1 / 2))
      (costOf [3, 1, 2] e.var fun _ => false) e.var ≤ 2 ^ 53 * 2 ^ (0 : Int) := by
  have hz : ∀ i j, decayedR (binary 53) mem0.P 0 (1 / 2) i j = 0 := by
    intro i j
    simp [decayedR, mem0, binary_zero]
  intro e he
  refine ⟨?_, fun i => ⟨0, by simp [mem0]⟩, fun i => ⟨0, by rw [hz]; simp⟩, ?_⟩
  · simp only [List.mem_cons, List.not_mem_nil, or_false] at he
    rcases he with rfl | rfl | rfl
    · exact ⟨3, by decide +kernel⟩
    · exact ⟨1, by decide +kernel⟩
    · exact ⟨2, by decide +kernel⟩
  · unfold magnitude
    have hpi : ∀ i, mem0.pi i = 0 := fun _ => rfl
    simp only [hz, hpi, mul_zero, abs_zero]
    simp only [List.mem_cons, List.not_mem_nil, or_false] at he
    rcases he with rfl | rfl | rfl <;> norm_num [costOf]

/-- C69 fails in floating point: with the costs 2 ^ -60, 0 and 2, the update of two of x0, x1 and x2
stores the multiplier 1.  Then, when one of x0 and x1 is wanted, the two reduced costs are computed as
-1 and the update may take x0, although x1 is cheaper. -/
theorem C117_dearer_row : ∃ (x x' y : Assign) (m m' : Mem) (c : Merged),
    makeSlv .equalities01 rCsts 3 = .ok rSlv ∧ rCsts[1]? = some c ∧
    update (binary 53) .minimize (exOracle .minimize) ⟨0, 0, 1 / 2, none⟩ rSlv rCost 0
      (fun _ => false) mem0 = .ok (x, m) ∧
    update (binary 53) .minimize (exOracle .minimize) ⟨0, 0, 1 / 2, none⟩ rSlv rCost 1 x m =
      .ok (x', m') ∧
    Respects c y ∧
    priceOf (storedIn (binary 53) rCsts m 1 (1 / 2) rCost x) c.elems y <
      priceOf (storedIn (binary 53) rCsts m 1 (1 / 2) rCost x) c.elems x' := by
  obtain ⟨x, m, x', m', h1, h2, ⟨p0, p1⟩, ⟨q1, q2, q3, q4⟩, ⟨h3, h4⟩, _⟩ := rRun_double
  refine ⟨x, x', fun j => decide (j = 1), m, m', _, rSlv_ok, rfl, h1, h2,
    by unfold Respects; decide +kernel, ?_⟩
  have e0 : storedIn (binary 53) rCsts m 1 (1 / 2) rCost x 0 = 1 / 2 ^ 60 - 1 := by
    simp [storedIn, reducedCost, rCsts, coef, decayedR, p0, p1, q1, q3, binary_zero, rCost, costOf]
  have e1 : storedIn (binary 53) rCsts m 1 (1 / 2) rCost x 1 = 0 - 1 := by
    simp [storedIn, reducedCost, rCsts, coef, decayedR, p0, p1, q2, q4, binary_zero, rCost, costOf]
  simp only [priceOf, List.map_cons, List.map_nil, List.sum_cons, List.sum_nil, h3, h4, e0, e1]
  norm_num

/-! ## C118 -/

theorem rsum_mono {rnd : Rat → Rat} (hr : Monotone rnd) {α : Type} (f g : α → Rat) :
    ∀ (l : List α) (a b : Rat), a ≤ b → (∀ o ∈ l, f o ≤ g o) →
      Rounded.rsum rnd a (l.map f) ≤ Rounded.rsum rnd b (l.map g)
  | [], a, b, h, _ => h
  | o :: l, a, b, h, hl => by
    have := rsum_mono hr f g l (rnd (a + f o)) (rnd (b + g o))
      (hr (add_le_add h (hl o (by simp)))) (fun o ho => hl o (by simp [ho]))
    exact this

/-- More preference for a variable, in a constraint where its coefficient is 1, lowers its computed
reduced cost. -/
theorem computedCost_anti {csts : List Merged} {k : Nat} {c : Merged} (hk : csts[k]? = some c)
    {rnd : Rat → Rat} (hr : Monotone rnd) {e : FunElem} (he : ∀ f ∈ c.elems, f.var = e.var → f.factor = 1)
    {P P' : Nat → Nat → Rat} (hP : ∀ i, i ≠ k → P' i e.var = P i e.var) (h : P k e.var ≤ P' k e.var)
    (pi : Nat → Rat) (q : Rat) :
    computedCost rnd csts pi P' q e.var ≤ computedCost rnd csts pi P q e.var := by
  unfold computedCost
  rw [roundedSum_eq, roundedSum_eq, roundedSum_eq]
  apply hr
  apply sub_le_sub_left
  apply rsum_mono hr _ _ _ _ _ le_rfl
  intro o ho
  by_cases hok : o.1 = k
  · unfold occurrences at ho
    obtain ⟨⟨d, i⟩, hq, ho⟩ := List.mem_flatMap.mp ho
    obtain ⟨f, hf, rfl⟩ := List.mem_map.mp ho
    obtain ⟨hf1, hf2⟩ := List.mem_filter.mp hf
    simp only at hok
    subst hok
    rw [List.mem_zipIdx_iff_getElem?] at hq
    simp only at hq
    rw [hk] at hq
    cases hq
    simp only
    rw [he f hf1 (by simpa using hf2)]
    simpa using h
  · rw [hP _ hok]

/-- C118, for the positive coefficients, when the value given to the row is neither the least nor the
greatest that it can take, with `0 ≤ kappa < 1` and a `delta` that has the sign of the direction: with
an increasing rounding, the new preferences do not move the computed reduced cost of a variable of the
row away from the value it got.  The preferences of the other constraints and variables are kept, and
so are the other multipliers.  What is missing is what C72 misses. -/
theorem C118_preferences_reinforce_partial (t : SolverType)
    (ht : t ≠ .equalitiesZ ∧ t ≠ .inequalitiesZ)
    (csts : List Merged) (n : Nat) (s : Slv) (hs : makeSlv t csts n = .ok s)
    (k : Nat) (c : Merged) (hk : csts[k]? = some c) (hnd : (c.elems.map FunElem.var).Nodup)
    (hsat : ∃ y, Respects c y) (rnd : Rat → Rat) (hr : Rounding rnd)
    (mode : ObjType) (o : Oracle) (ho : o.Ok mode)
    (p : Param) (hk0 : 0 ≤ p.kappa) (hk1 : p.kappa < 1)
    (hdelta : match mode with | .minimize => 0 ≤ p.delta | .maximize => p.delta ≤ 0)
    (cost : CostFun) (x x' : Assign) (m m' : Mem)
    (h : update rnd mode o p s cost k x m = .ok (x', m'))
    (hint : ∃ y z, lhs y c.elems < lhs x' c.elems ∧ lhs x' c.elems < lhs z c.elems) :
    (∀ e ∈ c.elems, 0 < e.factor → ∀ (pi : Nat → Rat) (q : Rat),
      (x' e.var = true → AtLeastAsGood mode (computedCost rnd csts pi m'.P q e.var)
        (computedCost rnd csts pi (decayedR rnd m.P k p.theta) q e.var)) ∧
      (x' e.var = false → AtLeastAsGood mode
        (computedCost rnd csts pi (decayedR rnd m.P k p.theta) q e.var)
        (computedCost rnd csts pi m'.P q e.var))) ∧
    (∀ i j, (i ≠ k ∨ ∀ e ∈ c.elems, e.var ≠ j) → m'.P i j = m.P i j) ∧
    (∀ i, i ≠ k → m'.pi i = m.pi i) := by
  obtain ⟨hkind, _, _, _, _, _, hrows⟩ := makeSlv_facts hs
  obtain ⟨_, _, _, hc⟩ := hrows k c hk
  have hu := ctor_unit hc ht
  obtain ⟨a, b, hab, h1, _, _, _, _, h4, h5⟩ := update_interior hs ht hk hnd ho h hsat hint
  refine ⟨fun e he hpos pi q => ?_, h4, h1⟩
  have hfac : ∀ f ∈ c.elems, f.var = e.var → f.factor = 1 := by
    intro f hf hv
    have : f = e := List.inj_on_of_nodup_map hnd hf he hv
    subst this
    have := hu.1 f hf
    have h2 := hu.2 f hf
    rw [this] at h2
    split at h2 <;> omega
  have hdk : decayedR rnd m.P k p.theta k e.var = rnd (m.P k e.var * p.theta) := by simp [decayedR]
  have hother : ∀ i, i ≠ k → m'.P i e.var = decayedR rnd m.P k p.theta i e.var := by
    intro i hi
    rw [h4 i e.var (Or.inl hi)]
    simp [decayedR, hi]
  have h5 := h5 e he
  rw [← hdk] at h5
  have hfix : rnd (decayedR rnd m.P k p.theta k e.var) = decayedR rnd m.P k p.theta k e.var := by
    rw [hdk, hr.idem]
  have pos : ∀ q, 0 ≤ q → 0 ≤ rnd q := fun q h => hr.zero ▸ hr.mono h
  have neg : ∀ q, q ≤ 0 → rnd q ≤ 0 := fun q h => hr.zero ▸ hr.mono h
  have hratio : 0 ≤ ratio rnd p.kappa := pos _ (div_nonneg hk0 (pos _ (by linarith)))
  generalize hd : rnd (p.delta + rnd (ratio rnd p.kappa * rnd (b - a))) = d at h5
  obtain ⟨v, hv⟩ : ∃ v, decayedR rnd m.P k p.theta k e.var = v := ⟨_, rfl⟩
  rw [hv] at h5 hfix
  have up : ∀ w, 0 ≤ w → v ≤ rnd (v + w) := fun w hw => by
    have := hr.mono (show v ≤ v + w by linarith)
    rwa [hfix] at this
  have down : ∀ w, w ≤ 0 → rnd (v + w) ≤ v := fun w hw => by
    have := hr.mono (show v + w ≤ v by linarith)
    rwa [hfix] at this
  have more : v ≤ m'.P k e.var → computedCost rnd csts pi m'.P q e.var ≤
      computedCost rnd csts pi (decayedR rnd m.P k p.theta) q e.var := fun h =>
    computedCost_anti hk hr.mono hfac hother (by rw [hv]; exact h) pi q
  have less : m'.P k e.var ≤ v → computedCost rnd csts pi (decayedR rnd m.P k p.theta) q e.var ≤
      computedCost rnd csts pi m'.P q e.var := fun h =>
    computedCost_anti hk hr.mono hfac (fun i hi => (hother i hi).symm) (by rw [hv]; exact h) pi q
  cases mode with
  | minimize =>
    simp only [sg, one_mul] at hab
    simp only at hdelta
    have hd0 : 0 ≤ d := by
      rw [← hd]
      exact pos _ (add_nonneg hdelta (pos _ (mul_nonneg hratio (pos _ (by linarith)))))
    constructor
    · intro hx
      rw [hx] at h5
      exact more (by rw [h5]; exact up _ (by simpa using hd0))
    · intro hx
      rw [hx] at h5
      exact less (by rw [h5]; exact down _ (by simpa using hd0))
  | maximize =>
    simp only [sg, neg_mul, one_mul, neg_le_neg_iff] at hab
    simp only at hdelta
    have hd0 : d ≤ 0 := by
      rw [← hd]
      refine neg _ (add_nonpos hdelta (neg _ (mul_nonpos_of_nonneg_of_nonpos hratio (neg _ ?_))))
      linarith
    constructor
    · intro hx
      rw [hx] at h5
      exact less (by rw [h5]; exact down _ (by simpa using hd0))
    · intro hx
      rw [hx] at h5
      exact more (by rw [h5]; exact up _ (by simpa using hd0))

/-- The second update of the example: one of two variables is neither the least nor the greatest. -/
example : ∃ x m x' m', update (binary 53) .minimize (exOracle .minimize) ⟨0, 0, 1 / 2, none⟩ rSlv
      rCost 1 x m = .ok (x', m') ∧ Rounding (binary 53) ∧
    (∃ y z, lhs y [⟨1, 0⟩, ⟨1, 1⟩] < lhs x' [⟨1, 0⟩, ⟨1, 1⟩] ∧
      lhs x' [⟨1, 0⟩, ⟨1, 1⟩] < lhs z [⟨1, 0⟩, ⟨1, 1⟩]) := by
  obtain ⟨x, m, x', m', _, h, _, _, ⟨h3, h4⟩, _⟩ := rRun_double
  exact ⟨x, m, x', m', h, binary_rounding (by norm_num), fun _ => false, fun _ => true,
    by simp [lhs, h3, h4], by simp [lhs, h3, h4]⟩

/-- With `kappa = 1/2` and `delta = 1`, from the start, in `float`: the preferences move. -/
example : look (update (binary 24) .minimize (exOracle .minimize) ⟨1 / 2, 1, 1 / 2, none⟩ rSlv
    (costOf [3, 1, 2]) 1 (fun _ => false) mem0) = .ok ([false, true], [0, 2], [0, 0, -3, 3]) := by
  decide +kernel

/-- C118, for the multiplier, when the value given to the row is neither the least nor the greatest
that it can take: when each operation has a relative error of at most `u` and the computed reduced
costs of the row are at most `B`, the exact reduced costs with the new multiplier are on the good side
of zero for the variables at 1, and on the other side for the variables at 0, up to the rounding error
of C117 and `(1 + u) ^ 3 - 1` times the sum of the old multiplier and `B`. -/
theorem C118_nearly_separates_partial (t : SolverType) (ht : t ≠ .equalitiesZ ∧ t ≠ .inequalitiesZ)
    (csts : List Merged) (n : Nat) (s : Slv) (hs : makeSlv t csts n = .ok s)
    (k : Nat) (c : Merged) (hk : csts[k]? = some c) (hnd : (c.elems.map FunElem.var).Nodup)
    (hsat : ∃ y, Respects c y) (rnd : Rat → Rat) (u : Rat) (hu : 0 ≤ u)
    (hr : ∀ q, |rnd q - q| ≤ u * |q|) (mode : ObjType) (o : Oracle) (ho : o.Ok mode)
    (kappa delta theta : Rat) (cost : CostFun) (x x' : Assign) (m m' : Mem)
    (h : update rnd mode o ⟨kappa, delta, theta, none⟩ s cost k x m = .ok (x', m'))
    (hint : ∃ y z, lhs y c.elems < lhs x' c.elems ∧ lhs x' c.elems < lhs z c.elems)
    (B : Rat) (hB : ∀ e ∈ c.elems, |computedIn rnd csts m k theta cost x e.var| ≤ B) :
    ∀ e ∈ c.elems, ∀ E, E = ((1 + u) ^ ((occurrences csts e.var).length + 2) - 1) *
        magnitude csts m.pi (decayedR rnd m.P k theta) (cost e.var x) e.var +
        ((1 + u) ^ 3 - 1) * (|m.pi k| + B) →
      (x' e.var = true → NearlyAsGood mode E
        (reducedCost csts m'.pi (decayedR rnd m.P k theta) (cost e.var x) e.var) 0) ∧
      (x' e.var = false → NearlyAsGood mode E 0
        (reducedCost csts m'.pi (decayedR rnd m.P k theta) (cost e.var x) e.var)) := by
  obtain ⟨hkind, _, _, _, _, _, hrows⟩ := makeSlv_facts hs
  obtain ⟨_, _, _, hc⟩ := hrows k c hk
  have hunit := ctor_unit hc ht
  obtain ⟨a, b, hab, h1, h2, ⟨ia, ea, hea, hva⟩, ⟨ib, eb, heb, hvb⟩, h3, _, _⟩ :=
    update_interior hs ht hk hnd ho h hsat hint
  have hvabs : ∀ (i : Nat) (e : FunElem), c.elems[i]? = some e →
      |valueOf rnd s cost (decrease rnd m k c.elems theta) x none i e| ≤ B := by
    intro i e he
    rw [valueOf_none hs hk]
    have := hB e (List.mem_of_getElem? he)
    split
    · rwa [abs_neg]
    · exact this
  have ha : |a| ≤ B := hva ▸ hvabs ia ea hea
  have hb : |b| ≤ B := hvb ▸ hvabs ib eb heb
  -- the error on the multiplier
  have hpi : |m'.pi k - (m.pi k + (a + b) / 2)| ≤ ((1 + u) ^ 3 - 1) * (|m.pi k| + B) := by
    rw [h2]
    have e1 := hr (a + b)
    have e2 := hr (rnd (a + b) / 2)
    have e3 := hr (m.pi k + rnd (rnd (a + b) / 2))
    have hab2 := abs_add_le a b
    have s1 : |a + b| ≤ 2 * B := by linarith
    have hB0 : 0 ≤ B := le_trans (abs_nonneg _) ha
    generalize a + b = S at *
    generalize rnd S = S1 at *
    generalize rnd (S1 / 2) = S2 at *
    generalize rnd (m.pi k + S2) = T at *
    generalize m.pi k = p0 at *
    have f1 : |S1| ≤ (1 + u) * (2 * B) := by
      have := abs_add_le (S1 - S) S
      rw [show S1 - S + S = S1 by ring] at this
      nlinarith [mul_le_mul_of_nonneg_left s1 hu]
    have f2 : |S1 / 2| ≤ (1 + u) * B := by
      rw [abs_div, abs_two]
      linarith
    have f3 : |S2 - S / 2| ≤ ((1 + u) ^ 2 - 1) * B := by
      have g1 := abs_sub_le S2 (S1 / 2) (S / 2)
      have g2 : |S1 / 2 - S / 2| ≤ u * B := by
        rw [← sub_div, abs_div, abs_two]
        nlinarith [mul_le_mul_of_nonneg_left s1 hu]
      nlinarith [mul_le_mul_of_nonneg_left f2 hu]
    have f4 : |S / 2| ≤ B := by
      rw [abs_div, abs_two]
      linarith
    have f5 : |p0 + S2| ≤ |p0| + (1 + u) ^ 2 * B := by
      have g1 := abs_add_le p0 S2
      have g2 := abs_add_le (S2 - S / 2) (S / 2)
      rw [show S2 - S / 2 + S / 2 = S2 by ring] at g2
      nlinarith
    have f6 := abs_sub_le T (p0 + S2) (p0 + S / 2)
    rw [show p0 + S2 - (p0 + S / 2) = S2 - S / 2 by ring] at f6
    have f7 := mul_le_mul_of_nonneg_left f5 hu
    have hp0 := abs_nonneg p0
    have : u * |p0| ≤ ((1 + u) ^ 3 - 1) * |p0| := by
      apply mul_le_mul_of_nonneg_right _ hp0
      nlinarith [mul_nonneg hu hu, mul_nonneg hu (mul_nonneg hu hu)]
    nlinarith
  intro e he E hE
  obtain ⟨i, hi⟩ := List.getElem?_of_mem he
  have hcoef := coef_of_nodup hnd he rfl
  have hfac : e.factor = if isNegative t e then -1 else 1 := by
    rw [← hunit.1 e he]
    exact hunit.2 e he
  have hd := reducedCost_diff hk (pi := m.pi) (pi' := m'.pi) (P := decayedR rnd m.P k theta)
    (P' := decayedR rnd m.P k theta) e.var h1 (fun _ _ => rfl) (cost e.var x)
  rw [hcoef] at hd
  have herr := computedCost_error hs hu hr m.pi (decayedR rnd m.P k theta) (cost e.var x) e.var
  obtain ⟨h4, h5⟩ := h3 i e hi
  rw [valueOf_none hs hk] at h4 h5
  unfold computedIn at h4 h5
  rw [hkind] at h4 h5
  rw [hd]
  generalize computedCost rnd csts m.pi (decayedR rnd m.P k theta) (cost e.var x) e.var = w at *
  generalize reducedCost csts m.pi (decayedR rnd m.P k theta) (cost e.var x) e.var = w' at *
  generalize ((1 + u) ^ ((occurrences csts e.var).length + 2) - 1) *
        magnitude csts m.pi (decayedR rnd m.P k theta) (cost e.var x) e.var = E1 at *
  generalize ((1 + u) ^ 3 - 1) * (|m.pi k| + B) = E2 at *
  rw [abs_le] at herr hpi
  subst hE
  unfold NearlyAsGood
  cases hn : isNegative t e <;> rw [hn] at hfac h4 h5 <;> rw [hfac] <;> cases mode <;>
    constructor <;> intro hx <;> simp [hx, sg] at h4 h5 hab ⊢ <;> linarith

/-- C118, other case: when the value given to the row is the least or the greatest that it can take,
every multiplier is kept, whatever the rounding. -/
theorem C118_multiplier_kept (t : SolverType) (ht : t ≠ .equalitiesZ ∧ t ≠ .inequalitiesZ)
    (csts : List Merged) (n : Nat) (s : Slv) (hs : makeSlv t csts n = .ok s)
    (k : Nat) (c : Merged) (hk : csts[k]? = some c) (hnd : (c.elems.map FunElem.var).Nodup)
    (rnd : Rat → Rat) (mode : ObjType) (o : Oracle) (ho : o.Ok mode) (p : Param) (cost : CostFun)
    (x x' : Assign) (m m' : Mem) (h : update rnd mode o p s cost k x m = .ok (x', m'))
    (hext : (∀ y, lhs x' c.elems ≤ lhs y c.elems) ∨ (∀ y, lhs y c.elems ≤ lhs x' c.elems)) :
    m'.pi = m.pi :=
  update_extreme hs ht hk hnd ho h hext

/-- Both of x0 and x1: the greatest value of the row. -/
example : look (do
    let s ← makeSlv .equalities01 [⟨[⟨1, 0⟩, ⟨1, 1⟩], 2, 2, 0⟩] 2
    update (binary 24) .minimize (exOracle .minimize) ⟨1 / 2, 1, 1 / 2, none⟩ s (costOf [3, 1]) 0
      (fun _ => false) mem0) = .ok ([true, true], [0, 0], [11 / 2, 11 / 2, 0, 0]) := by
  decide +kernel

/-- C71 fails in floating point: in the example of `C117_dearer_row`, the value given to the second
row is neither the least nor the greatest, x0 is at 1 and its reduced cost with the new multiplier is
2 ^ -60, on the bad side of zero, be it exact or computed. -/
theorem C118_separation_lost : ∃ (x x' : Assign) (m m' : Mem) (c : Merged),
    makeSlv .equalities01 rCsts 3 = .ok rSlv ∧ rCsts[1]? = some c ∧
    update (binary 53) .minimize (exOracle .minimize) ⟨0, 0, 1 / 2, none⟩ rSlv rCost 0
      (fun _ => false) mem0 = .ok (x, m) ∧
    update (binary 53) .minimize (exOracle .minimize) ⟨0, 0, 1 / 2, none⟩ rSlv rCost 1 x m =
      .ok (x', m') ∧
    (∃ y z, lhs y c.elems < lhs x' c.elems ∧ lhs x' c.elems < lhs z c.elems) ∧ x' 0 = true ∧
    0 < reducedCost rCsts m'.pi (decayedR (binary 53) m.P 1 (1 / 2)) (rCost 0 x) 0 ∧
    0 < computedCost (binary 53) rCsts m'.pi (decayedR (binary 53) m.P 1 (1 / 2)) (rCost 0 x) 0 := by
  obtain ⟨x, m, x', m', h1, h2, _, ⟨q1, q2, q3, q4⟩, ⟨h3, h4⟩, p0, p1⟩ := rRun_double
  refine ⟨x, x', m, m', _, rSlv_ok, rfl, h1, h2, ⟨fun _ => false, fun _ => true,
    by simp [lhs, h3, h4], by simp [lhs, h3, h4]⟩, h3, ?_, ?_⟩
  · simp [reducedCost, rCsts, coef, decayedR, p0, p1, q1, q3, binary_zero, rCost, costOf]
  · have hocc : occurrences rCsts 0 = [(0, 1), (1, 1)] := by decide +kernel
    have e1 : binary 53 1 = 1 := by decide +kernel
    have e2 : binary 53 (1 / 2 ^ 60) = 1 / 2 ^ 60 := by decide +kernel
    unfold computedCost
    rw [hocc]
    simp only [List.map_cons, List.map_nil, roundedSum, List.foldl_cons, List.foldl_nil, Int.cast_one,
      one_mul, p0, p1, decayedR, q1, q3, zero_mul, binary_zero, zero_add, add_zero, e1, sub_zero,
      ite_self, if_true, if_false, zero_ne_one]
    norm_num [binary_zero, rCost, costOf]
    decide +kernel

end Bx.RoundedRows
