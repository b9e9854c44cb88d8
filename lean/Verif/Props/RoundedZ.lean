import Verif.Props.RoundedRun
import Verif.Props.ZNumeric
import Verif.Proofs.RoundedZ

/-!
# C121: row updates with integer coefficients, in floating point

C91, C92 and C84 say what an update of a row with integer coefficients optimises and remembers, and
when a run returns, with exact numbers.  Here each operation is rounded, the sums of the two sub-solvers
included.  The specification of the computed prices and of their computed sums is
`Verif.Spec.RoundedZ`.
-/

namespace Bx.RoundedZ

open Merge SolverCtor Spec Exhaustive Itm Mult ZSolver
open ZNum (ZOracle)
open RoundedRows (storedIn NearlyAsGood)

/-- The price of a variable that an update of the row `k` computes: its reduced cost, plus the amplified
cost in a push. -/
def computedZ (rnd : Rat → Rat) (csts : List Merged) (m : Mem) (k : Nat) (theta : Rat)
    (push : Option Rat) (cost : CostFun) (x : Assign) (j : Nat) : Rat :=
  match push with
  | none => computedAbsCost rnd csts m.pi (decayedR rnd m.P k theta) (cost j x) j
  | some amp =>
    rnd (computedAbsCost rnd csts m.pi (decayedR rnd m.P k theta) (cost j x) j + rnd (amp * cost j x))

/-- The bound on the rounding errors for an assignment of a row: each variable at 1 that is in `q`
constraints counts for `(1 + u) ^ (q + 4 + length of the row) - 1` times the sum of its cost,
multipliers and preferences without their signs. -/
def errorOf (u : Rat) (csts : List Merged) (pi : Nat → Rat) (P : Nat → Nat → Rat) (q : Nat → Rat)
    (es : List FunElem) (x : Assign) : Rat :=
  (es.map fun e => if x e.var then
    ((1 + u) ^ ((occurrences csts e.var).length + 4 + es.length) - 1) *
      absMagnitude csts pi P (q e.var) e.var else 0).sum

section
variable {csts : List Merged} {n : Nat} {z : ZSlv} {k : Nat} {c : Merged} {rnd : Rat → Rat}

theorem valueOf_computedZ (hz : makeZ csts n = .ok z) (hk : csts[k]? = some c) (m : Mem) (p : Param)
    (cost : CostFun) (x : Assign) (j : Nat) :
    valueOf rnd z.slv cost (RoundedRows.decrease rnd m k c.elems p.theta) x p.push j =
      computedZ rnd csts m k p.theta p.push cost x j := by
  unfold valueOf computedZ
  rw [reduced_eq hz, ← computedAbsCost_decrease hk]
  rfl

theorem toRow_cost (hz : makeZ csts n = .ok z) (hk : csts[k]? = some c) (m : Mem) (p : Param)
    (cost : CostFun) (x : Assign) (o : ZOracle) (i : Nat) (e : FunElem) (he : c.elems[i]? = some e) :
    (toRow rnd o z cost (RoundedRows.decrease rnd m k c.elems p.theta) x p.push c.elems).cost i =
      computedZ rnd csts m k p.theta p.push cost x e.var := by
  show costAt _ _ _ _ _ _ _ _ = _
  unfold costAt
  rw [he]
  exact valueOf_computedZ hz hk m p cost x e.var

end

/-! ## One update -/

/-- C121: whatever the rounding, when a row update returns, its assignment respects the constraint; it
changes no variable, no multiplier and no preference but those of its row. -/
theorem C121_respects_and_keeps (csts : List Merged) (n : Nat) (z : ZSlv) (hz : makeZ csts n = .ok z)
    (k : Nat) (c : Merged) (hk : csts[k]? = some c) (hnd : (c.elems.map FunElem.var).Nodup)
    (rnd : Rat → Rat) (mode : ObjType) (o : ZOracle) (ho : o.Ok mode) (p : Param) (cost : CostFun)
    (x x' : Assign) (m m' : Mem) (h : update rnd mode o p z cost k x m = .ok (x', m')) :
    Respects c x' ∧ (∀ j, (∀ e ∈ c.elems, e.var ≠ j) → x' j = x j) ∧
    (∀ i, i ≠ k → m'.pi i = m.pi i) ∧
    (∀ i j, (i ≠ k ∨ ∀ e ∈ c.elems, e.var ≠ j) → m'.P i j = m.P i j) := by
  obtain ⟨hr, _⟩ := (makeZ_facts hz).2.2.2 k c hk
  have hf := update_fst rnd mode o p z cost k x m hr
  rw [h] at hf
  obtain ⟨h1, h2, h3, _⟩ := update_mem ho hz hk hnd h
  exact ⟨(updateRowZ_ok hz hk hf.symm).1, h3, h1, h2⟩

/-- C121, when it returns: consider a constraint that some assignment respects, with a coefficient
other than 1 and -1, and with ten elements or more, or an equality, or violated from below by some
assignment and from above by another.  Whatever the rounding, its update returns, except that for a
longest constraint of the problem it may read past the end of the reduced costs (C64). -/
theorem C121_update_returns (csts : List Merged) (n : Nat) (z : ZSlv) (hz : makeZ csts n = .ok z)
    (k : Nat) (c : Merged) (hk : csts[k]? = some c) (hnd : (c.elems.map FunElem.var).Nodup)
    (hsat : ∃ y, Respects c y) (hbig : ∃ e ∈ c.elems, e.factor < -1 ∨ 1 < e.factor)
    (hside : 10 ≤ c.elems.length ∨ c.min = c.max ∨
      ((∃ y, lhs y c.elems < c.min) ∧ ∃ y, c.max < lhs y c.elems))
    (rnd : Rat → Rat) (mode : ObjType) (o : ZOracle) (ho : o.Ok mode) (p : Param) (cost : CostFun)
    (x : Assign) (m : Mem) :
    (∃ x' m', update rnd mode o p z cost k x m = .ok (x', m')) ∨
    (update rnd mode o p z cost k x m = .error (.ub "R[i]") ∧
      ∀ d ∈ csts, d.elems.length ≤ c.elems.length) := by
  obtain ⟨hr, _⟩ := (makeZ_facts hz).2.2.2 k c hk
  have hf := update_fst rnd mode o p z cost k x m hr
  rcases C64_integer_update_partial mode csts n z hz k c hk hnd hsat hbig hside _
    (toRow_ok ho z cost (RoundedRows.decrease rnd m k c.elems p.theta) x p.push c.elems) x with
    ⟨x', h1, _⟩ | ⟨h1, h2⟩
  · rw [h1] at hf
    obtain ⟨m', h⟩ := ZNum.fst_ok hf
    exact Or.inl ⟨x', m', h⟩
  · rw [h1] at hf
    exact Or.inr ⟨ZNum.fst_error hf, h2⟩

/-- C121, the short rows: a constraint of two to nine variables with a coefficient other than 1 and -1,
that is an equality or that assignments violate from below and from above.  Whatever the rounding, no
respecting assignment has a better sum of prices than the one of the update, when the prices and their
sums are computed in floating point. -/
theorem C121_short_row_as_computed (csts : List Merged) (n : Nat) (z : ZSlv) (hz : makeZ csts n = .ok z)
    (k : Nat) (c : Merged) (hk : csts[k]? = some c) (hnd : (c.elems.map FunElem.var).Nodup)
    (hbig : ∃ e ∈ c.elems, e.factor < -1 ∨ 1 < e.factor) (h2 : 2 ≤ c.elems.length)
    (h9 : c.elems.length < 10)
    (hside : c.min = c.max ∨ ((∃ y, lhs y c.elems < c.min) ∧ ∃ y, c.max < lhs y c.elems))
    (rnd : Rat → Rat) (mode : ObjType) (o : ZOracle) (ho : o.Ok mode) (p : Param) (cost : CostFun)
    (x x' : Assign) (m m' : Mem) (h : update rnd mode o p z cost k x m = .ok (x', m'))
    (y : Assign) (hy : Respects c y) :
    AtLeastAsGood mode (summedPrice rnd (computedZ rnd csts m k p.theta p.push cost x) c.elems x')
      (summedPrice rnd (computedZ rnd csts m k p.theta p.push cost x) c.elems y) := by
  obtain ⟨hr, _⟩ := (makeZ_facts hz).2.2.2 k c hk
  have hf := update_fst rnd mode o p z cost k x m hr
  rw [h] at hf
  exact row_short (toRow_ok ho _ _ _ _ _ _) hz hk hnd (ZNum.kindOf_short hbig h9 hside) h2
    (fun i e he => toRow_cost hz hk m p cost x o i e he) hy hf.symm

/-- C121, the rows of ten variables or more with positive coefficients: the prices are added in one
order, whatever the assignment, and no respecting assignment that sets two variables of the row or more
has a better computed sum than the one of the update.  What is missing: the assignments that set one
variable (`C91_long_row_not_optimal`). -/
theorem C121_long_row_as_computed_partial (csts : List Merged) (n : Nat) (z : ZSlv)
    (hz : makeZ csts n = .ok z)
    (k : Nat) (c : Merged) (hk : csts[k]? = some c) (hnd : (c.elems.map FunElem.var).Nodup)
    (hbig : ∃ e ∈ c.elems, e.factor < -1 ∨ 1 < e.factor) (h10 : 10 ≤ c.elems.length)
    (hside : c.min = c.max ∨ ((∃ y, lhs y c.elems < c.min) ∧ ∃ y, c.max < lhs y c.elems))
    (hrow : ∀ e ∈ c.elems, 0 < e.factor)
    (rnd : Rat → Rat) (hidem : ∀ q, rnd (rnd q) = rnd q)
    (mode : ObjType) (o : ZOracle) (ho : o.Ok mode) (p : Param) (cost : CostFun)
    (x x' : Assign) (m m' : Mem) (h : update rnd mode o p z cost k x m = .ok (x', m')) :
    ∃ es : List FunElem, es.Perm c.elems ∧ ∀ y, Respects c y →
      (∃ e ∈ c.elems, ∃ e' ∈ c.elems, e.var ≠ e'.var ∧ y e.var = true ∧ y e'.var = true) →
      AtLeastAsGood mode (summedPrice rnd (computedZ rnd csts m k p.theta p.push cost x) es x')
        (summedPrice rnd (computedZ rnd csts m k p.theta p.push cost x) es y) := by
  obtain ⟨hr, _⟩ := (makeZ_facts hz).2.2.2 k c hk
  have hf := update_fst rnd mode o p z cost k x m hr
  rw [h] at hf
  refine row_long (r := toRow rnd o z cost (RoundedRows.decrease rnd m k c.elems p.theta) x p.push
    c.elems) (toRow_ok ho _ _ _ _ _ _) hz hk hnd (ZNum.kindOf_long hbig h10 hside) hrow
    (fun i e he => toRow_cost hz hk m p cost x o i e he) (fun e _ => ?_) hf.symm
  show rnd (computedZ rnd csts m k p.theta p.push cost x e.var) = _
  unfold computedZ computedAbsCost
  split <;> rw [hidem]

theorem nearly {csts : List Merged} {n : Nat} {z : ZSlv} (hz : makeZ csts n = .ok z)
    {k : Nat} {c : Merged}
    (hpos : ∀ d ∈ csts, ∀ e ∈ d.elems, (∃ f ∈ c.elems, f.var = e.var) → 0 ≤ e.factor)
    {rnd : Rat → Rat} {u : Rat} (hu : 0 ≤ u) (hr : ∀ q, |rnd q - q| ≤ u * |q|)
    (theta : Rat) (cost : CostFun) (x : Assign) (m : Mem) {es : List FunElem}
    (hes : es.Perm c.elems) (y : Assign) :
    |summedPrice rnd (computedZ rnd csts m k theta none cost x) es y -
        priceOf (storedIn rnd csts m k theta cost x) c.elems y| ≤
      errorOf u csts m.pi (decayedR rnd m.P k theta) (fun j => cost j x) c.elems y := by
  have hp : priceOf (storedIn rnd csts m k theta cost x) c.elems y =
      priceOf (storedIn rnd csts m k theta cost x) es y := by
    unfold priceOf
    exact ((hes.map _).sum_eq).symm
  have he : errorOf u csts m.pi (decayedR rnd m.P k theta) (fun j => cost j x) c.elems y =
      errorOf u csts m.pi (decayedR rnd m.P k theta) (fun j => cost j x) es y := by
    unfold errorOf
    rw [hes.length_eq]
    exact ((hes.map _).sum_eq).symm
  rw [hp, he]
  have hst : ∀ e ∈ es, storedIn rnd csts m k theta cost x e.var =
      absReducedCost csts m.pi (decayedR rnd m.P k theta) (cost e.var x) e.var := by
    intro e h
    unfold storedIn
    rw [ZNum.absReducedCost_eq fun d hd f hf hv => hpos d hd f hf ⟨e, hes.mem_iff.mp h, hv.symm⟩]
  refine summedPrice_error hu hr _ _
    (fun j => absMagnitude csts m.pi (decayedR rnd m.P k theta) (cost j x) j)
    (fun j => (occurrences csts j).length + 4) es y (fun e h => ?_) (fun e h => ?_)
  · rw [hst e h]
    exact computedAbsCost_error hz hu hr _ _ _ _
  · rw [hst e h]
    exact absReducedCost_le hz _ _ _ _

/-- C121, the short rows with the exact reduced costs: when each operation has a relative error of at
most `u`, no respecting assignment beats the one of the update by more than the rounding errors of the
two.  The coefficients of the variables of the row are not negative, in any constraint.  What is
missing: the rows that `C91_short_row_partial` misses. -/
theorem C121_short_row_nearly_cheapest_partial (csts : List Merged) (n : Nat) (z : ZSlv)
    (hz : makeZ csts n = .ok z)
    (k : Nat) (c : Merged) (hk : csts[k]? = some c) (hnd : (c.elems.map FunElem.var).Nodup)
    (hbig : ∃ e ∈ c.elems, e.factor < -1 ∨ 1 < e.factor) (h2 : 2 ≤ c.elems.length)
    (h9 : c.elems.length < 10)
    (hside : c.min = c.max ∨ ((∃ y, lhs y c.elems < c.min) ∧ ∃ y, c.max < lhs y c.elems))
    (hpos : ∀ d ∈ csts, ∀ e ∈ d.elems, (∃ f ∈ c.elems, f.var = e.var) → 0 ≤ e.factor)
    (rnd : Rat → Rat) (u : Rat) (hu : 0 ≤ u) (hr : ∀ q, |rnd q - q| ≤ u * |q|)
    (mode : ObjType) (o : ZOracle) (ho : o.Ok mode) (kappa delta theta : Rat) (cost : CostFun)
    (x x' : Assign) (m m' : Mem)
    (h : update rnd mode o ⟨kappa, delta, theta, none⟩ z cost k x m = .ok (x', m'))
    (y : Assign) (hy : Respects c y) :
    NearlyAsGood mode
      (errorOf u csts m.pi (decayedR rnd m.P k theta) (fun j => cost j x) c.elems x' +
        errorOf u csts m.pi (decayedR rnd m.P k theta) (fun j => cost j x) c.elems y)
      (priceOf (storedIn rnd csts m k theta cost x) c.elems x')
      (priceOf (storedIn rnd csts m k theta cost x) c.elems y) := by
  have h1 := C121_short_row_as_computed csts n z hz k c hk hnd hbig h2 h9 hside rnd mode o ho _ cost x x'
    m m' h y hy
  have e1 := abs_le.mp (nearly hz hpos hu hr theta cost x m (k := k) (.refl c.elems) x')
  have e2 := abs_le.mp (nearly hz hpos hu hr theta cost x m (k := k) (.refl c.elems) y)
  unfold NearlyAsGood
  cases mode <;> simp only [AtLeastAsGood] at h1 ⊢ <;> linarith [e1.1, e1.2, e2.1, e2.2]

/-- C121, the same for the rows of ten variables or more with positive coefficients, among the
assignments that set two variables of the row or more.  What is missing: those that set one
(`C91_long_row_not_optimal`). -/
theorem C121_long_row_nearly_cheapest_partial (csts : List Merged) (n : Nat) (z : ZSlv)
    (hz : makeZ csts n = .ok z)
    (k : Nat) (c : Merged) (hk : csts[k]? = some c) (hnd : (c.elems.map FunElem.var).Nodup)
    (hbig : ∃ e ∈ c.elems, e.factor < -1 ∨ 1 < e.factor) (h10 : 10 ≤ c.elems.length)
    (hside : c.min = c.max ∨ ((∃ y, lhs y c.elems < c.min) ∧ ∃ y, c.max < lhs y c.elems))
    (hrow : ∀ e ∈ c.elems, 0 < e.factor)
    (hpos : ∀ d ∈ csts, ∀ e ∈ d.elems, (∃ f ∈ c.elems, f.var = e.var) → 0 ≤ e.factor)
    (rnd : Rat → Rat) (hidem : ∀ q, rnd (rnd q) = rnd q) (u : Rat) (hu : 0 ≤ u)
    (hr : ∀ q, |rnd q - q| ≤ u * |q|)
    (mode : ObjType) (o : ZOracle) (ho : o.Ok mode) (kappa delta theta : Rat) (cost : CostFun)
    (x x' : Assign) (m m' : Mem)
    (h : update rnd mode o ⟨kappa, delta, theta, none⟩ z cost k x m = .ok (x', m'))
    (y : Assign) (hy : Respects c y)
    (htwo : ∃ e ∈ c.elems, ∃ e' ∈ c.elems, e.var ≠ e'.var ∧ y e.var = true ∧ y e'.var = true) :
    NearlyAsGood mode
      (errorOf u csts m.pi (decayedR rnd m.P k theta) (fun j => cost j x) c.elems x' +
        errorOf u csts m.pi (decayedR rnd m.P k theta) (fun j => cost j x) c.elems y)
      (priceOf (storedIn rnd csts m k theta cost x) c.elems x')
      (priceOf (storedIn rnd csts m k theta cost x) c.elems y) := by
  obtain ⟨es, hes, h1⟩ := C121_long_row_as_computed_partial csts n z hz k c hk hnd hbig h10 hside hrow
    rnd hidem mode o ho _ cost x x' m m' h
  have h1 := h1 y hy htwo
  have e1 := abs_le.mp (nearly hz hpos hu hr theta cost x m (k := k) hes x')
  have e2 := abs_le.mp (nearly hz hpos hu hr theta cost x m (k := k) hes y)
  unfold NearlyAsGood
  cases mode <;> simp only [AtLeastAsGood] at h1 ⊢ <;> linarith [e1.1, e1.2, e2.1, e2.2]

/-- C121, without error: when the costs, the multipliers and the preferences of the variables of the
row are multiples of one power of 2, and neither they together nor the coefficients are too large for
the `p` digits of the numbers, the assignment of the update of a short row is the cheapest for the exact
reduced costs.  What is missing: the rows that `C91_short_row_partial` misses. -/
theorem C121_short_row_on_a_grid_partial (b : Nat) (hb : 0 < b) (csts : List Merged) (n : Nat) (z : ZSlv)
    (hz : makeZ csts n = .ok z)
    (k : Nat) (c : Merged) (hk : csts[k]? = some c) (hnd : (c.elems.map FunElem.var).Nodup)
    (hbig : ∃ e ∈ c.elems, e.factor < -1 ∨ 1 < e.factor) (h2 : 2 ≤ c.elems.length)
    (h9 : c.elems.length < 10)
    (hside : c.min = c.max ∨ ((∃ y, lhs y c.elems < c.min) ∧ ∃ y, c.max < lhs y c.elems))
    (hpos : ∀ d ∈ csts, ∀ e ∈ d.elems, (∃ f ∈ c.elems, f.var = e.var) →
      0 < e.factor ∧ e.factor ≤ 2 ^ b)
    (mode : ObjType) (o : ZOracle) (ho : o.Ok mode) (kappa delta theta : Rat) (cost : CostFun)
    (x x' : Assign) (m m' : Mem) (g : Int)
    (hg : ∀ e ∈ c.elems, Grid g (cost e.var x) ∧ (∀ i, Grid g (m.pi i)) ∧
      (∀ i, Grid g (decayedR (binary b) m.P k theta i e.var)))
    (hsum : (c.elems.map fun e => absMagnitude csts m.pi (decayedR (binary b) m.P k theta)
      (cost e.var x) e.var).sum ≤ 2 ^ b * 2 ^ g)
    (h : update (binary b) mode o ⟨kappa, delta, theta, none⟩ z cost k x m = .ok (x', m'))
    (y : Assign) (hy : Respects c y) :
    AtLeastAsGood mode (priceOf (storedIn (binary b) csts m k theta cost x) c.elems x')
      (priceOf (storedIn (binary b) csts m k theta cost x) c.elems y) := by
  have h1 := C121_short_row_as_computed csts n z hz k c hk hnd hbig h2 h9 hside (binary b) mode o ho _
    cost x x' m m' h y hy
  have nn : ∀ j, 0 ≤ absMagnitude csts m.pi (decayedR (binary b) m.P k theta) (cost j x) j := fun j =>
    le_trans (abs_nonneg _) (absReducedCost_le hz _ _ _ _)
  have hle : ∀ e ∈ c.elems, absMagnitude csts m.pi (decayedR (binary b) m.P k theta) (cost e.var x)
      e.var ≤ 2 ^ b * 2 ^ g := fun e he => by
    refine le_trans (List.single_le_sum ?_ _ (List.mem_map.mpr ⟨e, he, rfl⟩)) hsum
    intro a ha
    obtain ⟨f, _, rfl⟩ := List.mem_map.mp ha
    exact nn f.var
  have hex := fun (e : FunElem) (he : e ∈ c.elems) =>
    computedAbsCost_exact hz hb (hg e he).1 (hg e he).2.1 (hg e he).2.2 (by
      intro q hq
      unfold occurrences at hq
      obtain ⟨⟨d, i⟩, hd, hq⟩ := List.mem_flatMap.mp hq
      obtain ⟨f, hf, rfl⟩ := List.mem_map.mp hq
      obtain ⟨hf1, hf2⟩ := List.mem_filter.mp hf
      have hdm : d ∈ csts := List.mem_of_getElem? (List.mem_zipIdx_iff_getElem?.mp hd)
      have h3 := hpos d hdm f hf1 ⟨e, he, (by simpa using hf2 : f.var = e.var).symm⟩
      refine ⟨by show f.factor ≠ 0; omega, ?_⟩
      show f.factor.natAbs ≤ 2 ^ b
      zify
      rw [abs_of_pos h3.1]
      exact h3.2) (hle e he)
  have hst : ∀ e ∈ c.elems, storedIn (binary b) csts m k theta cost x e.var =
      absReducedCost csts m.pi (decayedR (binary b) m.P k theta) (cost e.var x) e.var := by
    intro e he
    unfold storedIn
    rw [ZNum.absReducedCost_eq fun d hd f hf hv => (hpos d hd f hf ⟨e, he, hv.symm⟩).1.le]
  have hcs : ∀ e ∈ c.elems, computedZ (binary b) csts m k theta none cost x e.var =
      storedIn (binary b) csts m k theta cost x e.var := fun e he => by
    rw [hst e he]
    exact (hex e he).1
  have key : ∀ w, summedPrice (binary b)
      (computedZ (binary b) csts m k theta none cost x) c.elems w =
      priceOf (storedIn (binary b) csts m k theta cost x) c.elems w := by
    intro w
    rw [summedPrice_exact hb (g := g) w (fun e he => by rw [hcs e he, hst e he]; exact (hex e he).2)]
    · unfold priceOf
      congr 1
      apply List.map_congr_left
      intro e he
      rw [hcs e he]
    · refine le_trans (map_sum_le fun e he => ?_) hsum
      rw [hcs e he, hst e he]
      exact absReducedCost_le hz _ _ _ _
  rwa [key, key] at h1

/-- C121, part: let `kappa / (1 - kappa) + delta`, as computed, not be negative.  With an increasing
rounding, the new preferences of the row do not lower the computed price of a variable that got 0, for
any multipliers and cost.  What is missing: the variables that got 1, which may be pushed away already
with exact numbers (`C92_variable_at_one_pushed_away`). -/
theorem C121_variable_at_zero_partial (csts : List Merged) (n : Nat) (z : ZSlv)
    (hz : makeZ csts n = .ok z)
    (k : Nat) (c : Merged) (hk : csts[k]? = some c) (hnd : (c.elems.map FunElem.var).Nodup)
    (rnd : Rat → Rat) (hr : Rounding rnd)
    (mode : ObjType) (o : ZOracle) (ho : o.Ok mode) (p : Param)
    (hd : 0 ≤ rnd (rnd (p.kappa / rnd (1 - p.kappa)) + p.delta)) (cost : CostFun) (x x' : Assign)
    (m m' : Mem) (h : update rnd mode o p z cost k x m = .ok (x', m'))
    (e : FunElem) (he : e ∈ c.elems) (hx : x' e.var = false) (pi : Nat → Rat) (q : Rat) :
    computedAbsCost rnd csts pi (decayedR rnd m.P k p.theta) q e.var ≤
      computedAbsCost rnd csts pi m'.P q e.var := by
  obtain ⟨_, h2, _, h4⟩ := update_mem ho hz hk hnd h
  obtain ⟨rep, hrep⟩ := h4 e he
  refine computedAbsCost_anti hr (fun i => ?_) pi q
  by_cases hi : i = k
  · subst hi
    rw [hrep, hx]
    have hdk : decayedR rnd m.P i p.theta i e.var = rnd (m.P i e.var * p.theta) := by simp [decayedR]
    rw [hdk]
    change 0 ≤ step rnd p at hd
    generalize step rnd p = d at hd ⊢
    have hfix : rnd (rnd (m.P i e.var * p.theta)) = rnd (m.P i e.var * p.theta) := hr.idem _
    generalize rnd (m.P i e.var * p.theta) = v at hfix ⊢
    have down : ∀ w s, w ≤ v → s ≤ 0 → rnd (w + s) ≤ v := fun w s hw hs => by
      have := hr.mono (show w + s ≤ v by linarith)
      rwa [hfix] at this
    unfold moved
    simp only [Bool.false_eq_true, if_false]
    split
    · rename_i h0
      exact down _ _ (down _ _ (down _ _ le_rfl (by linarith)) h0) (by linarith)
    · exact down _ _ le_rfl (by linarith)
  · rw [h2 i e.var (Or.inl hi)]
    simp [decayedR, hi]

/-! ## A run -/

/-- An update of the row `k`, from `b` to `b'`, does what C121 says of one: the assignment respects the
constraint and leaves the other variables; for a constraint of two to nine variables with a coefficient
other than 1 and -1, that is an equality or that assignments violate from below and from above, no
respecting assignment has a better computed sum of computed prices. -/
def GoodUpdateZ (rnd : Rat → Rat) (csts : List Merged) (mode : ObjType) (cost : CostFun) (theta : Rat)
    (push : Option Rat) (k : Nat) (b b' : Assign × Mem) : Prop :=
  ∃ c, csts[k]? = some c ∧ Respects c b'.1 ∧ (∀ j, (∀ e ∈ c.elems, e.var ≠ j) → b'.1 j = b.1 j) ∧
    ((∃ e ∈ c.elems, e.factor < -1 ∨ 1 < e.factor) → 2 ≤ c.elems.length → c.elems.length < 10 →
      (c.min = c.max ∨ ((∃ y, lhs y c.elems < c.min) ∧ ∃ y, c.max < lhs y c.elems)) →
      ∀ y, Respects c y → AtLeastAsGood mode
        (summedPrice rnd (computedZ rnd csts b.2 k theta push cost b.1) c.elems b'.1)
        (summedPrice rnd (computedZ rnd csts b.2 k theta push cost b.1) c.elems y))

section
variable {csts : List Merged} {n : Nat} {mode : ObjType} {w : Num.World ZOracle} {cfg : Num.Cfg}
  {obj : Objective} {a : Answer} {st : Num.State}

/-- C121, part: for constraints that can each be respected and hold no variable twice, each with a
coefficient other than 1 and -1, and each with ten elements or more, or an equality, or violated from
below by some assignment and from above by another, `solve` in floating point ends with a result or
reads beyond the array of the reduced costs (C64).  What is missing: what
`C84_integer_solve_returns_partial` misses, and the numbers that are not finite. -/
theorem C121_solve_returns_partial (hw : w.Ok fun o => o.Ok mode) {z : ZSlv}
    (hz : makeZ csts n = .ok z) (hnd : ∀ c ∈ csts, (c.elems.map FunElem.var).Nodup)
    (hsat : ∀ c ∈ csts, ∃ y, Respects c y)
    (hbig : ∀ c ∈ csts, ∃ e ∈ c.elems, e.factor < -1 ∨ 1 < e.factor)
    (hside : ∀ c ∈ csts, 10 ≤ c.elems.length ∨ c.min = c.max ∨
      ((∃ y, lhs y c.elems < c.min) ∧ ∃ y, c.max < lhs y c.elems))
    (ho : cfg.order = .piSignChange → n ≤ csts.length) (cost : CostFun) :
    (∃ a st, functor w cfg mode obj cost csts n = .ok (a, st)) ∨
    functor w cfg mode obj cost csts n = .error (.ub "R[i]") := by
  have key := Num.functor_ends (E := fun f => f = .ub "R[i]")
    (upd := fun _ o p k x m => update w.rnd mode o p z cost k x m) (cfg := cfg) (t := mode) (o := obj)
    (ZNum.makeZ_makeSlv hz) hw (by
      intro i j p k x m hk f hf
      have hck : csts[k]? = some csts[k] := List.getElem?_eq_getElem hk
      have hmem : csts[k] ∈ csts := List.getElem_mem hk
      rcases C121_update_returns csts n z hz k _ hck (hnd _ hmem) (hsat _ hmem) (hbig _ hmem)
        (hside _ hmem) w.rnd mode _ (hw.oracle i j) p cost x m with ⟨x', m', h⟩ | ⟨h, _⟩
      · rw [h] at hf
        cases hf
      · rw [h] at hf
        cases hf
        rfl) ho
  unfold functor
  rw [hz, ok_bind]
  cases hres : Num.functor .inequalitiesZ (fun _ o p k x m => update w.rnd mode o p z cost k x m) w cfg
      mode obj csts n with
  | ok r => exact Or.inl ⟨r.1, r.2, rfl⟩
  | error f => exact Or.inr (by rw [key f hres])

/-- C121, the passes: the run in floating point starts from the initial vector and from null
multipliers and preferences, each pass from what the one before left, and it makes its row updates one
after the other; each of them does what C121 says of one update. -/
theorem C121_rows_of_the_run (hw : w.Ok fun o => o.Ok mode)
    (hnd : ∀ c ∈ csts, (c.elems.map FunElem.var).Nodup) (cost : CostFun)
    (h : functor w cfg mode obj cost csts n = .ok (a, st)) :
    st.log.map Num.Visit.x' = a.final.trace ∧
    ∃ ms : List Mem, ms.length = st.log.length + 1 ∧
      ms[0]? = some ⟨fun _ => 0, fun _ _ => 0⟩ ∧ ∀ (i : Nat) v, st.log[i]? = some v →
      (w.x0 :: a.final.trace)[i]? = some v.x ∧ ms[i]? = some v.mem ∧ ∃ m', ms[i + 1]? = some m' ∧
        Updates (fun _ => GoodUpdateZ w.rnd csts mode cost cfg.theta
          (if v.push then some cfg.amplifier else none)) 0 v.rows (v.x, v.mem) (v.x', m') := by
  unfold functor at h
  obtain ⟨z, hz, h⟩ := bind_eq_ok.mp h
  obtain ⟨h1, s, hs, ms, h2, h3, h4⟩ := Num.C83_log_is_the_run h
  refine ⟨h1, ms, h2, h3, fun i v hv => ?_⟩
  obtain ⟨g1, g2, m', g3, g4⟩ := h4 i v hv
  refine ⟨g1, g2, m', g3, RoundedRun.updates_imp (fun j k b b' hu => ?_) g4⟩
  obtain ⟨x', m''⟩ := b'
  have hk : k < csts.length := by
    by_contra hk
    have : z.slv.rows[k]? = none := by
      rw [ZNum.makeZ_slv hz, List.getElem?_eq_none_iff]
      simpa using hk
    unfold update rowOf at hu
    rw [this] at hu
    exact absurd hu (by simp [bind, Except.bind])
  have hck : csts[k]? = some csts[k] := List.getElem?_eq_getElem hk
  have hmem : csts[k] ∈ csts := List.getElem_mem hk
  obtain ⟨r1, r2, _⟩ := C121_respects_and_keeps csts n z hz k _ hck (hnd _ hmem) w.rnd mode _
    (hw.oracle i j) _ cost _ _ _ _ hu
  exact ⟨_, hck, r1, r2, fun q1 q2 q3 q4 y hy => C121_short_row_as_computed csts n z hz k _ hck
    (hnd _ hmem) q1 q2 q3 q4 w.rnd mode _ (hw.oracle i j) _ cost _ _ _ _ hu y hy⟩

/-- C121, the answer: whatever the rounding, the run succeeds exactly when some pass ended on a vector
that respects every constraint; the solution is then such a vector, the best of them, with its
objective. -/
theorem C121_best_of_the_run (hw : w.Ok fun o => o.Ok mode) (cost : CostFun)
    (h : functor w cfg mode obj cost csts n = .ok (a, st)) :
    (a.status = .success ↔ ∃ v ∈ st.log, Within v.x' csts) ∧
    (a.status = .success → ∃ v ∈ st.log, Within v.x' csts ∧
      a.solution = some ((List.range n).map v.x', some (objective obj v.x')) ∧
      ∀ u ∈ st.log, Within u.x' csts → AtLeastAsGood mode (objective obj v.x') (objective obj u.x')) ∧
    (a.status ≠ .success → a.status = .limitReached) ∧
    a.mainPasses ≤ cfg.limit ∧
    st.log.length ≤ a.mainPasses + cfg.pushes * (1 + cfg.pushIter) := by
  unfold functor at h
  obtain ⟨z, hz, h⟩ := bind_eq_ok.mp h
  obtain ⟨r, _, _, _, _, _, hA, _⟩ := Num.functor_refines hw
    (fun s _ => Num.any_sim (fun _ o p k x m => update w.rnd mode o p z cost k x m) w s) h
  obtain ⟨h1, h2⟩ := C29_best_of_the_run r cfg.params mode obj csts n a hA
  obtain ⟨h3, _, h4, _⟩ := C30_passes_are_bounded r cfg.params mode obj csts n a hA
  obtain ⟨_, h5, _⟩ := C31_status_partial r cfg.params mode obj csts n a hA
  have htr := (Num.C83_log_is_the_run h).1
  rw [← htr] at h1 h2 h4
  simp only [List.mem_map, exists_exists_and_eq_and, forall_exists_index, and_imp,
    forall_apply_eq_imp_iff₂, List.length_map] at h1 h2 h4
  exact ⟨h1, h2, h5, h3, h4⟩

end

/-! ## Examples and refutations -/

/-- The constructor and then an update of the first row, from the null vector. -/
def tryRow (rnd : Rat → Rat) (mode : ObjType) (csts : List Merged) (n : Nat) (p : Param)
    (cost : List Rat) : Outcome (Assign × Mem) := do
  let z ← makeZ csts n
  update rnd mode (ZNum.exOracle mode 7) p z (costOf cost) 0 (fun _ => false) Mult.mem0

theorem tryRow_ok {rnd : Rat → Rat} {mode : ObjType} {csts : List Merged} {n : Nat} {p : Param}
    {cost : List Rat} {xs : List Bool} {ps qs : List Rat}
    (h : peek (tryRow rnd mode csts n p cost) = .ok (xs, ps, qs)) :
    ∃ z x' m', makeZ csts n = .ok z ∧
      update rnd mode (ZNum.exOracle mode 7) p z (costOf cost) 0 (fun _ => false) Mult.mem0 =
        .ok (x', m') ∧
      xs = [x' 0, x' 1, x' 2] ∧ ps = [m'.pi 0, m'.pi 1] ∧ qs = [m'.P 0 0, m'.P 0 1, m'.P 0 2] := by
  obtain ⟨x', m', h1, h2⟩ := peek_ok h
  unfold tryRow at h1
  obtain ⟨z, hz, h1⟩ := bind_eq_ok.mp h1
  exact ⟨z, x', m', hz, h1, h2⟩

/-- 3 x0 + 2 x1 + 2 x2 = 5: x0 and one of the two others. -/
def oddRow : Merged := ⟨[⟨3, 0⟩, ⟨2, 1⟩, ⟨2, 2⟩], 5, 5, 0⟩

/-- In floating point the assignment of a short row may not be the cheapest: on 3 x0 + 2 x1 + 2 x2 = 5
with the costs 2 ^ 53, 0 and 1, the two sums are computed as 2 ^ 53 and the update takes x0 and x2,
although x0 and x1 are cheaper.  With exact numbers it takes x0 and x1. -/
theorem C121_dearer_row :
    ∃ (z : ZSlv) (m' m'' : Mem) (x' x'' : Assign), makeZ [oddRow, fourRow] 4 = .ok z ∧
      update (binary 53) .minimize (ZNum.exOracle .minimize 7) ZNum.exParam z
        (costOf [2 ^ 53, 0, 1]) 0 (fun _ => false) Mult.mem0 = .ok (x', m') ∧
      update id .minimize (ZNum.exOracle .minimize 7) ZNum.exParam z
        (costOf [2 ^ 53, 0, 1]) 0 (fun _ => false) Mult.mem0 = .ok (x'', m'') ∧
      [x' 0, x' 1, x' 2] = [true, false, true] ∧ [x'' 0, x'' 1, x'' 2] = [true, true, false] ∧
      Respects oddRow x'' ∧
      priceOf (storedIn (binary 53) [oddRow, fourRow] Mult.mem0 0 ZNum.exParam.theta
          (costOf [2 ^ 53, 0, 1]) fun _ => false) oddRow.elems x'' <
        priceOf (storedIn (binary 53) [oddRow, fourRow] Mult.mem0 0 ZNum.exParam.theta
          (costOf [2 ^ 53, 0, 1]) fun _ => false) oddRow.elems x' := by
  obtain ⟨z, x', m', hz, h, hx, _⟩ := tryRow_ok (rnd := binary 53) (mode := .minimize)
    (csts := [oddRow, fourRow]) (n := 4) (p := ZNum.exParam) (cost := [2 ^ 53, 0, 1])
    (xs := [true, false, true]) (ps := [4503599627370496, 0]) (qs := [1, -9007199254740992, 1])
    (by decide +kernel)
  obtain ⟨z', x'', m'', hz', h', hx', _⟩ := tryRow_ok (rnd := id) (mode := .minimize)
    (csts := [oddRow, fourRow]) (n := 4) (p := ZNum.exParam) (cost := [2 ^ 53, 0, 1])
    (xs := [true, true, false]) (ps := [9007199254740993 / 2, 0]) (qs := [1, 1, -9007199254740992])
    (by decide +kernel)
  rw [hz] at hz'
  cases hz'
  refine ⟨z, m', m'', x', x'', hz, h, h', hx.symm, hx'.symm, ?_, ?_⟩
  · exact (C121_respects_and_keeps _ 4 z hz 0 oddRow rfl (by decide) id .minimize _
      (ZNum.exOracle_ok _ _) _ _ _ _ _ _ h').1
  · simp only [List.cons.injEq] at hx hx'
    obtain ⟨a0, a1, a2, _⟩ := hx
    obtain ⟨b0, b1, b2, _⟩ := hx'
    simp only [priceOf, oddRow, List.map_cons, List.map_nil, ← a0, ← a1, ← a2, ← b0, ← b1, ← b2]
    decide +kernel

/-- The hypotheses of the short rows, in `double`: 2 x0 + 3 x1 + x2 = 3 with the costs 1/10, 3/10 and
1/10, as the nearest numbers of 53 digits give them. -/
example : ∃ z x' m', makeZ [ZNum.threeRow, fourRow] 4 = .ok z ∧
    update (binary 53) .minimize (ZNum.exOracle .minimize 7) ZNum.exParam z
      (costOf [1 / 10, 3 / 10, 1 / 10]) 0 (fun _ => false) Mult.mem0 = .ok (x', m') ∧
    [x' 0, x' 1, x' 2] = [true, false, true] ∧
    (∀ y, Respects ZNum.threeRow y → NearlyAsGood .minimize
      (errorOf (1 / 2 ^ 53) [ZNum.threeRow, fourRow] Mult.mem0.pi
          (decayedR (binary 53) Mult.mem0.P 0 (1 / 2))
          (fun j => costOf [1 / 10, 3 / 10, 1 / 10] j fun _ => false) ZNum.threeRow.elems x' +
        errorOf (1 / 2 ^ 53) [ZNum.threeRow, fourRow] Mult.mem0.pi
          (decayedR (binary 53) Mult.mem0.P 0 (1 / 2))
          (fun j => costOf [1 / 10, 3 / 10, 1 / 10] j fun _ => false) ZNum.threeRow.elems y)
      (priceOf (storedIn (binary 53) [ZNum.threeRow, fourRow] Mult.mem0 0 (1 / 2)
        (costOf [1 / 10, 3 / 10, 1 / 10]) fun _ => false) ZNum.threeRow.elems x')
      (priceOf (storedIn (binary 53) [ZNum.threeRow, fourRow] Mult.mem0 0 (1 / 2)
        (costOf [1 / 10, 3 / 10, 1 / 10]) fun _ => false) ZNum.threeRow.elems y)) ∧
    computedAbsCost (binary 53) [ZNum.threeRow, fourRow] m'.pi
        (decayedR (binary 53) Mult.mem0.P 0 (1 / 2)) 3 1 ≤
      computedAbsCost (binary 53) [ZNum.threeRow, fourRow] m'.pi m'.P 3 1 := by
  obtain ⟨z, x', m', hz, h, hx, _⟩ := tryRow_ok (rnd := binary 53) (mode := .minimize)
    (csts := [ZNum.threeRow, fourRow]) (n := 4) (p := ZNum.exParam) (cost := [1 / 10, 3 / 10, 1 / 10])
    (xs := [true, false, true]) (ps := [3602879701896397 / 18014398509481984, 0]) (qs := [1, -1, 1])
    (by decide +kernel)
  refine ⟨z, x', m', hz, h, hx.symm, fun y hy => ?_, ?_⟩
  · exact C121_short_row_nearly_cheapest_partial _ 4 z hz 0 ZNum.threeRow rfl (by decide) (by decide)
      (by decide) (by decide) (Or.inl rfl) (by decide) (binary 53) (1 / 2 ^ 53) (by positivity)
      (binary_error_abs 53) .minimize _ (ZNum.exOracle_ok _ _) _ _ _ _ _ _ _ _ h y hy
  · refine C121_variable_at_zero_partial _ 4 z hz 0 ZNum.threeRow rfl (by decide) (binary 53)
      (binary_rounding (by norm_num)) .minimize _ (ZNum.exOracle_ok _ _) _ (by decide +kernel) _ _ _ _ _
      h ⟨3, 1⟩ (by decide) ?_ _ _
    simp only [List.cons.injEq] at hx
    exact hx.2.1.symm

/-- The hypotheses of `C121_short_row_on_a_grid_partial` on the same row, with the costs 1, 3 and 1. -/
example : ∃ z x' m', makeZ [ZNum.threeRow, fourRow] 4 = .ok z ∧
    update (binary 53) .minimize (ZNum.exOracle .minimize 7) ZNum.exParam z
      (costOf [1, 3, 1]) 0 (fun _ => false) Mult.mem0 = .ok (x', m') ∧
    ∀ y, Respects ZNum.threeRow y → AtLeastAsGood .minimize
      (priceOf (storedIn (binary 53) [ZNum.threeRow, fourRow] Mult.mem0 0 (1 / 2)
        (costOf [1, 3, 1]) fun _ => false) ZNum.threeRow.elems x')
      (priceOf (storedIn (binary 53) [ZNum.threeRow, fourRow] Mult.mem0 0 (1 / 2)
        (costOf [1, 3, 1]) fun _ => false) ZNum.threeRow.elems y) := by
  obtain ⟨z, x', m', hz, h, _⟩ := tryRow_ok (rnd := binary 53) (mode := .minimize)
    (csts := [ZNum.threeRow, fourRow]) (n := 4) (p := ZNum.exParam) (cost := [1, 3, 1])
    (xs := [true, false, true]) (ps := [2, 0]) (qs := [1, -2, 1])
    (by decide +kernel)
  have hd : ∀ i j, decayedR (binary 53) mem0.P 0 (1 / 2) i j = 0 := by
    intro i j
    simp [decayedR, mem0, binary_zero]
  refine ⟨z, x', m', hz, h, fun y hy => ?_⟩
  refine C121_short_row_on_a_grid_partial 53 (by norm_num) _ 4 z hz 0 ZNum.threeRow rfl (by decide)
    (by decide) (by decide) (by decide) (Or.inl rfl) (by decide) .minimize _ (ZNum.exOracle_ok _ _)
    _ _ _ _ _ _ _ _ 0 (fun e he => ⟨?_, fun i => ⟨0, by simp [mem0]⟩, fun i => ⟨0, by rw [hd]; simp⟩⟩)
    ?_ h y hy
  · simp only [ZNum.threeRow, List.mem_cons, List.not_mem_nil, or_false] at he
    rcases he with rfl | rfl | rfl
    · exact ⟨1, by decide +kernel⟩
    · exact ⟨3, by decide +kernel⟩
    · exact ⟨1, by decide +kernel⟩
  · unfold absMagnitude
    have hpi : ∀ i, mem0.pi i = 0 := fun _ => rfl
    simp only [hd, hpi, add_zero, mul_zero, abs_zero]
    simp [ZNum.threeRow, costOf]
    norm_num

/-- 2 x0 + ... + 2 x9 = 4. -/
def tenRow4 : Merged := { ZNum.tenRow with min := 4, max := 4 }

/-- The hypotheses of the long rows, in `double`: 2 x0 + ... + 2 x9 = 4. -/
example : ∃ z x' m', makeZ [tenRow4] 10 = .ok z ∧
    update (binary 53) .minimize (ZNum.exOracle .minimize 7) ZNum.exParam z
      (costOf [1 / 10, 3 / 10, 1 / 10, 1, 1, 1, 1, 1, 1, 1]) 0 (fun _ => false) Mult.mem0 =
        .ok (x', m') ∧
    [x' 0, x' 1, x' 2] = [true, false, true] ∧ (∃ e ∈ tenRow4.elems, e.factor < -1 ∨ 1 < e.factor) ∧
    10 ≤ tenRow4.elems.length ∧ (∀ e ∈ tenRow4.elems, 0 < e.factor) ∧ Respects tenRow4 x' := by
  obtain ⟨z, x', m', hz, h, hx, _⟩ := tryRow_ok (rnd := binary 53) (mode := .minimize)
    (csts := [tenRow4]) (n := 10) (p := ZNum.exParam)
    (cost := [1 / 10, 3 / 10, 1 / 10, 1, 1, 1, 1, 1, 1, 1])
    (xs := [true, false, true]) (ps := [3602879701896397 / 18014398509481984, 0]) (qs := [1, -1, 1])
    (by decide +kernel)
  exact ⟨z, x', m', hz, h, hx.symm, by decide, by decide, by decide,
    (C121_respects_and_keeps _ 10 z hz 0 tenRow4 rfl (by decide) (binary 53) .minimize _
      (ZNum.exOracle_ok _ _) _ _ _ _ _ _ h).1⟩

/-- A world for the integer solvers, in `double`. -/
def exWorld : Num.World ZOracle := { ZNum.exWorld with rnd := binary 53 }

theorem exWorld_ok : exWorld.Ok fun o => o.Ok .minimize where
  oracle := ZNum.exWorld_ok.oracle
  shuffle := ZNum.exWorld_ok.shuffle
  sortR := ZNum.exWorld_ok.sortR
  sortO := ZNum.exWorld_ok.sortO

/-- The hypotheses of `C121_solve_returns_partial` are met, whatever the loop limit: `solve` ends on
2 x0 + 3 x1 + x2 = 3 and 2 x0 + 3 x1 + x2 + 2 x3 = 5. -/
example (L : Nat) (cost : CostFun) :
    (∃ a st, functor exWorld { Num.exCfg with limit := L } .minimize {} cost
      [ZNum.threeRow, ⟨ZNum.threeRow.elems ++ [⟨2, 3⟩], 5, 5, 1⟩] 4 = .ok (a, st)) ∨
    functor exWorld { Num.exCfg with limit := L } .minimize {} cost
      [ZNum.threeRow, ⟨ZNum.threeRow.elems ++ [⟨2, 3⟩], 5, 5, 1⟩] 4 = .error (.ub "R[i]") := by
  have hok : (makeZ [ZNum.threeRow, ⟨ZNum.threeRow.elems ++ [⟨2, 3⟩], 5, 5, 1⟩] 4).isOk = true := by
    decide +kernel
  cases hz : makeZ [ZNum.threeRow, ⟨ZNum.threeRow.elems ++ [⟨2, 3⟩], 5, 5, 1⟩] 4 with
  | error e => rw [hz] at hok; cases hok
  | ok z =>
    refine C121_solve_returns_partial (cfg := { Num.exCfg with limit := L }) (obj := {})
      exWorld_ok hz (by decide) ?_ (by decide) (fun c hc => Or.inr (Or.inl ?_)) (by simp [Num.exCfg]) cost
    · intro c hc
      simp only [List.mem_cons, List.not_mem_nil, or_false] at hc
      rcases hc with rfl | rfl
      · exact ⟨fun j => decide (j = 1), by unfold Respects; decide +kernel⟩
      · exact ⟨fun j => decide (j = 1 ∨ j = 3), by unfold Respects; decide +kernel⟩
    · simp only [List.mem_cons, List.not_mem_nil, or_false] at hc
      rcases hc with rfl | rfl <;> rfl

/-- What a run did: its status, the number of passes and the values of the first four variables. -/
def lookRun (r : Outcome (Answer × Num.State)) : Option (Bool × Nat × Option (List Bool)) :=
  r.toOption.map fun a => (decide (a.1.status = .success), a.2.log.length, a.1.solution.map (·.1))

/-- A run in `double` that succeeds: 2 x0 + 3 x1 + x2 = 3 and x2 + 2 x3 = 3. -/
example : lookRun (functor exWorld { Num.exCfg with limit := 3 } .minimize {}
    (costOf [1 / 10, 3 / 10, 1 / 10, 1 / 10])
    [ZNum.threeRow, ⟨[⟨1, 2⟩, ⟨2, 3⟩], 3, 3, 1⟩] 4) =
    some (true, 201, some [true, false, true, true]) := by
  decide +kernel

end Bx.RoundedZ
