import Verif.Props.Numeric
import Verif.Props.ZSolver
import Verif.Proofs.ZNumeric

/-!
# C91-C92: what a row update with integer coefficients optimises and remembers

The prices are the reduced costs of `Verif.Spec.Multipliers`, or those of `Verif.Spec.ZNumeric`, which
use the absolute values of the coefficients.  The sorts, the cell after the row and the cost function
are arbitrary.
-/

namespace Bx.ZNum

open Merge SolverCtor Spec Exhaustive Itm Mult ZSolver

/-- What the push adds to the price of the variable `j`. -/
def amplified (push : Option Rat) (cost : CostFun) (x : Assign) (j : Nat) : Rat :=
  match push with
  | none => 0
  | some amp => amp * cost j x

/-- The price with absolute values that an update of the row `k` works with. -/
def absPrice (csts : List Merged) (m : Mem) (k : Nat) (p : Param) (cost : CostFun) (x : Assign)
    (j : Nat) : Rat :=
  absReducedCost csts m.pi (decayed m.P k p.theta) (cost j x) j + amplified p.push cost x j

/-- The reduced cost that an update of the row `k` should work with. -/
def price (csts : List Merged) (m : Mem) (k : Nat) (p : Param) (cost : CostFun) (x : Assign)
    (j : Nat) : Rat :=
  reducedCost csts m.pi (decayed m.P k p.theta) (cost j x) j + amplified p.push cost x j

theorem valueOf_absPrice {csts : List Merged} {n : Nat} {z : ZSlv} (hz : makeZ csts n = .ok z)
    {k : Nat} {c : Merged} (hk : csts[k]? = some c) (m : Mem) (p : Param) (cost : CostFun) (x : Assign)
    (j : Nat) : valueOf z.slv cost (decrease m k c.elems p.theta) x p.push j =
      absPrice csts m k p cost x j := by
  unfold valueOf absPrice amplified
  rw [reduced_eq hz, ← absReducedCost_decrease hk]
  rfl

/-! ## C91 -/

/-- C91, part: a constraint of two to nine variables with a coefficient other than 1 and -1, that is
an equality or that assignments violate from below and from above.  When its update returns, the
assignment respects the constraint, no other respecting assignment beats it for the reduced costs,
with the amplified costs of a push, and the other variables are kept.  The coefficients of the
variables of the row are not negative, in any constraint.  What is missing: the negative coefficients
(`C91_negative_coefficient`), the rows of ten variables or more (`C91_long_row_partial`,
`C91_long_row_not_optimal`) and the one-sided rows (`C91_one_sided_row_not_optimal`). -/
theorem C91_short_row_partial (csts : List Merged) (n : Nat) (z : ZSlv) (hz : makeZ csts n = .ok z)
    (k : Nat) (c : Merged) (hk : csts[k]? = some c) (hnd : (c.elems.map FunElem.var).Nodup)
    (hbig : ∃ e ∈ c.elems, e.factor < -1 ∨ 1 < e.factor) (h2 : 2 ≤ c.elems.length)
    (h9 : c.elems.length < 10)
    (hside : c.min = c.max ∨ ((∃ y, lhs y c.elems < c.min) ∧ ∃ y, c.max < lhs y c.elems))
    (hpos : ∀ d ∈ csts, ∀ e ∈ d.elems, (∃ f ∈ c.elems, f.var = e.var) → 0 ≤ e.factor)
    (mode : ObjType) (o : ZOracle) (ho : o.Ok mode) (p : Param) (cost : CostFun) (x x' : Assign)
    (m m' : Mem) (h : update mode o p z cost k x m = .ok (x', m')) :
    Respects c x' ∧
    (∀ y, Respects c y → AtLeastAsGood mode (priceOf (price csts m k p cost x) c.elems x')
      (priceOf (price csts m k p cost x) c.elems y)) ∧
    (∀ j, (∀ e ∈ c.elems, e.var ≠ j) → x' j = x j) := by
  obtain ⟨hr, _⟩ := (makeZ_facts hz).2.2.2 k c hk
  have hf := update_fst mode o p z cost k x m hr
  rw [h] at hf
  obtain ⟨g1, g2⟩ := updateRowZ_ok hz hk hf.symm
  refine ⟨g1, fun y hy => ?_, g2⟩
  refine update_short ho hz hk hnd (kindOf_short hbig h9 hside) h2 _ (fun e he => ?_) y hy h
  rw [valueOf_absPrice hz hk]
  unfold absPrice price
  rw [absReducedCost_eq fun d hd f hf hv => hpos d hd f hf ⟨e, he, hv.symm⟩]

/-- C91, what the update optimises whatever the signs: the prices with the absolute values of the
coefficients. -/
theorem C91_absolute_values (csts : List Merged) (n : Nat) (z : ZSlv) (hz : makeZ csts n = .ok z)
    (k : Nat) (c : Merged) (hk : csts[k]? = some c) (hnd : (c.elems.map FunElem.var).Nodup)
    (hbig : ∃ e ∈ c.elems, e.factor < -1 ∨ 1 < e.factor) (h2 : 2 ≤ c.elems.length)
    (h9 : c.elems.length < 10)
    (hside : c.min = c.max ∨ ((∃ y, lhs y c.elems < c.min) ∧ ∃ y, c.max < lhs y c.elems))
    (mode : ObjType) (o : ZOracle) (ho : o.Ok mode) (p : Param) (cost : CostFun) (x x' : Assign)
    (m m' : Mem) (h : update mode o p z cost k x m = .ok (x', m')) :
    ∀ y, Respects c y → AtLeastAsGood mode (priceOf (absPrice csts m k p cost x) c.elems x')
      (priceOf (absPrice csts m k p cost x) c.elems y) :=
  fun y hy => update_short ho hz hk hnd (kindOf_short hbig h9 hside) h2 _
    (fun _ _ => valueOf_absPrice hz hk _ _ _ _ _) y hy h

/-- C91, part: the rows of ten variables or more with positive coefficients.  The assignment is at
least as good as every respecting assignment that sets two variables of the row or more.  What is
missing: those that set one (`C91_long_row_not_optimal`). -/
theorem C91_long_row_partial (csts : List Merged) (n : Nat) (z : ZSlv) (hz : makeZ csts n = .ok z)
    (k : Nat) (c : Merged) (hk : csts[k]? = some c) (hnd : (c.elems.map FunElem.var).Nodup)
    (hbig : ∃ e ∈ c.elems, e.factor < -1 ∨ 1 < e.factor) (h10 : 10 ≤ c.elems.length)
    (hside : c.min = c.max ∨ ((∃ y, lhs y c.elems < c.min) ∧ ∃ y, c.max < lhs y c.elems))
    (hrow : ∀ e ∈ c.elems, 0 < e.factor)
    (hpos : ∀ d ∈ csts, ∀ e ∈ d.elems, (∃ f ∈ c.elems, f.var = e.var) → 0 ≤ e.factor)
    (mode : ObjType) (o : ZOracle) (ho : o.Ok mode) (p : Param) (cost : CostFun) (x x' : Assign)
    (m m' : Mem) (h : update mode o p z cost k x m = .ok (x', m')) :
    Respects c x' ∧
    (∀ y, Respects c y →
      (∃ e ∈ c.elems, ∃ e' ∈ c.elems, e.var ≠ e'.var ∧ y e.var = true ∧ y e'.var = true) →
      AtLeastAsGood mode (priceOf (price csts m k p cost x) c.elems x')
        (priceOf (price csts m k p cost x) c.elems y)) := by
  obtain ⟨hr, _⟩ := (makeZ_facts hz).2.2.2 k c hk
  have hf := update_fst mode o p z cost k x m hr
  rw [h] at hf
  obtain ⟨g1, _⟩ := updateRowZ_ok hz hk hf.symm
  refine ⟨g1, fun y hy htwo => ?_⟩
  refine update_long ho hz hk hnd (kindOf_long hbig h10 hside) hrow _ (fun e he => ?_) y hy htwo h
  rw [valueOf_absPrice hz hk]
  unfold absPrice price
  rw [absReducedCost_eq fun d hd f hf hv => hpos d hd f hf ⟨e, he, hv.symm⟩]

/-- C91, when it returns: consider a constraint that some assignment respects, with a coefficient
other than 1 and -1, and with ten elements or more, or an equality, or violated from below by some
assignment and from above by another.  Its update returns, except that for a longest constraint of
the problem it may read past the end of the reduced costs (C64). -/
theorem C91_update_returns (csts : List Merged) (n : Nat) (z : ZSlv) (hz : makeZ csts n = .ok z)
    (k : Nat) (c : Merged) (hk : csts[k]? = some c) (hnd : (c.elems.map FunElem.var).Nodup)
    (hsat : ∃ y, Respects c y) (hbig : ∃ e ∈ c.elems, e.factor < -1 ∨ 1 < e.factor)
    (hside : 10 ≤ c.elems.length ∨ c.min = c.max ∨
      ((∃ y, lhs y c.elems < c.min) ∧ ∃ y, c.max < lhs y c.elems))
    (mode : ObjType) (o : ZOracle) (ho : o.Ok mode) (p : Param) (cost : CostFun) (x : Assign) (m : Mem) :
    (∃ x' m', update mode o p z cost k x m = .ok (x', m')) ∨
    (update mode o p z cost k x m = .error (.ub "R[i]") ∧
      ∀ d ∈ csts, d.elems.length ≤ c.elems.length) := by
  obtain ⟨hr, _⟩ := (makeZ_facts hz).2.2.2 k c hk
  have hf := update_fst mode o p z cost k x m hr
  rcases C64_integer_update_partial mode csts n z hz k c hk hnd hsat hbig hside _
    (toRow_ok ho z cost (decrease m k c.elems p.theta) x p.push c.elems) x with ⟨x', h1, _⟩ | ⟨h1, h2⟩
  · rw [h1] at hf
    obtain ⟨m', h⟩ := fst_ok hf
    exact Or.inl ⟨x', m', h⟩
  · rw [h1] at hf
    exact Or.inr ⟨fst_error hf, h2⟩

/-! ## C92 -/

/-- C92, the rest is kept: an update changes no multiplier but the one of its row, no preference but
those of its row and no variable but those of its row. -/
theorem C92_rest_is_kept (csts : List Merged) (n : Nat) (z : ZSlv) (hz : makeZ csts n = .ok z)
    (k : Nat) (c : Merged) (hk : csts[k]? = some c) (hnd : (c.elems.map FunElem.var).Nodup)
    (mode : ObjType) (o : ZOracle) (ho : o.Ok mode) (p : Param) (cost : CostFun) (x x' : Assign)
    (m m' : Mem) (h : update mode o p z cost k x m = .ok (x', m')) :
    (∀ i, i ≠ k → m'.pi i = m.pi i) ∧
    (∀ i j, (i ≠ k ∨ ∀ e ∈ c.elems, e.var ≠ j) → m'.P i j = m.P i j) ∧
    (∀ j, (∀ e ∈ c.elems, e.var ≠ j) → x' j = x j) := by
  obtain ⟨h1, h2, h3, _⟩ := update_mem ho hz hk hnd h
  exact ⟨h1, h2, h3⟩

/-- C92, part: let `d` be `kappa / (1 - kappa) + delta` and let it not be negative.  The preferences
of the row move the price of each variable at 0 up by its coefficient times `d` at least.  They do not
move the price of a variable at 1 up, when its cost does not depend on the assignment and when its
price with the new multiplier is at most `d` times two more than its coefficient.  What is missing:
the greater prices of the variables at 1 (`C92_variable_at_one_pushed_away`) and the maximisation,
where the moves are the opposite of what is needed (`C92_maximise`). -/
theorem C92_preferences_reinforce_partial (csts : List Merged) (n : Nat) (z : ZSlv)
    (hz : makeZ csts n = .ok z)
    (k : Nat) (c : Merged) (hk : csts[k]? = some c) (hnd : (c.elems.map FunElem.var).Nodup)
    (mode : ObjType) (o : ZOracle) (ho : o.Ok mode) (p : Param) (d : Rat)
    (hd : d = p.kappa / (1 - p.kappa) + p.delta) (hd0 : 0 ≤ d) (cost : CostFun) (x x' : Assign)
    (m m' : Mem) (h : update mode o p z cost k x m = .ok (x', m'))
    (e : FunElem) (he : e ∈ c.elems) (pi : Nat → Rat) (q : Rat) :
    (x' e.var = false →
      absReducedCost csts pi (decayed m.P k p.theta) q e.var + e.factor.natAbs * d ≤
        absReducedCost csts pi m'.P q e.var) ∧
    (x' e.var = true → (∀ y y', cost e.var y = cost e.var y') →
      absReducedCost csts m'.pi (decayed m.P k p.theta) (cost e.var x) e.var ≤
        (e.factor.natAbs + 2) * d →
      absReducedCost csts pi m'.P q e.var ≤ absReducedCost csts pi (decayed m.P k p.theta) q e.var) := by
  obtain ⟨_, h2, _, h4⟩ := update_mem ho hz hk hnd h
  obtain ⟨y, hy⟩ := h4 e he
  have hstep : step p = d := by rw [hd]; rfl
  rw [hstep] at hy
  have hdiff := absReducedCost_diff hk (pi := pi) (pi' := pi) (P := decayed m.P k p.theta)
    (P' := m'.P) e.var (fun _ _ => rfl) (fun i hi => by
      rw [h2 i e.var (Or.inl hi)]
      simp [decayed, hi]) q
  have hdk : decayed m.P k p.theta k e.var = m.P k e.var * p.theta := by simp [decayed]
  rw [hdk, hy, absCoef_of_nodup hnd he rfl] at hdiff
  have hn : (0 : Rat) ≤ (e.factor.natAbs : Rat) := by exact_mod_cast Nat.zero_le _
  generalize (e.factor.natAbs : Rat) = a at *
  constructor
  · intro hx
    rw [hx] at hdiff
    unfold change at hdiff
    simp only [Bool.false_eq_true, if_false] at hdiff
    rw [hdiff]
    split
    · rename_i hr
      have := mul_nonneg hn (neg_nonneg.mpr hr)
      have := mul_nonneg hn hd0
      linarith
    · linarith
  · intro hx hc hle
    rw [hx] at hdiff
    unfold change at hdiff
    simp only [if_true] at hdiff
    rw [hc y x] at hdiff
    rw [hdiff]
    split
    · have : 0 ≤ a * ((a + 2) * d -
          absReducedCost csts m'.pi (decayed m.P k p.theta) (cost e.var x) e.var) :=
        mul_nonneg hn (by linarith)
      linarith
    · have := mul_nonneg hn hd0
      linarith

/-- C92, part: when the update sets some variables of the row and not the others, it adds to the
multiplier the mean of the price of a variable that it set and of the price of one that it did not.
When it sets none, it adds half the price of one.  What is missing: a mean that separates them
(`C92_multiplier_does_not_separate`) and the rows that are set as a whole
(`C92_multiplier_of_a_full_row`). -/
theorem C92_multiplier_is_a_mean_partial (csts : List Merged) (n : Nat) (z : ZSlv)
    (hz : makeZ csts n = .ok z)
    (k : Nat) (c : Merged) (hk : csts[k]? = some c) (hnd : (c.elems.map FunElem.var).Nodup)
    (hne : c.elems ≠ [])
    (mode : ObjType) (o : ZOracle) (ho : o.Ok mode) (p : Param) (cost : CostFun) (x x' : Assign)
    (m m' : Mem) (h : update mode o p z cost k x m = .ok (x', m')) :
    ((∃ e ∈ c.elems, x' e.var = true) → (∃ e ∈ c.elems, x' e.var = false) →
      ∃ e ∈ c.elems, ∃ e' ∈ c.elems, x' e.var = true ∧ x' e'.var = false ∧
        m'.pi k = m.pi k + (absPrice csts m k p cost x e.var + absPrice csts m k p cost x e'.var) / 2) ∧
    ((∀ e ∈ c.elems, x' e.var = false) →
      ∃ e ∈ c.elems, m'.pi k = m.pi k + absPrice csts m k p cost x e.var / 2) := by
  have key := update_pi ho hz hk hnd hne h
  simp only [valueOf_absPrice hz hk] at key
  obtain ⟨e0, h0⟩ := List.exists_mem_of_ne_nil _ hne
  rcases key with ⟨h1, h2⟩ | h1 | ⟨e, he, e', he', h1, h2, h3⟩
  · exact ⟨fun ⟨e, he, hv⟩ _ => absurd hv (by simp [h1 e he]), fun _ => h2⟩
  · exact ⟨fun _ ⟨e, he, hv⟩ => absurd hv (by simp [h1 e he]),
      fun hv => absurd (hv e0 h0) (by simp [h1 e0 h0])⟩
  · exact ⟨fun _ _ => ⟨e, he, e', he', h1, h2, h3⟩, fun hv => absurd (hv e he) (by simp [h1])⟩

/-! ## C84 with integer coefficients -/

/-- C84, part: for constraints that can each be respected and hold no variable twice, each with a
coefficient other than 1 and -1, and each with ten elements or more, or an equality, or violated from
below by some assignment and from above by another, `solve` ends with a result or reads beyond the
array of the reduced costs (C64).  The order `pi-sign-change` must not have more variables than
constraints (C63).  What is missing: these faults and the other constraints (`C64_linear_row_aborts`,
`C64_one_sided_row_aborts`). -/
theorem C84_integer_solve_returns_partial {cfg : Num.Cfg} {obj : Objective} {mode : ObjType}
    {w : Num.World ZOracle} (hw : w.Ok fun o => o.Ok mode) {csts : List Merged} {n : Nat} {z : ZSlv}
    (hz : makeZ csts n = .ok z) (hnd : ∀ c ∈ csts, (c.elems.map FunElem.var).Nodup)
    (hsat : ∀ c ∈ csts, ∃ y, Respects c y)
    (hbig : ∀ c ∈ csts, ∃ e ∈ c.elems, e.factor < -1 ∨ 1 < e.factor)
    (hside : ∀ c ∈ csts, 10 ≤ c.elems.length ∨ c.min = c.max ∨
      ((∃ y, lhs y c.elems < c.min) ∧ ∃ y, c.max < lhs y c.elems))
    (ho : cfg.order = .piSignChange → n ≤ csts.length) (cost : CostFun) :
    (∃ a st, functor w cfg mode obj cost csts n = .ok (a, st)) ∨
    functor w cfg mode obj cost csts n = .error (.ub "R[i]") := by
  have key := Num.functor_ends (E := fun f => f = .ub "R[i]")
    (upd := fun _ o p k x m => update mode o p z cost k x m) (cfg := cfg) (t := mode) (o := obj)
    (makeZ_makeSlv hz) hw (by
      intro i j p k x m hk f hf
      have hck : csts[k]? = some csts[k] := List.getElem?_eq_getElem hk
      have hmem : csts[k] ∈ csts := List.getElem_mem hk
      rcases C91_update_returns csts n z hz k _ hck (hnd _ hmem) (hsat _ hmem) (hbig _ hmem)
        (hside _ hmem) mode _ (hw.oracle i j) p cost x m with ⟨x', m', h⟩ | ⟨h, _⟩
      · rw [h] at hf
        cases hf
      · rw [h] at hf
        cases hf
        rfl) ho
  unfold functor
  rw [hz, ok_bind]
  cases hres : Num.functor .inequalitiesZ (fun _ o p k x m => update mode o p z cost k x m) w cfg mode
      obj csts n with
  | ok r => exact Or.inl ⟨r.1, r.2, rfl⟩
  | error f => exact Or.inr (by rw [key f hres])

/-! ## Examples and refutations -/

/-- An oracle that sorts; the value of the cell after the row is `v`. -/
def exOracle (mode : ObjType) (v : Rat) : ZOracle where
  sort := match mode with
    | .minimize => List.insertionSort fun a b => a.value ≤ b.value
    | .maximize => List.insertionSort fun a b => b.value ≤ a.value
  stale := ⟨v, 0, 0⟩
  sort1 := isort (BranchBound.itemBefore mode)
  sort2 := isort (before mode)

theorem exOracle_ok (mode : ObjType) (v : Rat) : (exOracle mode v).Ok mode := by
  refine ⟨fun l => ?_, isort_perm _, before_sort mode⟩
  cases mode
  · refine ⟨List.perm_insertionSort _ _, ?_⟩
    have : Std.Total (fun a b : Rc => b.value ≤ a.value) := ⟨fun a b => le_total _ _⟩
    have : IsTrans Rc (fun a b : Rc => b.value ≤ a.value) := ⟨fun a b c h1 h2 => le_trans h2 h1⟩
    exact List.pairwise_insertionSort (fun a b : Rc => b.value ≤ a.value) l
  · refine ⟨List.perm_insertionSort _ _, ?_⟩
    have : Std.Total (fun a b : Rc => a.value ≤ b.value) := ⟨fun a b => le_total _ _⟩
    have : IsTrans Rc (fun a b : Rc => a.value ≤ b.value) := ⟨fun a b c h1 h2 => le_trans h1 h2⟩
    exact List.pairwise_insertionSort (fun a b : Rc => a.value ≤ b.value) l

/-- The constructor and then an update of the first row, from the null vector. -/
def tryRow (mode : ObjType) (csts : List Merged) (n : Nat) (p : Param) (v : Rat) (cost : List Rat)
    (m : Mem) : Outcome (Assign × Mem) := do
  let z ← makeZ csts n
  update mode (exOracle mode v) p z (costOf cost) 0 (fun _ => false) m

theorem tryRow_ok {mode : ObjType} {csts : List Merged} {n : Nat} {p : Param} {v : Rat}
    {cost : List Rat} {m : Mem} {xs : List Bool} {ps qs : List Rat}
    (h : peek (tryRow mode csts n p v cost m) = .ok (xs, ps, qs)) :
    ∃ z x' m', makeZ csts n = .ok z ∧
      update mode (exOracle mode v) p z (costOf cost) 0 (fun _ => false) m = .ok (x', m') ∧
      xs = [x' 0, x' 1, x' 2] ∧ ps = [m'.pi 0, m'.pi 1] ∧ qs = [m'.P 0 0, m'.P 0 1, m'.P 0 2] := by
  obtain ⟨x', m', h1, h2⟩ := peek_ok h
  unfold tryRow at h1
  obtain ⟨z, hz, h1⟩ := bind_eq_ok.mp h1
  exact ⟨z, x', m', hz, h1, h2⟩

/-- The parameters of the examples: `kappa / (1 - kappa) + delta` is 1. -/
def exParam : Param := ⟨1 / 2, 0, 1 / 2, none⟩

/-- 2 x0 + 3 x1 + x2 = 3. -/
def threeRow : Merged := ⟨[⟨2, 0⟩, ⟨3, 1⟩, ⟨1, 2⟩], 3, 3, 0⟩

/-- With the costs 1, 3 and 1 the row is met by x1 alone (3) and by x0 and x2 (2): the update takes
the latter.  The hypotheses of `C91_short_row_partial`, of `C92_rest_is_kept`, of
`C92_preferences_reinforce_partial` and of `C92_multiplier_is_a_mean_partial` are met. -/
example : ∃ z x' m', makeZ [threeRow, fourRow] 4 = .ok z ∧
    update .minimize (exOracle .minimize 7) exParam z (costOf [1, 3, 1]) 0 (fun _ => false) Mult.mem0 =
      .ok (x', m') ∧ [x' 0, x' 1, x' 2] = [true, false, true] ∧
    (∀ y, Respects threeRow y → AtLeastAsGood .minimize
      (priceOf (price [threeRow, fourRow] Mult.mem0 0 exParam (costOf [1, 3, 1]) fun _ => false)
        threeRow.elems x')
      (priceOf (price [threeRow, fourRow] Mult.mem0 0 exParam (costOf [1, 3, 1]) fun _ => false)
        threeRow.elems y)) ∧
    (∀ i j, (i ≠ 0 ∨ ∀ e ∈ threeRow.elems, e.var ≠ j) → m'.P i j = 0) ∧
    absReducedCost [threeRow, fourRow] m'.pi (decayed Mult.mem0.P 0 (1 / 2)) 3 1 + 3 ≤
      absReducedCost [threeRow, fourRow] m'.pi m'.P 3 1 ∧
    absReducedCost [threeRow, fourRow] m'.pi m'.P 1 2 ≤
      absReducedCost [threeRow, fourRow] m'.pi (decayed Mult.mem0.P 0 (1 / 2)) 1 2 ∧
    (∃ e ∈ threeRow.elems, ∃ e' ∈ threeRow.elems, x' e.var = true ∧ x' e'.var = false ∧ m'.pi 0 =
      Mult.mem0.pi 0 + (absPrice [threeRow, fourRow] Mult.mem0 0 exParam (costOf [1, 3, 1])
        (fun _ => false) e.var + absPrice [threeRow, fourRow] Mult.mem0 0 exParam (costOf [1, 3, 1])
        (fun _ => false) e'.var) / 2) := by
  obtain ⟨z, x', m', hz, h, hx, hp, _⟩ := tryRow_ok (mode := .minimize) (csts := [threeRow, fourRow])
    (n := 4) (p := exParam) (v := 7) (cost := [1, 3, 1]) (m := Mult.mem0)
    (xs := [true, false, true]) (ps := [2, 0]) (qs := [1, -2, 1]) (by decide +kernel)
  have h1 := C91_short_row_partial _ _ z hz 0 threeRow rfl (by decide) (by decide) (by decide)
    (by decide) (Or.inl rfl) (by decide) .minimize _ (exOracle_ok _ _) exParam _ _ x' _ m' h
  have h2 := C92_rest_is_kept _ _ z hz 0 threeRow rfl (by decide) .minimize _ (exOracle_ok _ _) exParam
    _ _ x' _ m' h
  have h3 := C92_preferences_reinforce_partial _ _ z hz 0 threeRow rfl (by decide) .minimize _
    (exOracle_ok _ _) exParam 1 (by norm_num [exParam]) (by norm_num) _ _ x' _ m' h
  simp only [List.cons.injEq] at hx hp
  have e1 := (h3 ⟨3, 1⟩ (by simp [threeRow]) m'.pi 3).1 hx.2.1.symm
  have e2 := (h3 ⟨1, 2⟩ (by simp [threeRow]) m'.pi 1).2 hx.2.2.1.symm (fun _ _ => rfl) (by
    have : absReducedCost [threeRow, fourRow] m'.pi (decayed Mult.mem0.P 0 exParam.theta)
        (costOf [1, 3, 1] 2 fun _ => false) 2 = -1 := by
      simp [absReducedCost, threeRow, fourRow, absCoef, decayed, Mult.mem0, ← hp.1, ← hp.2.1, costOf]
      norm_num
    rw [this]
    norm_num)
  refine ⟨z, x', m', hz, h, ?_, h1.2.1, fun i j hij => by rw [h2.2.1 i j hij]; rfl, ?_, e2,
    (C92_multiplier_is_a_mean_partial _ _ z hz 0 threeRow rfl (by decide) (by decide) .minimize _
      (exOracle_ok _ _) exParam _ _ x' _ m' h).1 ⟨⟨2, 0⟩, by decide, hx.1.symm⟩
      ⟨⟨3, 1⟩, by decide, hx.2.1.symm⟩⟩
  · simp [← hx.1, ← hx.2.1, ← hx.2.2.1]
  · simpa [exParam] using e1

/-- C91 is false of the code with a negative coefficient: the constraints are 2 x0 + 2 x1 = 2 and
-2 <= -3 x0 + x2 + x3 <= 0, the costs 1 and 0 and the multiplier of the second one is 1.  The reduced
cost of x0 is 4 and the one of x1 is 0, but the update sets x0. -/
theorem C91_negative_coefficient :
    ∃ (csts : List Merged) (c : Merged) (z : ZSlv) (m m' : Mem) (x' y : Assign),
      makeZ csts 4 = .ok z ∧ csts[0]? = some c ∧ c.min = c.max ∧ (∀ e ∈ c.elems, e.factor = 2) ∧
      update .minimize (exOracle .minimize 7) exParam z (costOf [1, 0]) 0 (fun _ => false) m =
        .ok (x', m') ∧ Respects c y ∧
      priceOf (price csts m 0 exParam (costOf [1, 0]) fun _ => false) c.elems y <
        priceOf (price csts m 0 exParam (costOf [1, 0]) fun _ => false) c.elems x' := by
  obtain ⟨z, x', m', hz, h, hx, hp, _⟩ := tryRow_ok (mode := .minimize)
    (csts := [⟨[⟨2, 0⟩, ⟨2, 1⟩], 2, 2, 0⟩, ⟨[⟨-3, 0⟩, ⟨1, 2⟩, ⟨1, 3⟩], -2, 0, 1⟩])
    (n := 4) (p := exParam) (v := 7) (cost := [1, 0])
    (m := ⟨fun i => if i = 1 then 1 else 0, fun _ _ => 0⟩)
    (xs := [true, false, false]) (ps := [-1, 1]) (qs := [1, -1, 0]) (by decide +kernel)
  refine ⟨_, ⟨[⟨2, 0⟩, ⟨2, 1⟩], 2, 2, 0⟩, z, _, m', x', fun j => decide (j = 1), hz, rfl, rfl,
    by decide, h, by unfold Respects; decide +kernel, ?_⟩
  simp only [List.cons.injEq] at hx
  obtain ⟨h0, h1, _⟩ := hx
  simp only [priceOf, List.map_cons, List.map_nil, ← h0, ← h1]
  decide +kernel

/-- C91 is false of the code for a one-sided row: on 4 x0 + 2 x1 + 2 x2 <= 4 with the costs -5, -4
and -4, the update sets x0 (-5) although x1 and x2 (-8) respect the constraint. -/
theorem C91_one_sided_row_not_optimal :
    ∃ (csts : List Merged) (c : Merged) (z : ZSlv) (m' : Mem) (x' y : Assign),
      makeZ csts 4 = .ok z ∧ csts[0]? = some c ∧ (∀ d ∈ csts, ∀ e ∈ d.elems, 0 < e.factor) ∧
      update .minimize (exOracle .minimize 7) exParam z (costOf [-5, -4, -4]) 0 (fun _ => false)
        Mult.mem0 = .ok (x', m') ∧ Respects c y ∧
      priceOf (price csts Mult.mem0 0 exParam (costOf [-5, -4, -4]) fun _ => false) c.elems y <
        priceOf (price csts Mult.mem0 0 exParam (costOf [-5, -4, -4]) fun _ => false) c.elems x' := by
  obtain ⟨z, x', m', hz, h, hx, hp, _⟩ := tryRow_ok (mode := .minimize)
    (csts := [⟨[⟨4, 0⟩, ⟨2, 1⟩, ⟨2, 2⟩], -10, 4, 0⟩, fourRow])
    (n := 4) (p := exParam) (v := 7) (cost := [-5, -4, -4]) (m := Mult.mem0)
    (xs := [true, false, false]) (ps := [-9 / 2, 0]) (qs := [-7, -1, -1]) (by decide +kernel)
  refine ⟨_, ⟨[⟨4, 0⟩, ⟨2, 1⟩, ⟨2, 2⟩], -10, 4, 0⟩, z, m', x', fun j => decide (j = 1 ∨ j = 2), hz,
    rfl, by decide, h, by unfold Respects; decide +kernel, ?_⟩
  simp only [List.cons.injEq] at hx
  obtain ⟨h0, h1, h2, _⟩ := hx
  simp only [priceOf, List.map_cons, List.map_nil, ← h0, ← h1, ← h2]
  decide +kernel

/-- 2 x0 + ... + 2 x9 = 2. -/
def tenRow : Merged :=
  ⟨[⟨2, 0⟩, ⟨2, 1⟩, ⟨2, 2⟩, ⟨2, 3⟩, ⟨2, 4⟩, ⟨2, 5⟩, ⟨2, 6⟩, ⟨2, 7⟩, ⟨2, 8⟩, ⟨2, 9⟩], 2, 2, 0⟩

/-- C91 is false of the code for a row of ten variables: on 2 x0 + ... + 2 x9 = 2 with the costs -5,
1, 2, 3, ..., 9, the update sets x1 instead of x0. -/
theorem C91_long_row_not_optimal :
    ∃ (z : ZSlv) (m' : Mem) (x' y : Assign),
      makeZ [tenRow] 10 = .ok z ∧
      update .minimize (exOracle .minimize 7) exParam z (costOf [-5, 1, 2, 3, 4, 5, 6, 7, 8, 9]) 0
        (fun _ => false) Mult.mem0 = .ok (x', m') ∧ Respects tenRow x' ∧ Respects tenRow y ∧
      x' 0 = false ∧ x' 1 = true ∧ y 0 = true := by
  obtain ⟨z, x', m', hz, h, hx, hp, _⟩ := tryRow_ok (mode := .minimize)
    (csts := [tenRow]) (n := 10) (p := exParam) (v := 7) (cost := [-5, 1, 2, 3, 4, 5, 6, 7, 8, 9])
    (m := Mult.mem0) (xs := [false, true, false]) (ps := [-2, 0]) (qs := [-1, -1, -1])
    (by decide +kernel)
  obtain ⟨hr, _⟩ := (makeZ_facts hz).2.2.2 0 tenRow rfl
  have hf := update_fst .minimize (exOracle .minimize 7) exParam z
    (costOf [-5, 1, 2, 3, 4, 5, 6, 7, 8, 9]) 0 (fun _ => false) Mult.mem0 hr
  rw [h] at hf
  have g1 := (updateRowZ_ok hz (k := 0) (c := tenRow) rfl hf.symm).1
  simp only [List.cons.injEq] at hx
  exact ⟨z, m', x', fun j => decide (j = 0), hz, h, g1, by unfold Respects; decide +kernel,
    hx.1.symm, hx.2.1.symm, rfl⟩

/-- C92 is false of the code: on 4 x0 + 2 x1 + 2 x2 <= 4 with the costs -5, -4 and -4, the update sets
x0 and its preference moves the price of x0 up by 28. -/
theorem C92_variable_at_one_pushed_away :
    ∃ (csts : List Merged) (z : ZSlv) (m' : Mem) (x' : Assign),
      makeZ csts 4 = .ok z ∧
      update .minimize (exOracle .minimize 7) exParam z (costOf [-5, -4, -4]) 0 (fun _ => false)
        Mult.mem0 = .ok (x', m') ∧ x' 0 = true ∧ m'.P 1 0 = 0 ∧
      ∀ pi q, reducedCost csts pi m'.P q 0 = reducedCost csts pi Mult.mem0.P q 0 + 28 := by
  obtain ⟨z, x', m', hz, h, hx, hp, hq⟩ := tryRow_ok (mode := .minimize)
    (csts := [⟨[⟨4, 0⟩, ⟨2, 1⟩, ⟨2, 2⟩], -10, 4, 0⟩, fourRow])
    (n := 4) (p := exParam) (v := 7) (cost := [-5, -4, -4]) (m := Mult.mem0)
    (xs := [true, false, false]) (ps := [-9 / 2, 0]) (qs := [-7, -1, -1]) (by decide +kernel)
  simp only [List.cons.injEq] at hx hq
  have h1 := (C92_rest_is_kept _ _ z hz 0 ⟨[⟨4, 0⟩, ⟨2, 1⟩, ⟨2, 2⟩], -10, 4, 0⟩ rfl (by decide) .minimize
    _ (exOracle_ok _ _) exParam _ _ x' _ m' h).2.1 1 0 (Or.inl (by decide))
  refine ⟨_, z, m', x', hz, h, hx.1.symm, h1, fun pi q => ?_⟩
  simp [reducedCost, fourRow, coef, ← hq.1, h1, Mult.mem0]
  ring

/-- C92 is false of the code when it maximises: on 2 x0 + 3 x1 + x2 = 3 with the costs 1, 3 and 1 the
update sets x1 and its preference moves the price of x1 down. -/
theorem C92_maximise :
    ∃ (z : ZSlv) (m' : Mem) (x' : Assign),
      makeZ [threeRow, fourRow] 4 = .ok z ∧
      update .maximize (exOracle .maximize 7) exParam z (costOf [1, 3, 1]) 0 (fun _ => false)
        Mult.mem0 = .ok (x', m') ∧ x' 1 = true ∧
      ∀ pi q, reducedCost [threeRow, fourRow] pi m'.P q 1 <
        reducedCost [threeRow, fourRow] pi Mult.mem0.P q 1 := by
  obtain ⟨z, x', m', hz, h, hx, hp, hq⟩ := tryRow_ok (mode := .maximize)
    (csts := [threeRow, fourRow]) (n := 4) (p := exParam) (v := 7) (cost := [1, 3, 1]) (m := Mult.mem0)
    (xs := [false, true, false]) (ps := [2, 0]) (qs := [-3, 1, -2]) (by decide +kernel)
  simp only [List.cons.injEq] at hx hq
  have h1 := (C92_rest_is_kept _ _ z hz 0 threeRow rfl (by decide) .maximize
    _ (exOracle_ok _ _) exParam _ _ x' _ m' h).2.1 1 1 (Or.inl (by decide))
  refine ⟨z, m', x', hz, h, hx.2.1.symm, fun pi q => ?_⟩
  simp [reducedCost, threeRow, fourRow, coef, ← hq.2.1, h1, Mult.mem0]

/-- C92 is false of the code for the multipliers: on 2 x0 + 3 x1 + x2 = 3 with the costs 1, 3 and 1
the update sets x0 and x2, and with the new multiplier the reduced cost of x1 is as good as the one of
x0. -/
theorem C92_multiplier_does_not_separate :
    ∃ (z : ZSlv) (m' : Mem) (x' : Assign),
      makeZ [threeRow, fourRow] 4 = .ok z ∧
      update .minimize (exOracle .minimize 7) exParam z (costOf [1, 3, 1]) 0 (fun _ => false)
        Mult.mem0 = .ok (x', m') ∧ x' 1 = false ∧
      reducedCost [threeRow, fourRow] m'.pi Mult.mem0.P 3 1 = -3 := by
  obtain ⟨z, x', m', hz, h, hx, hp, hq⟩ := tryRow_ok (mode := .minimize)
    (csts := [threeRow, fourRow]) (n := 4) (p := exParam) (v := 7) (cost := [1, 3, 1]) (m := Mult.mem0)
    (xs := [true, false, true]) (ps := [2, 0]) (qs := [1, -2, 1]) (by decide +kernel)
  simp only [List.cons.injEq] at hx hp
  refine ⟨z, m', x', hz, h, hx.2.1.symm, ?_⟩
  simp [reducedCost, threeRow, fourRow, coef, ← hp.1, ← hp.2.1, Mult.mem0]
  norm_num

/-- C92 is false of the code when the update sets the whole row: on 2 x0 + 3 x1 = 5, from the same
multipliers and preferences, the new multiplier is 21/2 or 150 according to what an earlier row left
in the cell after the row. -/
theorem C92_multiplier_of_a_full_row :
    ∃ (csts : List Merged) (z : ZSlv) (m1 m2 : Mem) (x1 x2 : Assign),
      makeZ csts 4 = .ok z ∧
      update .minimize (exOracle .minimize 7) exParam z (costOf [1, 3]) 0 (fun _ => false)
        Mult.mem0 = .ok (x1, m1) ∧
      update .minimize (exOracle .minimize 100) exParam z (costOf [1, 3]) 0 (fun _ => false)
        Mult.mem0 = .ok (x2, m2) ∧
      x1 0 = true ∧ x1 1 = true ∧ m1.pi 0 = 21 / 2 ∧ m2.pi 0 = 150 := by
  obtain ⟨z, x1, m1, hz, h, hx, hp, _⟩ := tryRow_ok (mode := .minimize)
    (csts := [⟨[⟨2, 0⟩, ⟨3, 1⟩], 5, 5, 0⟩, fourRow]) (n := 4) (p := exParam) (v := 7)
    (cost := [1, 3]) (m := Mult.mem0)
    (xs := [true, true, false]) (ps := [21 / 2, 0]) (qs := [1, 1, 0]) (by decide +kernel)
  obtain ⟨z', x2, m2, hz', h', hx', hp', _⟩ := tryRow_ok (mode := .minimize)
    (csts := [⟨[⟨2, 0⟩, ⟨3, 1⟩], 5, 5, 0⟩, fourRow]) (n := 4) (p := exParam) (v := 100)
    (cost := [1, 3]) (m := Mult.mem0)
    (xs := [true, true, false]) (ps := [150, 0]) (qs := [1, 1, 0]) (by decide +kernel)
  obtain rfl : z = z' := Except.ok.inj (hz.symm.trans hz')
  simp only [List.cons.injEq] at hx hp hp'
  exact ⟨_, z, m1, m2, x1, x2, hz, h, h', hx.1.symm, hx.2.1.symm, hp.1.symm, hp'.1.symm⟩

/-- 2 x0 + ... + 2 x9 = 4. -/
def fourOfTen : Merged := { tenRow with min := 4, max := 4 }

/-- The hypotheses of `C91_update_returns` and of `C91_long_row_partial` are met: the update of the
row of ten variables returns, with a constraint of eleven variables beside it. -/
example (x : Assign) (m : Mem) (cost : CostFun) :
    ∃ z x' m', makeZ [fourOfTen, ⟨⟨1, 10⟩ :: tenRow.elems, 1, 4, 1⟩] 11 = .ok z ∧
      update .minimize (exOracle .minimize 7) exParam z cost 0 x m = .ok (x', m') ∧
      Respects fourOfTen x' ∧
      AtLeastAsGood .minimize
        (priceOf (price [fourOfTen, ⟨⟨1, 10⟩ :: tenRow.elems, 1, 4, 1⟩] m 0 exParam cost x)
          fourOfTen.elems x')
        (priceOf (price [fourOfTen, ⟨⟨1, 10⟩ :: tenRow.elems, 1, 4, 1⟩] m 0 exParam cost x)
          fourOfTen.elems fun j => decide (j < 2)) := by
  have hok : (makeZ [fourOfTen, ⟨⟨1, 10⟩ :: tenRow.elems, 1, 4, 1⟩] 11).isOk = true := by
    decide +kernel
  cases hz : makeZ [fourOfTen, ⟨⟨1, 10⟩ :: tenRow.elems, 1, 4, 1⟩] 11 with
  | error e => rw [hz] at hok; cases hok
  | ok z =>
    have hy : Respects fourOfTen fun j => decide (j < 2) := by unfold Respects; decide +kernel
    rcases C91_update_returns _ _ z hz 0 fourOfTen rfl (by decide) ⟨_, hy⟩ (by decide)
      (Or.inl (by decide)) .minimize _ (exOracle_ok .minimize 7) exParam cost x m with
      ⟨x', m', h⟩ | ⟨_, h⟩
    · obtain ⟨g1, g2⟩ := C91_long_row_partial _ _ z hz 0 fourOfTen rfl (by decide) (by decide)
        (by decide) (Or.inl rfl) (by decide) (by decide) .minimize _ (exOracle_ok .minimize 7) exParam
        cost x x' m m' h
      exact ⟨z, x', m', rfl, h, g1, g2 _ hy ⟨⟨2, 0⟩, by decide, ⟨2, 1⟩, by decide, by decide⟩⟩
    · exact absurd (h _ (List.mem_cons_of_mem _ List.mem_cons_self)) (by decide)

/-- 2 x0 - 3 x1 + x2 = -1. -/
def signedRow : Merged := ⟨[⟨2, 0⟩, ⟨-3, 1⟩, ⟨1, 2⟩], -1, -1, 0⟩

/-- The hypotheses of `C91_absolute_values` are met. -/
example (x : Assign) (m : Mem) (cost : CostFun) :
    ∃ z x' m', makeZ [signedRow, fourRow] 4 = .ok z ∧
      update .maximize (exOracle .maximize 7) exParam z cost 0 x m = .ok (x', m') ∧
      AtLeastAsGood .maximize
        (priceOf (absPrice [signedRow, fourRow] m 0 exParam cost x) signedRow.elems x')
        (priceOf (absPrice [signedRow, fourRow] m 0 exParam cost x) signedRow.elems
          fun j => decide (j < 2)) := by
  have hok : (makeZ [signedRow, fourRow] 4).isOk = true := by decide +kernel
  cases hz : makeZ [signedRow, fourRow] 4 with
  | error e => rw [hz] at hok; cases hok
  | ok z =>
    have hy : Respects signedRow fun j => decide (j < 2) := by unfold Respects; decide +kernel
    rcases C91_update_returns _ _ z hz 0 signedRow rfl (by decide) ⟨_, hy⟩ (by decide)
      (Or.inr (Or.inl rfl)) .maximize _ (exOracle_ok .maximize 7) exParam cost x m with
      ⟨x', m', h⟩ | ⟨_, h⟩
    · exact ⟨z, x', m', rfl, h, C91_absolute_values _ _ z hz 0 signedRow rfl (by decide) (by decide)
        (by decide) (by decide) (Or.inl rfl) .maximize _ (exOracle_ok .maximize 7) exParam cost x x'
        m m' h _ hy⟩
    · exact absurd (h _ (List.mem_cons_of_mem _ List.mem_cons_self)) (by decide)

/-- A world for the integer solvers. -/
def exWorld : Num.World ZOracle where
  x0 _ := false
  oracle _ _ := exOracle .minimize 7
  shuffle := Num.exWorld.shuffle
  sortR := Num.exWorld.sortR
  sortO := Num.exWorld.sortO
  pow := Num.exWorld.pow
  timeUp := Num.exWorld.timeUp

theorem exWorld_ok : exWorld.Ok fun o => o.Ok .minimize where
  oracle _ _ := exOracle_ok .minimize 7
  shuffle := Num.exWorld_ok.shuffle
  sortR := Num.exWorld_ok.sortR
  sortO := Num.exWorld_ok.sortO

/-- The hypotheses of `C84_integer_solve_returns_partial` are met, whatever the loop limit: `solve`
ends on 2 x0 + 3 x1 + x2 = 3 and 2 x0 + 3 x1 + x2 + 2 x3 = 5. -/
example (L : Nat) (cost : CostFun) :
    (∃ a st, functor exWorld { Num.exCfg with limit := L } .minimize {} cost
      [threeRow, ⟨threeRow.elems ++ [⟨2, 3⟩], 5, 5, 1⟩] 4 = .ok (a, st)) ∨
    functor exWorld { Num.exCfg with limit := L } .minimize {} cost
      [threeRow, ⟨threeRow.elems ++ [⟨2, 3⟩], 5, 5, 1⟩] 4 = .error (.ub "R[i]") := by
  have hok : (makeZ [threeRow, ⟨threeRow.elems ++ [⟨2, 3⟩], 5, 5, 1⟩] 4).isOk = true := by
    decide +kernel
  cases hz : makeZ [threeRow, ⟨threeRow.elems ++ [⟨2, 3⟩], 5, 5, 1⟩] 4 with
  | error e => rw [hz] at hok; cases hok
  | ok z =>
    refine C84_integer_solve_returns_partial (cfg := { Num.exCfg with limit := L }) (obj := {})
      exWorld_ok hz (by decide) ?_ (by decide) (fun c hc => Or.inr (Or.inl ?_)) (by simp [Num.exCfg]) cost
    · intro c hc
      simp only [List.mem_cons, List.not_mem_nil, or_false] at hc
      rcases hc with rfl | rfl
      · exact ⟨fun j => decide (j = 1), by unfold Respects; decide +kernel⟩
      · exact ⟨fun j => decide (j = 1 ∨ j = 3), by unfold Respects; decide +kernel⟩
    · simp only [List.mem_cons, List.not_mem_nil, or_false] at hc
      rcases hc with rfl | rfl <;> rfl

end Bx.ZNum
