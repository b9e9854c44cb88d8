import Mathlib.Data.List.Sort
import Verif.Proofs.RandomNorm

/-!
# C51, C56, C57, C67: seeds and costs
-/

namespace Bx.Costs

open Bx.Spec (Assign)

/-! ## C57 -/

/-- C57: the cost of a linear objective can be built, and the cost of variable `j` is the
change of the objective when `x_j` goes from 0 to 1. -/
theorem C57_linear_cost_is_marginal (o : Objective) (n : Nat) (h : Spec.InRange o n)
    (hq : o.qelems = []) : ∃ c, makeDefault o n = .ok c ∧
      ∀ j < n, ∀ x : Assign, c.atLinear j x = .ok (Spec.marginal o x j) := by
  obtain ⟨l, h1, _, h3⟩ := addElements_ok (acc := List.replicate n 0) h.1
  refine ⟨⟨l, [], []⟩, ?_, ?_⟩
  · unfold makeDefault
    rw [h1, ok_bind]
  · intro j hj x
    unfold Cost.atLinear
    have : l[j]? = some (factorOf o.elems j) := by
      rw [h3 j, List.getElem?_replicate_of_lt hj]
      simp
    rw [at'_some this]
    congr 1
    unfold Spec.marginal Spec.objective
    rw [hq, ← linear_diff o.elems x j]
    simp only [List.map_nil, List.sum_nil]
    ring

/-- C57 (partial): the cost of a quadratic objective can be built without a write out of
bounds, and the cost of variable `j` is the change of the objective when `x_j` goes from 0
to 1, except when the objective has a square of `x_j` and `x_j` is 0.  Missing: that case,
in which the claim is false (`C57_square_is_missed`). -/
theorem C57_quadratic_cost_is_marginal_partial (o : Objective) (n : Nat)
    (h : Spec.InRange o n) : ∃ c, makeQuadratic o n = .ok c ∧
      ∀ j < n, ∀ x : Assign, (∀ e ∈ o.qelems, e.a = j → e.b = j → x j = true) →
        c.at j x = .ok (Spec.marginal o x j) := by
  obtain ⟨c, hc, _⟩ := makeQuadratic_ok h
  refine ⟨c, hc, fun j hj x hx => ?_⟩
  rw [at_ok h hc hj]
  congr 1
  unfold Spec.marginal Spec.objective
  rw [← linear_diff o.elems x j, ← quad_diff o.qelems x j hx]
  ring

/-- C57: `operator[]`, which does not depend on the assignment, is the change of the
objective when the other variables are all 1. -/
theorem C57_quadratic_index_all_ones (o : Objective) (n : Nat) (h : Spec.InRange o n) :
    ∃ c, makeQuadratic o n = .ok c ∧
      ∀ j < n, c.get j = .ok (Spec.marginal o (fun _ => true) j) := by
  obtain ⟨c, hc, hm⟩ := C57_quadratic_cost_is_marginal_partial o n h
  exact ⟨c, hc, fun j hj => hm j hj _ fun _ _ _ _ => rfl⟩

/-- Refutation: with the objective `x0 ^ 2` and `x0 = 0`, the cost of `x0` is 0, and the
objective changes by 1. -/
theorem C57_square_is_missed :
    let o : Objective := ⟨[], [⟨1, 0, 0⟩], 0⟩
    (makeQuadratic o 1 >>= fun c => c.at 0 fun _ => false) = .ok 0 ∧
      Spec.marginal o (fun _ => false) 0 = 1 := by decide +kernel

/-- An objective with linear and quadratic terms: `2 x0 - x1 + 3 x0 x1 - 4 x1 x2`. -/
example : Spec.InRange ⟨[⟨2, 0⟩, ⟨-1, 1⟩], [⟨3, 0, 1⟩, ⟨-4, 1, 2⟩], 7⟩ 3 := by
  constructor <;> decide

example : (makeQuadratic ⟨[⟨2, 0⟩, ⟨-1, 1⟩], [⟨3, 0, 1⟩, ⟨-4, 1, 2⟩], 7⟩ 3 >>= fun c =>
    c.at 1 fun v => v == 2) = .ok (-5) := by decide +kernel

/-! ## C56 -/

/-- `c'` is `c` multiplied by `k`. -/
def Scaled (k : Rat) (c c' : Cost) : Prop :=
  ∀ j x, c'.at j x = (c.at j x).map (k * ·) ∧ c'.atLinear j x = (c.atLinear j x).map (k * ·)

theorem scaled_one (c : Cost) : Scaled 1 c c := by
  intro j x
  constructor
  · cases c.at j x <;> simp [Except.map]
  · cases c.atLinear j x <;> simp [Except.map]

theorem scaled_over (c : Cost) (d : Rat) : Scaled d⁻¹ c (c.over d) := by
  intro j x
  have : (fun v : Rat => d⁻¹ * v) = fun v => v / d := by
    funext v; rw [div_eq_inv_mul]
  constructor
  · rw [at_over, this]
  · rw [atLinear_over, this]

theorem scaled_divide {f : FloatType} (hf : 0 < f.tiny) (c : Cost) {d : Rat} (hd : 0 ≤ d) :
    ∃ k, 0 < k ∧ Scaled k c (c.divide f d) := by
  rcases divide_cases f c d with ⟨_, h⟩ | ⟨hn, h⟩
  · rw [h]; exact ⟨1, one_pos, scaled_one c⟩
  · rw [h]
    exact ⟨d⁻¹, inv_pos.mpr (lt_of_le_of_ne hd (isNormal_ne hf hn).symm), scaled_over c d⟩

/-- C56 (partial): for the norms none, l1 and l2, and for the infinity norm when one of the
costs is not negative, the normalised costs are the costs multiplied by one positive
number.  Missing: the infinity norm of negative costs, for which the claim is false
(`C56_infinity_norm_reverses`), and of no cost (`C56_infinity_norm_empty`). -/
theorem C56_normalised_costs_partial (f : FloatType) (hf : 0 < f.tiny) (n : Norm) (c : Cost)
    (h : n = .loo → c.linear ≠ [] ∧
      ((∃ v ∈ c.linear, 0 ≤ v) ∨ ∃ q ∈ c.quads, 0 ≤ q.1)) :
    ∃ c', normalize f n c = .ok c' ∧ ∃ k, 0 < k ∧ Scaled k c c' := by
  cases n with
  | none => exact ⟨c, rfl, 1, one_pos, scaled_one c⟩
  | l1 =>
    refine ⟨_, rfl, scaled_divide hf c ?_⟩
    exact add_nonneg (sum_nonneg_of _ _ fun v _ => abs_nonneg v)
      (sum_nonneg_of _ _ fun q _ => abs_nonneg q.1)
  | l2 =>
    refine ⟨_, rfl, scaled_divide hf c ?_⟩
    exact add_nonneg (sum_nonneg_of _ _ fun v _ => mul_self_nonneg v)
      (sum_nonneg_of _ _ fun q _ => mul_self_nonneg q.1)
  | loo =>
    obtain ⟨hne, hpos⟩ := h rfl
    obtain ⟨v, vs, hv⟩ := List.exists_cons_of_ne_nil hne
    have he : normalize f .loo c =
        .ok (c.divide f (maxFrom (maxFrom v vs) (c.quads.map Prod.fst))) := by
      unfold normalize Cost.loo
      rw [hv]
    refine ⟨_, he, scaled_divide hf c ?_⟩
    rcases hpos with ⟨w, hw, h0⟩ | ⟨q, hq, h0⟩
    · refine le_trans h0 (le_trans ?_ (le_maxFrom _ _))
      rw [hv] at hw
      rcases List.mem_cons.mp hw with rfl | hw
      · exact le_maxFrom _ _
      · exact mem_le_maxFrom _ _ w hw
    · exact le_trans h0 (mem_le_maxFrom _ _ q.1 (List.mem_map.mpr ⟨q, hq, rfl⟩))

/-- Refutation: when every cost is negative and normal, the infinity norm multiplies the
costs by a negative number, which reverses every comparison. -/
theorem C56_infinity_norm_reverses (f : FloatType) (c : Cost) (hne : c.linear ≠ [])
    (hl : ∀ v ∈ c.linear, v < 0 ∧ f.isNormal v = true)
    (hq : ∀ q ∈ c.quads, q.1 < 0 ∧ f.isNormal q.1 = true) :
    ∃ c', normalize f .loo c = .ok c' ∧ ∃ k, k < 0 ∧ Scaled k c c' := by
  obtain ⟨v, vs, hv⟩ := List.exists_cons_of_ne_nil hne
  have he : normalize f .loo c =
      .ok (c.divide f (maxFrom (maxFrom v vs) (c.quads.map Prod.fst))) := by
    unfold normalize Cost.loo
    rw [hv]
  refine ⟨_, he, ?_⟩
  have hm : maxFrom (maxFrom v vs) (c.quads.map Prod.fst) < 0 ∧
      f.isNormal (maxFrom (maxFrom v vs) (c.quads.map Prod.fst)) = true := by
    rcases maxFrom_mem (c.quads.map Prod.fst) (maxFrom v vs) with h | h
    · rw [h]
      rcases maxFrom_mem vs v with h | h
      · rw [h]; exact hl v (by rw [hv]; exact List.mem_cons_self)
      · exact hl _ (by rw [hv]; exact List.mem_cons_of_mem _ h)
    · obtain ⟨q, hq1, hq2⟩ := List.mem_map.mp h
      rw [← hq2]
      exact hq q hq1
  rcases divide_cases f c (maxFrom (maxFrom v vs) (c.quads.map Prod.fst)) with ⟨h, _⟩ | ⟨_, h⟩
  · rw [hm.2] at h; exact absurd h (by simp)
  · exact ⟨_, inv_lt_zero.mpr hm.1, h ▸ scaled_over c _⟩

/-- Refutation: with no variable, the infinity norm reads out of an empty range. -/
theorem C56_infinity_norm_empty (f : FloatType) (c : Cost) (h : c.linear = []) :
    normalize f .loo c = .error (.ub "*std::max_element of an empty range") := by
  unfold normalize Cost.loo
  rw [h]

/-- The costs -1 and -2 become 1 and 2. -/
example : normalize double .loo ⟨[-1, -2], [], []⟩ = .ok ⟨[1, 2], [], []⟩ := by decide +kernel

example : normalize double .l1 ⟨[-1, 3], [], []⟩ = .ok ⟨[-1/4, 3/4], [], []⟩ := by decide +kernel

example : 0 < double.tiny := by decide +kernel

/-! ## C67 -/

/-- C67 (partial): for every sort and every random draws, the random norm succeeds on at
least one cost, and when one of the costs is not negative a cost under another one stays
under it.  Missing: negative costs, for which the claim is false
(`C67_random_norm_reverses`), and no cost. -/
theorem C67_random_norm_keeps_order_partial (f : FloatType) (hf : 0 < f.tiny)
    (sort : List (Rat × Nat) → List (Rat × Nat)) (hs : SortOk sort) (d : Draws) (hd : d.Ok)
    (c : Cost) (hpos : ∃ v ∈ c.linear, 0 ≤ v) :
    ∃ c', c.random f sort d = .ok c' ∧ c'.linear.length = c.linear.length ∧
      ∀ (i j : Nat) (a b : Rat), c.linear[i]? = some a → c.linear[j]? = some b → a < b →
        ∃ a' b', c'.linear[i]? = some a' ∧ c'.linear[j]? = some b' ∧ a' < b' := by
  obtain ⟨l', h1, h2, h3⟩ := randomise_ok hs hd c.linear
  obtain ⟨v, hv, hv0⟩ := hpos
  obtain ⟨iv, hiv⟩ := List.getElem?_of_mem hv
  obtain ⟨v', hv1, hv2, _⟩ := h3 iv v hiv
  have hne : l' ≠ [] := by rintro rfl; simp at hv1
  obtain ⟨w, ws, hw⟩ := List.exists_cons_of_ne_nil hne
  have hdiv : 0 ≤ maxFrom (maxFrom w ws) (c.quads.map Prod.fst) := by
    refine le_trans (le_trans hv0 hv2) (le_trans ?_ (le_maxFrom _ _))
    have hm := List.mem_of_getElem? hv1
    rw [hw] at hm
    rcases List.mem_cons.mp hm with rfl | hm
    · exact le_maxFrom _ _
    · exact mem_le_maxFrom _ _ _ hm
  have hr : c.random f sort d = .ok (({ c with linear := l' } : Cost).divide f
      (maxFrom (maxFrom w ws) (c.quads.map Prod.fst))) := by
    unfold Cost.random Cost.loo
    rw [h1, ok_bind]
    simp only [hw]
  refine ⟨_, hr, ?_, ?_⟩
  · rcases divide_cases f { c with linear := l' } (maxFrom (maxFrom w ws) (c.quads.map Prod.fst)) with
      ⟨_, h⟩ | ⟨_, h⟩
    · rw [h]; exact h2
    · rw [h]; simpa [Cost.over] using h2
  · intro i j a b hi hj hab
    obtain ⟨a', ha1, ha2, ha3⟩ := h3 i a hi
    obtain ⟨b', hb1, hb2, _⟩ := h3 j b hj
    have hlt : a' < b' := lt_of_lt_of_le (ha3 b (List.mem_of_getElem? hj) hab) hb2
    rcases divide_cases f { c with linear := l' } (maxFrom (maxFrom w ws) (c.quads.map Prod.fst)) with
      ⟨_, h⟩ | ⟨hn, h⟩
    · rw [h]; exact ⟨a', b', ha1, hb1, hlt⟩
    · rw [h]
      refine ⟨a' / _, b' / _, ?_, ?_, div_lt_div_of_pos_right hlt
        (lt_of_le_of_ne hdiv (isNormal_ne hf hn).symm)⟩
      · simp [Cost.over, ha1]
      · simp [Cost.over, hb1]

/-- C67: without the final division, the random costs keep the order for every cost
vector: each one is between its cost and the next larger cost. -/
theorem C67_random_draws_between (sort : List (Rat × Nat) → List (Rat × Nat)) (hs : SortOk sort)
    (d : Draws) (hd : d.Ok) (l : List Rat) : ∃ l', randomise sort d l = .ok l' ∧
      l'.length = l.length ∧ ∀ (i : Nat) (a : Rat), l[i]? = some a → ∃ a', l'[i]? = some a' ∧
        a ≤ a' ∧ ∀ b ∈ l, a < b → a' < b :=
  randomise_ok hs hd l

/-- A sort by insertion. -/
def insertSort (l : List (Rat × Nat)) : List (Rat × Nat) := l.insertionSort fun a b => a.1 ≤ b.1

theorem insertSort_ok : SortOk insertSort := by
  intro l
  haveI : Std.Total fun a b : Rat × Nat => a.1 ≤ b.1 := ⟨fun a b => le_total a.1 b.1⟩
  haveI : IsTrans (Rat × Nat) fun a b => a.1 ≤ b.1 := ⟨fun a b c => le_trans⟩
  exact ⟨List.perm_insertionSort _ _, List.pairwise_insertionSort _ _⟩

/-- Draws in the middle of the interval. -/
def middle : Draws := fun _ a b => (a + b) / 2

theorem middle_ok : middle.Ok := by
  intro k a b h
  unfold middle
  constructor <;> linarith

/-- Refutation: the costs -4, -2 become positive and their order is reversed. -/
theorem C67_random_norm_reverses :
    (Cost.random double insertSort middle ⟨[-4, -2], [], []⟩) = .ok ⟨[2, 1], [], []⟩ := by
  decide +kernel

example : (Cost.random double insertSort middle ⟨[1, 3, 1, 2], [], []⟩) =
    .ok ⟨[1/2, 1, 1/2, 2/3], [], []⟩ := by decide +kernel

/-! ## C51 -/

theorem whileLoop_ok {draw : Nat → Nat} {i : Nat} : ∀ {fuel j : Nat} {ret : List Nat} {k : Nat}
    {out : List Nat × Nat}, j < i → whileLoop draw i fuel j ret k = .ok out →
    (∀ t, j < t → t < i → ret[t]? ≠ ret[i]?) →
    out.1.length = ret.length ∧ ∀ t, 0 < t → t < i → out.1[t]? ≠ out.1[i]?
  | fuel, 0, ret, k, out, _, h, hi => by
    cases fuel <;> simp only [whileLoop, Except.ok.injEq] at h <;> subst h <;> exact ⟨rfl, hi⟩
  | 0, j + 1, ret, k, out, _, h, _ => by
    simp [whileLoop] at h
  | fuel + 1, j + 1, ret, k, out, hj, h, hi => by
    unfold whileLoop at h
    split at h
    · obtain ⟨h1, h2⟩ := whileLoop_ok (by omega) h (by intro t h1 h2; omega)
      exact ⟨by rw [h1, List.length_set], h2⟩
    · rename_i hne
      refine whileLoop_ok (by omega) h ?_
      intro t h1 h2
      by_cases ht : t = j + 1
      · rw [ht]; exact hne
      · exact hi t (by omega) h2

theorem seedLoop_ok {draw : Nat → Nat} {fuel : Nat} : ∀ {left i : Nat} {ret out : List Nat}
    {k : Nat}, 0 < i → seedLoop draw fuel (left + 1) i ret k = .ok out →
    out.length = ret.length ∧ ∀ t, 0 < t → t < i + left → out[t]? ≠ out[i + left]?
  | 0, i, ret, out, k, hi, h => by
    unfold seedLoop at h
    obtain ⟨⟨ret', k'⟩, h1, h2⟩ := bind_eq_ok.mp h
    simp only [seedLoop, Except.ok.injEq] at h2
    subst h2
    have := whileLoop_ok (by omega) h1 (by intro t h1 h2; omega)
    simpa using this
  | left + 1, i, ret, out, k, hi, h => by
    unfold seedLoop at h
    obtain ⟨⟨ret', k'⟩, h1, h2⟩ := bind_eq_ok.mp h
    have hl := whileLoop_ok (by omega) h1 (by intro t h1 h2; omega)
    obtain ⟨h3, h4⟩ := seedLoop_ok (by omega) h2
    simp only [List.length_set] at hl
    refine ⟨by rw [h3, hl.1], ?_⟩
    rw [show i + 1 + left = i + (left + 1) by omega] at h4
    exact h4

/-- C51 (partial): whatever the random stream, the seed of the last thread differs from the
seeds of the other threads, the first one excepted.  Missing: the other pairs, for which
the claim is false (`C51_equal_seeds`). -/
theorem C51_last_seed_partial (draw : Nat → Nat) (fuel threads : Nat) (seeds : List Nat)
    (h : generateSeed draw fuel threads = .ok seeds) :
    seeds.length = threads ∧ ∀ t, 0 < t → t + 1 < threads → seeds[t]? ≠ seeds[threads - 1]? := by
  unfold generateSeed at h
  split at h
  · exact absurd h (by simp)
  · rename_i ht
    cases hl : threads - 1 with
    | zero =>
      rw [hl] at h
      simp only [seedLoop, Except.ok.injEq] at h
      subst h
      exact ⟨by simp, fun t h1 h2 => by omega⟩
    | succ left =>
      rw [hl] at h
      obtain ⟨h1, h2⟩ := seedLoop_ok (by omega) h
      refine ⟨by simpa using h1, fun t h3 h4 => ?_⟩
      have := h2 t h3 (by omega)
      rw [show 1 + left = left + 1 by omega] at this
      exact this

theorem whileLoop_distinct {draw : Nat → Nat} {n i : Nat} (hi : i < n)
    (hd : ∀ a < n, ∀ b < n, draw a = draw b → a = b) {ret : List Nat}
    (hret : ∀ t ≤ i, ret[t]? = some (draw t)) : ∀ {j fuel k : Nat}, j < i → j ≤ fuel →
    whileLoop draw i fuel j ret k = .ok (ret, k)
  | 0, fuel, k, _, _ => by cases fuel <;> rfl
  | j + 1, 0, k, _, h => by omega
  | j + 1, fuel + 1, k, hj, hf => by
    unfold whileLoop
    rw [if_neg, whileLoop_distinct hi hd hret (by omega) (by omega)]
    rw [hret (j + 1) (by omega), hret i (le_refl _)]
    intro he
    have := hd (j + 1) (by omega) i hi (Option.some.inj he)
    omega

theorem seedLoop_distinct {draw : Nat → Nat} {n fuel : Nat} (hf : n ≤ fuel)
    (hd : ∀ a < n, ∀ b < n, draw a = draw b → a = b) : ∀ {left i : Nat} {ret : List Nat},
    0 < i → i + left = n → ret.length = n → (∀ t < i, ret[t]? = some (draw t)) →
    ∃ out, seedLoop draw fuel left i ret i = .ok out ∧ out.length = n ∧
      ∀ t < n, out[t]? = some (draw t)
  | 0, i, ret, _, hn, hl, hr => ⟨ret, rfl, hl, by rw [← hn]; exact hr⟩
  | left + 1, i, ret, hi, hn, hl, hr => by
    have hret : ∀ t ≤ i, (ret.set i (draw i))[t]? = some (draw t) := by
      intro t ht
      by_cases he : t = i
      · rw [he, List.getElem?_set_self (by omega)]
      · rw [List.getElem?_set_ne (fun h => he h.symm)]
        exact hr t (by omega)
    unfold seedLoop
    rw [whileLoop_distinct (by omega) hd hret (by omega) (by omega), ok_bind]
    exact seedLoop_distinct hf hd (by omega) (by omega) (by simpa using hl)
      (fun t ht => hret t (by omega))

/-- C51 (partial): when the first draws of the random stream are distinct, the seeds are
distinct: they are these draws, in order. -/
theorem C51_distinct_draws_partial (draw : Nat → Nat) (fuel threads : Nat) (ht : 0 < threads)
    (hf : threads ≤ fuel) (hd : ∀ a < threads, ∀ b < threads, draw a = draw b → a = b) :
    generateSeed draw fuel threads = .ok ((List.range threads).map draw) := by
  unfold generateSeed
  rw [if_neg (by omega)]
  obtain ⟨out, h1, h2, h3⟩ := seedLoop_distinct hf hd (left := threads - 1) (i := 1)
    (ret := (List.replicate threads 0).set 0 (draw 0)) (by omega) (by omega) (by simp)
    (by
      intro t h
      obtain rfl : t = 0 := by omega
      rw [List.getElem?_set_self (by simpa using ht)])
  rw [h1]
  congr 1
  apply List.ext_getElem?
  intro t
  by_cases h : t < threads
  · rw [h3 t h, List.getElem?_map, List.getElem?_range h]
    rfl
  · rw [List.getElem?_eq_none (by omega), List.getElem?_eq_none (by simp; omega)]

/-- Refutation: two threads get the same seed when the stream gives the same number
twice; it is the first one that is not compared. -/
theorem C51_equal_seeds (v fuel : Nat) : generateSeed (fun _ => v) fuel 2 = .ok [v, v] := by
  cases fuel <;> rfl

/-- Refutation: a seed that is drawn again is not compared with the seeds before it: with
the draws 7, 5, 6, 6, 5 the second and the third of four threads get the same seed. -/
theorem C51_redrawn_seed_not_compared :
    generateSeed (fun k => [7, 5, 6, 6, 5].getD k 0) 100 4 = .ok [7, 5, 5, 6] := by decide

example : generateSeed (fun k => [7, 5, 6, 9].getD k 0) 4 4 = .ok [7, 5, 6, 9] := by decide

end Bx.Costs
