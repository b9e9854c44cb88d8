import Verif.Model.RoundedCosts
import Verif.Proofs.Rounded
import Verif.Proofs.RoundedCosts
import Verif.Props.Costs

/-!
# C56, C57 and C67 in floating point
-/

namespace Bx.Rounded

open Costs Spec

/-- The order of the costs is kept, but costs that differ can become equal; the signs are kept in the
same way. -/
structure KeepsOrder (c c' : Cost) : Prop where
  length : c'.linear.length = c.linear.length ∧ c'.quads.length = c.quads.length
  indices : c'.indices = c.indices
  linear : ∀ (i j : Nat) (a b : Rat), c.linear[i]? = some a → c.linear[j]? = some b → a ≤ b →
    ∃ a' b', c'.linear[i]? = some a' ∧ c'.linear[j]? = some b' ∧ a' ≤ b'
  linear_sign : ∀ (i : Nat) (a : Rat), c.linear[i]? = some a →
    ∃ a', c'.linear[i]? = some a' ∧ (0 ≤ a → 0 ≤ a') ∧ (a ≤ 0 → a' ≤ 0)
  quads : ∀ (i j : Nat) (p q : Rat × Nat), c.quads[i]? = some p → c.quads[j]? = some q → p.1 ≤ q.1 →
    ∃ p' q', c'.quads[i]? = some p' ∧ c'.quads[j]? = some q' ∧ p'.1 ≤ q'.1 ∧ p'.2 = p.2 ∧ q'.2 = q.2
  quads_sign : ∀ (i : Nat) (p : Rat × Nat), c.quads[i]? = some p →
    ∃ p', c'.quads[i]? = some p' ∧ (0 ≤ p.1 → 0 ≤ p'.1) ∧ (p.1 ≤ 0 → p'.1 ≤ 0)

theorem KeepsOrder.refl (c : Cost) : KeepsOrder c c where
  length := ⟨rfl, rfl⟩
  indices := rfl
  linear := fun _ _ a b h h' hab => ⟨a, b, h, h', hab⟩
  linear_sign := fun _ a h => ⟨a, h, id, id⟩
  quads := fun _ _ p q h h' hpq => ⟨p, q, h, h', hpq, rfl, rfl⟩
  quads_sign := fun _ p h => ⟨p, h, id, id⟩

theorem divide_keeps {rnd : Rat → Rat} (hr : Rounding rnd) (f : FloatType) (c : Cost) {d : Rat}
    (hd : 0 ≤ d) : KeepsOrder c (divide rnd f c d) := by
  unfold divide
  split
  · refine ⟨⟨by simp, by simp⟩, rfl, ?_, ?_, ?_, ?_⟩
    · intro i j a b h h' hab
      refine ⟨_, _, by simp [h], by simp [h'], hr.mono (div_le_div_of_nonneg_right hab hd)⟩
    · intro i a h
      refine ⟨_, by simp [h], fun h0 => hr.nonneg (div_nonneg h0 hd), fun h0 => ?_⟩
      have := hr.mono (div_nonpos_of_nonpos_of_nonneg h0 hd)
      rwa [hr.zero] at this
    · intro i j p q h h' hpq
      refine ⟨(rnd (p.1 / d), p.2), (rnd (q.1 / d), q.2), by simp [h], by simp [h'],
        hr.mono (div_le_div_of_nonneg_right hpq hd), rfl, rfl⟩
    · intro i p h
      refine ⟨(rnd (p.1 / d), p.2), by simp [h], fun h0 => hr.nonneg (div_nonneg h0 hd), fun h0 => ?_⟩
      have := hr.mono (div_nonpos_of_nonpos_of_nonneg h0 hd)
      rwa [hr.zero] at this
  · exact KeepsOrder.refl c

theorem foldl_nonneg {α : Type} (g : Rat → α → Rat) (hg : ∀ a b, 0 ≤ a → 0 ≤ g a b) :
    ∀ (l : List α) (a : Rat), 0 ≤ a → 0 ≤ l.foldl g a
  | [], _, h => h
  | b :: l, _, h => foldl_nonneg g hg l _ (hg _ b h)

/-- C56 (partial), in floating point: for every rounding, the norms none, l1, l2, and the infinity norm
when one of the costs is not negative, never put a cost under another one that it was not under, nor
change its sign.  Missing: costs that differ can become equal (`C56_rounding_makes_ties`); the infinity
norm of negative costs, as with exact numbers. -/
theorem C56_rounded_costs_partial {rnd : Rat → Rat} (hr : Rounding rnd) (f : FloatType) (n : Norm)
    (c : Cost) (h : n = .loo → c.linear ≠ [] ∧
      ((∃ v ∈ c.linear, 0 ≤ v) ∨ ∃ q ∈ c.quads, 0 ≤ q.1)) :
    ∃ c', normalize rnd f n c = .ok c' ∧ KeepsOrder c c' := by
  cases n with
  | none => exact ⟨c, rfl, KeepsOrder.refl c⟩
  | l1 =>
    refine ⟨_, rfl, divide_keeps hr f c ?_⟩
    refine foldl_nonneg _ (fun a q ha => hr.nonneg (add_nonneg ha (abs_nonneg _))) _ _ ?_
    exact foldl_nonneg _ (fun a q ha => hr.nonneg (add_nonneg ha (abs_nonneg _))) _ _ le_rfl
  | l2 =>
    refine ⟨_, rfl, divide_keeps hr f c ?_⟩
    refine foldl_nonneg _ (fun a q ha => hr.nonneg (add_nonneg ha (hr.nonneg (mul_self_nonneg _)))) _ _ ?_
    exact foldl_nonneg _ (fun a q ha => hr.nonneg (add_nonneg ha (hr.nonneg (mul_self_nonneg _)))) _ _
      le_rfl
  | loo =>
    obtain ⟨hne, hpos⟩ := h rfl
    obtain ⟨v, vs, hv⟩ := List.exists_cons_of_ne_nil hne
    have he : normalize rnd f .loo c =
        .ok (divide rnd f c (maxFrom (maxFrom v vs) (c.quads.map Prod.fst))) := by
      unfold normalize loo
      rw [hv]
    refine ⟨_, he, divide_keeps hr f c ?_⟩
    rcases hpos with ⟨w, hw, h0⟩ | ⟨q, hq, h0⟩
    · refine le_trans h0 (le_trans ?_ (le_maxFrom _ _))
      rw [hv] at hw
      rcases List.mem_cons.mp hw with rfl | hw
      · exact le_maxFrom _ _
      · exact mem_le_maxFrom _ _ w hw
    · exact le_trans h0 (mem_le_maxFrom _ _ q.1 (List.mem_map.mpr ⟨q, hq, rfl⟩))

/-- `float`. -/
def single : FloatType := ⟨1 / 2 ^ 126, 2 ^ 128⟩

/-- Refutation: with numbers of type `float`, the infinity norm (the default one) makes the costs
12582913 and 12582914 equal when the largest cost is 25165824. -/
theorem C56_rounding_makes_ties :
    normalize (binary 24) single .loo ⟨[12582913, 12582914, 25165824], [], []⟩ =
      .ok ⟨[8388609 / 2 ^ 24, 8388609 / 2 ^ 24, 1], [], []⟩ ∧
    ∀ v ∈ [12582913, 12582914, 25165824], binary 24 v = v := by
  constructor <;> decide +kernel

example : normalize (binary 24) single .l1 ⟨[1, -2], [(3, 1), (3, 0)], [0, 1, 2]⟩ =
    .ok ⟨[14913081 / 2 ^ 27, -14913081 / 2 ^ 26], [(11184811 / 2 ^ 25, 1), (11184811 / 2 ^ 25, 0)],
      [0, 1, 2]⟩ := by decide +kernel

/-! ## C57 -/

/-- C57 (partial), in floating point: the cost of a variable that the quadratic cost gives is the change of
the objective, up to a relative error of one unit of rounding for each term of the variable and one for
its conversion.  Missing: squares of variables (`C57_square_is_missed`), and equality, which is false
(`C57_rounded_cost_is_wrong`). -/
theorem C57_rounded_cost_partial (p : Nat) (o : Objective) (n : Nat) (h : Spec.InRange o n) :
    ∃ c, makeQuadratic (binary p) o n = .ok c ∧
      ∀ j < n, ∀ x : Assign, (∀ e ∈ o.qelems, e.a = j → e.b = j → x j = true) →
        ∃ v, costAt (binary p) c j x = .ok v ∧
          |v - marginal o x j| ≤ ((1 + 1 / 2 ^ p) ^ ((termsOf o x j).length + 1) - 1) *
            ((termsOf o x j).map (|·|)).sum := by
  obtain ⟨c, hc, _⟩ := makeQuadratic_ok (rnd := binary p) h
  refine ⟨c, hc, fun j hj x hx => ⟨_, costAt_ok h hc hj x, ?_⟩⟩
  rw [← terms_sum x j hx]
  exact rsum_conv_error (by positivity) (binary_error_abs p) _

/-- C57, in floating point: the cost is exact when the factors are multiples of a power of two `2 ^ e`
and the terms of the variable sum, in absolute value, to at most `2 ^ p` times that power. -/
theorem C57_rounded_cost_exact_partial (p : Nat) (hp : 0 < p) (e : Int) (o : Objective) (n : Nat)
    (h : Spec.InRange o n) :
    ∃ c, makeQuadratic (binary p) o n = .ok c ∧
      ∀ j < n, ∀ x : Assign, (∀ q ∈ o.qelems, q.a = j → q.b = j → x j = true) →
        (∀ t ∈ termsOf o x j, Grid e t) →
        ((termsOf o x j).map (|·|)).sum ≤ 2 ^ p * 2 ^ e →
        costAt (binary p) c j x = .ok (marginal o x j) := by
  obtain ⟨c, hc, _⟩ := makeQuadratic_ok (rnd := binary p) h
  refine ⟨c, hc, fun j hj x hx hg hs => ?_⟩
  rw [costAt_ok h hc hj x, ← terms_sum x j hx]
  have hle : ∀ t ∈ termsOf o x j, |t| ≤ 2 ^ p * 2 ^ e := fun t ht =>
    le_trans (List.single_le_sum (by
      intro a ha
      obtain ⟨b, _, rfl⟩ := List.mem_map.1 ha
      exact abs_nonneg b) _ (List.mem_map_of_mem ht)) hs
  have hid : (termsOf o x j).map (binary p) = termsOf o x j := by
    conv_rhs => rw [← List.map_id (termsOf o x j)]
    exact List.map_congr_left fun t ht => Grid.binary hp (hg t ht) (hle t ht)
  rw [hid, rsum_exact hp _ 0 ⟨0, by simp⟩ hg (by simpa using hs), zero_add]

/-- C57 (partial), in floating point, for the cost of a linear objective. -/
theorem C57_rounded_linear_cost_partial (p : Nat) (o : Objective) (n : Nat) (h : Spec.InRange o n)
    (hq : o.qelems = []) : ∃ c, makeDefault (binary p) o n = .ok c ∧
      ∀ j < n, ∀ x : Assign, ∃ v, c.atLinear j x = .ok v ∧
        |v - marginal o x j| ≤ ((1 + 1 / 2 ^ p) ^ ((termsOf o x j).length + 1) - 1) *
          ((termsOf o x j).map (|·|)).sum := by
  obtain ⟨l, h1, h2, h3⟩ := addElements_ok (rnd := binary p) (acc := List.replicate n 0) h.1
  refine ⟨⟨l, [], []⟩, ?_, fun j hj x => ⟨rsum (binary p) 0 ((termsOf o x j).map (binary p)), ?_, ?_⟩⟩
  · unfold makeDefault
    rw [h1, ok_bind]
  · unfold Cost.atLinear
    have : l[j]? = some (rsum (binary p) 0 ((termsOf o x j).map (binary p))) := by
      rw [h3 j, List.getElem?_replicate_of_lt hj]
      unfold termsOf facts
      simp [hq, Function.comp_def]
    exact at'_some this
  · rw [← terms_sum x j (by simp [hq])]
    exact rsum_conv_error (by positivity) (binary_error_abs p) _

/-- Refutation of equality: with the objective `16777217 x0 - 16777216 x0` in `float`, the cost of `x0` is
0, and the objective changes by 1. -/
theorem C57_rounded_cost_is_wrong :
    let o : Objective := ⟨[⟨16777217, 0⟩, ⟨-16777216, 0⟩], [], 0⟩
    (makeDefault (binary 24) o 1 >>= fun c => c.atLinear 0 fun _ => true) = .ok 0 ∧
    (makeQuadratic (binary 24) o 1 >>= fun c => costAt (binary 24) c 0 fun _ => true) = .ok 0 ∧
      Spec.marginal o (fun _ => true) 0 = 1 := by decide +kernel

/-- `2 x0 - x1 + 3 x0 x1 - 4 x1 x2`, with all the variables at 1: the cost of `x1` is -2. -/
example : (makeQuadratic (binary 24) ⟨[⟨2, 0⟩, ⟨-1, 1⟩], [⟨3, 0, 1⟩, ⟨-4, 1, 2⟩], 7⟩ 3 >>= fun c =>
    costAt (binary 24) c 1 fun _ => true) = .ok (-2) ∧
    termsOf ⟨[⟨2, 0⟩, ⟨-1, 1⟩], [⟨3, 0, 1⟩, ⟨-4, 1, 2⟩], 7⟩ (fun _ => true) 1 = [-1, 3, -4] := by
  decide +kernel

/-! ## C67 -/

/-- C67 (partial), in floating point: for every rounding of the costs and of `double`, every sort, and
every draws between their bounds, when one of the costs is not negative, either the random norm succeeds
and a cost under another one does not go over it, or the largest cost is reached twice and the draw of
the last costs stops, on the check of its bounds or because they are reversed.  Missing: negative costs
(`C67_random_norm_reverses`), a strict order (`C56_rounding_makes_ties`), and the last stop, which happens
(`C67_rounded_norm_stops`). -/
theorem C67_rounded_random_norm_partial {rnd : Rat → Rat} (hr : Rounding rnd) (dbl : Rat → Rat)
    (f : FloatType) (sort : List (Rat × Nat) → List (Rat × Nat)) (hs : SortOk sort) (d : Draws)
    (hd : ∀ k a b, a < b → a ≤ d k a b ∧ d k a b ≤ b) (c : Cost) (hpos : ∃ v ∈ c.linear, 0 ≤ v) :
    (∃ c', randomNorm rnd dbl f sort d c = .ok c' ∧ c'.linear.length = c.linear.length ∧
      (∀ (i j : Nat) (a b : Rat), c.linear[i]? = some a → c.linear[j]? = some b → a < b →
        ∃ a' b', c'.linear[i]? = some a' ∧ c'.linear[j]? = some b' ∧ a' ≤ b') ∧
      ∀ (i : Nat) (a : Rat), c.linear[i]? = some a → 0 ≤ a →
        ∃ a', c'.linear[i]? = some a' ∧ 0 ≤ a') ∨
    ((∃ (i j : Nat) (v : Rat), i ≠ j ∧ c.linear[i]? = some v ∧ c.linear[j]? = some v ∧
        ∀ w ∈ c.linear, w ≤ v) ∧
      (randomNorm rnd dbl f sort d c = .error (.contract "min != max") ∨
        randomNorm rnd dbl f sort d c = .error (.ub "uniform_real_distribution(min, max)"))) := by
  rcases randomise_cases rnd dbl hs hd c.linear with ⟨l', h1, h2, h3⟩ | ⟨h, e, he, hst⟩
  · left
    obtain ⟨v, hv, hv0⟩ := hpos
    obtain ⟨iv, hiv⟩ := List.getElem?_of_mem hv
    obtain ⟨v', hv1, hv2, _⟩ := h3 iv v hiv
    have hne : l' ≠ [] := by rintro rfl; simp at hv1
    obtain ⟨w, ws, hw⟩ := List.exists_cons_of_ne_nil hne
    have hdiv : 0 ≤ maxFrom (maxFrom w ws) (c.quads.map Prod.fst) := by
      refine le_trans (le_trans hv0 hv2) (le_trans ?_ (le_maxFrom _ _))
      have hm := List.mem_of_getElem? hv1
      rw [hw] at hm
      rcases List.mem_cons.mp hm with rfl | hm
      · exact le_maxFrom _ _
      · exact mem_le_maxFrom _ _ _ hm
    have hrn : randomNorm rnd dbl f sort d c = .ok (divide rnd f { c with linear := l' }
        (maxFrom (maxFrom w ws) (c.quads.map Prod.fst))) := by
      unfold randomNorm loo
      rw [h1, ok_bind]
      simp only [hw]
    have hk := divide_keeps hr f { c with linear := l' } hdiv
    refine ⟨_, hrn, by rw [hk.length.1]; exact h2, ?_, ?_⟩
    · intro i j a b hi hj hab
      obtain ⟨a', ha1, _, ha3⟩ := h3 i a hi
      obtain ⟨b', hb1, hb2, _⟩ := h3 j b hj
      exact hk.linear i j a' b' ha1 hb1 (le_trans (ha3 b (List.mem_of_getElem? hj) hab) hb2)
    · intro i a hi ha
      obtain ⟨a', ha1, ha2, _⟩ := h3 i a hi
      obtain ⟨a'', ha4, ha5, _⟩ := hk.linear_sign i a' ha1
      exact ⟨a'', ha4, ha5 (le_trans ha ha2)⟩
  · right
    refine ⟨h, ?_⟩
    unfold randomNorm
    rw [he]
    rcases hst with rfl | rfl
    · exact .inl rfl
    · exact .inr rfl

/-- Draws at the lower bound. -/
def lowest : Draws := fun _ a _ => a

/-- Refutation: in `float`, the norm stops on two costs of 16777216, for which adding 1 changes nothing,
and on four costs of 16777218 and two of 16777220, all of which are `float` numbers.  Two costs of 1 are
accepted. -/
theorem C67_rounded_norm_stops :
    randomNorm (binary 24) (binary 53) single insertSort lowest ⟨[16777216, 16777216], [], []⟩ =
      .error (.contract "min != max") ∧
    randomNorm (binary 24) (binary 53) single insertSort lowest
      ⟨[16777218, 16777218, 16777218, 16777218, 16777220, 16777220], [], []⟩ =
      .error (.contract "min != max") ∧
    (∀ v ∈ [16777216, 16777218, 16777220], binary 24 v = v) ∧
    randomNorm (binary 24) (binary 53) single insertSort lowest ⟨[1, 1], [], []⟩ =
      .ok ⟨[1, 1], [], []⟩ := by
  refine ⟨?_, ?_, ?_, ?_⟩ <;> decide +kernel

example : randomNorm (binary 24) (binary 53) single insertSort middle ⟨[1, 3, 1, 2], [], []⟩ =
    .ok ⟨[1/2, 1, 1/2, 11184811 / 2 ^ 24], [], []⟩ := by decide +kernel

example : ∀ k a b, a < b → a ≤ middle k a b ∧ middle k a b ≤ b := by
  intro k a b h
  unfold middle
  constructor <;> linarith

end Bx.Rounded
