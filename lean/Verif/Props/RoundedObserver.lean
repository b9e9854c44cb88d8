import Verif.Model.RoundedObserver
import Verif.Proofs.Observer
import Verif.Proofs.Rounding
import Verif.Proofs.Outcome
import Mathlib.Tactic.Linarith

/-!
# C97 in floating point
-/

namespace Bx.Rounded

open Params (D)
open Observer (Rgb toByte)
open Observer.Spec (told)
open Bx.Spec (binary)

/-- The rounding of `float`. -/
local notation "R" => binary 24

theorem float_error (x : Rat) : |R x - x| ≤ |x| / 2 ^ 24 := by
  rcases le_total 0 x with h | h
  · obtain ⟨a, b⟩ := Spec.binary_error 24 h
    rw [abs_of_nonneg h, abs_le]
    constructor <;> linarith
  · obtain ⟨a, b⟩ := Spec.binary_error 24 (q := -x) (by linarith)
    rw [Spec.binary_neg] at a b
    rw [abs_of_nonpos h, abs_le]
    constructor <;> linarith

theorem float_near {x B : Rat} (h : |x| ≤ B) : R x - x ≤ B / 2 ^ 24 ∧ x - R x ≤ B / 2 ^ 24 := by
  have h1 := abs_le.mp (float_error x)
  have h2 : |x| / 2 ^ 24 ≤ B / 2 ^ 24 := by
    apply div_le_div_of_nonneg_right h
    norm_num
  constructor <;> linarith

theorem float_mono {x y : Rat} (h : x ≤ y) : R x ≤ R y := Spec.binary_mono (by norm_num) h

theorem float_between {x lo hi : Rat} (h1 : lo ≤ x) (h2 : x ≤ hi) (hl : R lo = lo) (hh : R hi = hi) :
    lo ≤ R x ∧ R x ≤ hi := ⟨hl ▸ float_mono h1, hh ▸ float_mono h2⟩

theorem f0 : R 0 = 0 := Spec.binary_zero 24
theorem f1 : R 1 = 1 := by decide +kernel
theorem f2 : R 2 = 2 := by decide +kernel
theorem f15 : R (3 / 2) = 3 / 2 := by decide +kernel
theorem f05 : R (1 / 2) = 1 / 2 := by decide +kernel
theorem fm1 : R (-1) = -1 := by decide +kernel
theorem fm05 : R (-1 / 2) = -1 / 2 := by decide +kernel
theorem fm2 : R (-2) = -2 := by decide +kernel
theorem f255 : R 255 = 255 := by decide +kernel

/-- The byte of a channel. -/
theorem byte_near {x : Rat} (h0 : 0 ≤ x) (h1 : x ≤ 1) :
    ∃ k : Nat, toByte (R (x * 255)) = .ok k ∧ k ≤ 255 ∧
      (k : Rat) - 255 * x ≤ 255 / 2 ^ 24 ∧ 255 * x - k ≤ 1 + 255 / 2 ^ 24 := by
  have hx : |x * 255| ≤ 255 := by
    rw [abs_of_nonneg (by positivity)]
    linarith
  obtain ⟨a, b⟩ := float_near hx
  obtain ⟨c, d⟩ := float_between (x := x * 255) (by positivity) (by linarith) f0 f255
  refine ⟨⌊R (x * 255)⌋.toNat, ?_, ?_, ?_⟩
  · unfold toByte
    rw [if_pos]
    constructor <;> linarith
  · have : ⌊R (x * 255)⌋ ≤ 255 := by
      rw [← Int.lt_add_one_iff, Int.floor_lt]
      push_cast
      linarith
    omega
  · have hf : 0 ≤ ⌊R (x * 255)⌋ := Int.floor_nonneg.mpr c
    have e : ((⌊R (x * 255)⌋.toNat : Nat) : Rat) = (⌊R (x * 255)⌋ : Rat) := by
      exact_mod_cast Int.toNat_of_nonneg hf
    rw [e]
    have g1 := Int.floor_le (R (x * 255))
    have g2 := Int.lt_floor_add_one (R (x * 255))
    constructor <;> linarith

/-- The channels of a number between -1 and 1: one of them grows or decreases. -/
theorem channels_near {v : Rat} (h0 : -1 ≤ v) (h1 : v ≤ 1) :
    ∃ x : Rat, 0 ≤ x ∧ x ≤ 1 ∧
      ((channels R (-1) 1 v = (0, x, 1) ∧ |x - 2 * (v + 1)| ≤ 20 / 2 ^ 24) ∨
        (channels R (-1) 1 v = (0, 1, x) ∧ |2 - x - 2 * (v + 1)| ≤ 20 / 2 ^ 24) ∨
        (channels R (-1) 1 v = (x, 1, 0) ∧ |2 + x - 2 * (v + 1)| ≤ 20 / 2 ^ 24) ∨
        (channels R (-1) 1 v = (1, x, 0) ∧ |4 - x - 2 * (v + 1)| ≤ 20 / 2 ^ 24)) := by
  have e1 : R (1 - -1) = 2 := by decide +kernel
  have e2 : R (-1 + R (1 / 4 * 2)) = -1 / 2 := by decide +kernel
  have e3 : R (-1 + 1) = 0 := by decide +kernel
  have e4 : R (-1 + R (3 / 4 * 2)) = 1 / 2 := by decide +kernel
  have e5 : R (1 / 2 * 2) = 1 := by decide +kernel
  unfold channels
  simp only [e1, e2, e3, e4, e5]
  by_cases c1 : v < -1 / 2
  · rw [if_pos c1]
    obtain ⟨a1, a2⟩ := float_between (x := v - -1) (lo := 0) (hi := 1 / 2) (by linarith) (by linarith)
      f0 f05
    obtain ⟨n1, n2⟩ := float_near (x := v - -1) (B := 1) (abs_le.mpr ⟨by linarith, by linarith⟩)
    obtain ⟨b1, b2⟩ := float_between (x := 4 * R (v - -1)) (lo := 0) (hi := 2) (by linarith)
      (by linarith) f0 f2
    obtain ⟨m1, m2⟩ := float_near (x := 4 * R (v - -1)) (B := 2) (abs_le.mpr ⟨by linarith, by linarith⟩)
    obtain ⟨d1, d2⟩ := float_between (x := R (4 * R (v - -1)) / 2) (lo := 0) (hi := 1) (by linarith)
      (by linarith) f0 f1
    obtain ⟨p1, p2⟩ := float_near (x := R (4 * R (v - -1)) / 2) (B := 1)
      (abs_le.mpr ⟨by linarith, by linarith⟩)
    refine ⟨_, d1, d2, Or.inl ⟨rfl, ?_⟩⟩
    rw [abs_le]
    constructor <;> linarith
  rw [if_neg c1]
  by_cases c2 : v < 0
  · rw [if_pos c2]
    obtain ⟨a1, a2⟩ := float_between (x := -1 / 2 - v) (lo := -1 / 2) (hi := 0) (by linarith)
      (by linarith) fm05 f0
    obtain ⟨n1, n2⟩ := float_near (x := -1 / 2 - v) (B := 1) (abs_le.mpr ⟨by linarith, by linarith⟩)
    obtain ⟨b1, b2⟩ := float_between (x := 4 * R (-1 / 2 - v)) (lo := -2) (hi := 0) (by linarith)
      (by linarith) fm2 f0
    obtain ⟨m1, m2⟩ := float_near (x := 4 * R (-1 / 2 - v)) (B := 2)
      (abs_le.mpr ⟨by linarith, by linarith⟩)
    obtain ⟨d1, d2⟩ := float_between (x := R (4 * R (-1 / 2 - v)) / 2) (lo := -1) (hi := 0)
      (by linarith) (by linarith) fm1 f0
    obtain ⟨p1, p2⟩ := float_near (x := R (4 * R (-1 / 2 - v)) / 2) (B := 1)
      (abs_le.mpr ⟨by linarith, by linarith⟩)
    obtain ⟨t1, t2⟩ := float_between (x := 1 + R (R (4 * R (-1 / 2 - v)) / 2)) (lo := 0) (hi := 1)
      (by linarith) (by linarith) f0 f1
    obtain ⟨q1, q2⟩ := float_near (x := 1 + R (R (4 * R (-1 / 2 - v)) / 2)) (B := 1)
      (abs_le.mpr ⟨by linarith, by linarith⟩)
    refine ⟨_, t1, t2, Or.inr (Or.inl ⟨rfl, ?_⟩)⟩
    rw [abs_le]
    constructor <;> linarith
  rw [if_neg c2]
  by_cases c3 : v < 1 / 2
  · rw [if_pos c3]
    obtain ⟨a1, a2⟩ := float_between (x := v - -1) (lo := 1) (hi := 3 / 2) (by linarith) (by linarith)
      f1 f15
    obtain ⟨n1, n2⟩ := float_near (x := v - -1) (B := 2) (abs_le.mpr ⟨by linarith, by linarith⟩)
    obtain ⟨s1, s2⟩ := float_between (x := R (v - -1) - 1) (lo := 0) (hi := 1 / 2) (by linarith)
      (by linarith) f0 f05
    obtain ⟨r1, r2⟩ := float_near (x := R (v - -1) - 1) (B := 1) (abs_le.mpr ⟨by linarith, by linarith⟩)
    obtain ⟨b1, b2⟩ := float_between (x := 4 * R (R (v - -1) - 1)) (lo := 0) (hi := 2) (by linarith)
      (by linarith) f0 f2
    obtain ⟨m1, m2⟩ := float_near (x := 4 * R (R (v - -1) - 1)) (B := 2)
      (abs_le.mpr ⟨by linarith, by linarith⟩)
    obtain ⟨d1, d2⟩ := float_between (x := R (4 * R (R (v - -1) - 1)) / 2) (lo := 0) (hi := 1)
      (by linarith) (by linarith) f0 f1
    obtain ⟨p1, p2⟩ := float_near (x := R (4 * R (R (v - -1) - 1)) / 2) (B := 1)
      (abs_le.mpr ⟨by linarith, by linarith⟩)
    refine ⟨_, d1, d2, Or.inr (Or.inr (Or.inl ⟨rfl, ?_⟩))⟩
    rw [abs_le]
    constructor <;> linarith
  · rw [if_neg c3]
    obtain ⟨a1, a2⟩ := float_between (x := 1 / 2 - v) (lo := -1 / 2) (hi := 0) (by linarith)
      (by linarith) fm05 f0
    obtain ⟨n1, n2⟩ := float_near (x := 1 / 2 - v) (B := 1) (abs_le.mpr ⟨by linarith, by linarith⟩)
    obtain ⟨b1, b2⟩ := float_between (x := 4 * R (1 / 2 - v)) (lo := -2) (hi := 0) (by linarith)
      (by linarith) fm2 f0
    obtain ⟨m1, m2⟩ := float_near (x := 4 * R (1 / 2 - v)) (B := 2)
      (abs_le.mpr ⟨by linarith, by linarith⟩)
    obtain ⟨d1, d2⟩ := float_between (x := R (4 * R (1 / 2 - v)) / 2) (lo := -1) (hi := 0)
      (by linarith) (by linarith) fm1 f0
    obtain ⟨p1, p2⟩ := float_near (x := R (4 * R (1 / 2 - v)) / 2) (B := 1)
      (abs_le.mpr ⟨by linarith, by linarith⟩)
    obtain ⟨t1, t2⟩ := float_between (x := 1 + R (R (4 * R (1 / 2 - v)) / 2)) (lo := 0) (hi := 1)
      (by linarith) (by linarith) f0 f1
    obtain ⟨q1, q2⟩ := float_near (x := 1 + R (R (4 * R (1 / 2 - v)) / 2)) (B := 1)
      (abs_le.mpr ⟨by linarith, by linarith⟩)
    refine ⟨_, t1, t2, Or.inr (Or.inr (Or.inr ⟨rfl, ?_⟩))⟩
    rw [abs_le]
    constructor <;> linarith

theorem byte_zero : toByte (R (0 * 255)) = .ok 0 := by decide +kernel
theorem byte_one : toByte (R (1 * 255)) = .ok 255 := by decide +kernel

/-- The colour of a number of `float` between -1 and 1. -/
theorem colour_near {v : Rat} (h0 : -1 ≤ v) (h1 : v ≤ 1) :
    ∃ c : Rgb, (do
      let (r, g, b) := channels R (-1) 1 v
      Except.ok (⟨← toByte (R (r * 255)), ← toByte (R (g * 255)), ← toByte (R (b * 255))⟩ : Rgb))
        = .ok c ∧ c.red ≤ 255 ∧ c.green ≤ 255 ∧ c.blue ≤ 255 ∧
      |told (c.red, c.green, c.blue) - v| ≤ 1 / 510 + 11 / 2 ^ 24 := by
  obtain ⟨x, x0, x1, h⟩ := channels_near h0 h1
  obtain ⟨k, hk, hk1, hk2, hk3⟩ := byte_near x0 x1
  rcases h with ⟨hc, hn⟩ | ⟨hc, hn⟩ | ⟨hc, hn⟩ | ⟨hc, hn⟩ <;> rw [abs_le] at hn
  · refine ⟨⟨0, k, 255⟩, by rw [hc]; simp only [byte_zero, byte_one, hk, ok_bind], by simp, hk1,
      by simp, ?_⟩
    unfold told
    simp only
    rw [if_pos trivial, abs_le]
    constructor <;> linarith
  · refine ⟨⟨0, 255, k⟩, by rw [hc]; simp only [byte_zero, byte_one, hk, ok_bind], by simp, by simp,
      hk1, ?_⟩
    unfold told
    simp only
    split
    · rename_i e
      subst e
      push_cast at hk2 hk3 ⊢
      rw [abs_le]
      constructor <;> linarith
    · split
      · rw [abs_le]
        constructor <;> linarith
      · rename_i e
        rw [not_not] at e
        subst e
        rw [if_pos (by decide)]
        push_cast at hk2 hk3 ⊢
        rw [abs_le]
        constructor <;> linarith
  · refine ⟨⟨k, 255, 0⟩, by rw [hc]; simp only [byte_zero, byte_one, hk, ok_bind], hk1, by simp,
      by simp, ?_⟩
    unfold told
    simp only
    rw [if_neg (by decide), if_neg (by decide)]
    split
    · rw [abs_le]
      constructor <;> linarith
    · rename_i e
      rw [not_not] at e
      subst e
      push_cast at hk2 hk3 ⊢
      rw [abs_le]
      constructor <;> linarith
  · refine ⟨⟨255, k, 0⟩, by rw [hc]; simp only [byte_zero, byte_one, hk, ok_bind], by simp, hk1,
      by simp, ?_⟩
    unfold told
    simp only
    rw [if_neg (by decide), if_neg (by decide), if_neg (by decide), abs_le]
    constructor <;> linarith

/-- The conversion to `float` and the two tests leave a number close to the nearest one between -1
and 1. -/
theorem clamp_near (q : Rat) :
    ∃ v, -1 ≤ v ∧ v ≤ 1 ∧ |v - max (-1) (min 1 q)| ≤ 1 / 2 ^ 24 ∧
      (let w := if (D.fin (R q)).lt (.fin (-1)) then D.fin (-1) else .fin (R q)
       if (D.fin 1).lt w then D.fin 1 else w) = .fin v := by
  by_cases h1 : R q < -1
  · have hq : q < -1 := by
      by_contra h
      exact absurd (fm1 ▸ float_mono (not_lt.mp h)) (not_le.mpr h1)
    refine ⟨-1, le_rfl, by norm_num, ?_, ?_⟩
    · rw [max_eq_left (le_trans (min_le_right _ _) hq.le)]
      norm_num
    · simp only [D.lt, h1, decide_true, if_true]
      norm_num
  by_cases h2 : 1 < R q
  · have hq : 1 < q := by
      by_contra h
      exact absurd (f1 ▸ float_mono (not_lt.mp h)) (not_le.mpr h2)
    refine ⟨1, by norm_num, le_rfl, ?_, ?_⟩
    · rw [min_eq_left hq.le, max_eq_right (by norm_num)]
      norm_num
    · have e : (D.fin (R q)).lt (.fin (-1)) = false := by simp [D.lt, h1]
      have e' : (D.fin 1).lt (.fin (R q)) = true := by simp [D.lt, h2]
      simp only [e, Bool.false_eq_true, if_false, e', if_true]
  · rw [not_lt] at h1 h2
    refine ⟨R q, h1, h2, ?_, ?_⟩
    · rcases lt_or_ge q (-1) with c | c
      · have : R q = -1 := le_antisymm (fm1 ▸ float_mono c.le) h1
        rw [this, max_eq_left (le_trans (min_le_right _ _) c.le)]
        norm_num
      rcases lt_or_ge 1 q with d | d
      · have : R q = 1 := le_antisymm h2 (f1 ▸ float_mono d.le)
        rw [this, min_eq_left d.le, max_eq_right (by norm_num)]
        norm_num
      · rw [min_eq_right d, max_eq_right c, abs_le]
        obtain ⟨a, b⟩ := float_near (x := q) (B := 1) (abs_le.mpr ⟨c, d⟩)
        constructor <;> linarith
    · simp only [D.lt, decide_eq_true_eq, not_lt.mpr h1, if_false, not_lt.mpr h2]

/-- C97: with the rounding of `float`, every number that is not NaN has a colour, the channels of
which are bytes, and the colour tells the number, between -1 and 1, to within 1/509. -/
theorem C97_colour_tells_the_number_rounded (v : D) (q : Rat) (h : Observer.Spec.nearest v = some q) :
    ∃ c, colormap (binary 24) (-1) 1 v = .ok c ∧ c.red ≤ 255 ∧ c.green ≤ 255 ∧ c.blue ≤ 255 ∧
      |told (c.red, c.green, c.blue) - q| ≤ 1 / 509 := by
  cases v with
  | nan => cases h
  | ninf =>
    cases h
    obtain ⟨c, h1, h2, h3, h4, h5⟩ := colour_near (v := -1) le_rfl (by norm_num)
    exact ⟨c, h1, h2, h3, h4, le_trans h5 (by norm_num)⟩
  | pinf =>
    cases h
    obtain ⟨c, h1, h2, h3, h4, h5⟩ := colour_near (v := 1) (by norm_num) le_rfl
    exact ⟨c, h1, h2, h3, h4, le_trans h5 (by norm_num)⟩
  | fin p =>
    cases h
    obtain ⟨w, w0, w1, w2, w3⟩ := clamp_near p
    obtain ⟨c, h1, h2, h3, h4, h5⟩ := colour_near w0 w1
    refine ⟨c, ?_, h2, h3, h4, ?_⟩
    · unfold colormap toFloat
      dsimp only at w3 ⊢
      rw [w3]
      exact h1
    · rw [abs_le] at h5 w2 ⊢
      constructor <;> linarith

/-- C97: without rounding the colour is that of the exact arithmetic. -/
theorem C97_without_rounding (lo hi : Rat) (v : D) :
    colormap id lo hi v = Observer.colormap lo hi v := by
  cases v <;> rfl

/-- A number that is not a number of `float`, and the middle of the scale: the colours with
rounding. -/
example : Observer.Spec.nearest (.fin (1 / 3)) = some (1 / 3) ∧
    colormap (binary 24) (-1) 1 (.fin (1 / 3)) = .ok ⟨170, 255, 0⟩ ∧
    colormap (binary 24) (-1) 1 (.fin 0) = .ok ⟨0, 255, 0⟩ ∧
    colormap (binary 24) (-1) 1 .ninf = .ok ⟨0, 0, 255⟩ := by decide +kernel

end Bx.Rounded
