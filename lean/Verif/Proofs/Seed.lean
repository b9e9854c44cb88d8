import Mathlib.NumberTheory.LucasPrimality
import Mathlib.GroupTheory.OrderOfElement
import Mathlib.GroupTheory.SpecificGroups.Cyclic
import Mathlib.FieldTheory.Finite.Basic
import Mathlib.Data.ZMod.Basic
import Mathlib.Tactic.NormNum.Prime
import Mathlib.Tactic.Ring
import Verif.Model.Seed

/-!
# The engine: its modulus is prime and its two factors are primitive roots
-/

namespace Bx.Seed

theorem pred_factors : modulus - 1 = 2 * 3 ^ 2 * 7 * 11 * 31 * 151 * 331 := by norm_num [modulus]

theorem prime_of_pred {q : Nat} (hq : q.Prime) (hd : q ∣ modulus - 1) :
    q = 2 ∨ q = 3 ∨ q = 7 ∨ q = 11 ∨ q = 31 ∨ q = 151 ∨ q = 331 := by
  rw [pred_factors] at hd
  have h2 : ∀ p, p.Prime → q ∣ p → q = p := fun p hp h => (Nat.prime_dvd_prime_iff_eq hq hp).mp h
  rcases (Nat.Prime.dvd_mul hq).mp hd with hd | hd
  · rcases (Nat.Prime.dvd_mul hq).mp hd with hd | hd
    · rcases (Nat.Prime.dvd_mul hq).mp hd with hd | hd
      · rcases (Nat.Prime.dvd_mul hq).mp hd with hd | hd
        · rcases (Nat.Prime.dvd_mul hq).mp hd with hd | hd
          · rcases (Nat.Prime.dvd_mul hq).mp hd with hd | hd
            · have := h2 2 (by norm_num) hd; omega
            · have := h2 3 (by norm_num) (hq.dvd_of_dvd_pow hd); omega
          · have := h2 7 (by norm_num) hd; omega
        · have := h2 11 (by norm_num) hd; omega
      · have := h2 31 (by norm_num) hd; omega
    · have := h2 151 (by norm_num) hd; omega
  · have := h2 331 (by norm_num) hd; omega

/-- Powers by squaring. -/
def powMod (g m : Nat) : Nat → Nat → Nat
  | 0, _ => 1 % m
  | f + 1, e =>
    let h := powMod g m f (e / 2)
    if e % 2 = 0 then h * h % m else h * h % m * g % m

theorem powMod_eq (g m : Nat) : ∀ f e, e < 2 ^ f → powMod g m f e = g ^ e % m
  | 0, e, h => by
    obtain rfl : e = 0 := by omega
    rfl
  | f + 1, e, h => by
    have ih := powMod_eq g m f (e / 2) (by rw [pow_succ] at h; omega)
    unfold powMod
    simp only [ih]
    split
    · next h0 =>
      rw [← Nat.mul_mod, ← pow_add]
      congr 2; omega
    · next h0 =>
      rw [← Nat.mul_mod, ← pow_add, Nat.mod_mul_mod, ← pow_succ]
      congr 2; omega

theorem pow_cast {g e r : Nat} (h : g ^ e % modulus = r) : ((g : ZMod modulus)) ^ e = (r : ZMod modulus) := by
  rw [← Nat.cast_pow, ← h, ZMod.natCast_mod]

theorem pow_ne_one {g e : Nat} (h : g ^ e % modulus ≠ 1) : ((g : ZMod modulus)) ^ e ≠ 1 := by
  rw [← Nat.cast_pow]
  intro hc
  have : ((g ^ e : Nat) : ZMod modulus) = ((1 : Nat) : ZMod modulus) := by rw [hc]; simp
  rw [ZMod.natCast_eq_natCast_iff'] at this
  exact h (by rw [this]; norm_num [modulus])

theorem factor_pow {g : Nat} (hg : Factor g) : ((g : ZMod modulus)) ^ (modulus - 1) = 1 := by
  rcases hg with rfl | rfl
  · rw [pow_cast (r := 1) ((powMod_eq _ _ 31 _ (by decide)).symm.trans (by decide +kernel))]; simp
  · rw [pow_cast (r := 1) ((powMod_eq _ _ 31 _ (by decide)).symm.trans (by decide +kernel))]; simp

theorem factor_pow_ne {g : Nat} (hg : Factor g) (q : Nat) (hq : q.Prime) (hd : q ∣ modulus - 1) :
    ((g : ZMod modulus)) ^ ((modulus - 1) / q) ≠ 1 := by
  have := prime_of_pred hq hd
  apply pow_ne_one
  rw [← powMod_eq _ _ 31 _ (lt_of_le_of_lt (Nat.div_le_self _ _) (by decide))]
  rcases hg with rfl | rfl <;> rcases this with rfl | rfl | rfl | rfl | rfl | rfl | rfl <;> decide +kernel

theorem modulus_prime : modulus.Prime :=
  lucas_primality modulus ((16807 : Nat) : ZMod modulus) (factor_pow (Or.inl rfl)) (factor_pow_ne (Or.inl rfl))

theorem factor_order {g : Nat} (hg : Factor g) : orderOf ((g : ZMod modulus)) = modulus - 1 :=
  orderOf_eq_of_pow_and_pow_div_prime (by norm_num [modulus]) (factor_pow hg) (factor_pow_ne hg)

instance : Fact modulus.Prime := ⟨modulus_prime⟩

theorem start_pos (s : Nat) : 0 < start s := by
  unfold start
  split <;> omega

theorem start_lt (s : Nat) : start s < modulus := by
  unfold start
  split
  · decide
  · exact Nat.mod_lt _ (by decide)

theorem cast_inj {a b : Nat} (ha : a < modulus) (hb : b < modulus)
    (h : (a : ZMod modulus) = (b : ZMod modulus)) : a = b := by
  rw [ZMod.natCast_eq_natCast_iff', Nat.mod_eq_of_lt ha, Nat.mod_eq_of_lt hb] at h
  exact h

theorem cast_ne_zero {a : Nat} (h0 : 0 < a) (ha : a < modulus) : (a : ZMod modulus) ≠ 0 := by
  intro h
  have := cast_inj ha (b := 0) (by decide) (by simpa using h)
  omega

theorem factor_ne_zero {g : Nat} (hg : Factor g) : (g : ZMod modulus) ≠ 0 := by
  rcases hg with rfl | rfl <;> exact cast_ne_zero (by decide) (by decide)

theorem after_cast (g x : Nat) : ∀ k, ((after g x k : Nat) : ZMod modulus) = (g : ZMod modulus) ^ k * x
  | 0 => by simp [after]
  | k + 1 => by
    unfold after next
    rw [ZMod.natCast_mod, Nat.cast_mul, after_cast g x k, pow_succ]
    ring

theorem number_lt (g s k : Nat) : number g s k < modulus := Nat.mod_lt _ (by decide)

theorem number_cast (g s k : Nat) :
    ((number g s k : Nat) : ZMod modulus) = (g : ZMod modulus) ^ (k + 1) * start s := after_cast _ _ _

theorem number_pos {g : Nat} (hg : Factor g) (s k : Nat) : 0 < number g s k := by
  rcases Nat.eq_zero_or_pos (number g s k) with h | h
  · have := number_cast g s k
    rw [h, Nat.cast_zero] at this
    exact absurd this.symm (mul_ne_zero (pow_ne_zero _ (factor_ne_zero hg))
      (cast_ne_zero (start_pos s) (start_lt s)))
  · exact h

/-- The factor in the group of the units. -/
noncomputable def unitOf {g : Nat} (hg : Factor g) : (ZMod modulus)ˣ := Units.mk0 _ (factor_ne_zero hg)

theorem unitOf_order {g : Nat} (hg : Factor g) : orderOf (unitOf hg) = modulus - 1 := by
  rw [← orderOf_units]
  exact factor_order hg

theorem number_period {g : Nat} (hg : Factor g) (s k : Nat) :
    number g s (k + (modulus - 1)) = number g s k := by
  apply cast_inj (number_lt _ _ _) (number_lt _ _ _)
  rw [number_cast, number_cast, Nat.add_right_comm, pow_add, factor_pow hg, mul_one]

theorem number_inj {g : Nat} (hg : Factor g) {s i j : Nat} (hi : i < modulus - 1) (hj : j < modulus - 1)
    (h : number g s i = number g s j) : i = j := by
  have h := congrArg (fun x : Nat => (x : ZMod modulus)) h
  simp only [number_cast] at h
  have h := mul_right_cancel₀ (cast_ne_zero (start_pos s) (start_lt s)) h
  rw [pow_succ, pow_succ] at h
  have h := mul_right_cancel₀ (factor_ne_zero hg) h
  have hu : unitOf hg ^ i = unitOf hg ^ j := by
    apply Units.ext
    simpa [unitOf] using h
  exact pow_injOn_Iio_orderOf (by simpa [unitOf_order] using hi) (by simpa [unitOf_order] using hj) hu

theorem number_start {g : Nat} (hg : Factor g) {s s' k : Nat} (h : number g s k = number g s' k) :
    start s = start s' := by
  have h := congrArg (fun x : Nat => (x : ZMod modulus)) h
  simp only [number_cast] at h
  exact cast_inj (start_lt _) (start_lt _)
    (mul_left_cancel₀ (pow_ne_zero _ (factor_ne_zero hg)) h)

theorem number_shift {g : Nat} (hg : Factor g) (s s' : Nat) :
    ∃ d < modulus - 1, ∀ k, number g s' k = number g s (k + d) := by
  have hcard : Fintype.card (ZMod modulus)ˣ = modulus - 1 := ZMod.card_units modulus
  have htop : Subgroup.zpowers (unitOf hg) = ⊤ := by
    apply Subgroup.eq_top_of_card_eq
    rw [Nat.card_zpowers, unitOf_order, Nat.card_eq_fintype_card, hcard]
  let v : (ZMod modulus)ˣ := Units.mk0 _ (cast_ne_zero (start_pos s) (start_lt s))
  let v' : (ZMod modulus)ˣ := Units.mk0 _ (cast_ne_zero (start_pos s') (start_lt s'))
  have hm : v' * v⁻¹ ∈ Subgroup.zpowers (unitOf hg) := by rw [htop]; trivial
  obtain ⟨n, hn⟩ := Submonoid.mem_powers_iff _ _ |>.mp (mem_powers_iff_mem_zpowers.mpr hm)
  refine ⟨n % (modulus - 1), Nat.mod_lt _ (by decide), fun k => ?_⟩
  apply cast_inj (number_lt _ _ _) (number_lt _ _ _)
  rw [number_cast, number_cast]
  have hn' : unitOf hg ^ (n % (modulus - 1)) = v' * v⁻¹ := by
    rw [← hn, ← unitOf_order hg, pow_mod_orderOf]
  have hmul : unitOf hg ^ (n % (modulus - 1)) * v = v' := by rw [hn']; simp
  have hv : (g : ZMod modulus) ^ (n % (modulus - 1)) * start s = start s' := by
    have := congrArg Units.val hmul
    simpa [unitOf, v, v'] using this
  rw [← hv, Nat.add_right_comm, pow_add]
  ring

end Bx.Seed
