import Verif.Spec.Rounding
import Mathlib.Tactic.Linarith
import Mathlib.Tactic.Positivity
import Mathlib.Tactic.FieldSimp
import Mathlib.Tactic.Ring
import Mathlib.Tactic.NormNum

/-! Helper lemmas: rounding to binary digits is a rounding. -/

namespace Bx.Spec

theorem Rounding.id : Rounding id := ⟨monotone_id, fun _ => rfl, rfl⟩

theorem Rounding.nonneg {rnd : Rat → Rat} (h : Rounding rnd) {q : Rat} (hq : 0 ≤ q) : 0 ≤ rnd q := by
  have := h.mono hq
  rwa [h.zero] at this

theorem nearest_cases (q : Rat) : (nearest q = ⌊q⌋ ∧ q - ⌊q⌋ ≤ 1 / 2) ∨
    (nearest q = ⌊q⌋ + 1 ∧ 1 / 2 ≤ q - ⌊q⌋) := by
  unfold nearest
  dsimp only
  split
  · rename_i h; exact .inl ⟨rfl, h.le⟩
  · rename_i h
    split
    · rename_i h'; exact .inr ⟨rfl, h'.le⟩
    · rename_i h'
      split
      · exact .inl ⟨rfl, not_lt.1 h'⟩
      · exact .inr ⟨rfl, not_lt.1 h⟩

theorem nearest_int (n : Int) : nearest n = n := by
  unfold nearest
  simp

theorem nearest_mono {a b : Rat} (h : a ≤ b) : nearest a ≤ nearest b := by
  have hf := Int.floor_le_floor h
  rcases lt_or_eq_of_le hf with hf | hf
  · rcases nearest_cases a with ⟨ha, _⟩ | ⟨ha, _⟩ <;> rcases nearest_cases b with ⟨hb, _⟩ | ⟨hb, _⟩ <;>
      omega
  · unfold nearest
    dsimp only
    rw [hf]
    split <;> split <;> try split
    all_goals try split
    all_goals first | omega | linarith

theorem nearest_neg (q : Rat) : nearest (-q) = -nearest q := by
  by_cases hi : (⌊q⌋ : Rat) = q
  · have h1 := nearest_int ⌊q⌋
    have h2 := nearest_int (-⌊q⌋)
    push_cast at h2
    rw [hi] at h1 h2
    rw [h1, h2]
  · have hlt : (⌊q⌋ : Rat) < q := lt_of_le_of_ne (Int.floor_le q) hi
    have hf : ⌊-q⌋ = -⌊q⌋ - 1 := by
      rw [Int.floor_eq_iff]
      push_cast
      have := Int.lt_floor_add_one q
      constructor <;> linarith
    unfold nearest
    dsimp only
    rw [hf]
    push_cast
    split <;> split <;> try split
    all_goals try split
    all_goals try split
    all_goals first | omega | (exfalso; linarith)

theorem ulp_pos (p : Nat) (q : Rat) : 0 < ulp p q := zpow_pos (by norm_num) _

theorem binary_zero (p : Nat) : binary p 0 = 0 := by
  unfold binary
  rw [zero_div]
  have := nearest_int 0
  push_cast at this
  rw [this]
  simp

theorem binary_neg (p : Nat) (q : Rat) : binary p (-q) = -binary p q := by
  unfold binary ulp
  rw [abs_neg, neg_div, nearest_neg]
  push_cast
  ring

/-- A positive number and its binade. -/
theorem binade {q : Rat} (h : 0 < q) :
    (2 : Rat) ^ Int.log 2 |q| ≤ q ∧ q < 2 ^ (Int.log 2 |q| + 1) := by
  rw [abs_of_pos h]
  constructor
  · have := Int.zpow_log_le_self (R := Rat) (b := 2) (by norm_num) h
    exact_mod_cast this
  · have := Int.lt_zpow_succ_log_self (R := Rat) (b := 2) (by norm_num) q
    exact_mod_cast this

theorem binary_bounds {p : Nat} (hp : 0 < p) {q : Rat} (h : 0 < q) :
    (2 : Rat) ^ Int.log 2 |q| ≤ binary p q ∧ binary p q ≤ 2 ^ (Int.log 2 |q| + 1) := by
  obtain ⟨h1, h2⟩ := binade h
  have hu := ulp_pos p q
  have e1 : (2 : Rat) ^ Int.log 2 |q| = ((2 ^ (p - 1) : Int) : Rat) * ulp p q := by
    unfold ulp
    push_cast
    rw [← zpow_natCast, ← zpow_add₀ (by norm_num)]
    congr 1
    omega
  have e2 : (2 : Rat) ^ (Int.log 2 |q| + 1) = ((2 ^ p : Int) : Rat) * ulp p q := by
    unfold ulp
    push_cast
    rw [← zpow_natCast, ← zpow_add₀ (by norm_num)]
    congr 1
    omega
  unfold binary
  constructor
  · rw [e1]
    refine mul_le_mul_of_nonneg_right ?_ hu.le
    have : ((2 ^ (p - 1) : Int) : Rat) ≤ q / ulp p q := by
      rw [le_div_iff₀ hu, ← e1]; exact h1
    have := nearest_mono this
    rw [nearest_int] at this
    exact_mod_cast this
  · rw [e2]
    refine mul_le_mul_of_nonneg_right ?_ hu.le
    have : q / ulp p q ≤ ((2 ^ p : Int) : Rat) := by
      rw [div_le_iff₀ hu, ← e2]; exact h2.le
    have := nearest_mono this
    rw [nearest_int] at this
    exact_mod_cast this

theorem binary_pos {p : Nat} (hp : 0 < p) {q : Rat} (h : 0 < q) : 0 < binary p q :=
  lt_of_lt_of_le (zpow_pos (by norm_num) _) (binary_bounds hp h).1

theorem binary_mono_pos {p : Nat} (hp : 0 < p) {a b : Rat} (ha : 0 < a) (h : a ≤ b) :
    binary p a ≤ binary p b := by
  have hb := lt_of_lt_of_le ha h
  have hl : Int.log 2 |a| ≤ Int.log 2 |b| := by
    rw [abs_of_pos ha, abs_of_pos hb]
    exact Int.log_mono_right ha h
  rcases lt_or_eq_of_le hl with hl | hl
  · calc binary p a ≤ 2 ^ (Int.log 2 |a| + 1) := (binary_bounds hp ha).2
      _ ≤ 2 ^ Int.log 2 |b| := zpow_le_zpow_right₀ (by norm_num) (by omega)
      _ ≤ binary p b := (binary_bounds hp hb).1
  · have hu : ulp p a = ulp p b := by unfold ulp; rw [hl]
    unfold binary
    rw [hu]
    refine mul_le_mul_of_nonneg_right ?_ (ulp_pos p b).le
    exact_mod_cast nearest_mono (div_le_div_of_nonneg_right h (ulp_pos p b).le)

theorem binary_mono {p : Nat} (hp : 0 < p) : Monotone (binary p) := by
  intro a b h
  rcases lt_trichotomy 0 a with ha | ha | ha
  · exact binary_mono_pos hp ha h
  · rw [← ha, binary_zero]
    rcases lt_or_eq_of_le (ha ▸ h) with hb | hb
    · exact (binary_pos hp hb).le
    · rw [← hb, binary_zero]
  · have hna : binary p a = -binary p (-a) := by rw [binary_neg]; ring
    have hpa := binary_pos hp (show 0 < -a by linarith)
    rcases lt_trichotomy 0 b with hb | hb | hb
    · have := binary_pos hp hb
      linarith
    · rw [← hb, binary_zero]; linarith
    · have := binary_mono_pos hp (show 0 < -b by linarith) (show -b ≤ -a by linarith)
      rw [binary_neg, binary_neg] at this
      linarith

theorem binary_idem_pos {p : Nat} (hp : 0 < p) {q : Rat} (h : 0 < q) :
    binary p (binary p q) = binary p q := by
  obtain ⟨h1, h2⟩ := binary_bounds hp h
  have hb := binary_pos hp h
  generalize hr : binary p q = r at *
  rcases lt_or_eq_of_le h2 with h2 | h2
  · have hlog : Int.log 2 |r| = Int.log 2 |q| := by
      have k1 := binade hb
      have a1 : Int.log 2 |q| < Int.log 2 |r| + 1 := by
        rw [← zpow_lt_zpow_iff_right₀ (a := (2 : Rat)) (by norm_num)]
        linarith [k1.2]
      have a2 : Int.log 2 |r| < Int.log 2 |q| + 1 := by
        rw [← zpow_lt_zpow_iff_right₀ (a := (2 : Rat)) (by norm_num)]
        linarith [k1.1]
      omega
    have hu : ulp p r = ulp p q := by unfold ulp; rw [hlog]
    have hd : r / ulp p q = (nearest (q / ulp p q) : Rat) := by
      rw [← hr]
      unfold binary
      rw [mul_div_assoc, div_self (ulp_pos p q).ne', mul_one]
    show (nearest (r / ulp p r) : Rat) * ulp p r = r
    rw [hu, hd, nearest_int, ← hd, div_mul_cancel₀ _ (ulp_pos p q).ne']
  · have hlog : Int.log 2 |r| = Int.log 2 |q| + 1 := by
      rw [abs_of_pos hb, h2]
      have := Int.log_zpow (R := Rat) (b := 2) (by norm_num) (Int.log 2 |q| + 1)
      exact_mod_cast this
    have hd : r / ulp p r = ((2 ^ (p - 1) : Int) : Rat) := by
      rw [div_eq_iff (ulp_pos p r).ne']
      unfold ulp
      rw [hlog]
      push_cast
      rw [← zpow_natCast, ← zpow_add₀ (by norm_num), h2]
      congr 1
      omega
    show (nearest (r / ulp p r) : Rat) * ulp p r = r
    rw [hd, nearest_int, ← hd, div_mul_cancel₀ _ (ulp_pos p r).ne']

theorem nearest_ge (q : Rat) : q - 1 / 2 ≤ nearest q := by
  rcases nearest_cases q with ⟨h, h'⟩ | ⟨h, h'⟩ <;> rw [h]
  · linarith
  · push_cast
    have := Int.lt_floor_add_one q
    linarith

theorem nearest_le (q : Rat) : (nearest q : Rat) ≤ q + 1 / 2 := by
  rcases nearest_cases q with ⟨h, h'⟩ | ⟨h, h'⟩ <;> rw [h]
  · have := Int.floor_le q
    linarith
  · push_cast
    linarith

/-- The relative error of a rounding to `p` binary digits. -/
theorem binary_error (p : Nat) {q : Rat} (h : 0 ≤ q) :
    q * (1 - 1 / 2 ^ p) ≤ binary p q ∧ binary p q ≤ q * (1 + 1 / 2 ^ p) := by
  rcases lt_or_eq_of_le h with h | h
  · have hu := ulp_pos p q
    have hul : ulp p q ≤ 2 * q * (1 / 2 ^ p) := by
      have h1 := (binade h).1
      have : ulp p q = 2 * 2 ^ Int.log 2 |q| * (1 / 2 ^ p) := by
        unfold ulp
        rw [zpow_sub₀ (by norm_num), zpow_add₀ (by norm_num), zpow_one, zpow_natCast]
        ring
      rw [this]
      refine mul_le_mul_of_nonneg_right (by linarith) (by positivity)
    have e : q = q / ulp p q * ulp p q := by rw [div_mul_cancel₀ _ hu.ne']
    have g1 := mul_le_mul_of_nonneg_right (nearest_ge (q / ulp p q)) hu.le
    have g2 := mul_le_mul_of_nonneg_right (nearest_le (q / ulp p q)) hu.le
    rw [sub_mul, ← e] at g1
    rw [add_mul, ← e] at g2
    unfold binary
    constructor <;> linarith
  · rw [← h, binary_zero]
    simp

/-- Rounding to `p` binary digits is a rounding. -/
theorem binary_rounding {p : Nat} (hp : 0 < p) : Rounding (binary p) := by
  refine ⟨binary_mono hp, fun q => ?_, binary_zero p⟩
  rcases lt_trichotomy 0 q with h | h | h
  · exact binary_idem_pos hp h
  · rw [← h, binary_zero, binary_zero]
  · have hq : q = -(-q) := by ring
    rw [hq, binary_neg, binary_neg, binary_idem_pos hp (show 0 < -q by linarith)]

end Bx.Spec
