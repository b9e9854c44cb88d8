import Verif.Model.Memory
import Verif.Spec.Memory
import Verif.Props.Writer
import Verif.Props.Preprocess
import Verif.Props.Utils
import Verif.Proofs.Rounded
import Verif.Proofs.Outcome

/-!
# C122: the sizes that are printed
-/

namespace Bx.Memory

open Spec Spec.Memory
open Parser (decimal digitChar natOf digitVal)

/-! ## Numbers of 53 digits -/

theorem _root_.Bx.Spec.binary_scale {p : Nat} (hp : 0 < p) {q : Rat} (h : 0 ≤ q) (k : Nat) :
    binary p (binary p q / 2 ^ k) = binary p q / 2 ^ k := by
  rcases eq_or_lt_of_le h with rfl | h
  · simp [binary_zero]
  have h2 : (2 : Rat) ≠ 0 := by norm_num
  have e : binary p q / 2 ^ k
      = (nearest (q / ulp p q) : Rat) * 2 ^ (Int.log 2 |q| + 1 - p - (k : Int)) := by
    unfold binary ulp
    rw [zpow_sub₀ h2 _ (k : Int), zpow_natCast, mul_div_assoc]
  rw [e]
  refine binary_grid hp ?_
  have hb := (binary_bounds hp h).2
  have h0 := binary_pos hp h
  have hu := ulp_pos p q
  have e2 : (2 : Rat) ^ (Int.log 2 |q| + 1) = ((2 ^ p : Int) : Rat) * ulp p q := by
    unfold ulp
    push_cast
    rw [← zpow_natCast, ← zpow_add₀ h2]
    congr 1
    omega
  rw [e2] at hb
  unfold binary at hb h0
  have h3 := le_of_mul_le_mul_right hb hu
  have h4 := pos_of_mul_pos_left h0 hu.le
  rw [abs_of_nonneg (by exact_mod_cast h4.le)]
  exact_mod_cast h3

/-- The size as a `double`. -/
abbrev dbl (n : Nat) : Rat := binary 53 n

theorem dbl_exact {n : Nat} (h : n ≤ 2 ^ 53) : dbl n = n := by
  have := binary_grid (p := 53) (by norm_num) (m := (n : Int)) (e := 0)
    (by rw [abs_of_nonneg (by positivity)]; exact_mod_cast h)
  simpa using this

theorem dbl_mono {n m : Nat} (h : n ≤ m) : dbl n ≤ dbl m :=
  binary_mono (by norm_num) (by exact_mod_cast h)

theorem dbl_nonneg (n : Nat) : 0 ≤ dbl n := by
  have := dbl_mono (Nat.zero_le n)
  rwa [dbl_exact (by norm_num)] at this

theorem dbl_gt {n k : Nat} (hk : k < 2 ^ 53) : (k : Rat) < dbl n ↔ k < n := by
  constructor
  · intro h
    by_contra hn
    have := dbl_mono (not_lt.mp hn)
    rw [dbl_exact hk.le] at this
    linarith
  · intro h
    have := dbl_mono (Nat.succ_le_of_lt h)
    rw [dbl_exact (by omega)] at this
    push_cast at this
    linarith

/-- The number of bytes of a unit. -/
def Unit.bytes : Unit → Nat
  | .gb => 2 ^ 30
  | .mb => 2 ^ 20
  | .kb => 2 ^ 10
  | .b => 1

/-- The unit of a size. -/
def unitOf (n : Nat) : Unit :=
  if 2 ^ 29 < n then .gb else if 2 ^ 19 < n then .mb else if 2 ^ 9 < n then .kb else .b

theorem consumedSize_eq (n : Nat) :
    consumedSize (binary 53) n = (dbl n / (unitOf n).bytes, unitOf n) := by
  have hn : (0 : Rat) ≤ n := by positivity
  have e1 : binary 53 (binary 53 (n : Rat) / 1024) = dbl n / 1024 := by
    have := binary_scale (p := 53) (by norm_num) hn 10
    norm_num at this; exact this
  have e2 : binary 53 (dbl n / 1024 / 1024) = dbl n / 2 ^ 20 := by
    have := binary_scale (p := 53) (by norm_num) hn 20
    rw [← this, div_div]; norm_num
  have e3 : binary 53 (dbl n / 2 ^ 20 / 1024) = dbl n / 2 ^ 30 := by
    have := binary_scale (p := 53) (by norm_num) hn 30
    rw [← this, div_div]; norm_num
  have g1 : dbl n / 2 ^ 30 > 1 / 2 ↔ 2 ^ 29 < n := by
    rw [← dbl_gt (n := n) (k := 2 ^ 29) (by norm_num), gt_iff_lt, lt_div_iff₀ (by norm_num)]
    norm_num
  have g2 : dbl n / 2 ^ 20 > 1 / 2 ↔ 2 ^ 19 < n := by
    rw [← dbl_gt (n := n) (k := 2 ^ 19) (by norm_num), gt_iff_lt, lt_div_iff₀ (by norm_num)]
    norm_num
  have g3 : dbl n / 1024 > 1 / 2 ↔ 2 ^ 9 < n := by
    rw [← dbl_gt (n := n) (k := 2 ^ 9) (by norm_num), gt_iff_lt, lt_div_iff₀ (by norm_num)]
    norm_num
  unfold consumedSize
  dsimp only
  rw [e1, e2, e3]
  simp only [g1, g2, g3]
  unfold unitOf
  split_ifs <;> norm_num [Unit.bytes]

/-- The hundredths that are printed. -/
def hundredths (n : Nat) : Nat := (nearest (100 * (dbl n / (unitOf n).bytes))).toNat

theorem text_eq (n : Nat) : text (binary 53) n = decimal (hundredths n / 100) ++
    '.' :: [digitChar (hundredths n / 10 % 10), digitChar (hundredths n % 10)] ++ (unitOf n).text := by
  unfold text toString
  rw [consumedSize_eq]
  rfl

theorem bytes_pos (u : Unit) : (0 : Rat) < u.bytes := by cases u <;> simp [Unit.bytes]

theorem nearest_nonneg {q : Rat} (h : 0 ≤ q) : 0 ≤ nearest q := by
  have := nearest_mono h
  rwa [show nearest (0 : Rat) = 0 from by simpa using nearest_int 0] at this

theorem scaled_nonneg (n : Nat) : 0 ≤ 100 * (dbl n / (unitOf n).bytes) :=
  mul_nonneg (by norm_num) (div_nonneg (dbl_nonneg n) (bytes_pos _).le)

theorem hundredths_cast (n : Nat) :
    ((hundredths n : Nat) : Rat) = (nearest (100 * (dbl n / (unitOf n).bytes)) : Int) := by
  unfold hundredths
  have := Int.toNat_of_nonneg (nearest_nonneg (scaled_nonneg n))
  exact_mod_cast congrArg (Int.cast : Int → Rat) this

/-! ## Reading the text -/

theorem digits_iff {c : Char} (h : Parser.digit c = true) : '0' ≤ c ∧ c ≤ '9' := by
  simp only [Parser.digit, List.contains_cons, List.contains_nil, Bool.or_false, Bool.or_eq_true,
    beq_iff_eq] at h
  rcases h with h | h | h | h | h | h | h | h | h | h <;> subst h <;> decide

theorem natOf_eq (t : List Char) :
    t.foldl (fun v c => 10 * v + (c.toNat - '0'.toNat)) 0 = natOf t := rfl

theorem digits_decimal (n : Nat) : Digits (decimal n) n :=
  ⟨Parser.decimal_ne n, fun c hc => digits_iff (Parser.decimal_digits n c hc),
    ((natOf_eq _).trans (Parser.natOf_decimal n)).symm⟩

theorem digits_two {a b : Nat} (ha : a < 10) (hb : b < 10) :
    Digits [digitChar a, digitChar b] (10 * a + b) := by
  refine ⟨by simp, ?_, ?_⟩
  · intro c hc
    simp only [List.mem_cons, List.not_mem_nil, or_false] at hc
    rcases hc with rfl | rfl
    · exact digits_iff (Parser.digitChar_digit ha)
    · exact digits_iff (Parser.digitChar_digit hb)
  · rw [natOf_eq]
    show 10 * a + b = 10 * (10 * 0 + digitVal (digitChar a)) + digitVal (digitChar b)
    rw [Parser.digitVal_digitChar ha, Parser.digitVal_digitChar hb]
    omega

theorem unit_text (u : Unit) : ∃ t, u.text = ' ' :: t ∧ (t, u.bytes) ∈ units := by
  cases u
  · exact ⟨"GB".toList, by decide, by simp [units, Unit.bytes]⟩
  · exact ⟨"MB".toList, by decide, by simp [units, Unit.bytes]⟩
  · exact ⟨"KB".toList, by decide, by simp [units, Unit.bytes]⟩
  · exact ⟨"B".toList, by decide, by simp [units, Unit.bytes]⟩

/-- The number of bytes that the text stands for. -/
def said (n : Nat) : Rat := (hundredths n : Rat) / 100 * (unitOf n).bytes

theorem says_said (n : Nat) : Says (text (binary 53) n) (said n) := by
  obtain ⟨u, hu, hm⟩ := unit_text (unitOf n)
  refine ⟨_, _, u, _, _, _, (text_eq n).trans (by rw [hu]), digits_decimal _,
    digits_two (Nat.mod_lt _ (by norm_num)) (Nat.mod_lt _ (by norm_num)), rfl, hm, ?_⟩
  unfold said
  congr 1
  generalize hundredths n = h
  have : h = 100 * (h / 100) + (10 * (h / 10 % 10) + h % 10) := by omega
  rw [div_eq_iff (by norm_num), add_mul, div_mul_cancel₀ _ (by norm_num)]
  have := congrArg (Nat.cast : Nat → Rat) this
  rw [this]
  push_cast
  ring

theorem digit_not {c : Char} {t : List Char} {n : Nat} (h : Digits t n) (hc : ¬ ('0' ≤ c ∧ c ≤ '9')) :
    c ∉ t := fun hm => hc (h.2.1 c hm)

theorem split_unique {α : Type} {c : α} : ∀ {a a' b b' : List α}, c ∉ a → c ∉ a' →
    a ++ c :: b = a' ++ c :: b' → a = a' ∧ b = b'
  | [], [], _, _, _, _, h => ⟨rfl, (List.cons.inj h).2⟩
  | [], x :: a', _, _, _, h', h => absurd (List.cons.inj h).1 fun e => h' (by simp [e])
  | x :: a, [], _, _, h', _, h => absurd (List.cons.inj h).1 fun e => h' (by simp [e])
  | x :: a, y :: a', b, b', h1, h2, h => by
    obtain ⟨e, h⟩ := List.cons.inj h
    obtain ⟨e1, e2⟩ := split_unique (fun hm => h1 (List.mem_cons_of_mem _ hm))
      (fun hm => h2 (List.mem_cons_of_mem _ hm)) h
    exact ⟨by rw [e, e1], e2⟩

/-- A text stands for one number of bytes. -/
theorem C122_one_reading {t : List Char} {v w : Rat} (hv : Says t v) (hw : Says t w) : v = w := by
  obtain ⟨a, b, u, n, m, k, ht, ha, hb, hl, hu, rfl⟩ := hv
  obtain ⟨a', b', u', n', m', k', ht', ha', hb', hl', hu', rfl⟩ := hw
  rw [ht] at ht'
  simp only [List.append_assoc, List.cons_append] at ht'
  obtain ⟨rfl, h⟩ := split_unique (digit_not ha (by decide)) (digit_not ha' (by decide)) ht'
  obtain ⟨rfl, rfl⟩ := split_unique (digit_not hb (by decide)) (digit_not hb' (by decide)) h
  have e1 : n = n' := ha.2.2.trans ha'.2.2.symm
  have e2 : m = m' := hb.2.2.trans hb'.2.2.symm
  have e3 : k = k' := by
    simp only [units, List.mem_cons, Prod.mk.injEq, List.not_mem_nil, or_false] at hu hu'
    rcases hu with ⟨rfl, rfl⟩ | ⟨rfl, rfl⟩ | ⟨rfl, rfl⟩ | ⟨rfl, rfl⟩ <;>
      rcases hu' with ⟨h, rfl⟩ | ⟨h, rfl⟩ | ⟨h, rfl⟩ | ⟨h, rfl⟩ <;>
      first | rfl | exact absurd h (by decide)
  rw [e1, e2, e3]

/-! ## The number -/

theorem half_unit (n : Nat) (h : unitOf n ≠ .b) : ((unitOf n).bytes : Rat) ≤ 2 * n := by
  revert h
  unfold unitOf
  split_ifs with h1 h2 h3 <;> intro h <;> simp only [Unit.bytes]
  · have : ((2 ^ 29 : Nat) : Rat) < n := by exact_mod_cast h1
    push_cast at this ⊢; linarith
  · have : ((2 ^ 19 : Nat) : Rat) < n := by exact_mod_cast h2
    push_cast at this ⊢; linarith
  · have : ((2 ^ 9 : Nat) : Rat) < n := by exact_mod_cast h3
    push_cast at this ⊢; linarith
  · exact absurd rfl h

theorem unit_b {n : Nat} : unitOf n = .b ↔ n ≤ 512 := by
  unfold unitOf
  split_ifs <;> simp <;> omega

theorem said_small {n : Nat} (h : n ≤ 512) : hundredths n = 100 * n ∧ said n = n := by
  have hu := unit_b.mpr h
  have h1 : hundredths n = 100 * n := by
    unfold hundredths
    rw [hu, dbl_exact (by omega)]
    have : (100 * ((n : Rat) / (Unit.b.bytes : Nat))) = ((100 * n : Int) : Rat) := by
      simp [Unit.bytes]
    rw [this, nearest_int]
    omega
  refine ⟨h1, ?_⟩
  unfold said
  rw [h1, hu]
  simp [Unit.bytes]

theorem said_near (n : Nat) : |said n - dbl n| ≤ (unitOf n).bytes / 200 := by
  have hw := bytes_pos (unitOf n)
  have h1 := nearest_ge (100 * (dbl n / (unitOf n).bytes))
  have h2 := nearest_le (100 * (dbl n / (unitOf n).bytes))
  rw [← hundredths_cast] at h1 h2
  unfold said
  generalize ((unitOf n).bytes : Rat) = w at *
  generalize (hundredths n : Rat) = h at *
  generalize hd : dbl n / w = q at *
  have e : dbl n = q * w := by rw [← hd, div_mul_cancel₀ _ hw.ne']
  rw [e, abs_le]
  constructor <;> nlinarith

/-- What is printed is within one hundredth of the size (and one more ten-thousandth for the sizes that
are not a `double`). -/
theorem C122_size_is_close (n : Nat) : ∃ v, Says (text (binary 53) n) v ∧
    |v - n| ≤ (n : Rat) * (101 / 10000) ∧ (n ≤ 2 ^ 53 → |v - n| ≤ (n : Rat) / 100) := by
  refine ⟨said n, says_said n, ?_⟩
  by_cases hu : unitOf n = .b
  · rw [(said_small (unit_b.mp hu)).2, sub_self, abs_zero]
    have : (0 : Rat) ≤ n := by positivity
    exact ⟨by positivity, fun _ => by positivity⟩
  · have h1 := said_near n
    have h2 := half_unit n hu
    have h3 := binary_error_abs 53 (n : Rat)
    have h0 : (0 : Rat) ≤ n := by positivity
    rw [abs_of_nonneg h0] at h3
    have h4 : |said n - n| ≤ |said n - dbl n| + |dbl n - n| := abs_sub_le _ _ _
    constructor
    · have : |binary 53 (n : Rat) - n| ≤ (n : Rat) / 10000 := by
        refine h3.trans ?_
        rw [div_mul_eq_mul_div, one_mul]
        exact div_le_div_of_nonneg_left h0 (by norm_num) (by norm_num)
      linarith
    · intro hn
      rw [dbl_exact hn] at h1
      linarith

/-- Up to 512 bytes the size is printed as it is. -/
theorem C122_small_sizes_are_exact {n : Nat} (h : n ≤ 512) :
    text (binary 53) n = decimal n ++ ".00 B".toList ∧ Says (text (binary 53) n) n := by
  obtain ⟨h1, h2⟩ := said_small h
  constructor
  · rw [text_eq, h1, unit_b.mpr h]
    have e1 : 100 * n / 100 = n := by omega
    have e2 : 100 * n / 10 % 10 = 0 := by omega
    have e3 : 100 * n % 10 = 0 := by omega
    rw [e1, e2, e3]
    simp [Unit.text, digitChar]
  · rw [← h2]; exact says_said n

theorem said_mono_same {n m : Nat} (h : n ≤ m) (hu : unitOf n = unitOf m) : said n ≤ said m := by
  unfold said
  rw [hundredths_cast, hundredths_cast, hu]
  have hw := bytes_pos (unitOf m)
  refine mul_le_mul_of_nonneg_right ?_ hw.le
  refine div_le_div_of_nonneg_right ?_ (by norm_num)
  have : nearest (100 * (dbl n / (unitOf m).bytes)) ≤ nearest (100 * (dbl m / (unitOf m).bytes)) :=
    nearest_mono (mul_le_mul_of_nonneg_left
      (div_le_div_of_nonneg_right (dbl_mono h) hw.le) (by norm_num))
  exact_mod_cast this

/-- The bounds of a unit are printed as they are, on both sides. -/
theorem said_le {n k : Nat} (hk : k < 2 ^ 53) (h : n ≤ k)
    (hi : ∃ i : Int, 100 * ((k : Rat) / (unitOf n).bytes) = i) : said n ≤ k := by
  obtain ⟨i, hi⟩ := hi
  have hw := bytes_pos (unitOf n)
  have h1 : nearest (100 * (dbl n / (unitOf n).bytes)) ≤ i := by
    rw [← nearest_int i, ← hi]
    refine nearest_mono (mul_le_mul_of_nonneg_left
      (div_le_div_of_nonneg_right ?_ hw.le) (by norm_num))
    rw [← dbl_exact hk.le]
    exact dbl_mono h
  unfold said
  rw [hundredths_cast]
  have h2 : ((nearest (100 * (dbl n / (unitOf n).bytes)) : Int) : Rat) ≤ 100 * ((k : Rat) / (unitOf n).bytes) := by
    rw [hi]; exact_mod_cast h1
  calc _ ≤ 100 * ((k : Rat) / (unitOf n).bytes) / 100 * (unitOf n).bytes := by
        refine mul_le_mul_of_nonneg_right (div_le_div_of_nonneg_right h2 (by norm_num)) hw.le
    _ = k := by field_simp

theorem le_said {n k : Nat} (hk : k < 2 ^ 53) (h : k ≤ n)
    (hi : ∃ i : Int, 100 * ((k : Rat) / (unitOf n).bytes) = i) : (k : Rat) ≤ said n := by
  obtain ⟨i, hi⟩ := hi
  have hw := bytes_pos (unitOf n)
  have h1 : i ≤ nearest (100 * (dbl n / (unitOf n).bytes)) := by
    rw [← nearest_int i, ← hi]
    refine nearest_mono (mul_le_mul_of_nonneg_left
      (div_le_div_of_nonneg_right ?_ hw.le) (by norm_num))
    rw [← dbl_exact hk.le]
    exact dbl_mono h
  unfold said
  rw [hundredths_cast]
  have h2 : 100 * ((k : Rat) / (unitOf n).bytes) ≤ ((nearest (100 * (dbl n / (unitOf n).bytes)) : Int) : Rat) := by
    rw [hi]; exact_mod_cast h1
  calc (k : Rat) = 100 * ((k : Rat) / (unitOf n).bytes) / 100 * (unitOf n).bytes := by field_simp
    _ ≤ _ := by
        refine mul_le_mul_of_nonneg_right (div_le_div_of_nonneg_right h2 (by norm_num)) hw.le

theorem said_mono {n m : Nat} (h : n ≤ m) : said n ≤ said m := by
  by_cases hu : unitOf n = unitOf m
  · exact said_mono_same h hu
  · obtain ⟨k, hk, hn, hm, h1, h2⟩ : ∃ k : Nat, k < 2 ^ 53 ∧ n ≤ k ∧ k ≤ m ∧
        (∃ i : Int, 100 * ((k : Rat) / (unitOf n).bytes) = i) ∧
        (∃ i : Int, 100 * ((k : Rat) / (unitOf m).bytes) = i) := by
      revert hu
      unfold unitOf
      split_ifs with a1 b1 b2 b3 a2 c1 c2 c3 a3 d1 d2 d3 e1 e2 e3 <;> intro hu <;>
        first
        | exact absurd rfl hu
        | omega
        | (refine ⟨2 ^ 19, by norm_num, by omega, by omega, ⟨100 * 2 ^ 9, ?_⟩, ⟨50, ?_⟩⟩ <;>
            norm_num [Unit.bytes] <;> done)
        | (refine ⟨2 ^ 29, by norm_num, by omega, by omega, ⟨100 * 2 ^ 9, ?_⟩, ⟨50, ?_⟩⟩ <;>
            norm_num [Unit.bytes] <;> done)
        | (refine ⟨2 ^ 9, by norm_num, by omega, by omega, ⟨100 * 2 ^ 9, ?_⟩, ⟨50, ?_⟩⟩ <;>
            norm_num [Unit.bytes] <;> done)
        | (refine ⟨2 ^ 29, by norm_num, by omega, by omega, ⟨100 * 2 ^ 19, ?_⟩, ⟨50, ?_⟩⟩ <;>
            norm_num [Unit.bytes] <;> done)
        | (refine ⟨2 ^ 19, by norm_num, by omega, by omega, ⟨100 * 2 ^ 19, ?_⟩, ⟨50, ?_⟩⟩ <;>
            norm_num [Unit.bytes] <;> done)
        | (refine ⟨2 ^ 29, by norm_num, by omega, by omega, ⟨100 * 2 ^ 29, ?_⟩, ⟨50, ?_⟩⟩ <;>
            norm_num [Unit.bytes] <;> done)
    exact (said_le hk hn h1).trans (le_said hk hm h2)

/-- A bigger size is never printed as a smaller one. -/
theorem C122_sizes_keep_their_order {n m : Nat} (h : n ≤ m) : ∃ v w,
    Says (text (binary 53) n) v ∧ Says (text (binary 53) m) w ∧ v ≤ w :=
  ⟨said n, said m, says_said n, says_said m, said_mono h⟩

/-! ## The size of a problem -/

/-- Without a string buffer `preprocess` and `unpreprocess` read through a null pointer, before anything
else is done with the problem. -/
theorem C122_without_strings_undefined (rnd : Rat → Rat) (z : SizeOf) (c copy : Capacities)
    (pb : RawProblem) : (∃ m, preprocess rnd z none c copy pb = .error (.ub m)) ∧
    ∃ m, unpreprocess rnd z none c pb = .error (.ub m) := ⟨⟨_, rfl⟩, ⟨_, rfl⟩⟩

/-- With a string buffer the messages change nothing to the result. -/
theorem C122_preprocess_with_strings_partial (rnd : Rat → Rat) (z : SizeOf) (nodes : Nat)
    (c copy : Capacities) (pb : RawProblem) :
    (preprocess rnd z (some nodes) c copy pb).map Prod.snd = Preprocess.preprocess pb ∧
    (unpreprocess rnd z (some nodes) c pb).map Prod.snd = .ok (Preprocess.unpreprocess pb) := by
  refine ⟨?_, rfl⟩
  unfold preprocess
  simp only [raw, problem, ok_bind]
  cases Preprocess.preprocess pb <;> rfl

/-- The message "Preprocessor finish" gives the size of the raw problem, which the message
"Preprocessing starts" has given: it does not tell what is left. -/
theorem C122_finish_repeats_the_size {rnd : Rat → Rat} {z : SizeOf} {strings : Option Nat}
    {c copy : Capacities} {pb : RawProblem} {l : List (List Char)} {p : Problem}
    (h : preprocess rnd z strings c copy pb = .ok (l, p)) : ∃ s t, l = [s, s, t] := by
  unfold preprocess at h
  simp only [bind_eq_ok] at h
  obtain ⟨a, ha, q, _, b, hb, d, _, h⟩ := h
  rw [ha] at hb
  cases hb
  cases h
  exact ⟨_, _, rfl⟩

theorem constraints_eq (z : SizeOf) (l : List Nat) :
    constraints z l = l.length * z.constraint + l.sum * z.element := by
  have : ∀ (l : List Nat) (s : Nat), l.foldl (fun size c => size + (z.constraint + c * z.element)) s
      = s + (l.length * z.constraint + l.sum * z.element) := by
    intro l
    induction l with
    | nil => intro s; simp
    | cons c l ih =>
      intro s
      rw [List.foldl_cons, ih]
      simp only [List.length_cons, List.sum_cons]
      ring
  exact (this l 0).trans (by simp)

/-- The size is that of every part of the problem: the strings by blocks of 1 MB, the objective, the
constraints and the variables. -/
theorem C122_size_counts_every_part (z : SizeOf) (nodes : Nat) (c : Capacities) :
    raw z (some nodes) c = .ok (z.problem + 2 ^ 20 * nodes + z.objective + z.vars +
      (c.objective * z.objElement + c.quadratic * z.quadElement + c.vars * z.varValue) +
      (c.equal.length + c.greater.length + c.less.length) * z.constraint +
      (c.equal.sum + c.greater.sum + c.less.sum) * z.element) := by
  unfold raw
  simp only [constraints_eq, Utils.nodeLength]
  congr 1
  ring

/-- The size of a preprocessed problem has in addition the affected variables, with one byte for each: their
names, 16 bytes for each view, are not counted. -/
theorem C122_size_counts_the_affected (z : SizeOf) (nodes : Nat) (c : Capacities) :
    problem z (some nodes) c = .ok (z.problem + 2 ^ 20 * nodes + z.objective + z.vars +
      (c.objective * z.objElement + c.quadratic * z.quadElement + c.vars * z.varValue) +
      (c.equal.length + c.greater.length + c.less.length) * z.constraint +
      (c.equal.sum + c.greater.sum + c.less.sum) * z.element + z.affected + c.affected) := by
  unfold problem
  rw [C122_size_counts_every_part, ok_bind, ← Nat.add_assoc]

/-- The buffer of a problem that has a name has a node. -/
theorem nodes_pos {strs : List (List Char)} (hs : strs ≠ []) :
    ∀ {b : Utils.Buffer} {b' vs}, b.appendAll strs = .ok (b', vs) → b'.nodes ≠ [] := by
  have step : ∀ {b : Utils.Buffer} {s r}, b.append s = .ok r → r.1.nodes ≠ [] := by
    intro b s r h
    have w : ∀ {b : Utils.Buffer}, b.write s = .ok r → r.1.nodes ≠ [] := by
      intro b h
      unfold Utils.Buffer.write at h
      split at h
      · cases h
      · split at h
        · cases h
        · cases h; simp
    unfold Utils.Buffer.append at h
    split at h <;> exact w h
  have keep : ∀ (l : List (List Char)) {b b' : Utils.Buffer} {vs}, b.nodes ≠ [] →
      b.appendAll l = .ok (b', vs) → b'.nodes ≠ [] := by
    intro l
    induction l with
    | nil => intro b b' vs hb h; cases h; exact hb
    | cons s l ih =>
      intro b b' vs hb h
      unfold Utils.Buffer.appendAll at h
      simp only [bind_eq_ok] at h
      obtain ⟨r, hr, q, hq, h⟩ := h
      cases h
      exact ih (step hr) hq
  intro b b' vs h
  cases strs with
  | nil => exact absurd rfl hs
  | cons s l =>
    unfold Utils.Buffer.appendAll at h
    simp only [bind_eq_ok] at h
    obtain ⟨r, hr, q, hq, h⟩ := h
    cases h
    exact keep l (step hr) hq

/-- A problem that was read, whose buffer holds at least the name of a variable, is never printed with
less than 1 MB, whatever its size. -/
theorem C122_at_least_one_block {z : SizeOf} {strs : List (List Char)} (hs : strs ≠ [])
    {b : Utils.Buffer} {vs : List Utils.View} (hb : Utils.Buffer.appendAll {} strs = .ok (b, vs))
    (c : Capacities) : ∃ n v, raw z (some b.nodes.length) c = .ok n ∧ 2 ^ 20 ≤ n ∧
      Says (text (binary 53) n) v ∧ (2 ^ 20 : Rat) ≤ v := by
  refine ⟨_, _, C122_size_counts_every_part z _ c, ?_, says_said _, ?_⟩
  · have := List.length_pos_iff.mpr (nodes_pos hs hb)
    have : 2 ^ 20 * 1 ≤ 2 ^ 20 * b.nodes.length := Nat.mul_le_mul_left _ this
    omega
  · have h1 : said (2 ^ 20) = 2 ^ 20 := by decide +kernel
    rw [← h1]
    refine said_mono ?_
    have := List.length_pos_iff.mpr (nodes_pos hs hb)
    have : 2 ^ 20 * 1 ≤ 2 ^ 20 * b.nodes.length := Nat.mul_le_mul_left _ this
    omega

/-! ## Examples -/

example : (text (binary 53) 0, text (binary 53) 512, text (binary 53) 513, text (binary 53) 1024,
    text (binary 53) 1049088, text (binary 53) 17179869696) =
    ("0.00 B".toList, "512.00 B".toList, "0.50 KB".toList, "1.00 KB".toList, "1.00 MB".toList,
      "16.00 GB".toList) := by decide +kernel

/-- 1.005 MB: the error is nearly the half of a hundredth. -/
example : text (binary 53) (2 ^ 20 + 5242) = "1.00 MB".toList ∧
    text (binary 53) (2 ^ 20 + 5243) = "1.01 MB".toList := by decide +kernel

/-- Two sizes that differ by 1% may have the same text. -/
example : text (binary 53) 513 = text (binary 53) 517 := by decide +kernel

/-- The sizes of the types of a 64-bit platform. -/
def exSizes : SizeOf := ⟨304, 48, 12, 64, 8, 64, 16, 16, 48⟩

/-- A hand-made problem: its string buffer is the null pointer (`core:673`), and the same calls are
defined once it has one. -/
example : (∃ m, preprocess (binary 53) exSizes none ⟨6, 6, 0, [3], [2], [3], 0⟩ ⟨4, 4, 0, [3], [], [], 2⟩
      Preprocess.exRaw = .error (.ub m)) ∧
    ∃ p, preprocess (binary 53) exSizes (some 1) ⟨6, 6, 0, [3], [2], [3], 0⟩ ⟨4, 4, 0, [3], [], [], 2⟩
      Preprocess.exRaw = .ok (["1.00 MB".toList, "1.00 MB".toList, "1.00 MB".toList], p) :=
  ⟨(C122_without_strings_undefined _ _ _ _ _).1, by
    have h := (C122_preprocess_with_strings_partial (binary 53) exSizes 1 ⟨6, 6, 0, [3], [2], [3], 0⟩
      ⟨4, 4, 0, [3], [], [], 2⟩ Preprocess.exRaw).1
    obtain ⟨p, hp⟩ : ∃ p, Preprocess.preprocess Preprocess.exRaw = .ok p := ⟨_, rfl⟩
    refine ⟨p, ?_⟩
    unfold preprocess
    rw [hp]
    simp only [raw, problem, ok_bind]
    have : ∀ a b : List (List Char), a = b →
      (Except.ok (a, p) : Outcome (List (List Char) × Problem)) = .ok (b, p) := fun _ _ h => by rw [h]
    exact this _ _ (by decide +kernel)⟩

/-- The names of two variables. -/
example : ∃ b vs n v, Utils.Buffer.appendAll {} [['x'], ['y']] = .ok (b, vs) ∧
    raw exSizes (some b.nodes.length) ⟨2, 2, 0, [2], [], [], 0⟩ = .ok n ∧
    Says (text (binary 53) n) v ∧ (2 ^ 20 : Rat) ≤ v := by
  obtain ⟨b, vs, hb, _⟩ := Utils.C55_views_stay_valid_partial [['x'], ['y']] (by decide)
  obtain ⟨n, v, h1, _, h2, h3⟩ := C122_at_least_one_block (z := exSizes) (by simp) hb
    ⟨2, 2, 0, [2], [], [], 0⟩
  exact ⟨b, vs, n, v, hb, h1, h2, h3⟩

end Bx.Memory
