import Mathlib.Algebra.Order.Ring.Rat
import Verif.Model.Compare
import Verif.Spec.Compare

/-!
# C58: the comparisons are strict weak orders
-/

namespace Bx.Compare

open Bx.Params (D)
open Bx.Spec (StrictWeakOrder)

/-- Asymmetry and "between" suffice. -/
theorem StrictWeakOrder.of {α : Type} {P : α → Prop} {less : α → α → Bool}
    (asymm : ∀ a b, P a → P b → less a b = true → less b a = false)
    (cotrans : ∀ a b c, P a → P b → P c → less a c = true → less a b = true ∨ less b c = true) :
    StrictWeakOrder P less where
  irrefl := by
    intro a ha
    cases h : less a a with
    | false => rfl
    | true => rw [asymm a a ha ha h] at h; exact absurd h (by simp)
  trans := by
    intro a b c ha hb hc h1 h2
    rcases cotrans a c b ha hc hb h1 with h | h
    · exact h
    · rw [asymm b c hb hc h2] at h; exact absurd h (by simp)
  incomp := by
    rintro a b c ha hb hc ⟨h1, h2⟩ ⟨h3, h4⟩
    constructor
    · cases h : less a c with
      | false => rfl
      | true => rcases cotrans a b c ha hb hc h with h | h <;> simp_all
    · cases h : less c a with
      | false => rfl
      | true => rcases cotrans c b a hc hb ha h with h | h <;> simp_all

theorem lt_asymm {a b : D} (h : a.lt b = true) : b.lt a = false := by
  cases a <;> cases b <;> simp_all [D.lt]
  exact le_of_lt h

theorem lt_cotrans {a b c : D} (hb : b ≠ .nan) (h : a.lt c = true) :
    a.lt b = true ∨ b.lt c = true := by
  cases a <;> cases c <;> cases b <;> simp_all [D.lt]
  rename_i p q r
  exact lt_or_ge p r |>.imp_right fun hr => lt_of_le_of_lt hr h

theorem isBetter_asymm {m : ObjType} {a b : D} (h : isBetter m a b = true) :
    isBetter m b a = false := by
  cases m <;> exact lt_asymm h

theorem isBetter_cotrans {m : ObjType} {a b c : D} (hb : b ≠ .nan) (h : isBetter m a c = true) :
    isBetter m a b = true ∨ isBetter m b c = true := by
  cases m
  · exact (lt_cotrans hb h).symm
  · exact lt_cotrans hb h

/-- C58: the comparison of two values ("is better") is a strict weak order on the numbers
and the infinities. -/
theorem C58_is_better_solution (m : ObjType) :
    StrictWeakOrder (fun v : D => v ≠ .nan) (isBetter m) :=
  StrictWeakOrder.of (fun _ _ _ _ => isBetter_asymm) fun _ _ _ _ hb _ => isBetter_cotrans hb

/-- C58: the sort of the reduced costs. -/
theorem C58_calculator_sort (m : ObjType) :
    StrictWeakOrder (fun v : D => v ≠ .nan) (calculatorLess m) := by
  cases m
  · exact C58_is_better_solution .maximize
  · exact C58_is_better_solution .minimize

/-- C58: the sort of the population. -/
theorem C58_storage_sort (m : ObjType) :
    StrictWeakOrder (fun e : Entry => e.value ≠ .nan) (storageLess m) := by
  apply StrictWeakOrder.of
  · intro a b _ _ h
    unfold storageLess at h ⊢
    split at h
    · rw [if_neg (by omega), if_neg (by omega)]
    · split at h
      · rename_i he
        rw [if_neg (by omega), if_pos he.symm, isBetter_asymm h]
      · exact absurd h (by simp)
  · intro a b c _ hb _ h
    unfold storageLess at h ⊢
    split at h
    · by_cases h1 : a.remaining < b.remaining
      · left; rw [if_pos h1]
      · right; rw [if_pos (by omega)]
    · split at h
      · rename_i he
        rcases lt_trichotomy a.remaining b.remaining with h1 | h1 | h1
        · left; rw [if_pos h1]
        · rcases isBetter_cotrans hb h with h2 | h2
          · left; rw [if_neg (by omega), if_pos h1, h2]
          · right; rw [if_neg (by omega), if_pos (by omega), h2]
        · right; rw [if_pos (by omega)]
      · exact absurd h (by simp)

/-- C58: the comparison of raw results. -/
theorem C58_raw_result_compare (m : ObjType) :
    StrictWeakOrder (fun e : Entry => e.value ≠ .nan) (rawLess m) := by
  apply StrictWeakOrder.of
  · intro a b _ _ h
    unfold rawLess at h ⊢
    split at h
    · rename_i he
      rw [if_pos ⟨he.2, he.1⟩, isBetter_asymm h]
    · rename_i he
      rw [if_neg fun h' => he ⟨h'.2, h'.1⟩]
      simp only [decide_eq_true_eq, decide_eq_false_iff_not] at h ⊢
      omega
  · intro a b c _ hb _ h
    unfold rawLess at h ⊢
    split at h
    · rename_i he
      by_cases h0 : b.remaining = 0
      · rcases isBetter_cotrans hb h with h2 | h2
        · left; rw [if_pos ⟨he.1, h0⟩, h2]
        · right; rw [if_pos ⟨h0, he.2⟩, h2]
      · rw [if_neg (by omega), if_neg (by omega)]
        simp only [decide_eq_true_eq]
        omega
    · rename_i he
      simp only [decide_eq_true_eq] at h
      by_cases h1 : a.remaining < b.remaining
      · left
        rw [if_neg (by omega)]
        simpa using h1
      · right
        rw [if_neg (by omega)]
        simp only [decide_eq_true_eq]
        omega

/-- C58: the comparison of the nodes of the branch optimizer, which all have the same
objective type. -/
theorem C58_node_result_compare (t : ObjType) :
    StrictWeakOrder (fun n : Node => n.type = t ∧ n.solution ≠ .nan) nodeLess := by
  have he : ∀ a b : Node, a.type = t → nodeLess a b =
      if a.remaining = 0 then if b.remaining = 0 then isBetter t a.solution b.solution else true
      else if b.remaining = 0 then false else decide (a.remaining < b.remaining) := by
    rintro a b rfl
    unfold nodeLess isBetter
    cases a.type <;> rfl
  apply StrictWeakOrder.of
  · rintro a b ⟨ha, _⟩ ⟨hb, _⟩ h
    rw [he a b ha] at h
    rw [he b a hb]
    by_cases h1 : a.remaining = 0 <;> by_cases h2 : b.remaining = 0 <;>
      simp only [h1, h2, if_true, if_false] at h ⊢
    · exact isBetter_asymm h
    · simp at h
    · simp only [decide_eq_true_eq, decide_eq_false_iff_not] at h ⊢
      omega
  · rintro a b c ⟨ha, _⟩ ⟨hb, hn⟩ ⟨hc, _⟩ h
    rw [he a c ha] at h
    rw [he a b ha, he b c hb]
    by_cases h1 : a.remaining = 0 <;> by_cases h2 : b.remaining = 0 <;>
      by_cases h3 : c.remaining = 0 <;>
      simp only [h1, h2, h3, if_true, if_false] at h ⊢ <;> try simp
    · exact isBetter_cotrans hn h
    · simp at h
    · simp at h
    · simp only [decide_eq_true_eq] at h
      omega

/-- C58: `operator<` of solutions. -/
theorem C58_solution_less : StrictWeakOrder (fun v : D => v ≠ .nan) solutionLess :=
  C58_is_better_solution .maximize

/-- C58: `operator<` of the elements of constraints and objectives. -/
theorem C58_element_less : StrictWeakOrder (fun _ : Nat => True) elementLess := by
  apply StrictWeakOrder.of
  · intro a b _ _ h
    simp only [elementLess, decide_eq_true_eq, decide_eq_false_iff_not] at h ⊢
    omega
  · intro a b c _ _ _ h
    simp only [elementLess, decide_eq_true_eq] at h ⊢
    omega

/-- The sorts put first what the claim calls better: fewer unsatisfied constraints, then
the better value. -/
theorem C58_storage_order (m : ObjType) (a b : Entry) :
    storageLess m a b = true ↔ a.remaining < b.remaining ∨
      (a.remaining = b.remaining ∧ isBetter m a.value b.value = true) := by
  unfold storageLess
  split
  · rename_i h; simp [h]
  · rename_i h
    split
    · rename_i he; simp [he]
    · rename_i he; simp [h, he]

/-- C58: the better of two numbers is the smaller one when minimizing and the larger one
when maximizing. -/
theorem C58_better_value (p q : Rat) :
    (isBetter .minimize (.fin p) (.fin q) = true ↔ p < q) ∧
    (isBetter .maximize (.fin p) (.fin q) = true ↔ q < p) := by
  simp [isBetter, D.lt]

/-- The hypothesis on NaN is necessary: with NaN the sort of the population is not a
strict weak order. -/
theorem C58_nan_is_not_ordered : ¬ StrictWeakOrder (fun _ : Entry => True) (storageLess .minimize) := by
  intro h
  have := (h.incomp ⟨0, .fin 1⟩ ⟨0, .nan⟩ ⟨0, .fin 2⟩ trivial trivial trivial
    (by decide +kernel) (by decide +kernel)).1
  revert this
  decide +kernel

example : storageLess .maximize ⟨0, .fin 3⟩ ⟨0, .fin 2⟩ = true ∧
    storageLess .maximize ⟨1, .fin 3⟩ ⟨0, .ninf⟩ = false ∧
    nodeLess ⟨.minimize, 0, .fin 3⟩ ⟨.minimize, 2, .fin 1⟩ = true ∧
    rawLess .minimize ⟨0, .fin 3⟩ ⟨0, .pinf⟩ = true := by decide +kernel

end Bx.Compare
