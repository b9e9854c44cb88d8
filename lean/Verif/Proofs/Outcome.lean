import Verif.Basic

/-! Simplification lemmas for outcomes. -/

namespace Bx

@[simp] theorem check_true (w : String) : check true w = .ok () := rfl

theorem check_of {c : Bool} (h : c = true) (w : String) : check c w = .ok () := by
  subst h; rfl

@[simp] theorem check_eq_ok {c : Bool} {w : String} {u : Unit} :
    check c w = .ok u ↔ c = true := by
  cases c <;> simp [check]

@[simp] theorem ok_bind {α β : Type} (a : α) (f : α → Outcome β) :
    ((Except.ok a : Outcome α) >>= f) = f a := rfl

@[simp] theorem error_bind {α β : Type} (e : Fault) (f : α → Outcome β) :
    ((Except.error e : Outcome α) >>= f) = .error e := rfl

@[simp] theorem pure_eq_ok {α : Type} (a : α) : (pure a : Outcome α) = .ok a := rfl

theorem bind_eq_ok {α β : Type} {m : Outcome α} {f : α → Outcome β} {b : β} :
    (m >>= f) = .ok b ↔ ∃ a, m = .ok a ∧ f a = .ok b := by
  cases m <;> simp

end Bx
