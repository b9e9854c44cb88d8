/-!
# Specification: strict weak orders
-/

namespace Bx.Spec

/-- The requirements of `std::sort` on a comparison, for the elements that satisfy `P`:
irreflexive, transitive, and "neither is less than the other" is transitive. -/
structure StrictWeakOrder {α : Type} (P : α → Prop) (less : α → α → Bool) : Prop where
  irrefl : ∀ a, P a → less a a = false
  trans : ∀ a b c, P a → P b → P c → less a b = true → less b c = true → less a c = true
  incomp : ∀ a b c, P a → P b → P c →
    (less a b = false ∧ less b a = false) → (less b c = false ∧ less c b = false) →
    less a c = false ∧ less c a = false

end Bx.Spec
