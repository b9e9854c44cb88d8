import Verif.Proofs.Merge
import Mathlib.Data.List.Sort
import Mathlib.Data.Rat.Cast.Order

/-! One implementation of the sorts, for the examples: insertion sorts. -/

namespace Bx.Merge

/-- Insertion sort by a key in a linear order. -/
def sortBy {α β : Type} [LinearOrder β] (key : α → β) (l : List α) : List α :=
  l.insertionSort fun a b => key a ≤ key b

theorem sortBy_perm {α β : Type} [LinearOrder β] (key : α → β) (l : List α) :
    (sortBy key l).Perm l := List.perm_insertionSort _ _

theorem sortBy_sorted {α β : Type} [LinearOrder β] (key : α → β) (l : List α) :
    (sortBy key l).Pairwise fun a b => key a ≤ key b := by
  have : Std.Total (fun a b : α => key a ≤ key b) := ⟨fun a b => le_total _ _⟩
  have : IsTrans α (fun a b : α => key a ≤ key b) := ⟨fun a b c h1 h2 => le_trans h1 h2⟩
  exact List.pairwise_insertionSort _ _

def stdSorts : Sorts where
  byId := sortBy Merged.id
  byVar := sortBy FunElem.var
  byCost f := sortBy fun e => - f e.var
  byRatio d := sortBy fun p => if d then - p.2 else p.2

theorem stdSorts_ok : stdSorts.Ok where
  byId_perm := sortBy_perm _
  byId_sorted := sortBy_sorted _
  byVar_perm := sortBy_perm _
  byVar_sorted := sortBy_sorted _
  byCost_perm _ := sortBy_perm _
  byCost_sorted f l := by
    refine (sortBy_sorted (fun e : FunElem => - f e.var) l).imp ?_
    intro a b h
    exact neg_le_neg_iff.mp h
  byRatio_perm _ := sortBy_perm _
  byRatio_sorted d l := by
    refine (sortBy_sorted (fun p : Nat × Rat => if d then - p.2 else p.2) l).imp ?_
    intro a b h
    cases d
    · simpa using h
    · simpa using h

end Bx.Merge
