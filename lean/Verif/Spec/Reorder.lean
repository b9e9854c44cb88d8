import Verif.Spec.Twice
import Verif.Spec.Grammar

/-!
# Terms in another order

The same constraints, with their terms written in another order.
-/

namespace Bx.Spec

/-- A constraint and the same one with its terms in another order. -/
def SameConstr (c d : Constr) : Prop := d = { c with elems := d.elems } ∧ d.elems.Perm c.elems

/-- No variable is twice in a constraint, as in a problem read from a file. -/
def DistinctTerms (raw : RawProblem) : Prop :=
  ∀ c ∈ raw.eqs ++ raw.ges ++ raw.les, (c.elems.map FunElem.var).Nodup

/-- The same problem, where the terms of each constraint are in another order. -/
structure SameConstrs (raw raw' : RawProblem) : Prop where
  rest : raw' = { raw with eqs := raw'.eqs, ges := raw'.ges, les := raw'.les }
  eqs : List.Forall₂ SameConstr raw.eqs raw'.eqs
  ges : List.Forall₂ SameConstr raw.ges raw'.ges
  les : List.Forall₂ SameConstr raw.les raw'.les

/-- Two constraints have the same terms in the same order in one problem when they have in the other. -/
def SameGroups (raw raw' : RawProblem) : Prop :=
  ∀ p ∈ (raw.eqs ++ raw.ges ++ raw.les).zip (raw'.eqs ++ raw'.ges ++ raw'.les),
    ∀ q ∈ (raw.eqs ++ raw.ges ++ raw.les).zip (raw'.eqs ++ raw'.ges ++ raw'.les),
    p.1.elems = q.1.elems ↔ p.2.elems = q.2.elems

/-- An objective and the same one with its terms in another order. -/
structure SameObjective (o o' : Objective) : Prop where
  linear : o'.elems.Perm o.elems
  products : o'.qelems.Perm o.qelems
  value : o'.value = o.value

end Bx.Spec

namespace Bx.Reorder

open Parser

/-- The file `g` is `f` with the terms of its constraints in another order, and all the variables are in the objective. -/
structure ReordersFile (ival : Token → Int) (f g : File) : Prop where
  rest : g = { f with cons := g.cons }
  cons : List.Forall₂ (fun c d => d = { c with terms := d.terms } ∧ (named ival d.terms).Perm (named ival c.terms))
    (f.cons.getD []) (g.cons.getD [])
  names : ∀ h ∈ [f, g], ∀ c ∈ h.cons.getD [], ∀ t ∈ c.terms, ∀ x, t.name = some x → x ∈ f.objNames

end Bx.Reorder
