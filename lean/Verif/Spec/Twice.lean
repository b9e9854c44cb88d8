import Verif.Basic

/-!
# Constraints written several times

A list of constraints where some of those already written are written again, under another label, and where
the constraints have other numbers.
-/

namespace Bx.Spec

def renumber (φ : Int → Int) (c : Constr) : Constr := { c with id := φ c.id }

/-- The second list is the first one, numbered by `φ`, with constraints `t` that repeat an earlier one. -/
inductive Repeats (φ : Int → Int) : List Constr → List Constr → Prop
  | nil : Repeats φ [] []
  | new {l l' : List Constr} (c : Constr) (h : Repeats φ l l') : Repeats φ (l ++ [c]) (l' ++ [renumber φ c])
  | again {l l' : List Constr} (c t : Constr) (h : Repeats φ l l') (hc : c ∈ l) (he : t.elems = c.elems)
      (hv : t.value = c.value) : Repeats φ l (l' ++ [t])

/-- The same problem with constraints written several times. -/
structure RepeatsRaw (φ : Int → Int) (raw raw' : RawProblem) : Prop where
  type : raw'.type = raw.type
  objective : raw'.objective = raw.objective
  names : raw'.names = raw.names
  values : raw'.values = raw.values
  eqs : Repeats φ raw.eqs raw'.eqs
  ges : Repeats φ raw.ges raw'.ges
  les : Repeats φ raw.les raw'.les

/-- The numbers of the constraints are distinct, as those of a problem read from a file. -/
def DistinctNumbers (eqs ges les : List Constr) : Prop := ((eqs ++ ges ++ les).map Constr.id).Nodup

end Bx.Spec
