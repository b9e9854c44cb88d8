import Verif.Spec.Twice

/-!
# Looser copies of constraints

A list of constraints where some of those already written are written again with a bound that they imply, under another
label, and where the constraints have other numbers.
-/

namespace Bx.Spec

/-- The second list is the first one, numbered by `φ`, with constraints `t` that have the terms of an earlier one and a
bound `w` in the relation `implied v w` with its bound `v`. -/
inductive Loosens (implied : Int → Int → Prop) (φ : Int → Int) : List Constr → List Constr → Prop
  | nil : Loosens implied φ [] []
  | new {l l' : List Constr} (c : Constr) (h : Loosens implied φ l l') :
      Loosens implied φ (l ++ [c]) (l' ++ [renumber φ c])
  | looser {l l' : List Constr} (c t : Constr) (h : Loosens implied φ l l') (hc : c ∈ l) (he : t.elems = c.elems)
      (hv : implied c.value t.value) : Loosens implied φ l (l' ++ [t])

/-- The same problem with looser copies: the same value for `=`, at most the bound for `>=` and at least the bound
for `<=`. -/
structure LoosensRaw (φ : Int → Int) (raw raw' : RawProblem) : Prop where
  type : raw'.type = raw.type
  objective : raw'.objective = raw.objective
  names : raw'.names = raw.names
  values : raw'.values = raw.values
  eqs : Loosens (fun v w => w = v) φ raw.eqs raw'.eqs
  ges : Loosens (fun v w => w ≤ v) φ raw.ges raw'.ges
  les : Loosens (fun v w => v ≤ w) φ raw.les raw'.les

end Bx.Spec
