import Verif.Basic

/-!
# Specification: 0-1 linear problems

What it means for a 0-1 assignment to satisfy a problem, and the value of an
objective function, written directly on the data, with no function of the
code.
-/

namespace Bx.Spec

/-- A 0-1 assignment of the variables, by index. -/
abbrev Assign := Nat → Bool

/-- Left-hand side of a constraint: the sum of the factors of the variables
at 1. -/
def lhs (x : Assign) (es : List FunElem) : Int :=
  (es.map fun e => if x e.var then e.factor else 0).sum

/-- `x` satisfies every equality, `>=` and `<=` constraint of the lists. -/
def Satisfies (eqs ges les : List Constr) (x : Assign) : Prop :=
  (∀ c ∈ eqs, lhs x c.elems = c.value) ∧
  (∀ c ∈ ges, lhs x c.elems ≥ c.value) ∧
  (∀ c ∈ les, lhs x c.elems ≤ c.value)

instance (eqs ges les : List Constr) (x : Assign) :
    Decidable (Satisfies eqs ges les x) := by
  unfold Satisfies; infer_instance

/-- `x` respects the bounds that fix a variable: a variable whose bounds are
equal is 0 when they are 0 and 1 otherwise. -/
def RespectsFixed (vals : List VarValue) (x : Assign) : Prop :=
  ∀ i v, vals[i]? = some v → v.min = v.max → x i = decide (v.max ≠ 0)

/-- A solution of a raw problem. -/
def IsSolution (pb : RawProblem) (x : Assign) : Prop :=
  Satisfies pb.eqs pb.ges pb.les x ∧ RespectsFixed pb.values x

/-- Value of an objective function: constant, linear part, quadratic part. -/
def objective (o : Objective) (x : Assign) : Rat :=
  o.value + (o.elems.map fun e => if x e.var then e.factor else 0).sum
    + (o.qelems.map fun e => if x e.a && x e.b then e.factor else 0).sum

/-- `a` is at least as good as `b` for the given direction. -/
def AtLeastAsGood (t : ObjType) (a b : Rat) : Prop :=
  match t with
  | .maximize => b ≤ a
  | .minimize => a ≤ b

/-- Every variable index used by the constraints and the objective is below
`n`, and no constraint and no linear objective names a variable twice. -/
structure WellFormed (o : Objective) (eqs ges les : List Constr) (n : Nat) :
    Prop where
  eqs_lt : ∀ c ∈ eqs, ∀ e ∈ c.elems, e.var < n
  ges_lt : ∀ c ∈ ges, ∀ e ∈ c.elems, e.var < n
  les_lt : ∀ c ∈ les, ∀ e ∈ c.elems, e.var < n
  obj_lt : ∀ e ∈ o.elems, e.var < n
  quad_lt : ∀ e ∈ o.qelems, e.a < n ∧ e.b < n
  eqs_nodup : ∀ c ∈ eqs, (c.elems.map FunElem.var).Nodup
  ges_nodup : ∀ c ∈ ges, (c.elems.map FunElem.var).Nodup
  les_nodup : ∀ c ∈ les, (c.elems.map FunElem.var).Nodup
  obj_nodup : (o.elems.map ObjElem.var).Nodup

/-- A well formed raw problem: as many values as names, distinct names. -/
structure WellFormedRaw (pb : RawProblem) : Prop where
  wf : WellFormed pb.objective pb.eqs pb.ges pb.les pb.values.length
  names_len : pb.names.length = pb.values.length
  names_nodup : pb.names.Nodup

/-- The assignment of the raw variables that a list of (name, value) pairs
stands for. -/
def Names (names : List String) (pairs : List (String × Bool)) (x : Assign) :
    Prop :=
  ∀ i n, names[i]? = some n → (n, x i) ∈ pairs

/-- The (name, value) pairs of an assignment of a problem: its own variables,
then those already affected. -/
def pairsOf (red : Problem) (y : Assign) : List (String × Bool) :=
  (red.names.zipIdx.map fun p => (p.1, y p.2)) ++
  red.affected.names.zip (red.affected.values.map fun v => decide (v ≠ 0))

/-- `y` is `x` restricted to the variables of `red`, variables being identified
by their names. -/
def Restricts (names redNames : List String) (x y : Assign) : Prop :=
  ∀ i j n, names[i]? = some n → redNames[j]? = some n → y j = x i

end Bx.Spec
