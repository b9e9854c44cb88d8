import Verif.Model.Writer
import Verif.Spec.Grammar

/-!
# Specification: the same problem with other numbers

Two problems are the same when they differ only by the numbering of the variables and of the
constraints and by terms with a factor 0.
-/

namespace Bx.Parser

open Params (D)

/-- The terms of an objective, by name. -/
def PProblem.objTerms (p : PProblem) (l : List PElem) : List (D × Option Token) :=
  l.map fun e => (e.factor, p.names[e.var]?)

/-- The terms of a constraint, by name. -/
def PProblem.conTerms (p : PProblem) (l : List FunElem) : List (Int × Option Token) :=
  l.map fun e => (e.factor, p.names[e.var]?)

/-- The constraints `c` of `p` and `d` of `q` are the same, but for the terms of `c` with a
factor 0. -/
structure SameConstr (p q : PProblem) (c d : Constr) : Prop where
  label : d.label = c.label
  terms : q.conTerms d.elems = p.conTerms (c.elems.filter fun e => e.factor ≠ 0)
  value : d.value = c.value

/-- The problem `q` is `p` without the terms with a factor 0, up to the numbering. -/
structure SameProblem (p q : PProblem) : Prop where
  type : q.type = p.type
  obj : q.objTerms q.elems = p.objTerms (p.elems.filter fun e => e.factor ≠ .fin 0)
  quad : p.qelems = [] ∧ q.qelems = []
  value : q.value = p.value
  eqs : List.Forall₂ (SameConstr p q) p.eqs q.eqs
  ges : List.Forall₂ (SameConstr p q) p.ges q.ges
  les : List.Forall₂ (SameConstr p q) p.les q.les
  names : q.names.Perm p.names
  vars : (q.names.zip q.values).Perm (p.names.zip p.values)

/-- A character of a number. -/
def numChar (c : Char) : Bool := digit c || c == '.' || c == 'e' || c == 'E'

/-- The text `w` is a number that is read as `q`. -/
structure NumText (scan : Token → Option D) (w : Token) (q : Rat) : Prop where
  first : ∃ c t, w = c :: t ∧ (digit c || c == '.') = true
  chars : ∀ c ∈ w, numChar c = true
  value : scan w = some (.fin q)
  short : w.length < 320

/-- A name that the lexer does not cut: its first character is not that of a number. -/
def PlainFirst (n : Token) : Prop := ∀ c ∈ n.head?, digit c = false ∧ c ≠ '.'

/-- A problem that can be written and read: it is well formed, without quadratic terms, each
variable has a name that can be read and occurs with a factor other than 0, the numbers are
written without the sign of an exponent, the lower bounds are 0 and the binary variables go from
0 to 1. -/
structure Writable (scan : Token → Option D) (num : Rat → List Char) (p : PProblem) : Prop where
  names_len : p.names.length = p.values.length
  names_nodup : p.names.Nodup
  names_some : p.names ≠ []
  names_few : (p.names.length : Int) ≤ intMax
  names : ∀ n ∈ p.names, NameOk scan n ∧ PlainFirst n
  obj_lt : ∀ e ∈ p.elems, e.var < p.names.length
  obj_nodup : (p.elems.map PElem.var).Nodup
  obj : ∀ e ∈ p.elems, ∃ q, e.factor = .fin q ∧ (q ≠ 0 → NumText scan (num |q|) |q|)
  quad : p.qelems = []
  value : ∃ q, p.value = .fin q ∧ (q ≠ 0 → NumText scan (num |q|) |q|)
  con_few : (p.constraints.length : Int) ≤ intMax
  con_lt : ∀ c ∈ p.constraints, ∀ e ∈ c.elems, e.var < p.names.length
  con_nodup : ∀ c ∈ p.constraints, (c.elems.map FunElem.var).Nodup
  con_some : ∀ c ∈ p.constraints, ∃ e ∈ c.elems, e.factor ≠ 0
  con_sum : ∀ c ∈ p.constraints, (c.elems.map fun e => |e.factor|).sum ≤ intMax
  con_value : ∀ c ∈ p.constraints, |c.value| ≤ intMax
  labels : ∀ c ∈ p.constraints, c.label ≠ "" →
    NameOk scan c.label.toList ∧ PlainFirst c.label.toList
  used : ∀ i < p.names.length, (∃ e ∈ p.elems, e.var = i ∧ e.factor ≠ .fin 0) ∨
    ∃ c ∈ p.constraints, ∃ e ∈ c.elems, e.var = i ∧ e.factor ≠ 0
  bounds : ∀ x ∈ p.names.zip p.values, x.2.min = 0 ∧ |x.2.max| ≤ intMax ∧
    (x.2.max = intMax ∨ ¬ LikeNumber x.1) ∧ (x.2.type = .binary → x.2.max = 1)

end Bx.Parser
