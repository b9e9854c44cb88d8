import Verif.Spec.Grammar

/-! # Other names in a file: `φ` for the variables, `ψ` for the labels of the constraints. -/

namespace Bx.Parser

def Term.rename (φ : Token → Token) (t : Term) : Term := { t with name := t.name.map φ }

def QTerm.rename (φ : Token → Token) (t : QTerm) : QTerm :=
  { t with name := φ t.name, second := t.second.map φ }

def Quad.rename (φ : Token → Token) (q : Quad) : Quad := { q with terms := q.terms.map (QTerm.rename φ) }

def Group.rename (φ : Token → Token) (g : Group) : Group :=
  { quad := g.quad.rename φ, terms := g.terms.map (Term.rename φ) }

def Con.rename (φ ψ : Token → Token) (c : Con) : Con :=
  { c with label := c.label.map ψ, terms := c.terms.map (Term.rename φ) }

def BoundLine.rename (φ : Token → Token) : BoundLine → BoundLine
  | .upper x o b => .upper (φ x) o b
  | .both a o x o' b => .both a o (φ x) o' b

def File.rename (φ ψ : Token → Token) (f : File) : File :=
  { f with obj := f.obj.map (Term.rename φ), more := f.more.map (Group.rename φ)
           cons := f.cons.map (List.map (Con.rename φ ψ)), bounds := f.bounds.map (List.map (BoundLine.rename φ))
           binary := f.binary.map (List.map φ), general := f.general.map (List.map φ) }

/-- The problem read from a file, with other names; the label of a constraint without one stays empty. -/
def renameRead (φ ψ : Token → Token) (p : PProblem) : PProblem :=
  let label (c : Constr) : Constr :=
    { c with label := if c.label = "" then "" else String.ofList (ψ c.label.toList) }
  { p with names := p.names.map φ, eqs := p.eqs.map label, ges := p.ges.map label, les := p.les.map label }

end Bx.Parser
