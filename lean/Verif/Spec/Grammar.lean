import Verif.Spec.Parser

/-!
# Specification: the meaning of a problem file

A file of the LP format, as a tree: its tokens, and the problem that it denotes.
-/

namespace Bx.Parser

open Params (D)

/-! ## Lists of terms -/

/-- The first occurrences. -/
def firsts {α : Type} [DecidableEq α] (l : List α) : List α :=
  l.foldl (fun acc x => if x ∈ acc then acc else acc ++ [x]) []

/-- The terms of a sum: each name once, in the order of the first occurrences, with the sum of
its factors. -/
def collect {R : Type} [Add R] [Zero R] (l : List (Token × R)) : List (Token × R) :=
  (firsts (l.map Prod.fst)).map fun n => (n, ((l.filter fun x => x.1 = n).map Prod.snd).sum)

/-- The product of two variables is that of the variables in the other order. -/
def samePair (x y : Token × Token) : Bool := x = y || x = (y.2, y.1)

/-- The first occurrences of pairs, whatever the order of their variables. -/
def firstPairs (l : List (Token × Token)) : List (Token × Token) :=
  l.foldl (fun acc x => if acc.any (samePair x) then acc else acc ++ [x]) []

/-- The products of a sum: each pair of variables once, as it was first written, with the sum
of its factors. -/
def collectPairs (l : List ((Token × Token) × Rat)) : List ((Token × Token) × Rat) :=
  (firstPairs (l.map Prod.fst)).map fun p =>
    (p, ((l.filter fun x => samePair x.1 p).map Prod.snd).sum)

/-! ## Trees -/

/-- A number with its sign; `some true` is `-`. -/
structure Number where
  sign : Option Bool
  num : Token
  deriving DecidableEq, Repr

/-- A term: a sign, a number and a name.  A term without a name is a constant. -/
structure Term where
  sign : Option Bool
  num : Option Token
  name : Option Token
  deriving DecidableEq, Repr

/-- A quadratic term: a sign, a number, a name, and a second name for a product; without one it
is a square. -/
structure QTerm where
  sign : Option Bool
  num : Option Token
  name : Token
  second : Option Token
  deriving DecidableEq, Repr

/-- The quadratic part of the objective, between brackets and divided by two.  `apart` says
whether there is a blank in `/ 2`. -/
structure Quad where
  sign : Option Bool
  terms : List QTerm
  apart : Bool
  deriving DecidableEq, Repr

/-- A quadratic part and the other terms that follow it. -/
structure Group where
  quad : Quad
  terms : List Term
  deriving DecidableEq, Repr

/-- The operators, as they can be written. -/
inductive OpWord where
  | lt | le | el | gt | ge | eg | eq | ee
  deriving DecidableEq, Repr

/-- A constraint. -/
structure Con where
  label : Option Token
  terms : List Term
  op : OpWord
  value : Number
  deriving DecidableEq, Repr

/-- A line of the bounds: `x <= b` or `a <= x <= b`. -/
inductive BoundLine where
  | upper (name : Token) (op : OpWord) (b : Number)
  | both (a : Number) (op : OpWord) (name : Token) (op' : OpWord) (b : Number)
  deriving DecidableEq, Repr

/-- A file; a section can be absent.  The objective is made of terms, then of quadratic parts that
other terms can follow. -/
structure File where
  type : ObjType
  label : Option Token
  obj : List Term
  more : List Group := []
  cons : Option (List Con)
  bounds : Option (List BoundLine)
  binary : Option (List Token)
  general : Option (List Token)
  deriving DecidableEq, Repr

/-! ## Tokens -/

/-- The tokens of a sign. -/
def signTokens : Option Bool → List Token
  | none => []
  | some false => [['+']]
  | some true => [['-']]

/-- The tokens of a number. -/
def Number.tokens (n : Number) : List Token := signTokens n.sign ++ [n.num]

/-- The tokens of a term. -/
def Term.tokens (t : Term) : List Token := signTokens t.sign ++ t.num.toList ++ t.name.toList

/-- The tokens of a quadratic term. -/
def QTerm.tokens (t : QTerm) : List Token :=
  signTokens t.sign ++ t.num.toList ++ t.name :: (match t.second with
    | none => [['^'], ['2']]
    | some y => [['*'], y])

/-- The tokens of a quadratic part. -/
def Quad.tokens (q : Quad) : List Token :=
  signTokens q.sign ++ ['['] :: (q.terms.flatMap QTerm.tokens ++ [']'] ::
    if q.apart then [['/'], ['2']] else [['/', '2']])

/-- The tokens of a group. -/
def Group.tokens (g : Group) : List Token := g.quad.tokens ++ g.terms.flatMap Term.tokens

/-- The tokens of an objective. -/
def objTokens (ts : List Term) (gs : List Group) : List Token :=
  ts.flatMap Term.tokens ++ gs.flatMap Group.tokens

/-- The tokens of an operator. -/
def OpWord.tokens : OpWord → List Token
  | .lt => [['<']]
  | .le => [['<'], ['=']]
  | .el => [['='], ['<']]
  | .gt => [['>']]
  | .ge => [['>'], ['=']]
  | .eg => [['='], ['>']]
  | .eq => [['=']]
  | .ee => [['='], ['=']]

/-- The tokens of a label. -/
def labelTokens : Option Token → List Token
  | none => []
  | some l => [l, [':']]

/-- The tokens of a constraint. -/
def Con.tokens (c : Con) : List Token :=
  labelTokens c.label ++ c.terms.flatMap Term.tokens ++ c.op.tokens ++ c.value.tokens

/-- The tokens of a line of the bounds. -/
def BoundLine.tokens : BoundLine → List Token
  | .upper x op b => x :: (op.tokens ++ b.tokens)
  | .both a op x op' b => a.tokens ++ op.tokens ++ x :: (op'.tokens ++ b.tokens)

/-- The tokens of a section. -/
def sectionTokens {α : Type} (head : List Token) (f : α → List Token) : Option (List α) → List Token
  | none => []
  | some l => head ++ l.flatMap f

/-- The word of the objective. -/
def typeWord : ObjType → Token
  | .maximize => "maximize".toList
  | .minimize => "minimize".toList

/-- The tokens of a file. -/
def File.tokens (f : File) : List Token :=
  typeWord f.type :: (labelTokens f.label ++ objTokens f.obj f.more ++
    (sectionTokens ["subject".toList, "to".toList] Con.tokens f.cons ++
    (sectionTokens ["bounds".toList] BoundLine.tokens f.bounds ++
    (sectionTokens ["binary".toList] (fun n => [n]) f.binary ++
    (sectionTokens ["general".toList] (fun n => [n]) f.general ++ ["end".toList])))))

/-! ## Meaning -/

/-- The sign of a number. -/
def signOf {R : Type} [One R] [Neg R] : Option Bool → R
  | some true => -1
  | _ => 1

/-- The value of a number; `val` is the value of a number without a sign. -/
def Number.value {R : Type} [One R] [Neg R] [Mul R] (val : Token → R) (n : Number) : R :=
  signOf n.sign * val n.num

/-- The factor of a term. -/
def Term.factor {R : Type} [One R] [Neg R] [Mul R] (val : Token → R) (t : Term) : R :=
  signOf t.sign * (match t.num with
    | none => 1
    | some n => val n)

/-- The terms with a name. -/
def named {R : Type} [One R] [Neg R] [Mul R] (val : Token → R) (ts : List Term) :
    List (Token × R) :=
  ts.filterMap fun t => t.name.map fun n => (n, t.factor val)

/-- The sum of the constants. -/
def constant (val : Token → Rat) (ts : List Term) : Rat :=
  ((ts.filter fun t => t.name = none).map fun t => t.factor val).sum

/-- The meaning of an operator. -/
def OpWord.op : OpWord → Op
  | .lt | .le | .el => .less
  | .gt | .ge | .eg => .greater
  | .eq | .ee => .equal

/-- The two names of a quadratic term; those of a square are the same. -/
def QTerm.pair (t : QTerm) : Token × Token := (t.name, t.second.getD t.name)

/-- The factor of a quadratic term. -/
def QTerm.factor (val : Token → Rat) (t : QTerm) : Rat :=
  signOf t.sign * (match t.num with
    | none => 1
    | some n => val n)

/-- The products of a quadratic part with their factors, halved. -/
def Quad.products (val : Token → Rat) (q : Quad) : List ((Token × Token) × Rat) :=
  q.terms.map fun t => (t.pair, signOf q.sign * t.factor val / 2)

/-- The sum of the factors of the product of `x` and `y` in quadratic parts. -/
def pairSum (val : Token → Rat) (qs : List Quad) (x y : Token) : Rat :=
  (((qs.flatMap (Quad.products val)).filter fun z => samePair z.1 (x, y)).map Prod.snd).sum

/-- The names of a quadratic part. -/
def Quad.names (q : Quad) : List Token := q.terms.flatMap fun t => [t.pair.1, t.pair.2]

/-- The names of a group. -/
def Group.names (g : Group) : List Token := g.quad.names ++ g.terms.filterMap Term.name

/-- The terms of the objective that are not in brackets. -/
def File.linear (f : File) : List Term := f.obj ++ f.more.flatMap Group.terms

/-- The quadratic parts of the objective. -/
def File.quads (f : File) : List Quad := f.more.map Group.quad

/-- The names of the objective. -/
def File.objNames (f : File) : List Token :=
  f.obj.filterMap Term.name ++ f.more.flatMap Group.names

/-- The names of a file: those of the objective, then those of the constraints, in the order of
the first occurrences. -/
def File.names (f : File) : List Token :=
  firsts (f.objNames ++ (f.cons.getD []).flatMap fun c => c.terms.filterMap Term.name)

/-- A constraint of the problem; `i` is its position in the file. -/
def Con.constr (ival : Token → Int) (names : List Token) (c : Con) (i : Nat) : Constr :=
  { label := String.ofList (c.label.getD [])
    elems := (collect (named ival c.terms)).map fun x => ⟨x.2, names.idxOf x.1⟩
    value := c.value.value ival
    id := i }

/-- The constraints of the problem with the operator `op`. -/
def File.constrs (ival : Token → Int) (f : File) (op : Op) : List Constr :=
  ((f.cons.getD []).zipIdx.filter fun x => x.1.op.op = op).map fun x =>
    x.1.constr ival f.names x.2

/-- What a line of the bounds does to a variable. -/
def BoundLine.apply (ival : Token → Int) (name : Token) (b : BoundLine) (v : VarValue) : VarValue :=
  match b with
  | .upper x _ m => if x = name then { v with max := m.value ival } else v
  | .both l _ x _ u =>
    if x = name then { v with min := l.value ival, max := u.value ival } else v

/-- The bounds and the type of a variable: from 0 to infinity, then the bounds of the file,
then its type. -/
def File.varValue (ival : Token → Int) (f : File) (name : Token) : VarValue :=
  let v := (f.bounds.getD []).foldl (fun v b => b.apply ival name v) ⟨0, intMax, .real⟩
  let v := if name ∈ f.binary.getD [] then ⟨0, 1, .binary⟩ else v
  if name ∈ f.general.getD [] then { v with type := .general } else v

/-- The problem that a file denotes.  `val` and `ival` are the values of the numbers without a
sign. -/
def File.problem (val : Token → Rat) (ival : Token → Int) (f : File) : PProblem :=
  { type := f.type
    elems := (collect (named val f.linear)).map fun x => ⟨.fin x.2, f.names.idxOf x.1⟩
    qelems := (collectPairs (f.quads.flatMap (Quad.products val))).map fun x =>
      ⟨.fin x.2, f.names.idxOf x.1.1, f.names.idxOf x.1.2⟩
    value := .fin (constant val f.linear)
    eqs := f.constrs ival .equal
    ges := f.constrs ival .greater
    les := f.constrs ival .less
    names := f.names
    values := f.names.map (f.varValue ival) }

/-- The value of a term when the variables are worth `x`. -/
def Term.worth (val : Token → Rat) (x : Token → Rat) (t : Term) : Rat :=
  t.factor val * (match t.name with
    | none => 1
    | some n => x n)

/-- The value of a quadratic part when the variables are worth `x`. -/
def Quad.worth (val : Token → Rat) (x : Token → Rat) (q : Quad) : Rat :=
  signOf q.sign * ((q.terms.map fun t => t.factor val * x t.pair.1 * x t.pair.2).sum / 2)

/-- The value of the objective, as it is written, when the variables are worth `x`. -/
def File.objective (val : Token → Rat) (f : File) (x : Token → Rat) : Rat :=
  (f.linear.map (Term.worth val x)).sum + (f.quads.map (Quad.worth val x)).sum

/-! ## Files that are written correctly -/

/-- A name: it is not a keyword nor a number. -/
structure NameOk (scan : Token → Option D) (n : Token) : Prop where
  nonempty : n ≠ []
  chars : ∀ c ∈ n, nameChar c = true
  keyword : ¬ Reserved n
  number : scan n = none ∧ ¬ SameWord n "inf".toList
  short : n.length < 320

/-- A number without a sign: digits and points, exponents excepted. -/
structure NumOk (scan : Token → Option D) (val : Token → Rat) (n : Token) : Prop where
  first : ∃ c t, n = c :: t ∧ (digit c || c == '.') = true
  value : scan n = some (.fin (val n))
  short : n.length < 320

/-- A term of the objective. -/
structure TermOk (scan : Token → Option D) (val : Token → Rat) (t : Term) : Prop where
  some : t.num ≠ none ∨ t.name ≠ none
  num : ∀ n ∈ t.num, NumOk scan val n
  name : ∀ n ∈ t.name, NameOk scan n

/-- A quadratic term. -/
structure QTermOk (scan : Token → Option D) (val : Token → Rat) (t : QTerm) : Prop where
  num : ∀ n ∈ t.num, NumOk scan val n
  name : NameOk scan t.name
  second : ∀ n ∈ t.second, NameOk scan n

/-- Every term but the first has a sign. -/
def Signed (ts : List Term) : Prop := ∀ t ∈ ts.drop 1, t.sign ≠ none

/-- An `int`. -/
def IsInt (i : Int) : Prop := intMin ≤ i ∧ i ≤ intMax

/-- A number of a constraint or of a bound: an `int`. -/
structure IntOk (scan : Token → Option D) (ival : Token → Int) (n : Token) : Prop where
  ok : NumOk scan (fun t => (ival t : Rat)) n
  range : IsInt (ival n) ∧ IsInt (-ival n)

/-- A constraint: its terms have a name, and the sum of the absolute values of its factors is
an `int`. -/
structure ConOk (scan : Token → Option D) (ival : Token → Int) (c : Con) : Prop where
  label : ∀ l ∈ c.label, NameOk scan l
  nonempty : c.terms ≠ []
  signed : Signed c.terms
  name : ∀ t ∈ c.terms, ∃ n ∈ t.name, NameOk scan n
  num : ∀ t ∈ c.terms, ∀ n ∈ t.num, IntOk scan ival n
  range : IsInt ((c.terms.map fun t => |t.factor ival|).sum)
  value : IntOk scan ival c.value.num

/-- A line of the bounds: a lower or equal operator, and a name that does not begin as a
number. -/
def BoundOk (scan : Token → Option D) (ival : Token → Int) (names : List Token) :
    BoundLine → Prop
  | .upper x op b => x ∈ names ∧ NameOk scan x ∧ ¬ LikeNumber x ∧ op.op = .less ∧
      IntOk scan ival b.num
  | .both a op x op' b => x ∈ names ∧ NameOk scan x ∧ op.op = .less ∧ op'.op = .less ∧
      IntOk scan ival a.num ∧ IntOk scan ival b.num ∧ a.value ival ≤ b.value ival

/-- The variable of a line of the bounds. -/
def BoundLine.name : BoundLine → Token
  | .upper x _ _ => x
  | .both _ _ x _ _ => x

/-- A file that is written correctly: the variables of the last sections are those of the
objective and of the constraints, and a variable has one line of bounds. -/
structure FileOk (scan : Token → Option D) (val : Token → Rat) (ival : Token → Int) (f : File) :
    Prop where
  label : ∀ l ∈ f.label, NameOk scan l
  obj : ∀ t ∈ f.linear, TermOk scan val t
  signed : Signed f.obj ∧ ∀ g ∈ f.more, Signed g.terms
  quad : ∀ q ∈ f.quads, ∀ t ∈ q.terms, QTermOk scan val t
  cons : ∀ c ∈ f.cons.getD [], ConOk scan ival c
  bounds : ∀ b ∈ f.bounds.getD [], BoundOk scan ival f.names b
  bounds_nodup : ((f.bounds.getD []).map BoundLine.name).Nodup
  binary : ∀ n ∈ f.binary.getD [], n ∈ f.names
  general : ∀ n ∈ f.general.getD [], n ∈ f.names
  few : (f.names.length : Int) ≤ intMax
  few_cons : ((f.cons.getD []).length : Int) ≤ intMax

end Bx.Parser
