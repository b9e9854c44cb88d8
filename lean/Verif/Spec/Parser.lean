import Verif.Model.Parser
import Verif.Spec.Lp
import Verif.Spec.Lexer
import Mathlib.Data.List.Forall2

/-!
# Specification: the problems that a reader must give
-/

namespace Bx.Parser

/-- The constraints of a problem. -/
def PProblem.constraints (p : PProblem) : List Constr := p.eqs ++ p.ges ++ p.les

/-- A well formed problem: names are unique and as many as the variables, every index is the
index of a variable, nothing is named twice in the objective or in a constraint, and the
identifiers of the constraints are `0, 1, ...`, in increasing order in each list. -/
structure ParsedOk (p : PProblem) : Prop where
  names_len : p.names.length = p.values.length
  names_nodup : p.names.Nodup
  obj_lt : ∀ e ∈ p.elems, e.var < p.names.length
  obj_nodup : (p.elems.map PElem.var).Nodup
  quad_lt : ∀ e ∈ p.qelems, e.a < p.names.length ∧ e.b < p.names.length
  quad_nodup : p.qelems.Pairwise fun e f => ¬ (e.a = f.a ∧ e.b = f.b) ∧ ¬ (e.a = f.b ∧ e.b = f.a)
  con_lt : ∀ c ∈ p.constraints, ∀ e ∈ c.elems, e.var < p.names.length
  con_nodup : ∀ c ∈ p.constraints, (c.elems.map FunElem.var).Nodup
  ids_perm : (p.constraints.map Constr.id).Perm
    ((List.range p.constraints.length).map fun (i : Nat) => (i : Int))
  ids_eqs : p.eqs.Pairwise fun c d => c.id < d.id
  ids_ges : p.ges.Pairwise fun c d => c.id < d.id
  ids_les : p.les.Pairwise fun c d => c.id < d.id

/-! ## The case of the keywords -/

/-- The same word, whatever the case. -/
def SameWord (t u : List Char) : Prop := t.map Char.toLower = u.map Char.toLower

instance (t u : List Char) : Decidable (SameWord t u) := by unfold SameWord; infer_instance

/-- A token that the reader of the bounds takes for a number: its first character is that of a
number or of an exponent, or it is an infinity. -/
def LikeNumber (t : List Char) : Prop :=
  (∃ c ∈ t.head?, digit c = true ∨ c ∈ ['.', '-', '+', 'e', 'E']) ∨
    SameWord t "inf".toList ∨ SameWord t "infinity".toList

instance (t : List Char) : Decidable (LikeNumber t) := by unfold LikeNumber; infer_instance

/-- The words that begin a section. -/
def sectionWords : List String :=
  ["binary", "binaries", "bin", "bound", "bounds", "general", "generals", "gen", "end", "st",
    "subject", "sush", "s.t.", "st."]

/-- A word that begins a section. -/
def Reserved (t : List Char) : Prop := ∃ w ∈ sectionWords, SameWord t w.toList

instance (t : List Char) : Decidable (Reserved t) := by unfold Reserved; infer_instance

/-- The same token, or the same section word with another case. -/
def KeywordCase (t u : List Char) : Prop := t = u ∨ Reserved t ∧ SameWord t u

/-- The two words before the constraints. -/
def subjectWords : List (String × String) := [("subject", "to"), ("sush", "that")]

/-- The same tokens with another case of the keywords: the word of the objective, the words
of the sections and the two words before the constraints. -/
inductive Recased : List (List Char) → List (List Char) → Prop
  | sections {h h' : List Char} {ts us : List (List Char)} :
      SameWord h h' → List.Forall₂ KeywordCase ts us → Recased (h :: ts) (h' :: us)
  | subject {h h' s s' w w' : List Char} {pre ts us : List (List Char)} {x : String × String} :
      SameWord h h' → (∀ t ∈ pre, ¬ Reserved t) → x ∈ subjectWords →
      SameWord s x.1.toList → SameWord s' x.1.toList →
      SameWord w x.2.toList → SameWord w' x.2.toList →
      List.Forall₂ KeywordCase ts us →
      Recased (h :: (pre ++ s :: w :: ts)) (h' :: (pre ++ s' :: w' :: us))

/-- No section word is the second factor of a product. -/
def StarsOk (ts : List (List Char)) : Prop :=
  ∀ i, ts.getD i [] = ['*'] → ¬ Reserved (ts.getD (i + 1) [])

end Bx.Parser
