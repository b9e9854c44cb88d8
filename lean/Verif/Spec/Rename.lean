import Verif.Basic

/-!
# Other names

What a problem and a result become when the names of the variables are changed by `f` and the labels of the
constraints by `g`.
-/

namespace Bx.Spec

def renameConstr (g : String → String) (c : Constr) : Constr := { c with label := g c.label }

def renameAffected (f : String → String) (a : Affected) : Affected := { a with names := a.names.map f }

def renameRaw (f g : String → String) (pb : RawProblem) : RawProblem :=
  { pb with names := pb.names.map f, eqs := pb.eqs.map (renameConstr g), ges := pb.ges.map (renameConstr g),
            les := pb.les.map (renameConstr g) }

def renameProblem (f g : String → String) (pb : Problem) : Problem :=
  { pb with names := pb.names.map f, affected := renameAffected f pb.affected,
            eqs := pb.eqs.map (renameConstr g), ges := pb.ges.map (renameConstr g),
            les := pb.les.map (renameConstr g) }

def renameResult (f : String → String) (r : Result) : Result :=
  { r with variableName := r.variableName.map f, affected := renameAffected f r.affected }

end Bx.Spec
