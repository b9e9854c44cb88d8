import Verif.Model.Preprocess
import Verif.Model.Writer

/-!
# The file `preprocessed.lp`

Models the lines of `make_problem` that write the reduced problem in a file of the current directory
(`lib/src/preprocessor.cpp:710-713`), with the operators of `lib/src/problem.cpp:39-45`.
-/

namespace Bx.Preprocess

open Parser (PProblem PElem PQuad writeProblem)

/-- A `problem` as the writer takes it: `write_problem` is a template (`problem.hpp:327-384`), its model
is on the problem that the reader makes. -/
def toWriter (p : Problem) : PProblem where
  type := p.type
  elems := p.objective.elems.map fun e => ⟨.fin e.factor, e.var⟩
  qelems := p.objective.qelems.map fun e => ⟨.fin e.factor, e.a, e.b⟩
  value := .fin p.objective.value
  eqs := p.eqs
  ges := p.ges
  les := p.les
  names := p.names.map String.toList
  values := p.values

/-- `std::ofstream ofs("preprocessed.lp"); ofs << copy` (`preprocessor.cpp:711-712`): the file after it.
`opens` tells whether the file can be opened for writing, `old` is what it held. -/
def writeFile (num : Rat → List Char) (opens : Bool) (old : Option (List Char)) (copy : Problem) :
    Outcome (Option (List Char)) := do
  let text ← writeProblem num (toWriter copy)
  .ok (if opens then some text else old)

/-- `preprocess` (`preprocessor.cpp:903-913`): the problem, and the file after the call. -/
def preprocessAndWrite (num : Rat → List Char) (opens : Bool) (old : Option (List Char))
    (pb : RawProblem) : Outcome (Problem × Option (List Char)) := do
  let copy ← preprocess pb
  let file ← writeFile num opens old copy
  .ok (copy, file)

/-- `split` (`preprocessor.cpp:866-881`): the two problems, the file after the call.  The two arguments
of `make_tuple` may be evaluated in either order: `first` tells which one is first. -/
def splitAndWrite (num : Rat → List Char) (opens : Bool) (old : Option (List Char)) (pb : Problem)
    (v : Nat) (first : Bool) : Outcome ((Problem × Problem) × Option (List Char)) := do
  let a ← affect pb v first
  let f ← writeFile num opens old a
  let b ← affect pb v (!first)
  let f ← writeFile num opens f b
  .ok (if first then (a, b) else (b, a), f)

end Bx.Preprocess
