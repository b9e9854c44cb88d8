import Verif.Model.Branch
import Verif.Model.Dispatch
import Verif.Model.Manual

/-!
# The tuned modes of `optimize`

The three optimizers of `lpcore.cpp:104-124`, made of the models of `branch-optimizer.cpp`,
`nlopt-optimizer.cpp` and `manual-optimizer.cpp` on the optimizers of `itm.hpp`.
-/

namespace Bx.Dispatch

open Spec Itm

/-- What the modes read of a result: `operator bool` (`lib/include/baryonyx/core:744-747`) and
`solutions.back().value`. -/
def readResult : Outcome Result → Manual.Inner
  | .ok r => ⟨decide (r.status = .success), ((r.solutions.getLast?).map (·.value)).getD 0⟩
  | .error _ => ⟨false, 0⟩

/-- `manual_optimize` (`manual-optimizer.cpp:114-184`): the calls of `Manual.optimize`, in order, the
first that stops stops the process, then the last call.  `inner k t` is the call number `k`, with the
parameters `t`. -/
def manual (inner : Nat → Manual.Tuning → Outcome Result) (p : Manual.Tuning) : Outcome Result :=
  match Manual.optimize (fun k t => readResult (inner k t)) p (5 ^ 5) with
  | none => .error .fuel
  | some (_, s) => do
    s.tried.zipIdx.forM fun q => inner q.2 (Manual.tuning p q.1) >>= fun _ => .ok ()
    inner s.tried.length s.params

/-- What the mode `branch` reads of a result (`branch-optimizer.cpp:35-59`, `151-154`). -/
def branchInner (r : Result) : Branch.Inner where
  success := decide (r.status = .success)
  first := ((r.solutions.head?).map (·.value)).getD 0
  last := ((r.solutions.getLast?).map (·.value)).getD 0
  constraints := r.constraintCount
  remaining := r.remaining

/-- `branch_optimize` (`branch-optimizer.cpp:138-225`).  Simplification: of the result it returns, only
what it reads is kept; it never returns one (C49). -/
def branch (inner : Nat → Problem → Outcome Result) (pb : Problem) : Outcome Result :=
  match Branch.optimize (fun k q => (inner k q).map branchInner) (3 ^ pb.values.length + 1) pb with
  | none => .error .fuel
  | some (.error f) => .error f
  | some (.ok b) => .ok { status := if b.success then .success else .timeLimitReached,
                          solutions := [⟨[], b.last⟩] }

/-- The runs that the tuned modes make: `world t k` decides the run number `k` of the optimizer with
the parameters `t`, `first` are the parameters of the context, `library` is nlopt when the library is
built with it, `value` are the values of the objective for nlopt and `steps` bounds the number of its
evaluations. -/
structure Setting (ρ : Type) where
  world : Manual.Tuning → Nat → World ρ
  first : Manual.Tuning
  library : Option Search := none
  value : Tuning → Outcome (Option Rat)
  steps : Nat := 1

/-- The outside of a run without tuning. -/
def Setting.untuned {ρ : Type} (s : Setting ρ) : World ρ := s.world s.first 0

/-- The parameters of the two modes are the same. -/
def Tuning.manual (t : Tuning) : Manual.Tuning :=
  ⟨t.theta, t.delta, t.kappaMin, t.kappaStep, t.initPolicyRandom⟩

/-- The optimizers of the tuned modes: each calls `itm::optimize` (`manual-optimizer.cpp:148` and `173`,
`branch-optimizer.cpp:144`, `170` and `179`, `nlopt-optimizer.cpp:72` and `140`). -/
def Setting.tuners {ρ : Type} (upd : Engine → Slv → ρ → Nat → Assign → Outcome Assign)
    (s : Setting ρ) (c : Ctx) : Tuners :=
  let call := fun t k pb => itm (execute upd (s.world t k)) c true pb
  let man := fun pb => Dispatch.manual (fun k t => call t k pb) s.first
  { manual := man
    branch := Dispatch.branch fun k pb => call s.first k pb
    nlopt := fun pb =>
      match s.library with
      | none => withoutNlopt man pb
      | some l => (nlopt l s.value (fun t => call t.manual 0 pb) (man pb) s.steps).getD (.error .fuel) }

end Bx.Dispatch
