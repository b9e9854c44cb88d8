import Verif.Model.Races
import Mathlib.Logic.Relation

/-!
# Data races

The definition of the C++ standard ([intro.races]): two accesses of different threads to one location, one
of them a write, neither of them atomic, and neither happens before the other. Only the events and the
trace of `Model/Races.lean` are used.
-/

namespace Bx.Spec.Races
open Bx.Races

/-- The first event, when it comes first, happens before the second one: they belong to one thread, or the
second one locks the mutex that the first one unlocked (readers do not order readers), or the first one
starts the thread of the second one, or the second one waits for the end of the thread of the first one, or
the second one reads what the first one stored in the atomic variable. -/
def Orders (p q : Who × Ev) : Prop :=
  p.1 = q.1 ∨
  (p.2 = .unlock ∧ (q.2 = .lock ∨ q.2 = .lockShared)) ∨
  (p.2 = .unlockShared ∧ q.2 = .lock) ∨
  (∃ t, p.2 = .start t ∧ q.1 = .worker t) ∨
  (∃ t, p.1 = .worker t ∧ q.2 = .join t) ∨
  (p.2 = .store ∧ q.2 = .load)

/-- One step of the relation between the events of a trace. -/
def Edge (tr : Trace) (i j : Nat) : Prop :=
  i < j ∧ ∃ p q, tr[i]? = some p ∧ tr[j]? = some q ∧ Orders p q

/-- Event `i` happens before event `j`. -/
def HappensBefore (tr : Trace) : Nat → Nat → Prop := Relation.TransGen (Edge tr)

/-- The event reads or writes the location, not atomically. -/
def Accesses (e : Ev) (l : Loc) : Prop := e = .read l ∨ e = .write l

/-- Events `i` and `j` of the trace are a data race on location `l`. -/
structure DataRace (tr : Trace) (l : Loc) (i j : Nat) : Prop where
  order : i < j
  race : ∃ w v e f, tr[i]? = some (w, e) ∧ tr[j]? = some (v, f) ∧ w ≠ v ∧ Accesses e l ∧ Accesses f l ∧
    (e = .write l ∨ f = .write l)
  unordered : ¬ HappensBefore tr i j

end Bx.Spec.Races
