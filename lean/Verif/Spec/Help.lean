import Verif.Spec.CommandLine

/-!
# The values that the help message lists

The lines of `help` (`app/src/main.cpp:341-377`), as a user reads them.
-/

namespace Bx.CommandLine

open Params

/-- What a line of the help message allows. -/
inductive Doc where
  /-- `integer [lo, hi]`; no bound for an infinite one. -/
  | integer (lo hi : Option Int)
  /-- `real [lo, hi]`; no bound for an infinite one. -/
  | real (lo : Rat) (hi : Option Rat)
  /-- `real [0, 1[`. -/
  | below1
  /-- A list of words. -/
  | words (l : List String)

/-- The line of each parameter, in the order of the message.  "Any combination" of
`less-greater-equal` stands for the six orders of the three words. -/
def helpLines : List (String × Doc) :=
  [("limit", .integer none none),
    ("time-limit", .real 0 none),
    ("floating-point-type", .words ["float", "double", "longdouble"]),
    ("observer-type", .words ["none", "pnm", "file"]),
    ("storage-type", .words ["one", "bound", "five"]),
    ("print-level", .integer (some 0) (some 2)),
    ("preprocessing", .words ["none", "memory", "less-greater-equal", "less-equal-greater",
      "greater-less-equal", "greater-equal-less", "equal-less-greater", "equal-greater-less",
      "p1", "p2", "p3", "p4"]),
    ("constraint-order", .words ["none", "reversing", "random-sorting", "infeasibility-decr",
      "infeasibility-incr", "lagrangian-decr", "lagrangian-incr", "pi-sign-change"]),
    ("theta", .real 0 (some 1)),
    ("delta", .real 0 none),
    ("kappa-min", .below1),
    ("kappa-step", .below1),
    ("kappa-max", .below1),
    ("alpha", .integer (some 0) (some 2)),
    ("w", .integer (some 0) none),
    ("norm", .words ["l1", "l2", "loo", "none", "random"]),
    ("pushes-limit", .integer (some 0) none),
    ("pushing-objective-amplifier", .real 0 none),
    ("pushing-iteration-limit", .integer (some 0) none),
    ("pushing-k-factor", .real 0 none),
    ("init-policy", .words ["bastert", "pessimistic-solve", "optimistic-solve", "cycle"]),
    ("init-population-size", .integer (some 5) none),
    ("init-crossover-bastert-insertion", .real 0 (some 1)),
    ("init-crossover-solution-selection-mean", .real 0 (some 1)),
    ("init-crossover-solution-selection-stddev", .real 0 (some 1)),
    ("init-mutation-variable-mean", .real 0 (some 1)),
    ("init-mutation-variable-stddev", .real 0 (some 1)),
    ("init-mutation-value-mean", .real 0 (some 1)),
    ("init-mutation-value-stddev", .real 0 (some 1))]

/-- The text is read as the integer `n`, whatever the type it is read with. -/
def ReadsInt (c : Conv) (s : String) (n : Int) : Prop :=
  c.int s = some n ∧ c.long s = some n ∧ c.dbl s = some (.fin n)

/-- The text is one that the line allows. -/
def Doc.Allows (c : Conv) (s : String) : Doc → Prop
  | .integer lo hi => ∃ n, ReadsInt c s n ∧ (∀ l ∈ lo, l ≤ n) ∧ ∀ h ∈ hi, n ≤ h
  | .real lo hi => ∃ q, c.dbl s = some (.fin q) ∧ lo ≤ q ∧ ∀ h ∈ hi, q ≤ h
  | .below1 => ∃ q, c.dbl s = some (.fin q) ∧ 0 ≤ q ∧ q < 1
  | .words l => s ∈ l

/-- The texts that the help message allows and that are refused: the loop limits under
-1, the value 0 of three reals and the word `cycle` of `init-policy`. -/
def Unlike (c : Conv) (name s : String) : Prop :=
  (name = "limit" ∧ ∃ n, c.long s = some n ∧ n < -1) ∨
  (name ∈ ["delta", "pushing-objective-amplifier", "pushing-k-factor"] ∧
    c.dbl s = some (.fin 0)) ∨
  (name = "init-policy" ∧ s = "cycle")

end Bx.CommandLine
