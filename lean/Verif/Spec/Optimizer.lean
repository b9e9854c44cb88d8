import Verif.Model.Optimizer

/-!
# What the population of the optimizer has to keep
-/

namespace Bx.Spec.Optimizer

open Bx.Optimizer

/-- A strict weak order on the elements of a list, what `std::sort` requires of a comparison. -/
structure StrictWeak (lt : Nat → Nat → Bool) (l : List Nat) : Prop where
  irrefl : ∀ a ∈ l, lt a a = false
  trans : ∀ a ∈ l, ∀ b ∈ l, ∀ c ∈ l, lt a b = true → lt b c = true → lt a c = true
  incomp : ∀ a ∈ l, ∀ b ∈ l, ∀ c ∈ l, lt a b = false → lt b c = false → lt a c = false

/-- What `std::sort` guarantees: a permutation in which no element is before a smaller one. -/
def SortOk (srt : Sorter) : Prop :=
  ∀ lt l, StrictWeak lt l → (srt lt l).Perm l ∧ (srt lt l).Pairwise fun a b => lt b a = false

/-- What the random engine guarantees for an insertion in a population of `n`:
`uniform_int_distribution(n / 5, n - 1)` (`itm-optimizer-common.hpp:81-82`). -/
def EvictOk (n : Nat) (c : Evict) : Prop := n / 5 ≤ c.pick ∧ c.pick < n ∧ SortOk c.srt

/-- `a` is at least as good as `b`: fewer constraints remain, or as many and the value is at
least as good. -/
def Good (t : ObjType) (a b : Entry) : Prop :=
  a.remaining < b.remaining ∨ (a.remaining = b.remaining ∧ AtLeastAsGood t a.value b.value)

/-- The entries of the population in the order of the indices. -/
def ranking (s : Storage) : List (Option Entry) := s.indices.map fun i => s.data[i]?

/-- The positions of a crossover are in a population of `n`. -/
def CrossOk (n : Nat) : Cross → Prop
  | .mix first second _ => first < n ∧ second < n
  | .mixBastert first _ | .putBastert first | .mixRandom first _ _ | .putRandom first _ => first < n

/-- What the random engine guarantees for a call. -/
def OpOk (n : Nat) : Op → Prop
  | .update c _ _ | .advance c _ _ => EvictOk n c
  | .cross c _ => CrossOk n c

/-- `e` is at least as good as what the call offers: for a solution, no constraint remains and the
value is at least as good; for another vector, not more constraints remain. -/
def AsGoodAs (t : ObjType) (e : Entry) : Op → Prop
  | .update _ _ v => e.remaining = 0 ∧ AtLeastAsGood t e.value v
  | .advance _ _ k => e.remaining ≤ k
  | .cross _ _ => True

/-- The branches of a crossover that write in the population. -/
def Puts : Cross → Prop
  | .putBastert _ | .putRandom _ _ => True
  | _ => False

/-- The position of the first parent of a crossover. -/
def firstOf : Cross → Nat
  | .mix first _ _ | .mixBastert first _ | .putBastert first | .mixRandom first _ _
  | .putRandom first _ => first

/-- `b` is the second vector of a crossover: another entry of the population, the bastert or the
random vector. -/
def Mate (g : Setting) (s : Storage) (b : Assign) : Cross → Prop
  | .mix _ second _ => ∃ e, (ranking s)[second]? = some (some e) ∧ b = e.x
  | .mixBastert _ _ | .putBastert _ => b = g.bastert
  | .mixRandom _ r _ | .putRandom _ r => b = r

/-- The number of constraints that `x` does not respect. -/
def unsatisfied (x : Assign) (csts : List Merge.Merged) : Nat :=
  (csts.filter fun c => !decide (c.min ≤ lhs x c.elems ∧ lhs x c.elems ≤ c.max)).length

/-- `e` is an initial vector, with its objective and its number of violated constraints, or was
offered by a call. -/
def Offered (g : Setting) (init : List Assign) (ops : List Op) (e : Entry) : Prop :=
  (e.x ∈ init ∧ e.value = objective g.o e.x ∧ e.remaining = unsatisfied e.x g.csts) ∨
  (∃ c, Op.update c e.x e.value ∈ ops ∧ e.remaining = 0) ∨
  (∃ c, Op.advance c e.x e.remaining ∈ ops ∧ e.value = objective g.o e.x)

/-! ## The worker -/

variable {ρ : Type}

/-- The evicted positions and the sorts of a turn. -/
def CallOk (n : Nat) (c : Call ρ) : Prop := ∀ k, EvictOk n (c.evict k)

/-- A turn that overwrites an entry. -/
def Overwrites (c : Call ρ) : Prop := ∃ k, c.cross = some k ∧ Puts k

/-- What the outside guarantees: at least five initial vectors, which
`context_set_solver_parameters` enforces (`lib/src/private.cpp:147`), sorts and evicted
positions. -/
structure ChoicesOk (ch : Choices ρ) : Prop where
  size : 5 ≤ ch.init.length
  srt : SortOk ch.srt
  calls : ∀ c ∈ ch.calls, CallOk ch.init.length c

/-- No turn of the worker overwrites an entry: `init_crossover_bastert_insertion` is `0`. -/
def Clean (ch : Choices ρ) : Prop := ∀ c ∈ ch.calls, ¬ Overwrites c

end Bx.Spec.Optimizer
