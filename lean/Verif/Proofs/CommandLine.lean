import Mathlib.Algebra.Order.Ring.Rat
import Mathlib.Tactic.Linarith
import Verif.Props.Params
import Verif.Spec.CommandLine

/-!
# The command line: lemmas
-/

namespace Bx.CommandLine

open Params

/-! ## The tests -/

theorem store_ok {α : Type} {v : Option α} {p p' : SolverParams} {f : α → SolverParams} {e : CStatus}
    (he : e ≠ .success) (h : store v p f e = (p', .success)) : ∃ a, v = some a ∧ p' = f a := by
  cases v with
  | none => exact absurd (Prod.mk.inj h).2 he
  | some a => exact ⟨a, rfl, (Prod.mk.inj h).1.symm⟩

theorem store_error {α : Type} {v : Option α} {p : SolverParams} {f : α → SolverParams} {e : CStatus}
    (h : (store v p f e).2 ≠ .success) : store v p f e = (p, e) := by
  cases v with
  | none => rfl
  | some a => exact absurd rfl h

theorem store_success {α : Type} {v : Option α} {a : α} {p : SolverParams} {f : α → SolverParams}
    {e : CStatus} (h : v = some a) : (store v p f e).2 = .success := by
  rw [h]; rfl

theorem between_iff {a b : Rat} {d : D} :
    (D.le (.fin a) d && d.le (.fin b)) = true ↔ Between a b d := by
  cases d with
  | nan => simp [D.le, D.lt, D.eq, Between]
  | ninf => simp [D.le, D.lt, D.eq, Between]
  | pinf => simp [D.le, D.lt, D.eq, Between]
  | fin q =>
    simp only [D.le, D.lt, D.eq, Between, D.fin.injEq, Bool.and_eq_true, Bool.or_eq_true,
      decide_eq_true_eq, le_iff_lt_or_eq, exists_eq_left']

theorem assignD_iff {c : Conv} {v : String} {a b : Rat} {d : D} :
    assignD c v (.fin a) (.fin b) = some d ↔ c.dbl v = some d ∧ Between a b d := by
  unfold assignD
  cases h : c.dbl v with
  | none => simp
  | some x =>
    simp only
    split
    · rename_i hb
      constructor
      · intro e; obtain rfl := Option.some.inj e; exact ⟨rfl, between_iff.mp hb⟩
      · rintro ⟨e, _⟩; exact e
    · rename_i hb
      constructor
      · intro e; exact absurd e (by simp)
      · rintro ⟨e, h⟩; obtain rfl := Option.some.inj e; exact absurd (between_iff.mpr h) hb

theorem lt_zero_iff {d : D} : D.lt (.fin 0) d = true ↔ Positive d := by
  cases d <;> simp [D.lt, Positive]

theorem assign0oo_iff {c : Conv} {v : String} {d : D} :
    assign0oo c v = some d ↔ c.dbl v = some d ∧ Positive d := by
  unfold assign0oo
  cases h : c.dbl v with
  | none => simp
  | some x =>
    simp only
    split
    · rename_i hb
      constructor
      · intro e; obtain rfl := Option.some.inj e; exact ⟨rfl, lt_zero_iff.mp hb⟩
      · rintro ⟨e, _⟩; exact e
    · rename_i hb
      constructor
      · intro e; exact absurd e (by simp)
      · rintro ⟨e, h⟩; obtain rfl := Option.some.inj e; exact absurd (lt_zero_iff.mpr h) hb

theorem assignI_iff {v : Option Int} {lo hi n : Int} :
    assignI v lo hi = some n ↔ v = some n ∧ lo ≤ n ∧ n ≤ hi := by
  unfold assignI
  cases v with
  | none => simp
  | some x =>
    simp only
    split
    · constructor
      · intro e; obtain rfl := Option.some.inj e; exact ⟨rfl, by assumption⟩
      · rintro ⟨e, _⟩; exact e
    · rename_i hb
      constructor
      · intro e; exact absurd e (by simp)
      · rintro ⟨e, h⟩; obtain rfl := Option.some.inj e; exact absurd h hb

theorem named_mem {value : String} {l : List (String × Int)} {n : Int}
    (h : named value l = some n) : (value, n) ∈ l := by
  unfold named at h
  obtain ⟨x, hx, rfl⟩ := Option.map_eq_some_iff.mp h
  have h1 := List.find?_some hx
  have h2 := List.mem_of_find?_eq_some hx
  rw [decide_eq_true_eq.mp h1]
  exact h2

/-- The two lists give the same number to a word. -/
def SameWords (l spec : List (String × Int)) : Prop :=
  (∀ x ∈ l, spec.lookup x.1 = some x.2 ∧ x.2 ∈ spec.map Prod.snd) ∧
    ∀ x ∈ spec, (named x.1 l).isSome = true

instance (l spec : List (String × Int)) : Decidable (SameWords l spec) := by
  unfold SameWords; infer_instance

theorem named_word {value : String} {l spec : List (String × Int)} {n : Int}
    (hs : SameWords l spec) (h : named value l = some n) (c : Conv) :
    wordText spec c value = some (.int n) ∧ choice spec (.int n) := by
  obtain ⟨h1, h2⟩ := hs.1 _ (named_mem h)
  unfold wordText choice
  rw [h1]
  exact ⟨rfl, h2⟩

theorem lookup_mem {s : String} {l : List (String × Int)} {n : Int} (h : l.lookup s = some n) :
    (s, n) ∈ l := by
  induction l with
  | nil => simp at h
  | cons x l ih =>
    rw [List.lookup_cons] at h
    split at h
    · rename_i hb
      obtain rfl := Option.some.inj h
      rw [beq_iff_eq] at hb
      subst hb
      exact List.mem_cons_self
    · exact List.mem_cons_of_mem _ (ih h)

theorem word_named {value : String} {l spec : List (String × Int)} {x : Val} {c : Conv}
    (hs : SameWords l spec) (h : wordText spec c value = some x) : ∃ n, named value l = some n := by
  obtain ⟨n, hn, _⟩ := Option.map_eq_some_iff.mp h
  exact Option.isSome_iff_exists.mp (hs.2 _ (lookup_mem hn))

theorem positive_fix {d : D} (hn : d ≠ .nan) :
    (if d.le (.fin 0) then D.fin (-1) else d) = .fin (-1) ∨
      Positive (if d.le (.fin 0) then D.fin (-1) else d) := by
  split
  · exact Or.inl rfl
  · rename_i h
    exact Or.inr ((positive_iff hn).mp (by simpa using h))

/-! ## One parameter -/

theorem ite_cases {α : Type} {c : Prop} [Decidable c] {a b x : α} (h : (if c then a else b) = x) :
    c ∧ a = x ∨ ¬ c ∧ b = x := by
  by_cases hc : c
  · exact Or.inl ⟨hc, by rwa [if_pos hc] at h⟩
  · exact Or.inr ⟨hc, by rwa [if_neg hc] at h⟩

theorem isEqual_iff {a b : String} : isEqual a b = true ↔ a = b := by simp [isEqual]

theorem isEqualShort_iff {a b : String} {s : Char} (h : a.toList.length ≠ 2) :
    isEqualShort a b s = true ↔ a = b := by
  simp [isEqualShort, h]

theorem stored_of {c : Conv} {p : SolverParams} {name value : String} {p' : SolverParams}
    (h1 : name ∈ documented.map Entry.name)
    (h2 : ∀ f ∈ documented, (f.name = name → f.value c value = some (f.read p') ∧
      f.range (f.read p')) ∧ (f.name ≠ name → f.read p' = f.read p))
    (h3 : otherFields p' = otherFields p) : Stored c p name value p' := by
  refine ⟨?_, fun f hf => (h2 f hf).1, fun f hf => (h2 f hf).2, h3⟩
  obtain ⟨f, hf, he⟩ := List.mem_map.mp h1
  exact ⟨f, hf, he⟩

set_option hygiene false in
/-- One branch of `assignParameter`. -/
macro "branch" "(" t:tacticSeq ")" : tactic => `(tactic| (
  obtain ⟨a, ha, rfl⟩ := store_ok (by decide) h
  refine stored_of (by simp [documented]) ?_ rfl
  simp only [documented, List.forall_mem_cons, List.not_mem_nil, false_imp_iff, implies_true,
    and_true, ne_eq, true_imp_iff, not_true_eq_false, reduceCtorEq, String.reduceEq,
    not_false_eq_true, true_and]
  focus
    $t))

theorem assign_ok {c : Conv} {p p' : SolverParams} {name value : String}
    (h2 : isEqualShort name "limit" 'l' = true → name = "limit") (hn : c.dbl value ≠ some .nan)
    (h : assignParameter c p name value = (p', .success)) : Stored c p name value p' := by
  have u : ∀ {a : D}, assign01 c value = some a →
      realText c value = some (.real a) ∧ unitRange (.real a) := by
    intro a ha
    obtain ⟨h1, h2⟩ := assignD_iff.mp ha
    exact ⟨by simp [realText, h1], h2⟩
  have o : ∀ {a : D}, assign0oo c value = some a →
      realText c value = some (.real a) ∧ positiveRange (.real a) := by
    intro a ha
    obtain ⟨h1, h2⟩ := assign0oo_iff.mp ha
    exact ⟨by simp [realText, h1], h2⟩
  have n : ∀ {a lo : Int}, assignI (c.int value) lo intMax = some a →
      intText c value = some (.int a) ∧ atLeast lo (.int a) := by
    intro a lo ha
    obtain ⟨h1, h2, _⟩ := assignI_iff.mp ha
    exact ⟨by simp [intText, h1], h2⟩
  unfold assignParameter at h
  rcases ite_cases h with ⟨e, h⟩ | ⟨e, h⟩
  next e =>
    obtain rfl := h2 e
    branch (obtain ⟨h1, h2, _⟩ := assignI_iff.mp ha; exact ⟨by simp [h1], h2⟩)
  rcases ite_cases h with ⟨e, h⟩ | ⟨e, h⟩
  next e =>
    obtain rfl := isEqual_iff.mp e
    branch (
      refine ⟨by simp [ha], ?_⟩
      rcases positive_fix (fun e => hn (e ▸ ha)) with h | h
      · exact Or.inl (by rw [h])
      · exact Or.inr h)
  rcases ite_cases h with ⟨e, h⟩ | ⟨e, h⟩
  next e => obtain rfl := isEqual_iff.mp e; branch (exact named_word (spec := floatTypes) (by decide +kernel) ha c)
  rcases ite_cases h with ⟨e, h⟩ | ⟨e, h⟩
  next e => obtain rfl := isEqual_iff.mp e; branch (exact named_word (spec := observers) (by decide +kernel) ha c)
  rcases ite_cases h with ⟨e, h⟩ | ⟨e, h⟩
  next e =>
    obtain rfl := isEqual_iff.mp e
    branch (
      obtain ⟨h1, h2, h3⟩ := assignI_iff.mp ha
      refine ⟨by simp [intText, h1], ?_⟩
      simp only [List.mem_cons, Val.int.injEq, List.not_mem_nil, or_false]
      omega)
  rcases ite_cases h with ⟨e, h⟩ | ⟨e, h⟩
  next e => obtain rfl := isEqual_iff.mp e; branch (exact named_word (spec := preOrders) (by decide +kernel) ha c)
  rcases ite_cases h with ⟨e, h⟩ | ⟨e, h⟩
  next e => obtain rfl := isEqual_iff.mp e; branch (exact named_word (spec := orders) (by decide +kernel) ha c)
  rcases ite_cases h with ⟨e, h⟩ | ⟨e, h⟩
  next e => obtain rfl := isEqual_iff.mp e; branch (exact named_word (spec := storages) (by decide +kernel) ha c)
  rcases ite_cases h with ⟨e, h⟩ | ⟨e, h⟩
  next e => obtain rfl := isEqual_iff.mp e; branch (exact u ha)
  rcases ite_cases h with ⟨e, h⟩ | ⟨e, h⟩
  next e => obtain rfl := isEqual_iff.mp e; branch (exact ⟨(o ha).1, Or.inr (o ha).2⟩)
  rcases ite_cases h with ⟨e, h⟩ | ⟨e, h⟩
  next e => obtain rfl := isEqual_iff.mp e; branch (exact u ha)
  rcases ite_cases h with ⟨e, h⟩ | ⟨e, h⟩
  next e => obtain rfl := isEqual_iff.mp e; branch (exact u ha)
  rcases ite_cases h with ⟨e, h⟩ | ⟨e, h⟩
  next e => obtain rfl := isEqual_iff.mp e; branch (exact u ha)
  rcases ite_cases h with ⟨e, h⟩ | ⟨e, h⟩
  next e =>
    obtain rfl := isEqual_iff.mp e
    branch (obtain ⟨h1, h2⟩ := assignD_iff.mp ha; exact ⟨by simp [realText, h1], _, rfl, h2⟩)
  rcases ite_cases h with ⟨e, h⟩ | ⟨e, h⟩
  next e =>
    obtain rfl := isEqual_iff.mp e
    branch (
      obtain ⟨h1, q, h2, h3, _⟩ := assignD_iff.mp ha
      exact ⟨by simp [realText, h1], q, by rw [h2], h3⟩)
  rcases ite_cases h with ⟨e, h⟩ | ⟨e, h⟩
  next e => obtain rfl := isEqual_iff.mp e; branch (exact named_word (spec := norms) (by decide +kernel) ha c)
  rcases ite_cases h with ⟨e, h⟩ | ⟨e, h⟩
  next e => obtain rfl := isEqual_iff.mp e; branch (exact n ha)
  rcases ite_cases h with ⟨e, h⟩ | ⟨e, h⟩
  next e => obtain rfl := isEqual_iff.mp e; branch (exact o ha)
  rcases ite_cases h with ⟨e, h⟩ | ⟨e, h⟩
  next e => obtain rfl := isEqual_iff.mp e; branch (exact n ha)
  rcases ite_cases h with ⟨e, h⟩ | ⟨e, h⟩
  next e => obtain rfl := isEqual_iff.mp e; branch (exact o ha)
  rcases ite_cases h with ⟨e, h⟩ | ⟨e, h⟩
  next e => obtain rfl := isEqual_iff.mp e; branch (exact n ha)
  iterate 10
    rcases ite_cases h with ⟨e, h⟩ | ⟨e, h⟩
    next e => obtain rfl := isEqual_iff.mp e; branch (exact u ha)
  rcases ite_cases h with ⟨e, h⟩ | ⟨e, h⟩
  next e => obtain rfl := isEqual_iff.mp e; branch (exact named_word (spec := policies) (by decide +kernel) ha c)
  rcases ite_cases h with ⟨e, h⟩ | ⟨e, h⟩
  next e => obtain rfl := isEqual_iff.mp e; branch (exact u ha)
  rcases ite_cases h with ⟨e, h⟩ | ⟨e, h⟩
  next e => obtain rfl := isEqual_iff.mp e; branch (exact n ha)
  rcases ite_cases h with ⟨e, h⟩ | ⟨e, h⟩
  next e => obtain rfl := isEqual_iff.mp e; branch (exact n ha)
  · simp at h


theorem store_refused {α : Type} {v : Option α} {p p' : SolverParams} {f : α → SolverParams}
    {e st : CStatus} (hs : st ≠ .success) (h : store v p f e = (p', st)) :
    v = none ∧ p' = p ∧ st = e := by
  cases v with
  | none => exact ⟨rfl, (Prod.mk.inj h).1.symm, (Prod.mk.inj h).2.symm⟩
  | some a => exact absurd (Prod.mk.inj h).2.symm hs

theorem refused_of {c : Conv} {p : SolverParams} {name value : String} {p' : SolverParams}
    {st : CStatus} (h0 : p' = p) (h1 : (name, st) ∈ refusal)
    (h2 : ∀ f ∈ documented, f.name = name → ∀ x, f.value c value = some x → f.range x →
      x = .real (.fin (-1))) : Refused c p name value p' st :=
  ⟨h0, Or.inr ⟨h1, h2⟩⟩

set_option hygiene false in
/-- One branch of `assignParameter` that refuses. -/
macro "refuse" "(" t:tacticSeq ")" : tactic => `(tactic| (
  obtain ⟨ha, hp, rfl⟩ := store_refused hs h
  refine refused_of hp (by simp [refusal]) ?_
  simp only [documented, List.forall_mem_cons, List.not_mem_nil, false_imp_iff, implies_true,
    and_true, ne_eq, true_imp_iff, not_true_eq_false, reduceCtorEq, String.reduceEq,
    not_false_eq_true, true_and]
  focus
    $t))

theorem assign_refused {c : Conv} {p p' : SolverParams} {name value : String} {st : CStatus}
    (hc : c.Ok) (h2 : isEqualShort name "limit" 'l' = true → name = "limit") (hs : st ≠ .success)
    (h : assignParameter c p name value = (p', st)) : Refused c p name value p' st := by
  have r : ∀ {x : Val}, realText c value = some x → ∃ d, c.dbl value = some d ∧ x = .real d := by
    intro x hx
    obtain ⟨d, h1, h2⟩ := Option.map_eq_some_iff.mp hx
    exact ⟨d, h1, h2.symm⟩
  have u : assign01 c value = none → ∀ x, realText c value = some x → unitRange x →
      x = .real (.fin (-1)) := by
    intro ha x hx hr
    obtain ⟨d, h1, rfl⟩ := r hx
    rw [show assign01 c value = some d from assignD_iff.mpr ⟨h1, hr⟩] at ha
    exact absurd ha (by simp)
  have o : assign0oo c value = none → ∀ x, realText c value = some x → positiveRange x →
      x = .real (.fin (-1)) := by
    intro ha x hx hr
    obtain ⟨d, h1, rfl⟩ := r hx
    rw [assign0oo_iff.mpr ⟨h1, hr⟩] at ha
    exact absurd ha (by simp)
  have n : ∀ {lo : Int}, assignI (c.int value) lo intMax = none → ∀ x, intText c value = some x →
      atLeast lo x → x = .real (.fin (-1)) := by
    intro lo ha x hx hr
    obtain ⟨d, h1, rfl⟩ := Option.map_eq_some_iff.mp hx
    rw [assignI_iff.mpr ⟨h1, hr, (hc.int h1).trans (by decide)⟩] at ha
    exact absurd ha (by simp)
  have w : ∀ {l spec : List (String × Int)}, SameWords l spec → named value l = none →
      ∀ x, wordText spec c value = some x → choice spec x → x = .real (.fin (-1)) := by
    intro l spec hs ha x hx _
    obtain ⟨n, hn⟩ := word_named hs hx
    rw [hn] at ha
    exact absurd ha (by simp)
  unfold assignParameter at h
  rcases ite_cases h with ⟨e, h⟩ | ⟨e0, h⟩
  next e =>
    obtain rfl := h2 e
    refuse (
      intro x hx hr
      obtain ⟨d, h1, rfl⟩ := Option.map_eq_some_iff.mp hx
      rw [assignI_iff.mpr ⟨h1, hr, (hc.long h1).trans (by decide)⟩] at ha
      exact absurd ha (by simp))
  rcases ite_cases h with ⟨e, h⟩ | ⟨e1, h⟩
  next e =>
    obtain rfl := isEqual_iff.mp e
    refuse (
      intro x hx _
      rw [ha] at hx
      exact absurd hx (by simp))
  rcases ite_cases h with ⟨e, h⟩ | ⟨e, h⟩
  next e => obtain rfl := isEqual_iff.mp e; refuse (exact w (spec := floatTypes) (by decide +kernel) ha)
  rcases ite_cases h with ⟨e, h⟩ | ⟨e, h⟩
  next e => obtain rfl := isEqual_iff.mp e; refuse (exact w (spec := observers) (by decide +kernel) ha)
  rcases ite_cases h with ⟨e, h⟩ | ⟨e, h⟩
  next e =>
    obtain rfl := isEqual_iff.mp e
    refuse (
      intro x hx hr
      obtain ⟨d, h1, rfl⟩ := Option.map_eq_some_iff.mp hx
      simp only [List.mem_cons, Val.int.injEq, List.not_mem_nil, or_false] at hr
      rw [assignI_iff.mpr ⟨h1, by omega, by omega⟩] at ha
      exact absurd ha (by simp))
  rcases ite_cases h with ⟨e, h⟩ | ⟨e, h⟩
  next e => obtain rfl := isEqual_iff.mp e; refuse (exact w (spec := preOrders) (by decide +kernel) ha)
  rcases ite_cases h with ⟨e, h⟩ | ⟨e, h⟩
  next e => obtain rfl := isEqual_iff.mp e; refuse (exact w (spec := orders) (by decide +kernel) ha)
  rcases ite_cases h with ⟨e, h⟩ | ⟨e, h⟩
  next e => obtain rfl := isEqual_iff.mp e; refuse (exact w (spec := storages) (by decide +kernel) ha)
  rcases ite_cases h with ⟨e, h⟩ | ⟨e, h⟩
  next e => obtain rfl := isEqual_iff.mp e; refuse (exact u ha)
  rcases ite_cases h with ⟨e, h⟩ | ⟨e, h⟩
  next e => obtain rfl := isEqual_iff.mp e; refuse (
      intro x hx hr
      rcases hr with hr | hr
      · exact hr
      · exact o ha x hx hr)
  rcases ite_cases h with ⟨e, h⟩ | ⟨e, h⟩
  next e => obtain rfl := isEqual_iff.mp e; refuse (exact u ha)
  rcases ite_cases h with ⟨e, h⟩ | ⟨e, h⟩
  next e => obtain rfl := isEqual_iff.mp e; refuse (exact u ha)
  rcases ite_cases h with ⟨e, h⟩ | ⟨e, h⟩
  next e => obtain rfl := isEqual_iff.mp e; refuse (exact u ha)
  rcases ite_cases h with ⟨e, h⟩ | ⟨e, h⟩
  next e =>
    obtain rfl := isEqual_iff.mp e
    refuse (
      intro x hx hr
      obtain ⟨d, h1, rfl⟩ := r hx
      obtain ⟨d', h2, h3⟩ := hr
      obtain rfl := Val.real.inj h2
      rw [assignD_iff.mpr ⟨h1, h3⟩] at ha
      exact absurd ha (by simp))
  rcases ite_cases h with ⟨e, h⟩ | ⟨e, h⟩
  next e =>
    obtain rfl := isEqual_iff.mp e
    refuse (
      intro x hx hr
      obtain ⟨d, h1, rfl⟩ := r hx
      obtain ⟨q, h2, h3⟩ := hr
      obtain rfl := Val.real.inj h2
      have := assignD_iff.mpr ⟨h1, ⟨q, rfl, h3, hc.dbl h1⟩⟩
      unfold doubleMax at ha
      rw [this] at ha
      exact absurd ha (by simp))
  rcases ite_cases h with ⟨e, h⟩ | ⟨e, h⟩
  next e => obtain rfl := isEqual_iff.mp e; refuse (exact w (spec := norms) (by decide +kernel) ha)
  rcases ite_cases h with ⟨e, h⟩ | ⟨e, h⟩
  next e => obtain rfl := isEqual_iff.mp e; refuse (exact n ha)
  rcases ite_cases h with ⟨e, h⟩ | ⟨e, h⟩
  next e => obtain rfl := isEqual_iff.mp e; refuse (exact o ha)
  rcases ite_cases h with ⟨e, h⟩ | ⟨e, h⟩
  next e => obtain rfl := isEqual_iff.mp e; refuse (exact n ha)
  rcases ite_cases h with ⟨e, h⟩ | ⟨e, h⟩
  next e => obtain rfl := isEqual_iff.mp e; refuse (exact o ha)
  rcases ite_cases h with ⟨e, h⟩ | ⟨e, h⟩
  next e => obtain rfl := isEqual_iff.mp e; refuse (exact n ha)
  iterate 10
    rcases ite_cases h with ⟨e, h⟩ | ⟨e, h⟩
    next e => obtain rfl := isEqual_iff.mp e; refuse (exact u ha)
  rcases ite_cases h with ⟨e, h⟩ | ⟨e, h⟩
  next e => obtain rfl := isEqual_iff.mp e; refuse (exact w (spec := policies) (by decide +kernel) ha)
  rcases ite_cases h with ⟨e, h⟩ | ⟨e, h⟩
  next e => obtain rfl := isEqual_iff.mp e; refuse (exact u ha)
  rcases ite_cases h with ⟨e, h⟩ | ⟨e, h⟩
  next e => obtain rfl := isEqual_iff.mp e; refuse (exact n ha)
  rcases ite_cases h with ⟨e, h⟩ | ⟨e, h⟩
  next e => obtain rfl := isEqual_iff.mp e; refuse (exact n ha)
  · refine ⟨(Prod.mk.inj h).1.symm, Or.inl ⟨(Prod.mk.inj h).2.symm, ?_⟩⟩
    have e0 : name ≠ "limit" := fun e => e0 (by rw [e]; rfl)
    rw [isEqual_iff] at *
    intro f hf
    simp only [documented, List.mem_cons, List.not_mem_nil, or_false] at hf
    rcases hf with rfl | rfl | rfl | rfl | rfl | rfl | rfl | rfl | rfl | rfl | rfl | rfl | rfl |
      rfl | rfl | rfl | rfl | rfl | rfl | rfl | rfl | rfl | rfl | rfl | rfl | rfl | rfl | rfl |
      rfl | rfl | rfl | rfl | rfl | rfl | rfl <;> exact fun e => absurd e.symm (by assumption)


theorem assign_unchanged {c : Conv} {p p' : SolverParams} {name value : String} {st : CStatus}
    (hs : st ≠ .success) (h : assignParameter c p name value = (p', st)) : p' = p := by
  unfold assignParameter at h
  iterate 35
    rcases ite_cases h with ⟨_, h⟩ | ⟨_, h⟩
    next => exact (store_refused hs h).2.1
  exact (Prod.mk.inj h).1.symm

/-! ## Options -/

/-- `arg` looks like the option. -/
def isOpt (long short arg : String) : Bool :=
  long.toList.isPrefixOf arg.toList || short.toList.isPrefixOf arg.toList

theorem after_none {p arg : String} (h : p.toList.isPrefixOf arg.toList = false) :
    after p arg = none := by
  unfold after; rw [h]; rfl

theorem getParam_none {long short arg : String} (rest : List String)
    (h : isOpt long short arg = false) : getParam arg rest long short = none := by
  obtain ⟨h1, h2⟩ := Bool.or_eq_false_iff.mp h
  have e1 : arg ≠ long := by
    rintro rfl
    rw [List.isPrefixOf_iff_prefix.mpr (List.prefix_refl _)] at h1
    exact absurd h1 (by simp)
  have e2 : arg ≠ short := by
    rintro rfl
    rw [List.isPrefixOf_iff_prefix.mpr (List.prefix_refl _)] at h2
    exact absurd h2 (by simp)
  unfold getParam
  rw [after_none h1, after_none h2]
  cases rest <;> simp [e1, e2]

theorem after_append (p v : String) (hv : v ≠ "") : after p (p ++ v) = some v := by
  unfold after
  have h1 : p.toList.isPrefixOf (p ++ v).toList = true := by
    rw [List.isPrefixOf_iff_prefix, String.toList_append]
    exact List.prefix_append _ _
  have h2 : p.toList.length < (p ++ v).toList.length := by
    rw [String.toList_append, List.length_append]
    have : v.toList ≠ [] := fun h => hv (String.ext (by simpa using h))
    have := List.length_pos_iff.mpr this
    omega
  rw [h1, decide_eq_true h2]
  simp only [Bool.and_self, if_true, String.toList_append, List.drop_left, String.ofList_toList]

theorem getParam_equal (long short v : String) (rest : List String) (c : Char)
    (hc : c = '=' ∨ c = ':') :
    getParam (long ++ (String.singleton c ++ v)) rest long short = some (v, false) := by
  unfold getParam
  rw [after_append _ _ (fun h => by have := congrArg String.toList h; simp at this)]
  have : (String.singleton c ++ v).toList = c :: v.toList := by simp
  simp only [Option.bind_some, this, List.head?_cons, List.tail_cons, String.ofList_toList]
  rw [if_pos (by rcases hc with rfl | rfl <;> rfl)]

theorem getParam_short {long short v : String} (rest : List String) (hv : v ≠ "")
    (h : long.toList.isPrefixOf (short ++ v).toList = false) :
    getParam (short ++ v) rest long short = some (v, false) := by
  unfold getParam
  rw [after_none h, after_append _ _ hv]
  rfl

theorem after_self (p : String) : after p p = none := by
  unfold after; simp

theorem getParam_next (long short v : String) (rest : List String)
    (h : short.toList.isPrefixOf long.toList = false) :
    getParam long (v :: rest) long short = some (v, true) := by
  unfold getParam
  rw [after_self, after_none h]
  simp

theorem getParam_shortNext (long short v : String) (rest : List String)
    (h : long.toList.isPrefixOf short.toList = false) :
    getParam short (v :: rest) long short = some (v, true) := by
  unfold getParam
  rw [after_self, after_none h]
  simp

/-- Every way to write an option gives its value to the program. -/
theorem getParam_written {long short v : String} {f : Form} {arg : String} {tail rest : List String}
    (hw : written long short v f = arg :: tail) (hv : f = .short → v ≠ "")
    (h1 : short.toList.isPrefixOf long.toList = false)
    (h2 : ∀ v : String, long.toList.isPrefixOf (short ++ v).toList = false) :
    getParam arg (tail ++ rest) long short = some (v, !tail.isEmpty) ∧ tail = tail.take 1 := by
  cases f with
  | equal =>
    obtain ⟨rfl, rfl⟩ := List.cons.inj hw
    refine ⟨?_, rfl⟩
    have := getParam_equal long short v rest '=' (Or.inl rfl)
    rwa [← String.append_assoc] at this
  | colon =>
    obtain ⟨rfl, rfl⟩ := List.cons.inj hw
    refine ⟨?_, rfl⟩
    have := getParam_equal long short v rest ':' (Or.inr rfl)
    rwa [← String.append_assoc] at this
  | short =>
    obtain ⟨rfl, rfl⟩ := List.cons.inj hw
    exact ⟨getParam_short rest (hv rfl) (h2 v), rfl⟩
  | next =>
    obtain ⟨rfl, rfl⟩ := List.cons.inj hw
    exact ⟨getParam_next _ _ _ _ h1, rfl⟩
  | shortNext =>
    obtain ⟨rfl, rfl⟩ := List.cons.inj hw
    refine ⟨getParam_shortNext _ _ _ _ ?_, rfl⟩
    simpa using h2 ""

end Bx.CommandLine
