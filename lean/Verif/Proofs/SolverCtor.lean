import Verif.Model.SolverCtor
import Verif.Proofs.Merge

/-! Helper lemmas on the constructors of the solvers and the classification. -/

namespace Bx.SolverCtor

open Merge Spec

theorem lhs_ge_lower (x : Assign) : ∀ es : List FunElem, lowerSum es ≤ lhs x es
  | [] => by simp [lowerSum, lhs]
  | e :: es => by
    have := lhs_ge_lower x es
    simp only [lowerSum, lhs, List.map_cons, List.sum_cons] at *
    split <;> split <;> omega

theorem lhs_le_upper (x : Assign) : ∀ es : List FunElem, lhs x es ≤ upperSum es
  | [] => by simp [upperSum, lhs]
  | e :: es => by
    have := lhs_le_upper x es
    simp only [upperSum, lhs, List.map_cons, List.sum_cons] at *
    split <;> split <;> omega

theorem lower_01 : ∀ {es : List FunElem}, (∀ e ∈ es, e.factor = 1) → lowerSum es = 0
  | [], _ => rfl
  | e :: es, h => by
    have h1 := lower_01 (es := es) fun e' he => h e' (by simp [he])
    have h2 := h e (by simp)
    simp only [lowerSum, List.map_cons, List.sum_cons] at *
    rw [h1, h2]; simp

theorem upper_01 : ∀ {es : List FunElem}, (∀ e ∈ es, e.factor = 1) →
    upperSum es = (es.length : Int)
  | [], _ => rfl
  | e :: es, h => by
    have h1 := upper_01 (es := es) fun e' he => h e' (by simp [he])
    have h2 := h e (by simp)
    simp only [upperSum, List.map_cons, List.sum_cons, List.length_cons] at *
    rw [h1, h2]; simp; omega

theorem bounds_101 : ∀ {es : List FunElem}, (∀ e ∈ es, e.factor.natAbs = 1) →
    lowerSum es = -(negatives es : Int) ∧ negatives es ≤ es.length ∧
    upperSum es = ((es.length - negatives es : Nat) : Int)
  | [], _ => ⟨rfl, by simp [negatives], rfl⟩
  | e :: es, h => by
    obtain ⟨h1, h2, h3⟩ := bounds_101 (es := es) fun e' he => h e' (by simp [he])
    have h4 := h e (by simp)
    simp only [lowerSum, upperSum, negatives, List.map_cons, List.sum_cons, List.length_cons,
      List.filter_cons, gt_iff_lt] at *
    rcases Int.natAbs_eq e.factor with h5 | h5 <;> rw [h4] at h5 <;> simp [h5] <;> omega

/-- A satisfiable constraint with the right factors meets the constructor's
contract, and the bounds of the solver say the same thing. -/
theorem ctor_ok {t : SolverType} {m : Merged}
    (h01 : t = .equalities01 ∨ t = .inequalities01 → ∀ e ∈ m.elems, e.factor = 1)
    (h101 : t = .equalities101 ∨ t = .inequalities101 → ∀ e ∈ m.elems, e.factor.natAbs = 1)
    (hz : t = .equalitiesZ ∨ t = .inequalitiesZ → ∀ e ∈ m.elems, e.factor ≠ 0)
    (heq : t = .equalities01 ∨ t = .equalities101 → m.min = m.max)
    (hsat : ∃ x, satM x m) : ∃ b, ctor t m = .ok b := by
  obtain ⟨x, hx1, hx2⟩ := hsat
  have hl := lhs_ge_lower x m.elems
  have hu := lhs_le_upper x m.elems
  cases t
  · refine ⟨⟨m.min, m.min, 0⟩, ?_⟩
    show equalities01 m = _
    unfold equalities01
    rw [show (m.elems.all fun e => decide (e.factor = 1)) = true by
      simpa using h01 (by simp), decide_eq_true (heq (by simp))]
    rfl
  · refine ⟨⟨m.min, m.min, negatives m.elems⟩, ?_⟩
    show equalities101 m = _
    unfold equalities101
    rw [show (m.elems.all fun e => decide (e.factor.natAbs = 1)) = true by
      simpa using h101 (by simp), decide_eq_true (heq (by simp))]
    rfl
  · show ∃ b, inequalitiesZ m = .ok b
    unfold inequalitiesZ
    rw [show (m.elems.all fun e => decide (e.factor ≠ 0)) = true by
      simpa using hz (by simp)]
    simp only [check_true, ok_bind]
    rw [decide_eq_true (by split <;> simp only <;> omega)]
    exact ⟨_, rfl⟩
  · have h1 := h01 (by simp)
    rw [lower_01 h1] at hl
    rw [upper_01 h1] at hu
    show ∃ b, inequalities01 m = .ok b
    unfold inequalities01
    rw [show (m.elems.all fun e => decide (e.factor = 1)) = true by simpa using h1]
    simp only [check_true, ok_bind]
    rw [decide_eq_true (by split <;> simp only <;> omega)]
    exact ⟨_, rfl⟩
  · obtain ⟨h1, h2, h3⟩ := bounds_101 (h101 (by simp))
    rw [h1] at hl
    rw [h3] at hu
    show ∃ b, inequalities101 m = .ok b
    unfold inequalities101
    rw [show (m.elems.all fun e => decide (e.factor.natAbs = 1)) = true by
      simpa using h101 (by simp)]
    simp only [check_true, ok_bind]
    rw [decide_eq_true (by split <;> simp only <;> omega)]
    exact ⟨_, rfl⟩
  · show ∃ b, inequalitiesZ m = .ok b
    unfold inequalitiesZ
    rw [show (m.elems.all fun e => decide (e.factor ≠ 0)) = true by
      simpa using hz (by simp)]
    simp only [check_true, ok_bind]
    rw [decide_eq_true (by split <;> simp only <;> omega)]
    exact ⟨_, rfl⟩

/-- The bounds kept by a solver are equivalent to those of the constraint. -/
theorem ctor_exact {t : SolverType} {m : Merged} {b : Bound} (h : ctor t m = .ok b) (x : Assign) :
    b.min ≤ lhs x m.elems ∧ lhs x m.elems ≤ b.max ↔ satM x m := by
  have hl := lhs_ge_lower x m.elems
  have hu := lhs_le_upper x m.elems
  unfold satM
  have hz : inequalitiesZ m = .ok b →
      (b.min ≤ lhs x m.elems ∧ lhs x m.elems ≤ b.max ↔
        m.min ≤ lhs x m.elems ∧ lhs x m.elems ≤ m.max) := by
    intro h
    unfold inequalitiesZ at h
    obtain ⟨_, _, h⟩ := bind_eq_ok.mp h
    obtain ⟨_, _, h⟩ := bind_eq_ok.mp h
    simp only [Except.ok.injEq] at h
    subst h
    split <;> simp only <;> omega
  cases t
  · change equalities01 m = _ at h
    unfold equalities01 at h
    obtain ⟨_, _, h⟩ := bind_eq_ok.mp h
    obtain ⟨_, h2, h⟩ := bind_eq_ok.mp h
    have := check_eq_ok.mp h2
    simp only [decide_eq_true_eq] at this
    simp only [Except.ok.injEq] at h
    subst h
    simp only
    omega
  · change equalities101 m = _ at h
    unfold equalities101 at h
    obtain ⟨_, _, h⟩ := bind_eq_ok.mp h
    obtain ⟨_, h2, h⟩ := bind_eq_ok.mp h
    have := check_eq_ok.mp h2
    simp only [decide_eq_true_eq] at this
    simp only [Except.ok.injEq] at h
    subst h
    simp only
    omega
  · exact hz h
  · change inequalities01 m = _ at h
    unfold inequalities01 at h
    obtain ⟨_, h1, h⟩ := bind_eq_ok.mp h
    obtain ⟨_, _, h⟩ := bind_eq_ok.mp h
    have := check_eq_ok.mp h1
    simp only [List.all_eq_true, decide_eq_true_eq] at this
    rw [lower_01 this] at hl
    rw [upper_01 this] at hu
    simp only [Except.ok.injEq] at h
    subst h
    split <;> simp only <;> omega
  · change inequalities101 m = _ at h
    unfold inequalities101 at h
    obtain ⟨_, h1, h⟩ := bind_eq_ok.mp h
    obtain ⟨_, _, h⟩ := bind_eq_ok.mp h
    have := check_eq_ok.mp h1
    simp only [List.all_eq_true, decide_eq_true_eq] at this
    obtain ⟨h1, h2, h3⟩ := bounds_101 this
    rw [h1] at hl
    rw [h3] at hu
    simp only [Except.ok.injEq] at h
    subst h
    split <;> simp only <;> omega
  · exact hz h

end Bx.SolverCtor

namespace Bx.ProblemType

theorem loop_two : ∀ (es : List FunElem) (r : Nat), r ≤ 1 →
    (coefficientLoop r es = 2 ↔ ∃ e ∈ es, e.factor ≤ -2 ∨ e.factor ≥ 2)
  | [], r, hr => by simp [coefficientLoop]; omega
  | e :: es, r, hr => by
    unfold coefficientLoop
    split
    · rename_i h
      rw [loop_two es 1 (by omega)]
      simp only [List.mem_cons, exists_eq_or_imp]
      constructor
      · exact Or.inr
      · rintro (h' | h')
        · omega
        · exact h'
    · split
      · rename_i h
        simp only [true_iff]
        exact ⟨e, by simp, h⟩
      · rename_i h
        rw [loop_two es r hr]
        simp only [List.mem_cons, exists_eq_or_imp]
        constructor
        · exact Or.inr
        · rintro (h' | h')
          · exact absurd h' h
          · exact h'

theorem loop_zero : ∀ (es : List FunElem),
    (coefficientLoop 0 es = 0 ↔ ∀ e ∈ es, e.factor = 0 ∨ e.factor = 1)
  | [] => by simp [coefficientLoop]
  | e :: es => by
    have hone : ∀ (es : List FunElem), coefficientLoop 1 es ≠ 0 := by
      intro es
      induction es with
      | nil => simp [coefficientLoop]
      | cons a es ih =>
        unfold coefficientLoop
        simp only [Nat.one_ne_zero, and_false, if_false]
        split
        · simp
        · exact ih
    unfold coefficientLoop
    split
    · rename_i h
      constructor
      · intro h'; exact absurd h' (hone es)
      · intro h'
        have := h' e (by simp)
        omega
    · split
      · rename_i h
        constructor
        · intro h'; simp at h'
        · intro h'
          have := h' e (by simp)
          omega
      · rename_i h1 h2
        rw [loop_zero es]
        simp only [List.forall_mem_cons]
        constructor
        · intro h'; exact ⟨by omega, h'⟩
        · exact fun h' => h'.2

theorem loop_le : ∀ (es : List FunElem) (r : Nat), r ≤ 1 → coefficientLoop r es ≤ 2
  | [], r, hr => by simp [coefficientLoop]; omega
  | e :: es, r, hr => by
    unfold coefficientLoop
    split
    · exact loop_le es 1 (by omega)
    · split
      · simp
      · exact loop_le es r hr

theorem type_two (eqs ges les : List Constr) :
    coefficientType eqs ges les = 2 ↔
      ∃ c ∈ eqs ++ ges ++ les, ∃ e ∈ c.elems, e.factor ≤ -2 ∨ e.factor ≥ 2 := by
  have h : ∀ cs : List Constr, coefficientTypeOf cs = 2 ↔
      ∃ c ∈ cs, ∃ e ∈ c.elems, e.factor ≤ -2 ∨ e.factor ≥ 2 := by
    intro cs
    unfold coefficientTypeOf
    rw [loop_two _ 0 (by omega)]
    simp only [List.mem_flatMap]
    constructor
    · rintro ⟨e, ⟨c, h1, h2⟩, h3⟩; exact ⟨c, h1, e, h2, h3⟩
    · rintro ⟨c, h1, e, h2, h3⟩; exact ⟨e, ⟨c, h1, h2⟩, h3⟩
  have l1 : coefficientTypeOf eqs ≤ 2 := loop_le _ 0 (by omega)
  have l2 : coefficientTypeOf ges ≤ 2 := loop_le _ 0 (by omega)
  have l3 : coefficientTypeOf les ≤ 2 := loop_le _ 0 (by omega)
  have key : coefficientType eqs ges les = 2 ↔ coefficientTypeOf eqs = 2 ∨
      coefficientTypeOf ges = 2 ∨ coefficientTypeOf les = 2 := by
    unfold coefficientType
    simp only [Nat.max_def]
    split <;> split <;> omega
  rw [key, h, h, h]
  simp only [List.mem_append, or_and_right, exists_or]
  exact or_assoc.symm

theorem type_zero (eqs ges les : List Constr) :
    coefficientType eqs ges les = 0 ↔
      ∀ c ∈ eqs ++ ges ++ les, ∀ e ∈ c.elems, e.factor = 0 ∨ e.factor = 1 := by
  have h : ∀ cs : List Constr, coefficientTypeOf cs = 0 ↔
      ∀ c ∈ cs, ∀ e ∈ c.elems, e.factor = 0 ∨ e.factor = 1 := by
    intro cs
    unfold coefficientTypeOf
    rw [loop_zero]
    simp only [List.mem_flatMap]
    constructor
    · intro hh c h1 e h2; exact hh e ⟨c, h1, h2⟩
    · rintro hh e ⟨c, h1, h2⟩; exact hh c h1 e h2
  have key : coefficientType eqs ges les = 0 ↔ coefficientTypeOf eqs = 0 ∧
      coefficientTypeOf ges = 0 ∧ coefficientTypeOf les = 0 := by
    unfold coefficientType
    simp only [Nat.max_def]
    split <;> split <;> omega
  rw [key, h, h, h]
  simp only [List.mem_append, or_imp, forall_and]
  tauto

theorem type_le (eqs ges les : List Constr) : coefficientType eqs ges les ≤ 2 := by
  have l1 : coefficientTypeOf eqs ≤ 2 := loop_le _ 0 (by omega)
  have l2 : coefficientTypeOf ges ≤ 2 := loop_le _ 0 (by omega)
  have l3 : coefficientTypeOf les ≤ 2 := loop_le _ 0 (by omega)
  unfold coefficientType
  simp only [Nat.max_def]
  split <;> split <;> omega

end Bx.ProblemType
