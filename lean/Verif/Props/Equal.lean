import Mathlib.Algebra.Order.Ring.Rat
import Mathlib.Tactic.NormNum
import Verif.Model.Equal
import Verif.Spec.Lp

/-!
# C103: problems that compare equal are the same problem
-/

namespace Bx.Equal

open Spec

theorem vec_iff {α β : Type} {eq : α → α → Bool} {k : α → β}
    (h : ∀ a b, eq a b = true ↔ k a = k b) (l r : List α) :
    vec eq l r = true ↔ l.map k = r.map k := by
  induction l generalizing r with
  | nil => cases r <;> simp [vec]
  | cons a l ih =>
    cases r with
    | nil => simp [vec]
    | cons b r => simp [vec, h, ih]

theorem vec_eq {α : Type} {eq : α → α → Bool} (h : ∀ a b, eq a b = true ↔ a = b) (l r : List α) :
    vec eq l r = true ↔ l = r := by
  simpa using vec_iff (k := id) h l r

/-- A constraint without its identifier. -/
def content (c : Constr) : String × List FunElem × Int := (c.label, c.elems, c.value)

theorem constr_iff (a b : Constr) : constr a b = true ↔ content a = content b := by
  have := vec_eq (eq := funElem) (fun a b => by
    cases a; cases b; simp [funElem]) a.elems b.elems
  simp only [constr, content, Bool.and_eq_true, this, decide_eq_true_eq, Prod.mk.injEq]
  tauto

/-- C103: exactly what is compared: everything except the identifiers of the constraints and the
quadratic part of the objective. -/
theorem C103_what_is_compared (a b : RawProblem) :
    raw a b = true ↔
      a.type = b.type ∧ a.objective.value = b.objective.value ∧
      a.objective.elems = b.objective.elems ∧
      a.eqs.map content = b.eqs.map content ∧ a.ges.map content = b.ges.map content ∧
      a.les.map content = b.les.map content ∧
      a.names = b.names ∧ a.values = b.values := by
  have h1 := vec_eq (eq := objElem) (fun a b => by
    cases a; cases b; simp [objElem]) a.objective.elems b.objective.elems
  have h2 := vec_eq (eq := fun x y : String => decide (x = y)) (fun a b => by simp) a.names b.names
  have h3 := vec_eq (eq := varValue) (fun a b => by
    cases a; cases b; simp [varValue, and_assoc]) a.values b.values
  have h4 := vec_iff constr_iff a.eqs b.eqs
  have h5 := vec_iff constr_iff a.ges b.ges
  have h6 := vec_iff constr_iff a.les b.les
  simp only [raw, objective, Bool.and_eq_true, h1, h2, h3, h4, h5, h6, decide_eq_true_eq]
  tauto

theorem forall_content {P : List FunElem → Int → Prop} {l r : List Constr}
    (h : l.map content = r.map content) (hl : ∀ c ∈ l, P c.elems c.value) :
    ∀ c ∈ r, P c.elems c.value := by
  intro c hc
  have : content c ∈ l.map content := h ▸ List.mem_map_of_mem hc
  obtain ⟨d, hd, he⟩ := List.mem_map.mp this
  simp only [content, Prod.mk.injEq] at he
  rw [← he.2.1, ← he.2.2]
  exact hl d hd

theorem satisfies_content {a b : RawProblem} (h : raw a b = true) {x : Assign}
    (hx : IsSolution a x) : IsSolution b x := by
  obtain ⟨_, _, _, h4, h5, h6, _, h8⟩ := (C103_what_is_compared a b).mp h
  obtain ⟨⟨s1, s2, s3⟩, s4⟩ := hx
  exact ⟨⟨forall_content (P := fun e v => lhs x e = v) h4 s1,
    forall_content (P := fun e v => lhs x e ≥ v) h5 s2,
    forall_content (P := fun e v => lhs x e ≤ v) h6 s3⟩, h8 ▸ s4⟩

/-- C103: equality is reflexive, symmetric and transitive. -/
theorem C103_equivalence :
    (∀ a, raw a a = true) ∧ (∀ a b, raw a b = true → raw b a = true) ∧
      ∀ a b c, raw a b = true → raw b c = true → raw a c = true := by
  refine ⟨fun a => ?_, fun a b => ?_, fun a b c => ?_⟩ <;>
    simp only [C103_what_is_compared]
  · simp
  · rintro ⟨h1, h2, h3, h4, h5, h6, h7, h8⟩
    exact ⟨h1.symm, h2.symm, h3.symm, h4.symm, h5.symm, h6.symm, h7.symm, h8.symm⟩
  · rintro ⟨h1, h2, h3, h4, h5, h6, h7, h8⟩ ⟨g1, g2, g3, g4, g5, g6, g7, g8⟩
    exact ⟨h1.trans g1, h2.trans g2, h3.trans g3, h4.trans g4, h5.trans g5, h6.trans g6,
      h7.trans g7, h8.trans g8⟩

/-- C103 (partial): problems that compare equal have the same variables, the same direction and
the same solutions, and, when both objectives are linear, give the same value to each assignment.
Missing: quadratic objectives, for which it is false (`C103_quadratic_part_ignored`). -/
theorem C103_equal_problems_partial (a b : RawProblem) (h : raw a b = true) :
    a.names = b.names ∧ a.type = b.type ∧ (∀ x, IsSolution a x ↔ IsSolution b x) ∧
      (a.objective.qelems = [] → b.objective.qelems = [] →
        ∀ x, Spec.objective a.objective x = Spec.objective b.objective x) := by
  obtain ⟨h1, h2, h3, _, _, _, h7, _⟩ := (C103_what_is_compared a b).mp h
  refine ⟨h7, h1, fun x => ⟨satisfies_content h, satisfies_content (C103_equivalence.2.1 _ _ h)⟩,
    fun ha hb x => ?_⟩
  unfold Spec.objective
  rw [h2, h3, ha, hb]

/-- Two problems on two variables that differ by their quadratic part. -/
def exQ1 : RawProblem :=
  { type := .minimize
    objective := { elems := [⟨1, 0⟩], qelems := [⟨-3, 0, 1⟩] }
    ges := [⟨"c", [⟨1, 0⟩, ⟨1, 1⟩], 1, 0⟩]
    names := ["x", "y"]
    values := [⟨0, 1, .binary⟩, ⟨0, 1, .binary⟩] }

def exQ2 : RawProblem := { exQ1 with objective := { elems := [⟨1, 0⟩], qelems := [⟨3, 0, 1⟩] } }

/-- `x` is a solution and no solution has a better value. -/
def IsBest (pb : RawProblem) (x : Assign) : Prop :=
  IsSolution pb x ∧ ∀ y, IsSolution pb y →
    AtLeastAsGood pb.type (Spec.objective pb.objective x) (Spec.objective pb.objective y)

/-- Refutation: two problems compare equal and have no best solution in common. -/
theorem C103_quadratic_part_ignored :
    raw exQ1 exQ2 = true ∧ (∃ x, IsBest exQ1 x) ∧ (∃ x, IsBest exQ2 x) ∧
      ∀ x, ¬ (IsBest exQ1 x ∧ IsBest exQ2 x) := by
  have o1 : ∀ x, Spec.objective exQ1.objective x =
      (if x 0 then 1 else 0) + (if x 0 && x 1 then -3 else 0) := by
    intro x; simp [Spec.objective, exQ1]
  have o2 : ∀ x, Spec.objective exQ2.objective x =
      (if x 0 then 1 else 0) + (if x 0 && x 1 then 3 else 0) := by
    intro x; simp [Spec.objective, exQ2]
  have s1 : ∀ x, IsSolution exQ1 x ↔ (x 0 = true ∨ x 1 = true) := by
    intro x
    have hf : RespectsFixed exQ1.values x := by
      intro i v hv hm
      rcases i with _ | _ | i
      · simp only [exQ1, List.getElem?_cons_zero, Option.some.injEq] at hv
        subst hv; simp at hm
      · simp only [exQ1, Nat.zero_add, List.getElem?_cons_succ, List.getElem?_cons_zero,
          Option.some.injEq] at hv
        subst hv; simp at hm
      · simp [exQ1] at hv
    have hs : Satisfies exQ1.eqs exQ1.ges exQ1.les x ↔ (x 0 = true ∨ x 1 = true) := by
      simp only [Satisfies, exQ1, List.not_mem_nil, false_imp_iff,
        implies_true, true_and, and_true, List.forall_mem_cons, lhs, List.map_cons, List.map_nil,
        List.sum_cons, List.sum_nil]
      rcases x 0 with _ | _ <;> rcases x 1 with _ | _ <;> simp
    rw [← hs]
    exact ⟨fun h => h.1, fun h => ⟨h, hf⟩⟩
  have s2 : ∀ x, IsSolution exQ2 x ↔ (x 0 = true ∨ x 1 = true) := s1
  have b1 : IsBest exQ1 fun _ => true := by
    refine ⟨(s1 _).mpr (Or.inl rfl), fun y hy => ?_⟩
    show Spec.objective exQ1.objective _ ≤ Spec.objective exQ1.objective y
    rw [o1, o1]
    cases y 0 <;> cases y 1 <;> simp <;> norm_num
  have b2 : IsBest exQ2 fun i => i = 1 := by
    refine ⟨(s2 _).mpr (Or.inr rfl), fun y hy => ?_⟩
    show Spec.objective exQ2.objective _ ≤ Spec.objective exQ2.objective y
    rw [o2, o2]
    cases y 0 <;> cases y 1 <;> simp <;> norm_num
  refine ⟨by decide, ⟨_, b1⟩, ⟨_, b2⟩, ?_⟩
  rintro x ⟨h1, h2⟩
  have g1 : Spec.objective exQ1.objective x ≤ Spec.objective exQ1.objective _ := h1.2 _ b1.1
  have g2 : Spec.objective exQ2.objective x ≤ Spec.objective exQ2.objective _ := h2.2 _ b2.1
  rw [o1, o1] at g1
  rw [o2, o2] at g2
  revert g1 g2
  cases x 0 <;> cases x 1 <;> simp <;> norm_num

example : raw exQ1 { exQ1 with ges := [⟨"c", [⟨1, 0⟩, ⟨1, 1⟩], 1, 5⟩] } = true ∧
    raw exQ1 { exQ1 with ges := [⟨"c", [⟨1, 0⟩, ⟨1, 1⟩], 2, 0⟩] } = false := by decide

end Bx.Equal
