import Verif.Model.Preprocess
import Verif.Spec.Lp
import Verif.Proofs.Outcome
import Mathlib.Data.List.Nodup
import Mathlib.Data.List.Perm.Basic
import Mathlib.Data.List.Perm.Subperm
import Mathlib.Data.List.Count
import Mathlib.Tactic.Ring

/-! Helper lemmas for the preprocessor, part 1: propagation invariant. -/

namespace Bx.Preprocess

open Spec

/-! ### Association lists with natural keys -/

theorem lookup_none_iff {l : List (Nat × Bool)} {i : Nat} :
    l.lookup i = none ↔ i ∉ l.map Prod.fst := by
  induction l with
  | nil => simp
  | cons p l ih =>
    obtain ⟨k, b⟩ := p
    by_cases h : i = k
    · subst h; simp [List.lookup]
    · simp [List.lookup, beq_false_of_ne h, ih, h]

theorem mem_of_lookup {l : List (Nat × Bool)} {i : Nat} {b : Bool}
    (h : l.lookup i = some b) : (i, b) ∈ l := by
  induction l with
  | nil => simp at h
  | cons p l ih =>
    obtain ⟨k, c⟩ := p
    by_cases hk : i = k
    · subst hk; simp [List.lookup] at h; simp [h]
    · simp only [List.lookup, beq_false_of_ne hk] at h
      exact List.mem_cons_of_mem _ (ih h)

theorem lookup_of_mem {l : List (Nat × Bool)} (hn : (l.map Prod.fst).Nodup)
    {k : Nat} {b : Bool} (h : (k, b) ∈ l) : l.lookup k = some b := by
  induction l with
  | nil => simp at h
  | cons p l ih =>
    obtain ⟨k', b'⟩ := p
    simp only [List.map_cons, List.nodup_cons] at hn
    rcases List.mem_cons.mp h with h' | h'
    · cases h'; simp [List.lookup]
    · have hne : k ≠ k' := by
        rintro rfl
        exact hn.1 (List.mem_map.mpr ⟨(k, b), h', rfl⟩)
      simp [List.lookup, beq_false_of_ne hne, ih hn.2 h']

/-! ### Constraints -/

/-- An assignment agrees with a list of known values. -/
def Agrees (K : List (Nat × Bool)) (z : Assign) : Prop := ∀ p ∈ K, z p.1 = p.2

/-- A constraint of a kind is satisfied. -/
def satK (k : Kind) (c : Constr) (z : Assign) : Prop :=
  test k (lhs z c.elems) c.value = true

/-- The elements whose variable is not affected yet. -/
def unknown (vars : List (Nat × Bool)) (es : List FunElem) : List FunElem :=
  es.filter fun e => (vars.lookup e.var).isNone

/-- The part of the left-hand side which is known. -/
def knownSum (vars : List (Nat × Bool)) (es : List FunElem) : Int :=
  (es.map fun e => if vars.lookup e.var = some true then e.factor else 0).sum

theorem lhs_cons (z : Assign) (e : FunElem) (es : List FunElem) :
    lhs z (e :: es) = (if z e.var then e.factor else 0) + lhs z es := by
  simp [lhs]

theorem lhs_nil (z : Assign) : lhs z [] = 0 := rfl

theorem lhs_split {vars : List (Nat × Bool)} {z : Assign} (h : Agrees vars z) :
    ∀ es, lhs z es = knownSum vars es + lhs z (unknown vars es)
  | [] => rfl
  | e :: es => by
    have ih := lhs_split h es
    rw [lhs_cons, ih]
    unfold unknown knownSum
    cases hl : vars.lookup e.var with
    | none => simp [hl, lhs_cons]; omega
    | some b =>
      have := h _ (mem_of_lookup hl)
      simp only at this
      cases b <;> simp [hl, this]
      omega

theorem lhs_congr {x y : Assign} {es : List FunElem} (h : ∀ e ∈ es, x e.var = y e.var) :
    lhs x es = lhs y es := by
  unfold lhs
  congr 1
  exact List.map_congr_left fun e he => by rw [h e he]

theorem reduceLoop_eq (vars : List (Nat × Bool)) :
    ∀ (es : List FunElem) (rem : Option FunElem) (res : Int),
      (if rem.isSome then 1 else 0) + (unknown vars es).length ≤ 1 →
      reduceLoop vars es rem res =
        .ok (rem <|> (unknown vars es).head?, res - knownSum vars es)
  | [], rem, res, _ => by cases rem <;> simp [reduceLoop, unknown, knownSum]
  | e :: es, rem, res, h => by
    unfold reduceLoop
    cases hl : vars.lookup e.var with
    | none =>
      have hu : unknown vars (e :: es) = e :: unknown vars es := by
        simp [unknown, hl]
      rw [hu] at h
      have hr : rem = none := by
        cases rem with
        | none => rfl
        | some r => simp at h
      subst hr
      have h0 : unknown vars es = [] := by
        simpa using h
      have ih := reduceLoop_eq vars es (some e) res (by simp [h0])
      simp only [Option.isNone_none, check_true, ok_bind, ih, hu, List.head?_cons]
      simp [knownSum, hl]
    | some b =>
      have hu : unknown vars (e :: es) = unknown vars es := by
        simp [unknown, hl]
      rw [hu] at h
      simp only
      rw [reduceLoop_eq vars es rem _ h, hu]
      simp only [knownSum, List.map_cons, List.sum_cons, hl]
      cases b <;> simp
      omega

theorem test_shift (k : Kind) (l r s : Int) : test k l (r - s) = test k (s + l) r := by
  cases k <;> simp only [test, decide_eq_decide] <;> omega

/-- What `reduceKind` answers for a constraint with exactly one unknown
element. -/
theorem reduceKind_one (k : Kind) (vars : List (Nat × Bool)) (c : Constr) (e : FunElem)
    (h1 : unknown vars c.elems = [e]) :
    (∃ r, reduceKind k vars c = .ok r ∧
      (∀ b, r = some b → b.1 = e.var ∧
        (∀ x, Agrees vars x → satK k c x → x e.var = b.2) ∧
        (∀ x, Agrees vars x → x e.var = b.2 → satK k c x)) ∧
      (r = none → ∀ x, Agrees vars x → satK k c x)) ∨
    (reduceKind k vars c = .error (.contract "bx_reach") ∧
      ∀ x, Agrees vars x → ¬ satK k c x) := by
  have hr := reduceLoop_eq vars c.elems none c.value (by simp [h1])
  have hsat : ∀ x, Agrees vars x →
      (satK k c x ↔ test k (if x e.var then e.factor else 0) (c.value - knownSum vars c.elems)) := by
    intro x hx
    unfold satK
    rw [lhs_split hx, h1, lhs_cons, lhs_nil, test_shift, Int.add_zero]
  unfold reduceKind
  rw [hr]
  simp only [ok_bind, h1, List.head?_cons, Option.none_or, Option.orElse_eq_orElse,
    Option.orElse_eq_or, Int.mul_zero, Int.mul_one]
  set t0 := test k 0 (c.value - knownSum vars c.elems) with ht0
  set t1 := test k e.factor (c.value - knownSum vars c.elems) with ht1
  have hsat' : ∀ x, Agrees vars x → (satK k c x ↔ (if x e.var then t1 else t0) = true) := by
    intro x hx
    rw [hsat x hx]
    cases x e.var <;> simp [ht0, ht1]
  clear_value t0 t1
  cases t0 <;> cases t1
  · right
    refine ⟨rfl, fun x hx => ?_⟩
    rw [hsat' x hx]; simp
  · left
    refine ⟨some (e.var, true), rfl, ?_, by simp⟩
    rintro b ⟨⟩
    refine ⟨rfl, fun x hx hs => ?_, fun x hx hb => ?_⟩
    · rw [hsat' x hx] at hs
      simpa using hs
    · rw [hsat' x hx]
      simpa using hb
  · left
    refine ⟨some (e.var, false), rfl, ?_, by simp⟩
    rintro b ⟨⟩
    refine ⟨rfl, fun x hx hs => ?_, fun x hx hb => ?_⟩
    · rw [hsat' x hx] at hs
      simpa using hs
    · rw [hsat' x hx]
      simpa using hb
  · left
    refine ⟨none, rfl, by simp, fun _ x hx => ?_⟩
    rw [hsat' x hx]
    simp

/-! ### The stack -/

/-- Invariant of the known values. -/
structure KInv (n : Nat) (Feas : Assign → Prop) (vars lifo : List (Nat × Bool)) : Prop where
  nodup : ((vars ++ lifo).map Prod.fst).Nodup
  lt : ∀ p ∈ vars ++ lifo, p.1 < n
  agree : ∀ x, Feas x → Agrees (vars ++ lifo) x

theorem KInv.push {n : Nat} {Feas : Assign → Prop} {vars lifo : List (Nat × Bool)}
    (h : KInv n Feas vars lifo) {i : Nat} {b : Bool} (hi : i < n)
    (hv : vars.lookup i = none) (hb : ∀ x, Feas x → x i = b) :
    KInv n Feas vars (lifoEmplace lifo i b) ∧
    (∀ p ∈ vars ++ lifo, p ∈ vars ++ lifoEmplace lifo i b) ∧
    ((∃ x, Feas x) → (i, b) ∈ vars ++ lifoEmplace lifo i b) := by
  unfold lifoEmplace
  split
  case isTrue ha =>
    refine ⟨h, fun p hp => hp, ?_⟩
    rintro ⟨x, hx⟩
    obtain ⟨⟨j, c⟩, hj, hji⟩ := List.any_eq_true.mp ha
    have hj' : j = i := by simpa using hji
    subst hj'
    have h1 := h.agree x hx (j, c) (List.mem_append_right _ hj)
    have h2 := hb x hx
    simp only at h1
    rw [h1] at h2
    subst h2
    exact List.mem_append_right _ hj
  case isFalse ha =>
    have hni : i ∉ lifo.map Prod.fst := by
      intro hm
      obtain ⟨p, hp, hpi⟩ := List.mem_map.mp hm
      exact ha (List.any_eq_true.mpr ⟨p, hp, by simp [hpi]⟩)
    have hperm : (vars ++ (i, b) :: lifo).Perm ((i, b) :: (vars ++ lifo)) :=
      List.perm_middle
    refine ⟨⟨?_, ?_, ?_⟩, ?_, ?_⟩
    · rw [(hperm.map Prod.fst).nodup_iff]
      simp only [List.map_cons, List.nodup_cons]
      refine ⟨?_, h.nodup⟩
      rw [List.map_append, List.mem_append, not_or]
      exact ⟨lookup_none_iff.mp hv, hni⟩
    · intro p hp
      rcases List.mem_cons.mp (hperm.mem_iff.mp hp) with rfl | hp
      · exact hi
      · exact h.lt p hp
    · intro x hx p hp
      rcases List.mem_cons.mp (hperm.mem_iff.mp hp) with rfl | hp
      · exact hb x hx
      · exact h.agree x hx p hp
    · intro p hp
      exact hperm.mem_iff.mpr (List.mem_cons_of_mem _ hp)
    · intro _
      exact hperm.mem_iff.mpr List.mem_cons_self

theorem KInv.pushAll {n : Nat} {Feas : Assign → Prop} {vars : List (Nat × Bool)} (b : Bool) :
    ∀ (es : List FunElem) (lifo : List (Nat × Bool)), KInv n Feas vars lifo →
      (∀ e ∈ es, e.var < n) → (∀ e ∈ es, vars.lookup e.var = none) →
      (∀ x, Feas x → ∀ e ∈ es, x e.var = b) →
      KInv n Feas vars (es.foldl (fun l e => lifoEmplace l e.var b) lifo) ∧
      (∀ p ∈ vars ++ lifo, p ∈ vars ++ es.foldl (fun l e => lifoEmplace l e.var b) lifo) ∧
      ((∃ x, Feas x) → ∀ e ∈ es,
        (e.var, b) ∈ vars ++ es.foldl (fun l e => lifoEmplace l e.var b) lifo)
  | [], lifo, h, _, _, _ => ⟨h, fun _ hp => hp, by simp⟩
  | e :: es, lifo, h, h1, h2, h3 => by
    obtain ⟨k1, k2, k3⟩ := h.push (h1 e (by simp)) (h2 e (by simp))
      (fun x hx => h3 x hx e (by simp))
    obtain ⟨l1, l2, l3⟩ := KInv.pushAll b es _ k1 (fun e' h' => h1 e' (by simp [h']))
      (fun e' h' => h2 e' (by simp [h'])) (fun x hx e' h' => h3 x hx e' (by simp [h']))
    refine ⟨l1, fun p hp => l2 p (k2 p hp), fun hF e' he' => ?_⟩
    rcases List.mem_cons.mp he' with rfl | he'
    · exact l2 _ (k3 hF)
    · exact l3 hF e' he'

end Bx.Preprocess
