import Mathlib.Algebra.Order.Ring.Rat
import Mathlib.Algebra.Order.Field.Basic
import Mathlib.Tactic.Linarith
import Mathlib.Tactic.Ring
import Verif.Model.Costs
import Verif.Proofs.Outcome
import Verif.Spec.Costs

/-!
# Lemmas on the costs
-/

namespace Bx.Costs

open Bx.Spec (Assign)

theorem at'_some {α : Type} {a : List α} {i : Nat} {v : α} {w : String} (h : a[i]? = some v) :
    at' a i w = .ok v := by
  unfold at'; rw [h]

/-! ## Construction -/

/-- The sum of the factors of a variable. -/
def factorOf (es : List ObjElem) (j : Nat) : Rat :=
  (es.map fun e => if e.var = j then e.factor else 0).sum

theorem addElements_ok {n : Nat} : ∀ {es : List ObjElem} {acc : List Rat},
    (∀ e ∈ es, e.var < n) → ∃ l, addElements n es acc = .ok l ∧ l.length = acc.length ∧
      ∀ j, l[j]? = (acc[j]?).map (· + factorOf es j)
  | [], acc, _ => ⟨acc, rfl, rfl, fun j => by simp [factorOf]⟩
  | e :: es, acc, h => by
    obtain ⟨l, h1, h2, h3⟩ := addElements_ok (es := es) (acc := acc.modify e.var (· + e.factor))
      fun e' he => h e' (List.mem_cons_of_mem _ he)
    refine ⟨l, ?_, by rw [h2, List.length_modify], fun j => ?_⟩
    · unfold addElements
      rw [check_of (by simpa using h e List.mem_cons_self)]
      exact h1
    · rw [h3 j, List.getElem?_modify]
      unfold factorOf
      rw [List.map_cons, List.sum_cons]
      split
      · rename_i hj
        cases acc[j]? with
        | none => rfl
        | some v => simp [add_assoc]
      · rename_i hj
        cases acc[j]? with
        | none => rfl
        | some v => simp

/-- Does the element name the variable? -/
def touches (v : Nat) (e : QuadElem) : Bool := decide (e.a = v ∨ e.b = v)

/-- The pair stored for an element of a variable. -/
def slot (v : Nat) (e : QuadElem) : Rat × Nat := (e.factor, if e.a = v then e.b else e.a)

/-- The pairs of a variable. -/
def slots (qs : List QuadElem) (v : Nat) : List (Rat × Nat) := (qs.filter (touches v)).map (slot v)

theorem countQuads_ok {n v : Nat} : ∀ {qs : List QuadElem} {acc : Nat},
    (∀ e ∈ qs, e.a < n ∧ e.b < n) → countQuads n v qs acc = .ok (acc + (slots qs v).length)
  | [], acc, _ => rfl
  | e :: qs, acc, h => by
    have he := h e List.mem_cons_self
    unfold countQuads
    rw [check_of (by simpa using he.1), ok_bind, check_of (by simpa using he.2), ok_bind,
      countQuads_ok fun e' he' => h e' (List.mem_cons_of_mem _ he')]
    unfold slots
    rw [List.filter_cons]
    have hiff : (v = e.a ∨ v = e.b) ↔ touches v e = true := by
      unfold touches; rw [decide_eq_true_eq]; constructor <;> rintro (h | h) <;> simp [h]
    by_cases ht : touches v e = true
    · rw [if_pos (hiff.mpr ht), if_pos ht]
      simp only [List.map_cons, List.length_cons]
      congr 1
      omega
    · rw [if_neg fun h => ht (hiff.mp h), if_neg ht]

/-- The number of pairs of the variables from `v`, `k` of them. -/
def before (qs : List QuadElem) (v k : Nat) : Nat :=
  ((List.range k).map fun t => (slots qs (v + t)).length).sum

theorem before_succ (qs : List QuadElem) (v k : Nat) :
    before qs v (k + 1) = before qs v k + (slots qs (v + k)).length := by
  unfold before
  rw [List.range_succ, List.map_append, List.sum_append]
  simp

theorem before_succ' (qs : List QuadElem) (v k : Nat) :
    before qs v (k + 1) = (slots qs v).length + before qs (v + 1) k := by
  unfold before
  rw [List.range_succ_eq_map]
  simp only [List.map_cons, List.map_map, List.sum_cons, Nat.add_zero]
  congr 2
  apply List.map_congr_left
  intro t _
  simp only [Function.comp_apply, Nat.succ_eq_add_one]
  congr 2
  omega

theorem fillIndices_ok {n : Nat} {qs : List QuadElem} (h : ∀ e ∈ qs, e.a < n ∧ e.b < n) :
    ∀ {left v last : Nat}, ∃ is, fillIndices n qs left v last = .ok is ∧
      ∀ k ≤ left, (last :: is)[k]? = some (last + before qs v k)
  | 0, v, last => by
    refine ⟨[], rfl, fun k hk => ?_⟩
    obtain rfl : k = 0 := by omega
    simp [before]
  | left + 1, v, last => by
    obtain ⟨is, h1, h2⟩ := fillIndices_ok h (left := left) (v := v + 1)
      (last := last + (slots qs v).length)
    refine ⟨(last + (slots qs v).length) :: is, ?_, fun k hk => ?_⟩
    · unfold fillIndices
      rw [countQuads_ok h, ok_bind, h1, ok_bind]
    · cases k with
      | zero => simp [before]
      | succ k =>
        rw [List.getElem?_cons_succ, h2 k (by omega), before_succ']
        congr 1
        omega

theorem copyQuads_ok {room v : Nat} : ∀ {qs : List QuadElem} {acc : List (Rat × Nat)},
    acc.length + (slots qs v).length ≤ room → copyQuads room v qs acc = .ok (acc ++ slots qs v)
  | [], acc, _ => by simp [copyQuads, slots]
  | e :: qs, acc, h => by
    unfold copyQuads
    by_cases ht : touches v e = true
    · have hs : slots (e :: qs) v = slot v e :: slots qs v := by
        unfold slots; rw [List.filter_cons, if_pos ht, List.map_cons]
      rw [hs] at h ⊢
      simp only [List.length_cons] at h
      have ht' : e.a = v ∨ e.b = v := by simpa [touches] using ht
      rw [if_pos ht', if_pos (by omega), copyQuads_ok (by simp; omega)]
      unfold slot
      simp
    · have hs : slots (e :: qs) v = slots qs v := by
        unfold slots; rw [List.filter_cons, if_neg ht]
      rw [hs] at h ⊢
      have ht' : ¬ (e.a = v ∨ e.b = v) := by simpa [touches] using ht
      rw [if_neg ht']
      exact copyQuads_ok h

theorem fillQuads_ok {room : Nat} {qs : List QuadElem} : ∀ {left v : Nat} {acc : List (Rat × Nat)},
    acc.length + before qs v left ≤ room →
    fillQuads room qs left v acc = .ok (acc ++ (List.range left).flatMap fun t => slots qs (v + t))
  | 0, v, acc, _ => by simp [fillQuads]
  | left + 1, v, acc, h => by
    rw [before_succ'] at h
    unfold fillQuads
    rw [copyQuads_ok (by omega), ok_bind, fillQuads_ok (by rw [List.length_append]; omega),
      List.range_succ_eq_map, List.flatMap_cons, List.flatMap_map, List.append_assoc]
    congr 4
    funext t
    congr 1
    simp only [Nat.succ_eq_add_one]
    omega

/-- Each element is stored at most twice. -/
theorem before_le (qs : List QuadElem) (n : Nat) : before qs 0 n ≤ 2 * qs.length := by
  have key : ∀ n, before qs 0 n ≤ (qs.map fun e =>
      (if e.a < n then 1 else 0) + (if e.b < n then 1 else 0)).sum := by
    intro n
    induction n with
    | zero => simp [before]
    | succ n ih =>
      rw [before_succ]
      refine le_trans (Nat.add_le_add_right ih _) ?_
      rw [Nat.zero_add]
      unfold slots
      rw [List.length_map]
      clear ih
      induction qs with
      | nil => simp
      | cons e qs ih =>
        rw [List.filter_cons]
        simp only [List.map_cons, List.sum_cons]
        by_cases ht : touches n e = true
        · rw [if_pos ht, List.length_cons]
          have ht' : e.a = n ∨ e.b = n := by simpa [touches] using ht
          have : (if e.a < n then 1 else 0) + (if e.b < n then 1 else 0) + 1 ≤
              (if e.a < n + 1 then 1 else 0) + (if e.b < n + 1 then 1 else 0) := by
            split_ifs <;> omega
          omega
        · rw [if_neg ht]
          have : (if e.a < n then 1 else 0) + (if e.b < n then 1 else 0) ≤
              (if e.a < n + 1 then 1 else 0) + (if e.b < n + 1 then 1 else 0) := by
            split_ifs <;> omega
          omega
  refine le_trans (key n) ?_
  clear key
  induction qs with
  | nil => simp
  | cons e qs ih =>
    simp only [List.map_cons, List.sum_cons, List.length_cons]
    have : (if e.a < n then 1 else 0) + (if e.b < n then 1 else 0) ≤ 2 := by split_ifs <;> omega
    omega

/-- What the constructor of the quadratic cost builds. -/
theorem makeQuadratic_ok {o : Objective} {n : Nat} (h : Spec.InRange o n) :
    ∃ c, makeQuadratic o n = .ok c ∧ c.linear.length = n ∧
      (∀ j < n, c.linear[j]? = some (factorOf o.elems j)) ∧
      c.quads = ((List.range n).flatMap fun t => slots o.qelems t) ∧
      ∀ k ≤ n, c.indices[k]? = some (before o.qelems 0 k) := by
  obtain ⟨l, h1, h2, h3⟩ := addElements_ok (acc := List.replicate n 0) h.1
  obtain ⟨is, h4, h5⟩ := fillIndices_ok h.2 (left := n) (v := 0) (last := 0)
  have h6 : fillQuads (2 * o.qelems.length + 1) o.qelems n 0 [] =
      .ok ((List.range n).flatMap fun t => slots o.qelems t) := by
    rw [fillQuads_ok (by have := before_le o.qelems n; simp; omega)]
    simp
  refine ⟨⟨l, (List.range n).flatMap fun t => slots o.qelems t, 0 :: is⟩, ?_, by simpa using h2, ?_,
    rfl, ?_⟩
  · unfold makeQuadratic
    rw [h1, ok_bind, h4, ok_bind, h6, ok_bind]
  · intro j hj
    rw [h3 j, List.getElem?_replicate_of_lt hj]
    simp
  · intro k hk
    rw [h5 k hk]
    simp

theorem flatMap_slice {α : Type} (f : Nat → List α) : ∀ (n j i : Nat) (_ : j < n)
    (_ : i < (f j).length),
    ((List.range n).flatMap f)[((List.range j).map fun t => (f t).length).sum + i]? = (f j)[i]?
  | 0, _, _, h, _ => by omega
  | n + 1, j, i, hj, hi => by
    have hlen : ∀ m, ((List.range m).flatMap f).length =
        ((List.range m).map fun t => (f t).length).sum := by
      intro m
      rw [List.length_flatMap]
    rw [List.range_succ, List.flatMap_append]
    by_cases hjn : j = n
    · subst hjn
      rw [List.getElem?_append_right (by rw [hlen]; omega), hlen]
      simp
    · have hsub : ((List.range j).map fun t => (f t).length).sum + i <
          ((List.range n).flatMap f).length := by
        by_contra hc
        have := flatMap_slice f n j i (by omega) hi
        rw [List.getElem?_eq_none (not_lt.mp hc), List.getElem?_eq_getElem hi] at this
        exact absurd this (by simp)
      rw [List.getElem?_append_left hsub]
      exact flatMap_slice f n j i (by omega) hi

theorem sumQuads_ok {c : Cost} {x : Assign} : ∀ {s : List (Rat × Nat)} {first : Nat} {ret : Rat},
    (∀ i < s.length, c.quads[first + i]? = s[i]?) →
    sumQuads c x s.length first ret = .ok (ret + (s.map fun q => if x q.2 then q.1 else 0).sum)
  | [], first, ret, _ => by simp [sumQuads]
  | q :: s, first, ret, h => by
    have h0 := h 0 (by simp)
    simp only [Nat.add_zero, List.getElem?_cons_zero] at h0
    rw [List.length_cons]
    unfold sumQuads
    rw [at'_some h0, ok_bind, sumQuads_ok fun i hi => ?_]
    · simp only [List.map_cons, List.sum_cons]
      congr 1
      split <;> ring
    · have := h (i + 1) (by simpa using hi)
      rw [List.getElem?_cons_succ] at this
      rw [← this]
      congr 1
      omega

/-- The value of the cost of a variable. -/
theorem at_ok {o : Objective} {n : Nat} (h : Spec.InRange o n) {c : Cost}
    (hc : makeQuadratic o n = .ok c) {j : Nat} (hj : j < n) (x : Assign) :
    c.at j x = .ok (factorOf o.elems j +
      ((slots o.qelems j).map fun q => if x q.2 then q.1 else 0).sum) := by
  obtain ⟨c', h1, _, h3, h4, h5⟩ := makeQuadratic_ok h
  rw [h1] at hc
  obtain rfl := Except.ok.inj hc
  unfold Cost.at
  rw [at'_some (h3 j hj), ok_bind, at'_some (h5 j hj.le), ok_bind, at'_some (h5 (j + 1) hj), ok_bind,
    before_succ, Nat.zero_add, Nat.add_sub_cancel_left]
  apply sumQuads_ok
  intro i hi
  rw [h4]
  have := flatMap_slice (slots o.qelems) n j i hj hi
  unfold before
  simpa using this

/-! ## Marginal values -/

theorem sum_sub_of {α : Type} (l : List α) (f g h : α → Rat) (e : ∀ a ∈ l, f a - g a = h a) :
    (l.map f).sum - (l.map g).sum = (l.map h).sum := by
  induction l with
  | nil => simp
  | cons a l ih =>
    simp only [List.map_cons, List.sum_cons]
    rw [← ih fun b hb => e b (List.mem_cons_of_mem _ hb), ← e a List.mem_cons_self]
    ring

theorem linear_diff (es : List ObjElem) (x : Assign) (j : Nat) :
    (es.map fun e => if Function.update x j true e.var then e.factor else 0).sum -
      (es.map fun e => if Function.update x j false e.var then e.factor else 0).sum =
      factorOf es j := by
  unfold factorOf
  apply sum_sub_of
  intro e _
  by_cases he : e.var = j
  · simp [he]
  · simp [he]

theorem slots_sum (qs : List QuadElem) (x : Assign) (j : Nat) :
    ((slots qs j).map fun q => if x q.2 then q.1 else 0).sum =
      (qs.map fun e => if touches j e then (if x (slot j e).2 then e.factor else 0) else 0).sum := by
  unfold slots
  induction qs with
  | nil => rfl
  | cons e qs ih =>
    rw [List.filter_cons]
    by_cases ht : touches j e = true
    · rw [if_pos ht, List.map_cons, List.map_cons, List.sum_cons, ih, List.map_cons, List.sum_cons,
        if_pos ht]
      rfl
    · rw [if_neg ht, ih, List.map_cons, List.sum_cons, if_neg ht, zero_add]

theorem quad_diff (qs : List QuadElem) (x : Assign) (j : Nat)
    (h : ∀ e ∈ qs, e.a = j → e.b = j → x j = true) :
    (qs.map fun e => if Function.update x j true e.a && Function.update x j true e.b
        then e.factor else 0).sum -
      (qs.map fun e => if Function.update x j false e.a && Function.update x j false e.b
        then e.factor else 0).sum =
      ((slots qs j).map fun q => if x q.2 then q.1 else 0).sum := by
  rw [slots_sum]
  apply sum_sub_of
  intro e he
  have he := h e he
  by_cases ha : e.a = j <;> by_cases hb : e.b = j
  · simp [touches, slot, ha, hb, he ha hb]
  · simp [touches, slot, ha, hb]
  · simp [touches, slot, ha, hb]
  · simp [touches, ha, hb]

/-! ## Division -/

theorem sumQuads_divide {c : Cost} {x : Assign} {k : Rat} : ∀ {left first : Nat} {ret : Rat},
    sumQuads { c with linear := c.linear.map (· / k), quads := c.quads.map fun q => (q.1 / k, q.2) }
      x left first (ret / k) = (sumQuads c x left first ret).map (· / k)
  | 0, first, ret => rfl
  | left + 1, first, ret => by
    unfold sumQuads at'
    simp only [List.getElem?_map]
    cases hq : c.quads[first]? with
    | none => rfl
    | some q =>
      simp only [Option.map_some, ok_bind]
      have : (if x q.2 = true then ret / k + q.1 / k else ret / k) =
          (if x q.2 = true then ret + q.1 else ret) / k := by
        split
        · rw [add_div]
        · rfl
      rw [this]
      exact sumQuads_divide

/-- The cost divided by a number: its values are divided by it. -/
def Cost.over (c : Cost) (k : Rat) : Cost :=
  { c with linear := c.linear.map (· / k), quads := c.quads.map fun q => (q.1 / k, q.2) }

theorem at_over (c : Cost) (k : Rat) (j : Nat) (x : Assign) :
    (c.over k).at j x = (c.at j x).map (· / k) := by
  unfold Cost.at Cost.over at'
  simp only [List.getElem?_map]
  cases c.linear[j]? with
  | none => rfl
  | some v =>
    cases h1 : c.indices[j]? with
    | none => rfl
    | some f =>
      cases h2 : c.indices[j + 1]? with
      | none => rfl
      | some g =>
        simp only [Option.map_some, ok_bind]
        exact sumQuads_divide

theorem atLinear_over (c : Cost) (k : Rat) (j : Nat) (x : Assign) :
    (c.over k).atLinear j x = (c.atLinear j x).map (· / k) := by
  unfold Cost.atLinear Cost.over at'
  simp only [List.getElem?_map]
  cases c.linear[j]? <;> rfl

theorem divide_cases (f : FloatType) (c : Cost) (d : Rat) :
    (f.isNormal d = false ∧ c.divide f d = c) ∨ (f.isNormal d = true ∧ c.divide f d = c.over d) := by
  unfold Cost.divide
  cases h : f.isNormal d
  · exact Or.inl ⟨rfl, rfl⟩
  · exact Or.inr ⟨rfl, rfl⟩

theorem isNormal_ne {f : FloatType} (hf : 0 < f.tiny) {q : Rat} (h : f.isNormal q = true) :
    q ≠ 0 := by
  rintro rfl
  unfold FloatType.isNormal at h
  simp only [Bool.and_eq_true, decide_eq_true_eq, abs_zero] at h
  linarith [h.1]

theorem le_maxFrom (l : List Rat) : ∀ a : Rat, a ≤ maxFrom a l := by
  unfold maxFrom
  induction l with
  | nil => intro a; exact le_refl _
  | cons b l ih =>
    intro a
    rw [List.foldl_cons]
    refine le_trans ?_ (ih _)
    split
    · rename_i h; exact h.le
    · exact le_refl _

theorem mem_le_maxFrom (l : List Rat) : ∀ a : Rat, ∀ b ∈ l, b ≤ maxFrom a l := by
  induction l with
  | nil => intro a b hb; simp at hb
  | cons c l ih =>
    intro a b hb
    have : maxFrom a (c :: l) = maxFrom (if a < c then c else a) l := rfl
    rw [this]
    rcases List.mem_cons.mp hb with rfl | hb
    · refine le_trans ?_ (le_maxFrom l _)
      split
      · exact le_refl _
      · rename_i h; exact not_lt.mp h
    · exact ih _ b hb

theorem maxFrom_mem (l : List Rat) : ∀ a : Rat, maxFrom a l = a ∨ maxFrom a l ∈ l := by
  induction l with
  | nil => intro a; exact Or.inl rfl
  | cons c l ih =>
    intro a
    have : maxFrom a (c :: l) = maxFrom (if a < c then c else a) l := rfl
    rw [this]
    rcases ih (if a < c then c else a) with h | h
    · rw [h]
      split
      · right; exact List.mem_cons_self
      · left; rfl
    · right; exact List.mem_cons_of_mem _ h

theorem sum_nonneg_of {α : Type} (l : List α) (f : α → Rat) (h : ∀ a ∈ l, 0 ≤ f a) :
    0 ≤ (l.map f).sum := by
  induction l with
  | nil => simp
  | cons a l ih =>
    rw [List.map_cons, List.sum_cons]
    exact add_nonneg (h a List.mem_cons_self) (ih fun b hb => h b (List.mem_cons_of_mem _ hb))

end Bx.Costs
