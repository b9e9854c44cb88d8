import Mathlib.Algebra.BigOperators.Group.List.Basic
import Mathlib.Algebra.Order.BigOperators.Group.List
import Verif.Model.Init
import Verif.Proofs.Multipliers
import Verif.Proofs.Costs

/-!
# Lemmas about the initial vectors
-/

namespace Bx.Init

open Merge Spec Itm Costs Mult

/-! ## The bastert vector -/

theorem bastert_eq (mode : ObjType) {cost : Nat → Outcome Rat} {c : Nat → Rat} :
    ∀ (left i : Nat) (x : Assign), (∀ j, i ≤ j → j < i + left → cost j = .ok (c j)) →
      bastert mode cost left i x =
        .ok fun j => if i ≤ j ∧ j < i + left then initX mode (c j) false else x j
  | 0, i, x, _ => by
    unfold bastert
    congr 1
    funext j
    rw [if_neg (by omega)]
  | left + 1, i, x, h => by
    unfold bastert
    rw [h i (Nat.le_refl _) (by omega), ok_bind,
      bastert_eq mode left (i + 1) _ fun j h1 h2 => h j (by omega) (by omega)]
    congr 1
    funext j
    by_cases hj : j = i
    · subst hj
      rw [if_neg (by omega), if_pos rfl, if_pos (by omega)]
    · by_cases h1 : i + 1 ≤ j ∧ j < i + 1 + left
      · rw [if_pos h1, if_pos (by omega)]
      · rw [if_neg h1, if_neg hj, if_neg (by omega)]

/-- The chosen value of a variable is the best one. -/
theorem initX_best (mode : ObjType) (c : Rat) (y v0 : Bool) :
    sg mode * (if initX mode c v0 then c else 0) ≤ sg mode * (if y then c else 0) := by
  unfold initX sg
  rcases lt_trichotomy c 0 with h | h | h
  · cases mode <;> cases y <;> simp [h, h.not_gt, h.ne] <;> linarith
  · subst h; simp
  · cases mode <;> cases y <;> simp [h, h.not_gt, h.ne'] <;> linarith

theorem sum_single (n k : Nat) (hk : k < n) (f : Rat) (x : Assign) :
    ((List.range n).map fun j => if x j then (if k = j then f else 0) else 0).sum =
      if x k then f else 0 := by
  induction n with
  | zero => omega
  | succ n ih =>
    rw [List.range_succ, List.map_append, List.sum_append]
    simp only [List.map_cons, List.map_nil, List.sum_cons, List.sum_nil, add_zero]
    by_cases h : k = n
    · subst h
      have : ((List.range k).map fun j => if x j then (if k = j then f else 0) else 0) =
          (List.range k).map fun _ => (0 : Rat) := by
        apply List.map_congr_left
        intro j hj
        have := List.mem_range.mp hj
        rw [if_neg (by omega : ¬ k = j)]
        simp
      rw [this]
      simp
    · rw [ih (by omega), if_neg h]
      simp

/-- A linear sum, by variables. -/
theorem linear_by_vars (n : Nat) (x : Assign) : ∀ es : List ObjElem, (∀ e ∈ es, e.var < n) →
    (es.map fun e => if x e.var then e.factor else 0).sum =
      ((List.range n).map fun j => if x j then factorOf es j else 0).sum
  | [], _ => by simp [factorOf]
  | e :: es, h => by
    rw [List.map_cons, List.sum_cons, linear_by_vars n x es fun e he => h e (by simp [he]),
      ← sum_single n e.var (h e (by simp)) e.factor x, ← List.sum_map_add]
    congr 1
    apply List.map_congr_left
    intro j _
    cases x j <;> simp [factorOf]

theorem sum_le_of {α : Type} {f g : α → Rat} : ∀ {l : List α}, (∀ a ∈ l, f a ≤ g a) →
    (l.map f).sum ≤ (l.map g).sum
  | [], _ => by simp
  | a :: l, h => by
    simp only [List.map_cons, List.sum_cons]
    exact add_le_add (h a (by simp)) (sum_le_of fun b hb => h b (by simp [hb]))

/-! ## A constraint of the pre-solve -/

theorem cells_eq {cost : Nat → Outcome Rat} {c : Nat → Rat} : ∀ es : List FunElem,
    (∀ e ∈ es, cost e.var = .ok (c e.var)) →
    cells cost es = .ok (es.map fun e => ⟨toFloat (c e.var), e.factor, e.var⟩)
  | [], _ => rfl
  | e :: es, h => by
    unfold cells
    rw [h e (by simp), ok_bind, cells_eq es fun e he => h e (by simp [he]), ok_bind]
    rfl

theorem write_eq (b : Bool) : ∀ (R : List Cell) (x : Assign) (j : Nat),
    write b R x j = if j ∈ R.map Cell.id then b else x j
  | [], x, j => by simp [write]
  | r :: R, x, j => by
    unfold write
    rw [write_eq b R]
    by_cases h : j ∈ R.map Cell.id
    · rw [if_pos h, if_pos (by rw [List.map_cons]; exact List.mem_cons_of_mem _ h)]
    · rw [if_neg h]
      by_cases hj : j = r.id
      · rw [if_pos hj, if_pos (by simp [hj])]
      · rw [if_neg hj, if_neg (by rw [List.map_cons, List.mem_cons]; exact fun q => q.elim hj h)]

/-- After `fill`: the first elements are set, the others unset. -/
theorem fill_eq {R : List Cell} (hnd : (R.map Cell.id).Nodup) (best : Int) (x : Assign) :
    (∀ r ∈ R.take (best + 1).toNat, fill best R x r.id = true) ∧
    (∀ r ∈ R.drop (best + 1).toNat, fill best R x r.id = false) ∧
    ∀ j, j ∉ R.map Cell.id → fill best R x j = x j := by
  have hsplit := List.take_append_drop (best + 1).toNat R
  have hnd' : ((R.take (best + 1).toNat).map Cell.id ++ (R.drop (best + 1).toNat).map Cell.id).Nodup := by
    rw [← List.map_append, hsplit]; exact hnd
  have hdis := (List.nodup_append.mp hnd').2.2
  unfold fill
  refine ⟨fun r hr => ?_, fun r hr => ?_, fun j hj => ?_⟩
  · have h1 := List.mem_map_of_mem (f := Cell.id) hr
    rw [write_eq, if_neg (fun h => hdis _ h1 _ h rfl), write_eq, if_pos h1]
  · rw [write_eq, if_pos (List.mem_map_of_mem hr)]
  · rw [write_eq, if_neg, write_eq, if_neg]
    · intro h
      obtain ⟨r, h1, h2⟩ := List.mem_map.mp h
      exact hj (List.mem_map.mpr ⟨r, List.mem_of_mem_take h1, h2⟩)
    · intro h
      obtain ⟨r, h1, h2⟩ := List.mem_map.mp h
      exact hj (List.mem_map.mpr ⟨r, List.mem_of_mem_drop h1, h2⟩)

/-- `m` ones respect the bounds. -/
def Fit (min max : Int) (m : Nat) : Prop := min ≤ (m : Int) ∧ (m : Int) ≤ max

theorem pessimist_spec {min max : Int} : ∀ (rest : List Cell) (k : Nat),
    (∀ r ∈ rest, r.factor = 1) → (∀ c < k, ¬ Fit min max c) →
    (pessimist min max rest k (k - 1) = -2 ∧ ∀ c ≤ k + rest.length, ¬ Fit min max c) ∨
    ∃ m ≤ k + rest.length, pessimist min max rest k (k - 1) = (m : Int) - 1 ∧ Fit min max m ∧
      ∀ c < m, ¬ Fit min max c
  | rest, k, hf, hk => by
    by_cases h : Fit min max k
    · refine Or.inr ⟨k, by omega, ?_, h, hk⟩
      unfold pessimist
      exact if_pos h
    · have hk' : ∀ c < k + 1, ¬ Fit min max c := by
        intro c hc
        by_cases hck : c = k
        · subst hck; exact h
        · exact hk c (by omega)
      cases rest with
      | nil =>
        refine Or.inl ⟨?_, fun c hc => hk' c (by simp at hc; omega)⟩
        unfold pessimist
        exact if_neg h
      | cons r rest =>
        have e : pessimist min max (r :: rest) k (k - 1) =
            pessimist min max rest (k + 1 : Nat) ((k + 1 : Nat) - 1) := by
          conv_lhs => unfold pessimist
          refine (if_neg h).trans ?_
          show pessimist min max rest (k + r.factor) (k - 1 + 1) = _
          rw [hf r (by simp)]
          congr 1
          push_cast
          omega
        rw [e]
        have ih := pessimist_spec rest (k + 1) (fun r hr => hf r (by simp [hr])) hk'
        have hl : k + 1 + rest.length = k + (r :: rest).length := by simp; omega
        rw [hl] at ih
        exact ih

theorem optimist_spec {mode : ObjType} {min max : Int} : ∀ (rest pre : List Cell) (best : Int),
    (∀ r ∈ rest, r.factor = 1) →
    (best = -2 → ∀ c < pre.length, ¬ Fit min max c) →
    (best ≠ -2 → ∃ m : Nat, best = (m : Int) - 1 ∧ m < pre.length ∧ Fit min max m ∧
      (∀ c, m < c → c < pre.length → ¬ Fit min max c)) →
    (∀ (l c : Nat) (r : Cell), c ≤ l → Fit min max c → l < pre.length →
        (pre ++ rest)[l]? = some r → stop mode r.value = false) →
    (optimist mode min max rest pre.length (pre.length - 1) best = -2 ∧
      ∀ c ≤ (pre ++ rest).length, ¬ Fit min max c) ∨
    ∃ m ≤ (pre ++ rest).length,
      optimist mode min max rest pre.length (pre.length - 1) best = (m : Int) - 1 ∧
      Fit min max m ∧
      (∀ (l c : Nat) (r : Cell), c ≤ l → Fit min max c → l < m → (pre ++ rest)[l]? = some r →
        stop mode r.value = false) ∧
      (Fit min max (m + 1) → ∀ r, (pre ++ rest)[m]? = some r → stop mode r.value = true)
  | rest, pre, best, hf, h1, h2, h3 => by
    -- after the first test
    obtain ⟨b, hb, g1, g2⟩ : ∃ b : Int,
        (if min ≤ (pre.length : Int) ∧ (pre.length : Int) ≤ max then (pre.length : Int) - 1 else best)
          = b ∧ (b = -2 → ∀ c ≤ pre.length, ¬ Fit min max c) ∧
        (b ≠ -2 → ∃ m : Nat, b = (m : Int) - 1 ∧ m ≤ pre.length ∧ Fit min max m ∧
          (∀ c, m < c → c ≤ pre.length → ¬ Fit min max c)) := by
      by_cases h : Fit min max pre.length
      · refine ⟨(pre.length : Int) - 1, if_pos h, fun h' => by omega, fun _ =>
          ⟨pre.length, rfl, Nat.le_refl _, h, fun c q1 q2 => by omega⟩⟩
      · refine ⟨best, if_neg h, fun hb c hc => ?_, fun hb => ?_⟩
        · by_cases hck : c = pre.length
          · subst hck; exact h
          · exact h1 hb c (by omega)
        · obtain ⟨m, e1, e2, e3, e4⟩ := h2 hb
          refine ⟨m, e1, by omega, e3, fun c q1 q2 => ?_⟩
          by_cases hck : c = pre.length
          · subst hck; exact h
          · exact e4 c q1 (by omega)
    cases rest with
    | nil =>
      have e : optimist mode min max [] pre.length (pre.length - 1) best = b := by
        unfold optimist; exact hb
      rw [e]
      by_cases hb2 : b = -2
      · exact Or.inl ⟨hb2, fun c hc => g1 hb2 c (by simpa using hc)⟩
      · obtain ⟨m, e1, e2, e3, e4⟩ := g2 hb2
        refine Or.inr ⟨m, by simpa using e2, e1, e3,
          fun l c r q1 q2 q3 q4 => h3 l c r q1 q2 (by omega) q4, fun q r hr => ?_⟩
        have hlt := (List.getElem?_eq_some_iff.mp hr).1
        simp only [List.append_nil] at hlt
        exact absurd q (e4 (m + 1) (by omega) (by omega))
    | cons r rest =>
      by_cases hs : b ≠ -2 ∧ stop mode r.value = true
      · have e : optimist mode min max (r :: rest) pre.length (pre.length - 1) best = b := by
          unfold optimist
          simp only [hb]
          exact if_pos hs
        rw [e]
        obtain ⟨m, e1, e2, e3, e4⟩ := g2 hs.1
        refine Or.inr ⟨m, by simp; omega, e1, e3,
          fun l c r q1 q2 q3 q4 => h3 l c r q1 q2 (by omega) q4, fun q r' hr => ?_⟩
        by_cases hm : m = pre.length
        · subst hm
          simp at hr
          subst hr
          exact hs.2
        · exact absurd q (e4 (m + 1) (by omega) (by omega))
      · have e : optimist mode min max (r :: rest) pre.length (pre.length - 1) best =
            optimist mode min max rest (pre ++ [r]).length ((pre ++ [r]).length - 1) b := by
          conv_lhs => unfold optimist
          simp only [hb]
          refine (if_neg hs).trans ?_
          rw [hf r (by simp)]
          congr 1
          · simp
          · simp
        rw [e]
        have happ : pre ++ r :: rest = (pre ++ [r]) ++ rest := by simp
        rw [happ]
        refine optimist_spec rest (pre ++ [r]) b (fun r hr => hf r (by simp [hr])) ?_ ?_ ?_
        · intro hb2 c hc
          exact g1 hb2 c (by simp at hc; omega)
        · intro hb2
          obtain ⟨m, e1, e2, e3, e4⟩ := g2 hb2
          exact ⟨m, e1, by simp; omega, e3, fun c q1 q2 => e4 c q1 (by simp at q2; omega)⟩
        · intro l c r' q1 q2 q3 q4
          by_cases hl : l = pre.length
          · subst hl
            rw [← happ] at q4
            simp at q4
            subst q4
            by_contra hst
            rw [Bool.not_eq_false] at hst
            exact hs ⟨fun hb2 => g1 hb2 c q1 q2, hst⟩
          · exact h3 l c r' q1 q2 (by simp at q3; omega) (by rw [happ]; exact q4)

/-- The cells of a constraint, in any order. -/
def cellsOf (c : Nat → Rat) (es : List FunElem) : List Cell :=
  es.map fun e => ⟨c e.var, e.factor, e.var⟩

theorem price_cells {c : Nat → Rat} {es : List FunElem} {R : List Cell} (hp : R.Perm (cellsOf c es))
    (y : Assign) : priceOf c es y = (R.map fun r => if y r.id then r.value else 0).sum := by
  rw [(hp.map _).sum_eq]
  unfold priceOf cellsOf
  rw [List.map_map]
  rfl

theorem lhs_cells {c : Nat → Rat} {es : List FunElem} {R : List Cell} (hp : R.Perm (cellsOf c es))
    (hf : ∀ e ∈ es, e.factor = 1) (y : Assign) :
    lhs y es = ((R.filter fun r => y r.id).length : Int) := by
  have h1 : lhs y es = (R.map fun r => if y r.id then r.factor else 0).sum := by
    rw [(hp.map _).sum_eq]
    unfold lhs cellsOf
    rw [List.map_map]
    rfl
  rw [h1]
  have hR : ∀ r ∈ R, r.factor = 1 := by
    intro r hr
    obtain ⟨e, he, rfl⟩ := List.mem_map.mp (hp.mem_iff.mp hr)
    exact hf e he
  clear hp h1
  induction R with
  | nil => simp
  | cons r R ih =>
    rw [List.map_cons, List.sum_cons, ih fun r hr => hR r (by simp [hr]), List.filter_cons,
      hR r (by simp)]
    cases y r.id
    · simp
    · simp; ring

theorem sum_true {R : List Cell} {y : Assign} (h : ∀ r ∈ R, y r.id = true) :
    (R.map fun r => if y r.id then r.value else 0) = R.map Cell.value := by
  apply List.map_congr_left
  intro r hr
  rw [if_pos (h r hr)]

theorem sum_false {R : List Cell} {y : Assign} (h : ∀ r ∈ R, y r.id = false) :
    (R.map fun r => if y r.id then r.value else 0).sum = 0 := by
  rw [List.map_congr_left (g := fun _ => (0 : Rat)) fun r hr => by rw [h r hr]; simp]
  simp

theorem stop_sg {mode : ObjType} {v : Rat} :
    (stop mode v = true → 0 ≤ sg mode * v) ∧ (stop mode v = false → sg mode * v ≤ 0) := by
  unfold stop sg
  cases mode <;> simp <;> intro h <;> linarith

/-- What one turn of the pre-solve does. -/
structure Turned (mode : ObjType) (optimistic : Bool) (cv : Nat → Rat) (c : Merged) (x x' : Assign) :
    Prop where
  frame : ∀ j, (∀ e ∈ c.elems, e.var ≠ j) → x' j = x j
  fits : (∃ y, Respects c y) → Respects c x'
  cheapest : optimistic = true → ∀ y, Respects c y →
    AtLeastAsGood mode (priceOf cv c.elems x') (priceOf cv c.elems y)
  fewest : optimistic = false → ∀ y, Respects c y → lhs x' c.elems ≤ lhs y c.elems ∧
    (lhs y c.elems = lhs x' c.elems →
      AtLeastAsGood mode (priceOf cv c.elems x') (priceOf cv c.elems y))

theorem visitRow_spec {mode : ObjType} {optimistic : Bool} {cv : Nat → Rat} {c : Merged}
    (hf : ∀ e ∈ c.elems, e.factor = 1) (hnd : (c.elems.map FunElem.var).Nodup) {R : List Cell}
    (hp : R.Perm (cellsOf cv c.elems))
    (hs : R.Pairwise fun a b => sg mode * a.value ≤ sg mode * b.value) (x : Assign) :
    Turned mode optimistic cv c x (visitRow mode optimistic c R x) := by
  have hids : (R.map Cell.id).Perm (c.elems.map FunElem.var) := by
    refine (hp.map Cell.id).trans ?_
    unfold cellsOf
    rw [List.map_map]
    exact List.Perm.refl _
  have hRf : ∀ r ∈ R, r.factor = 1 := by
    intro r hr
    obtain ⟨e, he, rfl⟩ := List.mem_map.mp (hp.mem_iff.mp hr)
    exact hf e he
  have hndR : (R.map Cell.id).Nodup := hids.nodup_iff.mpr hnd
  have fitOf : ∀ y, Respects c y →
      Fit c.min c.max (R.filter fun r => y r.id).length := by
    intro y hy
    have := lhs_cells hp hf y
    unfold Respects at hy
    rw [this] at hy
    exact hy
  have lenOf : ∀ y : Assign, (R.filter fun r => y r.id).length ≤ R.length := fun y =>
    List.length_filter_le _ _
  -- what `fill` gives for `m` elements
  have filled : ∀ m : Nat, m ≤ R.length →
      lhs (fill ((m : Int) - 1) R x) c.elems = (m : Int) ∧
      priceOf cv c.elems (fill ((m : Int) - 1) R x) = ((R.take m).map Cell.value).sum := by
    intro m hm
    obtain ⟨f1, f2, _⟩ := fill_eq hndR ((m : Int) - 1) x
    rw [show ((m : Int) - 1 + 1).toNat = m by omega] at f1 f2
    generalize fill ((m : Int) - 1) R x = x' at f1 f2 ⊢
    constructor
    · rw [lhs_cells hp hf]
      conv_lhs => rw [← List.take_append_drop m R]
      rw [List.filter_append, List.filter_eq_self.mpr fun r hr => f1 r hr,
        List.filter_eq_nil_iff.mpr fun r hr => by rw [f2 r hr]; simp]
      simp [hm]
    · rw [price_cells hp]
      conv_lhs => rw [← List.take_append_drop m R]
      rw [List.map_append, List.sum_append, sum_true fun r hr => f1 r hr,
        sum_false fun r hr => f2 r hr, add_zero]
  -- the prefixes against the others
  have against : ∀ (m : Nat) (lo hi : Int) (y : Assign), m ≤ R.length → 0 ≤ lo → lo ≤ m →
      (m : Int) ≤ hi → hi ≤ R.length →
      lo ≤ ((R.filter fun r => y r.id).length : Int) ∧
        ((R.filter fun r => y r.id).length : Int) ≤ hi →
      (∀ (l : Nat) (r : Cell), lo ≤ l → l < m → R[l]? = some r → sg mode * r.value ≤ 0) →
      ((m : Int) < hi → ∀ r, R[m]? = some r → 0 ≤ sg mode * r.value) →
      AtLeastAsGood mode (((R.take m).map Cell.value).sum) (priceOf cv c.elems y) := by
    intro m lo hi y hm h0 h1 h2 h3 hq hlow hhigh
    obtain ⟨tau, t1, t2, t3⟩ := exists_threshold (fun r : Cell => sg mode * r.value) R hs m lo hi
      _ hm h0 h1 h2 h3 hq hlow hhigh
    have := prefix_opt (fun r : Cell => sg mode * r.value) (fun r => y r.id) tau (R.take m)
      (R.drop m) t1 t2
    rw [List.take_append_drop, sum_mul_left, List.length_take, Nat.min_eq_left hm] at this
    rw [good_iff, price_cells hp]
    have e : (R.map fun r => if y r.id then sg mode * r.value else 0).sum =
        sg mode * (R.map fun r => if y r.id then r.value else 0).sum := by
      rw [← sum_mul_left]
      congr 1
      apply List.map_congr_left
      intro r _
      cases y r.id <;> simp
    rw [e] at this
    push_cast at t3
    linarith
  have frame : ∀ (best : Int) j, (∀ e ∈ c.elems, e.var ≠ j) → fill best R x j = x j := by
    intro best j hj
    refine (fill_eq hndR best x).2.2 j fun h => ?_
    obtain ⟨e, he, hv⟩ := List.mem_map.mp (hids.mem_iff.mp h)
    exact hj e he hv
  cases optimistic with
  | false =>
    have hsp := pessimist_spec (min := c.min) (max := c.max) R 0 hRf (by omega)
    simp only [Nat.cast_zero, zero_sub, zero_add] at hsp
    show Turned mode false cv c x (fill (pessimist c.min c.max R 0 (-1)) R x)
    rcases hsp with ⟨h1, h2⟩ | ⟨m, hm, h1, h2, h3⟩
    · have none : ∀ y, ¬ Respects c y := fun y hy => h2 _ (lenOf y) (fitOf y hy)
      exact ⟨frame _, fun ⟨y, hy⟩ => absurd hy (none y), by simp,
        fun _ y hy => absurd hy (none y)⟩
    · rw [h1]
      obtain ⟨q1, q2⟩ := filled m hm
      refine ⟨frame _, fun _ => ?_, by simp, fun _ y hy => ?_⟩
      · unfold Respects; rw [q1]; exact h2
      · rw [q1, q2, lhs_cells hp hf y]
        constructor
        · by_contra hlt
          exact h3 _ (by omega) (fitOf y hy)
        · intro heq
          exact against m m m y hm (by omega) (by omega) (by omega) (by omega) ⟨by omega, by omega⟩
            (by omega) (by omega)
  | true =>
    have hsp := optimist_spec (mode := mode) (min := c.min) (max := c.max) R [] (-2) hRf
      (by simp) (by simp) (by simp)
    simp only [List.length_nil, Nat.cast_zero, zero_sub, List.nil_append] at hsp
    show Turned mode true cv c x (fill (optimist mode c.min c.max R 0 (-1) (-2)) R x)
    rcases hsp with ⟨h1, h2⟩ | ⟨m, hm, h1, h2, h3, h4⟩
    · have none : ∀ y, ¬ Respects c y := fun y hy => h2 _ (lenOf y) (fitOf y hy)
      exact ⟨frame _, fun ⟨y, hy⟩ => absurd hy (none y), fun _ y hy => absurd hy (none y), by simp⟩
    · rw [h1]
      obtain ⟨q1, q2⟩ := filled m hm
      refine ⟨frame _, fun _ => ?_, fun _ y hy => ?_, by simp⟩
      · unfold Respects; rw [q1]; exact h2
      · rw [q2]
        have hy' := fitOf y hy
        have hl := lenOf y
        unfold Fit at hy' h2 h3 h4
        refine against m (max c.min 0) (min c.max R.length) y hm (by omega) (by omega) (by omega)
          (by omega) (by omega) ?_ ?_
        · intro l r e1 e2 e3
          exact stop_sg.2 (h3 l l r (Nat.le_refl _) (by omega) e2 e3)
        · intro e1 r hr
          exact stop_sg.1 (h4 (by push_cast; omega) r hr)

/-! ## The whole pre-solve -/

/-- The turns of the pre-solve for one vector, when every constraint is visited. -/
def turns (mode : ObjType) (optimistic : Bool) (cv : Nat → Rat) (d : Draws) :
    Nat → List Merged → Assign → Assign
  | _, [], x => x
  | k, c :: cs, x =>
    turns mode optimistic cv d (k + 1) cs
      (visitRow mode optimistic c (d.order k (cellsOf cv c.elems)) x)

theorem preSolve_eq {mode : ObjType} {cost : Nat → Outcome Rat} {cv : Nat → Rat} {d : Draws}
    (hv : ∀ k, d.visit k = true) : ∀ (csts : List Merged) (k : Nat) (p o : Option Assign),
    (∀ c ∈ csts, ∀ e ∈ c.elems, cost e.var = .ok (cv e.var)) →
    preSolve mode cost d k csts p o =
      .ok (p.map (turns mode false (fun j => toFloat (cv j)) d k csts),
        o.map (turns mode true (fun j => toFloat (cv j)) d k csts))
  | [], k, p, o, _ => by
    unfold preSolve
    cases p <;> cases o <;> rfl
  | c :: cs, k, p, o, h => by
    unfold preSolve
    rw [if_pos (hv k), cells_eq c.elems (h c (by simp)), ok_bind]
    rw [preSolve_eq hv cs (k + 1) _ _ fun c hc => h c (by simp [hc])]
    cases p <;> cases o <;> rfl

theorem order_sorted {mode : ObjType} {d : Draws} (hd : d.Ok mode) (k : Nat) (l : List Cell) :
    (d.order k l).Perm l ∧
      (d.order k l).Pairwise fun a b => sg mode * a.value ≤ sg mode * b.value := by
  obtain ⟨h1, h2⟩ := hd k l
  refine ⟨h1, h2.imp ?_⟩
  intro a b h
  cases mode
  · simp only [sg] at h ⊢; linarith
  · simp only [sg] at h ⊢; linarith

/-- No variable is in two constraints. -/
def Apart (csts : List Merged) : Prop :=
  csts.Pairwise fun c d => ∀ e ∈ c.elems, ∀ f ∈ d.elems, e.var ≠ f.var

theorem lhs_congr {x y : Assign} {es : List FunElem} (h : ∀ e ∈ es, x e.var = y e.var) :
    lhs x es = lhs y es := by
  unfold lhs
  congr 1
  exact List.map_congr_left fun e he => by rw [h e he]

theorem price_congr {c : Nat → Rat} {x y : Assign} {es : List FunElem}
    (h : ∀ e ∈ es, x e.var = y e.var) : priceOf c es x = priceOf c es y := by
  unfold priceOf
  congr 1
  exact List.map_congr_left fun e he => by rw [h e he]

theorem turns_spec {mode : ObjType} {optimistic : Bool} {cv : Nat → Rat} {d : Draws}
    (hd : d.Ok mode) : ∀ (csts : List Merged) (k : Nat) (x : Assign),
    (∀ c ∈ csts, (∀ e ∈ c.elems, e.factor = 1) ∧ (c.elems.map FunElem.var).Nodup) → Apart csts →
    (∀ c ∈ csts, ∃ x0, Turned mode optimistic cv c x0 (turns mode optimistic cv d k csts x)) ∧
    ∀ j, (∀ c ∈ csts, ∀ e ∈ c.elems, e.var ≠ j) → turns mode optimistic cv d k csts x j = x j
  | [], k, x, _, _ => ⟨by simp, fun j _ => rfl⟩
  | c :: cs, k, x, h, ha => by
    obtain ⟨ha1, ha2⟩ := List.pairwise_cons.mp ha
    obtain ⟨o1, o2⟩ := order_sorted hd k (cellsOf cv c.elems)
    have h1 := visitRow_spec (optimistic := optimistic) (h c (by simp)).1 (h c (by simp)).2 o1 o2 x
    obtain ⟨i1, i2⟩ := turns_spec (optimistic := optimistic) (cv := cv) hd cs (k + 1)
      (visitRow mode optimistic c (d.order k (cellsOf cv c.elems)) x)
      (fun c hc => h c (by simp [hc])) ha2
    have hsame : ∀ e ∈ c.elems, turns mode optimistic cv d (k + 1) cs
        (visitRow mode optimistic c (d.order k (cellsOf cv c.elems)) x) e.var =
        visitRow mode optimistic c (d.order k (cellsOf cv c.elems)) x e.var := by
      intro e he
      exact i2 _ fun c' hc' e' he' heq => ha1 c' hc' e he e' he' heq.symm
    refine ⟨fun c' hc' => ?_, fun j hj => ?_⟩
    · show ∃ x0, Turned mode optimistic cv c' x0 (turns mode optimistic cv d (k + 1) cs _)
      rcases List.mem_cons.mp hc' with rfl | hc'
      · refine ⟨turns mode optimistic cv d (k + 1) cs
          (visitRow mode optimistic c' (d.order k (cellsOf cv c'.elems)) x), fun j _ => rfl, ?_, ?_, ?_⟩
        · intro hy
          have := h1.fits hy
          unfold Respects at this ⊢
          rw [lhs_congr hsame]
          exact this
        · intro ho y hy
          rw [price_congr hsame]
          exact h1.cheapest ho y hy
        · intro ho y hy
          rw [price_congr hsame, lhs_congr hsame]
          exact h1.fewest ho y hy
      · exact i1 c' hc'
    · show turns mode optimistic cv d (k + 1) cs _ j = x j
      rw [i2 j fun c' hc' => hj c' (by simp [hc']), h1.frame j (hj c (by simp))]

/-- A sum over the variables, cut along the constraints and the rest. -/
theorem objective_split {n : Nat} {cv : Nat → Rat} {y : Assign} : ∀ {csts : List Merged},
    (∀ c ∈ csts, (∀ e ∈ c.elems, e.var < n) ∧ (c.elems.map FunElem.var).Nodup) → Apart csts →
    ((List.range n).map fun j => if y j then cv j else 0).sum =
      (csts.map fun c => priceOf cv c.elems y).sum +
      ((List.range n).map fun j => if (∃ c ∈ csts, ∃ e ∈ c.elems, e.var = j) then 0
        else if y j then cv j else 0).sum
  | [], _, _ => by simp
  | c :: cs, h, ha => by
    obtain ⟨ha1, ha2⟩ := List.pairwise_cons.mp ha
    rw [objective_split (csts := cs) (fun c hc => h c (by simp [hc])) ha2, List.map_cons,
      List.sum_cons]
    have key : ((List.range n).map fun j => if (∃ c ∈ cs, ∃ e ∈ c.elems, e.var = j) then 0
          else if y j then cv j else 0).sum =
        priceOf cv c.elems y +
        ((List.range n).map fun j => if (∃ c' ∈ c :: cs, ∃ e ∈ c'.elems, e.var = j) then 0
          else if y j then cv j else 0).sum := by
      have hp : priceOf cv c.elems y =
          ((List.range n).map fun j => if (∃ e ∈ c.elems, e.var = j) then
            (if y j then cv j else 0) else 0).sum := by
        obtain ⟨hlt, hnd⟩ := h c (by simp)
        unfold priceOf
        clear h ha ha1
        generalize c.elems = es at hlt hnd
        induction es with
        | nil => simp
        | cons e es ih =>
          rw [List.map_cons, List.nodup_cons] at hnd
          rw [List.map_cons, List.sum_cons, ih (fun e he => hlt e (by simp [he])) hnd.2,
            ← sum_single n e.var (hlt e (by simp)) (cv e.var) y, ← List.sum_map_add]
          congr 1
          apply List.map_congr_left
          intro j _
          have hE : (∃ e' ∈ e :: es, e'.var = j) ↔ e.var = j ∨ ∃ e' ∈ es, e'.var = j := by simp
          simp only [hE]
          by_cases hj : e.var = j
          · have hm : ¬ ∃ e ∈ es, e.var = j := by
              rintro ⟨e', he', hv⟩
              exact hnd.1 (List.mem_map.mpr ⟨e', he', hv.trans hj.symm⟩)
            rw [if_neg hm, if_pos (Or.inl hj), if_pos hj, add_zero, hj]
          · by_cases hm : ∃ e ∈ es, e.var = j
            · rw [if_pos hm, if_pos (Or.inr hm), if_neg hj, ite_self, zero_add]
            · have : ¬ (e.var = j ∨ ∃ e ∈ es, e.var = j) := fun q => q.elim hj hm
              rw [if_neg hm, if_neg hj, if_neg this, ite_self, zero_add]
      rw [hp, ← List.sum_map_add]
      congr 1
      apply List.map_congr_left
      intro j _
      have hE : (∃ c' ∈ c :: cs, ∃ e ∈ c'.elems, e.var = j) ↔
          (∃ e ∈ c.elems, e.var = j) ∨ ∃ c' ∈ cs, ∃ e ∈ c'.elems, e.var = j := by simp
      simp only [hE]
      by_cases h1 : ∃ e ∈ c.elems, e.var = j
      · have h2 : ¬ ∃ c ∈ cs, ∃ e ∈ c.elems, e.var = j := by
          rintro ⟨c', hc', e', he', hv⟩
          obtain ⟨e, he, hv2⟩ := h1
          exact ha1 c' hc' e he e' he' (hv2.trans hv.symm)
        have h3 : (∃ e ∈ c.elems, e.var = j) ∨ ∃ c' ∈ cs, ∃ e ∈ c'.elems, e.var = j := Or.inl h1
        rw [if_neg h2, if_pos h1, if_pos h3, add_zero]
      · by_cases h2 : ∃ c ∈ cs, ∃ e ∈ c.elems, e.var = j
        · have h3 : (∃ e ∈ c.elems, e.var = j) ∨ ∃ c' ∈ cs, ∃ e ∈ c'.elems, e.var = j := Or.inr h2
          rw [if_pos h2, if_neg h1, if_pos h3, add_zero]
        · have h3 : ¬ ((∃ e ∈ c.elems, e.var = j) ∨ ∃ c' ∈ cs, ∃ e ∈ c'.elems, e.var = j) :=
            fun q => q.elim h1 h2
          rw [if_neg h2, if_neg h1, if_neg h3, zero_add]
    rw [key]
    ring

end Bx.Init
