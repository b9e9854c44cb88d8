import Mathlib.Tactic.Linarith
import Mathlib.Tactic.Ring
import Mathlib.Tactic.GCongr
import Mathlib.Algebra.Order.Field.Basic
import Mathlib.Algebra.BigOperators.Group.List.Basic
import Mathlib.Algebra.Order.BigOperators.Group.List
import Verif.Model.Rounded
import Verif.Spec.Values
import Verif.Proofs.Lpcore
import Verif.Proofs.Preprocess6
import Verif.Proofs.Rounding

/-! Helper lemmas: sums with rounding. -/

namespace Bx.Spec

/-! ## Numbers that are not rounded -/

/-- The multiples of a power of 2 of at most `p` binary digits. -/
theorem binary_rep {p : Nat} {m e : Int} (hm : |m| < 2 ^ p) :
    binary p ((m : Rat) * 2 ^ e) = (m : Rat) * 2 ^ e := by
  rcases eq_or_ne m 0 with rfl | h0
  · simpa using binary_zero p
  unfold binary
  generalize hq : (m : Rat) * 2 ^ e = q
  have h2 : (2 : Rat) ≠ 0 := by norm_num
  have hq0 : 0 < |q| := by
    rw [← hq, abs_mul]
    exact mul_pos (abs_pos.mpr (by exact_mod_cast h0)) (abs_pos.mpr (zpow_ne_zero _ h2))
  have hlog : Int.log 2 |q| < p + e := by
    have h1 := Int.zpow_log_le_self (R := Rat) (b := 2) (by norm_num) hq0
    have h3 : |q| < 2 ^ ((p : Int) + e) := by
      rw [← hq, abs_mul, abs_of_pos (zpow_pos (by norm_num : (0 : Rat) < 2) e), zpow_add₀ h2,
        zpow_natCast]
      apply mul_lt_mul_of_pos_right _ (zpow_pos (by norm_num) _)
      have : ((|m| : Int) : Rat) < ((2 ^ p : Int) : Rat) := by exact_mod_cast hm
      push_cast at this
      exact this
    have h4 := lt_of_le_of_lt h1 h3
    push_cast at h4
    exact (zpow_lt_zpow_iff_right₀ (by norm_num : (1 : Rat) < 2)).mp h4
  have hu : ulp p q ≠ 0 := (ulp_pos p q).ne'
  have hk : ∃ k : Int, q / ulp p q = k := by
    obtain ⟨d, hd⟩ := Int.eq_ofNat_of_zero_le (show 0 ≤ e - (Int.log 2 |q| + 1 - p) by omega)
    refine ⟨m * 2 ^ d, ?_⟩
    rw [div_eq_iff hu]
    unfold ulp
    push_cast
    conv_lhs => rw [← hq]
    rw [mul_assoc, ← zpow_natCast (2 : Rat) d, ← zpow_add₀ h2]
    congr 2
    omega
  obtain ⟨k, hk⟩ := hk
  rw [hk, nearest_int, ← hk, div_mul_cancel₀ _ hu]

theorem binary_grid {p : Nat} (hp : 0 < p) {m e : Int} (hm : |m| ≤ 2 ^ p) :
    binary p ((m : Rat) * 2 ^ e) = (m : Rat) * 2 ^ e := by
  rcases lt_or_eq_of_le hm with h | h
  · exact binary_rep h
  · have h2 : (2 : Rat) ≠ 0 := by norm_num
    obtain ⟨d, rfl⟩ : ∃ d, p = d + 1 := ⟨p - 1, by omega⟩
    have hlt : (2 : Int) ^ d < 2 ^ (d + 1) := by
      rw [pow_succ]
      have : (0 : Int) < 2 ^ d := by positivity
      omega
    rcases abs_eq_abs.mp (h.trans (abs_of_nonneg (by positivity)).symm) with h | h
    · have := binary_rep (p := d + 1) (m := 2 ^ d) (e := e + 1) (by rw [abs_of_nonneg (by positivity)]; exact hlt)
      rw [h]
      push_cast at this ⊢
      rwa [zpow_add_one₀ h2, mul_comm ((2 : Rat) ^ e), ← mul_assoc, ← pow_succ] at this
    · have := binary_rep (p := d + 1) (m := -2 ^ d) (e := e + 1)
        (by rw [abs_neg, abs_of_nonneg (by positivity)]; exact hlt)
      rw [h]
      push_cast at this ⊢
      rwa [zpow_add_one₀ h2, mul_comm ((2 : Rat) ^ e), ← mul_assoc, neg_mul, ← pow_succ] at this

theorem binary_error_abs (p : Nat) (q : Rat) : |binary p q - q| ≤ 1 / 2 ^ p * |q| := by
  rcases le_total 0 q with h | h
  · obtain ⟨h1, h2⟩ := binary_error p h
    rw [abs_of_nonneg h, abs_le]
    constructor <;> nlinarith
  · obtain ⟨h1, h2⟩ := binary_error p (q := -q) (by linarith)
    rw [binary_neg] at h1 h2
    rw [abs_of_nonpos h, abs_le]
    constructor <;> nlinarith

end Bx.Spec

namespace Bx.Rounded

open Spec

/-- A sum with a rounding after each addition. -/
def rsum (rnd : Rat → Rat) (v : Rat) (l : List Rat) : Rat := l.foldl (fun a f => rnd (a + f)) v

theorem rsum_append (rnd : Rat → Rat) (v : Rat) (l l' : List Rat) :
    rsum rnd v (l ++ l') = rsum rnd (rsum rnd v l) l' := List.foldl_append

theorem _root_.Bx.Spec.Grid.add {e : Int} {a b : Rat} (ha : Grid e a) (hb : Grid e b) : Grid e (a + b) := by
  obtain ⟨m, rfl⟩ := ha
  obtain ⟨n, rfl⟩ := hb
  exact ⟨m + n, by push_cast; ring⟩

theorem _root_.Bx.Spec.Grid.binary {p : Nat} (hp : 0 < p) {e : Int} {q : Rat} (h : Grid e q)
    (hb : |q| ≤ 2 ^ p * 2 ^ e) : Spec.binary p q = q := by
  obtain ⟨m, rfl⟩ := h
  refine binary_grid hp ?_
  have h2 := zpow_pos (by norm_num : (0 : Rat) < 2) e
  rw [abs_mul, abs_of_pos h2] at hb
  have := le_of_mul_le_mul_right hb h2
  exact_mod_cast this

theorem rsum_exact {p : Nat} (hp : 0 < p) {e : Int} : ∀ (l : List Rat) (v : Rat), Grid e v →
    (∀ f ∈ l, Grid e f) → |v| + (l.map (|·|)).sum ≤ 2 ^ p * 2 ^ e →
    rsum (binary p) v l = v + l.sum
  | [], v, _, _, _ => by simp [rsum]
  | f :: l, v, hv, hl, hs => by
    simp only [List.map_cons, List.sum_cons] at hs ⊢
    have hl0 : 0 ≤ (l.map (|·|)).sum := List.sum_nonneg (by
      intro a ha
      obtain ⟨b, _, rfl⟩ := List.mem_map.mp ha
      exact abs_nonneg b)
    have hg := hv.add (hl f (by simp))
    have hab := abs_add_le v f
    have h1 : binary p (v + f) = v + f := hg.binary hp (by linarith)
    have ih := rsum_exact hp l (v + f) hg (fun g hg' => hl g (by simp [hg'])) (by linarith)
    unfold rsum at ih ⊢
    rw [List.foldl_cons, h1, ih]
    ring

theorem rsum_error {rnd : Rat → Rat} {u : Rat} (hu : 0 ≤ u) (hr : ∀ q, |rnd q - q| ≤ u * |q|) :
    ∀ (l : List Rat) (v : Rat), |rsum rnd v l - (v + l.sum)| ≤
      ((1 + u) ^ l.length - 1) * (|v| + (l.map (|·|)).sum) := by
  intro l
  induction l using List.reverseRecOn with
  | nil => intro v; simp [rsum]
  | append_singleton l f ih =>
    intro v
    rw [rsum_append]
    simp only [rsum, List.foldl_cons, List.foldl_nil, List.length_append, List.length_cons,
      List.length_nil, zero_add, List.map_append, List.map_cons, List.map_nil, List.sum_append,
      List.sum_cons, List.sum_nil, add_zero, pow_succ]
    have ih := ih v
    unfold rsum at ih
    generalize List.foldl (fun a f => rnd (a + f)) v l = s at ih ⊢
    generalize hS : (l.map (|·|)).sum = S at ih ⊢
    have hT : |v + l.sum| ≤ |v| + S := by
      rw [← hS]
      refine le_trans (abs_add_le _ _) (add_le_add le_rfl ?_)
      exact List.le_sum_of_subadditive (|·|) (by simp) (fun a b => abs_add_le a b) l
    rw [show v + (l.sum + f) = (v + l.sum) + f by ring]
    generalize v + l.sum = T at *
    have hr' := hr (s + f)
    have h1 : |rnd (s + f) - (T + f)| ≤ |rnd (s + f) - (s + f)| + |s - T| := by
      have := abs_add_le (rnd (s + f) - (s + f)) (s - T)
      rwa [show rnd (s + f) - (s + f) + (s - T) = rnd (s + f) - (T + f) by ring] at this
    have h2 : |s + f| ≤ |s - T| + (|v| + S + |f|) := by
      have a := abs_add_le (s - T) (T + f)
      rw [show s - T + (T + f) = s + f by ring] at a
      have b := abs_add_le T f
      linarith
    have h3 := mul_le_mul_of_nonneg_left h2 hu
    have hf := abs_nonneg f
    have hpow : (1 : Rat) ≤ (1 + u) ^ l.length := one_le_pow₀ (by linarith)
    generalize (1 + u) ^ l.length = P at *
    have h4 : (P - 1) * (|v| + S) ≤ (P - 1) * (|v| + S + |f|) :=
      mul_le_mul_of_nonneg_left (by linarith) (by linarith)
    rw [← add_assoc |v| S |f|]
    generalize |v| + S = A at *
    have h5 : u * |s - T| ≤ u * ((P - 1) * (A + |f|)) :=
      mul_le_mul_of_nonneg_left (le_trans ih h4) hu
    nlinarith

/-- The factors of the variables at 1. -/
def active (x : Assign) (es : List ObjElem) : List Rat :=
  (es.filter fun e => x e.var).map ObjElem.factor

/-- The factors of the products at 1. -/
def activeQ (x : Assign) (es : List QuadElem) : List Rat :=
  (es.filter fun e => x e.a && x e.b).map QuadElem.factor

theorem active_sum (x : Assign) : ∀ es : List ObjElem,
    (active x es).sum = (es.map fun e => if x e.var then e.factor else 0).sum
  | [] => rfl
  | e :: es => by
    have ih := active_sum x es
    unfold active at ih ⊢
    rw [List.filter_cons]
    split <;> simp_all

theorem activeQ_sum (x : Assign) : ∀ es : List QuadElem,
    (activeQ x es).sum = (es.map fun e => if x e.a && x e.b then e.factor else 0).sum
  | [] => rfl
  | e :: es => by
    have ih := activeQ_sum x es
    unfold activeQ at ih ⊢
    rw [List.filter_cons]
    simp only [List.map_cons, List.sum_cons, ← ih]
    split <;> simp

theorem rsum_fixed {rnd : Rat → Rat} (h : Rounding rnd) : ∀ (l : List Rat) (v : Rat),
    rnd v = v → rnd (rsum rnd v l) = rsum rnd v l
  | [], _, hv => hv
  | _ :: l, _, _ => rsum_fixed h l _ (h.idem _)

theorem addLinear_eq (rnd : Rat → Rat) (x : Assign) : ∀ (es : List ObjElem) (r : Rat),
    addLinear rnd x r es = rsum rnd r (active x es)
  | [], _ => rfl
  | e :: es, r => by
    unfold addLinear
    rw [addLinear_eq rnd x es]
    unfold active
    rw [List.filter_cons]
    split <;> simp_all [rsum]

theorem addQuadratic_eq (rnd : Rat → Rat) (x : Assign) : ∀ (es : List QuadElem) (r : Rat),
    addQuadratic rnd x r es = rsum rnd r (activeQ x es)
  | [], _ => rfl
  | e :: es, r => by
    unfold addQuadratic
    rw [addQuadratic_eq rnd x es]
    unfold activeQ
    rw [List.filter_cons]
    split <;> simp_all [rsum]

theorem results_eq (rnd : Rat → Rat) (o : Objective) (x : Assign) :
    results rnd o x = rsum rnd o.value (active x o.elems ++ activeQ x o.qelems) := by
  unfold results
  rw [rsum_append, addLinear_eq, addQuadratic_eq]
  split
  · rename_i h
    rw [List.isEmpty_iff.mp h]
    rfl
  · rfl

theorem computeLinear_eq {rnd : Rat → Rat} (h : Rounding rnd) (x : Assign) (n : Nat) :
    ∀ (es : List ObjElem) (acc : Rat), rnd acc = acc → (∀ e ∈ es, e.var < n ∧ rnd e.factor = e.factor) →
      computeLinear rnd (Lpcore.vec x n) acc es = .ok (rsum rnd acc (active x es))
  | [], _, _, _ => rfl
  | e :: es, acc, ha, hl => by
    obtain ⟨h1, h2⟩ := hl e (by simp)
    have ih := fun a b => computeLinear_eq h x n es a b fun e' h' => hl e' (by simp [h'])
    unfold computeLinear active
    rw [Lpcore.vec_get h1, List.filter_cons]
    cases hx : x e.var with
    | true =>
      simp only [if_true, Int.cast_one, mul_one, h2]
      rw [ih _ (h.idem _)]
      rfl
    | false =>
      simp only [if_false, Bool.false_eq_true, Int.cast_zero, mul_zero, h.zero, add_zero, ha]
      rw [ih _ ha]
      rfl

theorem computeQuadratic_eq {rnd : Rat → Rat} (h : Rounding rnd) (x : Assign) (n : Nat) :
    ∀ (es : List QuadElem) (acc : Rat), rnd acc = acc →
      (∀ e ∈ es, (e.a < n ∧ e.b < n) ∧ rnd e.factor = e.factor) →
      computeQuadratic rnd (Lpcore.vec x n) acc es = .ok (rsum rnd acc (activeQ x es))
  | [], _, _, _ => rfl
  | e :: es, acc, ha, hl => by
    obtain ⟨⟨h1, h1'⟩, h2⟩ := hl e (by simp)
    have ih := fun a b => computeQuadratic_eq h x n es a b fun e' h' => hl e' (by simp [h'])
    unfold computeQuadratic activeQ
    rw [Lpcore.vec_get h1, Lpcore.vec_get h1', List.filter_cons]
    cases hx : x e.a <;> cases hy : x e.b <;>
      simp only [if_true, if_false, Bool.false_eq_true, Int.cast_zero, Int.cast_one, mul_one,
        mul_zero, h.zero, h2, add_zero, ha, Bool.and_true, Bool.and_false]
    · rw [ih _ ha]; rfl
    · rw [ih _ ha]; rfl
    · rw [ih _ ha]; rfl
    · rw [ih _ (h.idem _)]; rfl

theorem computeSolutionImpl_vec {rnd : Rat → Rat} (h : Rounding rnd) (pb : RawProblem) (x : Assign)
    (h0 : pb.names ≠ []) (wf : WellFormedRaw pb) (hs : Stored rnd pb.objective) :
    computeSolutionImpl rnd pb (Lpcore.vec x pb.names.length) =
      .ok (rsum rnd pb.objective.value (active x pb.objective.elems ++ activeQ x pb.objective.qelems)) := by
  have w := wf.wf
  rw [← wf.names_len] at w
  unfold computeSolutionImpl
  rw [Lpcore.isEmpty_vec x (List.length_pos_iff.mpr h0),
    computeLinear_eq h x _ _ _ hs.value fun e he => ⟨w.obj_lt e he, hs.elems e he⟩]
  simp only [Bool.not_false, check_true, ok_bind]
  rw [computeQuadratic_eq h x _ _ _ (rsum_fixed h _ _ hs.value)
    fun e he => ⟨w.quad_lt e he, hs.qelems e he⟩, rsum_append]

/-! ## The preprocessor -/

open Preprocess in
theorem objLinear_eq (rnd : Rat → Rat) (V : List (Nat × Bool)) (n : Nat) :
    ∀ (es : List ObjElem) (o : Objective), (∀ e ∈ es, e.var < n) →
      objLinear rnd (mappingLoop V n 0 0) o es = .ok { o with
        elems := o.elems ++ (es.filter fun e => (V.lookup e.var).isNone).map
          fun e => ⟨e.factor, newIdx V e.var⟩
        value := rsum rnd o.value ((es.filter fun e =>
          decide (V.lookup e.var = some true)).map ObjElem.factor) }
  | [], o, _ => by simp [objLinear, rsum]
  | e :: es, o, h => by
    unfold objLinear
    rw [mapping_get V (h e (by simp))]
    have ih := fun c => objLinear_eq rnd V n es c (fun e' h' => h e' (by simp [h']))
    unfold entry
    cases hl : V.lookup e.var with
    | none =>
      simp only
      rw [ih]
      simp [hl, rsum]
    | some b =>
      simp only
      rw [ih]
      cases b <;> simp [hl, rsum]

open Preprocess in
theorem bqpObjective_linear (rnd : Rat → Rat) (pb : Problem) (st : St)
    (hq : pb.objective.qelems = []) : bqpObjective rnd pb st = {} := by
  unfold bqpObjective
  generalize List.range pb.values.length = L
  induction L with
  | nil => rfl
  | cons i L ih =>
    rw [List.foldl_cons]
    have : (if ((st.vars.lookup i).isNone && isUnused pb st i) = true then
        bqpVariable rnd pb {} i else {}) = ({} : MergeObj) := by
      split
      · unfold bqpVariable; rw [hq]; rfl
      · rfl
    rw [this]
    exact ih

/-- The copy of a linear objective. -/
def redObj (rnd : Rat → Rat) (pb : Problem) (V : List (Nat × Bool)) : Objective where
  elems := (pb.objective.elems.filter fun e => (V.lookup e.var).isNone).map
    fun e => ⟨e.factor, Preprocess.newIdx V e.var⟩
  qelems := []
  value := rsum rnd (rnd pb.objective.value) ((pb.objective.elems.filter fun e =>
    decide (V.lookup e.var = some true)).map ObjElem.factor)

open Preprocess in
theorem objCopy_linear (rnd : Rat → Rat) (pb : Problem) (V : List (Nat × Bool)) (n : Nat)
    (hq : pb.objective.qelems = []) (hl : ∀ e ∈ pb.objective.elems, e.var < n) :
    objCopy rnd pb (mappingLoop V n 0 0) {} = .ok (redObj rnd pb V) := by
  unfold objCopy
  rw [objLinear_eq rnd V n _ _ hl, hq]
  simp only [ok_bind, objQuadratic, objMerge, redObj]
  congr 2
  simp

open Preprocess in
theorem makeProblem_eq (rnd : Rat → Rat) (pb : Problem) (st : St)
    (hq : pb.objective.qelems = []) (hl : ∀ e ∈ pb.objective.elems, e.var < pb.values.length) :
    makeProblem rnd pb st {} = (Preprocess.makeProblem pb st {}).map fun red =>
      { red with objective := redObj rnd pb st.vars } := by
  unfold makeProblem Preprocess.makeProblem
  dsimp only
  rw [objCopy_linear rnd pb _ _ hq hl, Preprocess.objCopy_linear pb _ _ hq hl]
  simp only [ok_bind]
  generalize check _ _ = c1
  cases c1 with
  | error e => rfl
  | ok =>
    simp only [ok_bind]
    cases varsCopy pb st.vars pb.values 0 with
    | error e => rfl
    | ok v =>
      simp only [ok_bind]
      generalize check _ _ = c2
      cases c2 with
      | error e => rfl
      | ok =>
        simp only [ok_bind]
        cases cstCopy (mappingLoop st.vars pb.values.length 0 0) (st.cnt .eq) pb.eqs.zipIdx with
        | error e => rfl
        | ok eqs =>
          simp only [ok_bind]
          cases cstCopy (mappingLoop st.vars pb.values.length 0 0) (st.cnt .ge) pb.ges.zipIdx with
          | error e => rfl
          | ok ges =>
            simp only [ok_bind]
            cases cstCopy (mappingLoop st.vars pb.values.length 0 0) (st.cnt .le) pb.les.zipIdx with
            | error e => rfl
            | ok les =>
              simp only [ok_bind]
              generalize check _ _ = c3
              cases c3 <;> rfl

open Preprocess in
theorem active_perm {V : List (Nat × Bool)} {n : Nat} {x y : Assign} (h : Rel V n x y) :
    ∀ {es : List ObjElem}, (∀ e ∈ es, e.var < n) →
      ((es.filter fun e => decide (V.lookup e.var = some true)).map ObjElem.factor ++
        active y ((es.filter fun e => (V.lookup e.var).isNone).map fun e =>
          ⟨e.factor, newIdx V e.var⟩)).Perm (active x es)
  | [], _ => by simp [active]
  | e :: es, hes => by
    have ih := active_perm h (es := es) (fun e' h' => hes e' (by simp [h']))
    have he := h e.var (hes e (by simp))
    unfold active at ih ⊢
    rw [List.filter_cons, List.filter_cons, List.filter_cons (p := fun e : ObjElem => x e.var)]
    cases hl : V.lookup e.var with
    | none =>
      rw [hl] at he
      simp only at he
      simp only [reduceCtorEq, decide_false, Bool.false_eq_true, if_false, Option.isNone_none,
        if_true, List.map_cons, List.filter_cons, he]
      split
      · rw [List.map_cons, List.map_cons]
        exact (List.perm_middle).trans (ih.cons _)
      · exact ih
    | some b =>
      rw [hl] at he
      simp only at he
      cases b <;> simpa [he] using ih

theorem active_bound (x : Assign) : ∀ es : List ObjElem,
    ((active x es).map (|·|)).sum ≤ (es.map fun e => |e.factor|).sum
  | [] => by simp [active]
  | e :: es => by
    have ih := active_bound x es
    unfold active at ih ⊢
    rw [List.filter_cons]
    have := abs_nonneg e.factor
    split <;> simp only [List.map_cons, List.sum_cons] <;> linarith

theorem activeQ_bound (x : Assign) : ∀ es : List QuadElem,
    ((activeQ x es).map (|·|)).sum ≤ (es.map fun e => |e.factor|).sum
  | [] => by simp [activeQ]
  | e :: es => by
    have ih := activeQ_bound x es
    unfold activeQ at ih ⊢
    rw [List.filter_cons]
    have := abs_nonneg e.factor
    split <;> simp only [List.map_cons, List.sum_cons] <;> linarith

theorem mem_active {x : Assign} {es : List ObjElem} {f : Rat} (h : f ∈ active x es) :
    ∃ e ∈ es, e.factor = f := by
  obtain ⟨e, he, rfl⟩ := List.mem_map.mp h
  exact ⟨e, (List.mem_filter.mp he).1, rfl⟩

theorem mem_activeQ {x : Assign} {es : List QuadElem} {f : Rat} (h : f ∈ activeQ x es) :
    ∃ e ∈ es, e.factor = f := by
  obtain ⟨e, he, rfl⟩ := List.mem_map.mp h
  exact ⟨e, (List.mem_filter.mp he).1, rfl⟩

theorem _root_.Bx.Spec.OnGrid.sum {e : Int} {o : Objective} (h : OnGrid e o) {p : Nat} (hp : 0 < p)
    (hs : size o ≤ 2 ^ p * 2 ^ e) (x : Assign) {l : List Rat}
    (hl : l.Perm (active x o.elems ++ activeQ x o.qelems)) :
    rsum (binary p) o.value l = objective o x := by
  have hb : (l.map (|·|)).sum ≤
      (o.elems.map fun e => |e.factor|).sum + (o.qelems.map fun e => |e.factor|).sum := by
    rw [(hl.map _).sum_eq, List.map_append, List.sum_append]
    exact add_le_add (active_bound x _) (activeQ_bound x _)
  rw [rsum_exact hp (e := e) l o.value h.value]
  · rw [hl.sum_eq, List.sum_append, active_sum, activeQ_sum]
    unfold objective
    ring
  · intro f hf
    rcases List.mem_append.mp (hl.mem_iff.mp hf) with hf | hf
    · obtain ⟨e, he, rfl⟩ := mem_active hf
      exact h.elems e he
    · obtain ⟨e, he, rfl⟩ := mem_activeQ hf
      exact h.qelems e he
  · unfold size at hs
    linarith

theorem _root_.Bx.Spec.OnGrid.stored {e : Int} {o : Objective} (h : OnGrid e o) {p : Nat} (hp : 0 < p)
    (hs : size o ≤ 2 ^ p * 2 ^ e) : Stored (binary p) o := by
  unfold size at hs
  have h1 : ∀ l : List Rat, 0 ≤ (l.map (|·|)).sum := fun l => List.sum_nonneg (by
    intro a ha
    obtain ⟨b, _, rfl⟩ := List.mem_map.mp ha
    exact abs_nonneg b)
  have h2 : ∀ (l : List Rat), ∀ f ∈ l, |f| ≤ (l.map (|·|)).sum := fun l f hf =>
    List.single_le_sum (by
      intro a ha
      obtain ⟨b, _, rfl⟩ := List.mem_map.mp ha
      exact abs_nonneg b) _ (List.mem_map_of_mem hf)
  have e1 := h1 (o.elems.map ObjElem.factor)
  have e2 := h1 (o.qelems.map QuadElem.factor)
  rw [List.map_map] at e1 e2
  change 0 ≤ (o.elems.map fun e => |e.factor|).sum at e1
  change 0 ≤ (o.qelems.map fun e => |e.factor|).sum at e2
  have e0 := abs_nonneg o.value
  refine ⟨h.value.binary hp (by linarith), fun f hf => (h.elems f hf).binary hp ?_,
    fun f hf => (h.qelems f hf).binary hp ?_⟩
  · have := h2 (o.elems.map ObjElem.factor) f.factor (List.mem_map_of_mem hf)
    rw [List.map_map] at this
    change _ ≤ (o.elems.map fun e => |e.factor|).sum at this
    linarith
  · have := h2 (o.qelems.map QuadElem.factor) f.factor (List.mem_map_of_mem hf)
    rw [List.map_map] at this
    change _ ≤ (o.qelems.map fun e => |e.factor|).sum at this
    linarith

end Bx.Rounded
