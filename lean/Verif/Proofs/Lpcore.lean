import Verif.Model.Lpcore
import Verif.Spec.Lp
import Verif.Proofs.Outcome
import Mathlib.Tactic.Ring
import Mathlib.Data.List.Nodup
import Mathlib.Data.List.Perm.Basic

/-! Helper lemmas for the solution checking functions. -/

namespace Bx.Lpcore

open Spec

/-- 0-1 vector of an assignment. -/
def vec (x : Assign) (n : Nat) : List Int :=
  (List.range n).map fun i => if x i then 1 else 0

theorem vec_get {x : Assign} {n i : Nat} (h : i < n) :
    (vec x n)[i]? = some (if x i then 1 else 0) := by
  simp [vec, h]

theorem computeFunction_vec (x : Assign) (n : Nat) :
    ∀ es : List FunElem, (∀ e ∈ es, e.var < n) →
      computeFunction (vec x n) es = .ok (lhs x es)
  | [], _ => rfl
  | e :: es, h => by
    have he := h e (by simp)
    have ih := computeFunction_vec x n es (fun e' h' => h e' (by simp [h']))
    unfold computeFunction
    rw [vec_get he]
    simp only [ih, ok_bind, lhs, List.map_cons, List.sum_cons]
    split <;> simp

theorem allConstraints_vec (x : Assign) (n : Nat) (bad : Int → Int → Bool) :
    ∀ cs : List Constr, (∀ c ∈ cs, ∀ e ∈ c.elems, e.var < n) →
      allConstraints (vec x n) bad cs =
        .ok (cs.all fun c => !bad (lhs x c.elems) c.value)
  | [], _ => rfl
  | c :: cs, h => by
    have hc := computeFunction_vec x n c.elems (h c (by simp))
    have ih := allConstraints_vec x n bad cs (fun c' h' => h c' (by simp [h']))
    unfold allConstraints
    rw [hc]
    simp only [ok_bind, ih]
    by_cases hb : bad (lhs x c.elems) c.value <;> simp [hb]

theorem isEmpty_vec (x : Assign) {n : Nat} (hpos : 0 < n) :
    (vec x n).isEmpty = false := by
  rw [List.isEmpty_eq_false_iff_exists_mem]
  exact ⟨_, List.mem_map.mpr ⟨0, List.mem_range.mpr hpos, rfl⟩⟩

theorem isValidSolutionImpl_vec (pb : RawProblem) (x : Assign)
    (h0 : pb.names ≠ []) (wf : WellFormedRaw pb) :
    isValidSolutionImpl pb (vec x pb.names.length) =
      .ok (decide (Satisfies pb.eqs pb.ges pb.les x)) := by
  have hl := wf.names_len
  have w := wf.wf
  rw [← hl] at w
  have hne := isEmpty_vec x (List.length_pos_iff.mpr h0)
  have hlen : (vec x pb.names.length).length = pb.names.length := by simp [vec]
  unfold isValidSolutionImpl
  rw [hne, hlen, hl]
  simp only [Bool.not_false, check_true, beq_self_eq_true, ok_bind]
  rw [← hl, allConstraints_vec x _ _ _ w.eqs_lt, allConstraints_vec x _ _ _ w.les_lt,
    allConstraints_vec x _ _ _ w.ges_lt]
  simp only [ok_bind, pure_eq_ok]
  have e1 : (pb.eqs.all fun c => !(lhs x c.elems != c.value)) =
      decide (∀ c ∈ pb.eqs, lhs x c.elems = c.value) := by
    rw [Bool.eq_iff_iff]; simp
  have e2 : (pb.les.all fun c => !decide (lhs x c.elems > c.value)) =
      decide (∀ c ∈ pb.les, lhs x c.elems ≤ c.value) := by
    rw [Bool.eq_iff_iff]; simp
  have e3 : (pb.ges.all fun c => !decide (lhs x c.elems < c.value)) =
      decide (∀ c ∈ pb.ges, lhs x c.elems ≥ c.value) := by
    rw [Bool.eq_iff_iff]; simp
  rw [e1, e2, e3]
  have e4 : decide (Satisfies pb.eqs pb.ges pb.les x) =
      (decide (∀ c ∈ pb.eqs, lhs x c.elems = c.value) &&
       (decide (∀ c ∈ pb.ges, lhs x c.elems ≥ c.value) &&
        decide (∀ c ∈ pb.les, lhs x c.elems ≤ c.value))) := by
    rw [Bool.eq_iff_iff]
    simp only [decide_eq_true_eq, Bool.and_eq_true]
    rfl
  rw [e4]
  generalize decide (∀ c ∈ pb.eqs, lhs x c.elems = c.value) = a
  generalize decide (∀ c ∈ pb.les, lhs x c.elems ≤ c.value) = b
  generalize decide (∀ c ∈ pb.ges, lhs x c.elems ≥ c.value) = d
  cases a <;> cases b <;> cases d <;> rfl

theorem addLinear_vec (x : Assign) (n : Nat) :
    ∀ (es : List ObjElem) (acc : Rat), (∀ e ∈ es, e.var < n) →
      addLinear (vec x n) acc es =
        .ok (acc + (es.map fun e => if x e.var then e.factor else 0).sum)
  | [], acc, _ => by simp [addLinear]
  | e :: es, acc, h => by
    unfold addLinear
    rw [vec_get (h e (by simp))]
    simp only
    rw [addLinear_vec x n es _ (fun e' h' => h e' (by simp [h']))]
    simp only [List.map_cons, List.sum_cons]
    split
    · simp; ring
    · simp

theorem addQuadratic_vec (x : Assign) (n : Nat) :
    ∀ (es : List QuadElem) (acc : Rat), (∀ e ∈ es, e.a < n ∧ e.b < n) →
      addQuadratic (vec x n) acc es =
        .ok (acc + (es.map fun e => if x e.a && x e.b then e.factor else 0).sum)
  | [], acc, _ => by simp [addQuadratic]
  | e :: es, acc, h => by
    unfold addQuadratic
    have he := h e (by simp)
    rw [vec_get he.1, vec_get he.2]
    simp only
    rw [addQuadratic_vec x n es _ (fun e' h' => h e' (by simp [h']))]
    simp only [List.map_cons, List.sum_cons]
    cases x e.a <;> cases x e.b <;> simp
    ring

theorem computeSolutionImpl_vec (pb : RawProblem) (x : Assign)
    (h0 : pb.names ≠ []) (wf : WellFormedRaw pb) :
    computeSolutionImpl pb (vec x pb.names.length) =
      .ok (Spec.objective pb.objective x) := by
  have w := wf.wf
  rw [← wf.names_len] at w
  unfold computeSolutionImpl
  rw [isEmpty_vec x (List.length_pos_iff.mpr h0), addLinear_vec x _ _ _ w.obj_lt]
  simp only [Bool.not_false, check_true, ok_bind, addQuadratic_vec x _ _ _ w.quad_lt,
    Spec.objective]

theorem lookup_of_mem {l : List (String × Bool)} (hn : (l.map Prod.fst).Nodup)
    {k : String} {b : Bool} (h : (k, b) ∈ l) : l.lookup k = some b := by
  induction l with
  | nil => simp at h
  | cons p l ih =>
    obtain ⟨k', b'⟩ := p
    simp only [List.map_cons, List.nodup_cons] at hn
    rcases List.mem_cons.mp h with h' | h'
    · cases h'; simp [List.lookup]
    · have hne : k ≠ k' := by
        rintro rfl
        exact hn.1 (List.mem_map.mpr ⟨(k, b), h', rfl⟩)
      simp [List.lookup, beq_false_of_ne hne, ih hn.2 h']

theorem writeAll_eq : ∀ (ns : List String) (vs : List Int) (c : Cache),
    writeAll ns vs c = (ns.zip (vs.map fun v => decide (v ≠ 0))).reverse ++ c
  | [], vs, c => by simp [writeAll]
  | n :: ns, [], c => by simp [writeAll]
  | n :: ns, v :: vs, c => by
    simp [writeAll, writeAll_eq ns vs, Cache.write]

theorem readAll_eq (c : Cache) (x : Assign) :
    ∀ (ns : List String) (k : Nat),
      (∀ i n, ns[i]? = some n → c.lookup n = some (x (k + i))) →
      readAll c ns = .ok ((List.range ns.length).map fun i => if x (k + i) then 1 else 0)
  | [], _, _ => rfl
  | n :: ns, k, h => by
    have h0 := h 0 n rfl
    have ih := readAll_eq c x ns (k + 1) (fun i m hm => by
      have := h (i + 1) m (by simpa using hm)
      rwa [show k + 1 + i = k + (i + 1) by omega])
    unfold readAll
    rw [h0]
    simp only [ih, ok_bind, List.length_cons, List.range_succ_eq_map, List.map_cons,
      List.map_map]
    refine congrArg Except.ok (congrArg₂ List.cons ?_ ?_)
    · simp
    · refine List.map_congr_left fun i _ => ?_
      simp [show k + 1 + i = k + (i + 1) by omega]

/-- What the cache holds is what the pairs say. -/
theorem makeVariableValue_vec (names : List String) (r : Result) (s : Solution)
    (x : Assign) (hs : r.status = .success) (hl : r.solutions.getLast? = some s)
    (ha : r.affected.names.length = r.affected.values.length)
    (hv : r.variableName.length = s.variables.length)
    (hnd : (r.affected.names ++ r.variableName).Nodup)
    (hx : Names names
      ((r.affected.names.zip (r.affected.values.map fun v => decide (v ≠ 0))) ++
       (r.variableName.zip (s.variables.map fun v => decide (v ≠ 0)))) x) :
    makeVariableValue names r = .ok (vec x names.length) := by
  unfold makeVariableValue
  simp only [hs, ne_eq, not_true_eq_false, if_false, hl, ha, hv, beq_self_eq_true,
    check_true, ok_bind, writeAll_eq]
  rw [readAll_eq _ x names 0]
  · simp [vec]
  · intro i n hn
    have hm := hx i n hn
    refine lookup_of_mem ?_ ?_
    · simp only [List.append_nil, List.map_append, List.map_reverse]
      rw [List.map_fst_zip (by simp [hv]), List.map_fst_zip (by simp [ha])]
      rw [← List.reverse_append]
      exact List.nodup_reverse.mpr hnd
    · simp only [Nat.zero_add, List.append_nil, List.mem_append, List.mem_reverse]
      exact (List.mem_append.mp hm).symm

end Bx.Lpcore
