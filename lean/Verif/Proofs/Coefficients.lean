import Verif.Model.Coefficients
import Verif.Model.Multipliers
import Verif.Proofs.BitArray
import Verif.Proofs.Itm2

/-!
# Lemmas on the coefficients that a solver stores
-/

namespace Bx.Stored

open Merge SolverCtor Spec Sparse

theorem fillInts_spec : ∀ (es : List FunElem) (id : Nat) (a : List Int), id + es.length ≤ a.length →
    ∃ a', fillInts es id a = .ok a' ∧ a'.length = a.length ∧ (∀ i, i < id → a'[i]? = a[i]?) ∧
      ∀ (i : Nat) (e : FunElem), es[i]? = some e → a'[id + i]? = some e.factor
  | [], _, a, _ => ⟨a, rfl, rfl, fun _ _ => rfl, by simp⟩
  | e :: es, id, a, h => by
    rw [List.length_cons] at h
    obtain ⟨a', h1, h2, h3, h4⟩ := fillInts_spec es (id + 1) (a.set id e.factor)
      (by rw [List.length_set]; omega)
    refine ⟨a', ?_, by rw [h2, List.length_set], ?_, ?_⟩
    · rw [fillInts, if_pos (by omega)]
      exact h1
    · intro i hi
      rw [h3 i (by omega), List.getElem?_set_ne (by omega)]
    · intro i e' he
      cases i with
      | zero =>
        rw [List.getElem?_cons_zero] at he
        obtain rfl := Option.some.inj he
        rw [Nat.add_zero, h3 id (by omega), List.getElem?_set_self (by omega)]
      | succ i =>
        rw [List.getElem?_cons_succ] at he
        have := h4 i e' he
        rw [show id + (i + 1) = id + 1 + i by omega]
        exact this

theorem fillSigns_spec : ∀ (es : List FunElem) (id : Nat) (a : BitArray.Bits), BitArray.WF a →
    (∀ e ∈ es, e.factor = 1 ∨ e.factor = -1) → id + es.length ≤ a.size →
    ∃ a', fillSigns es id a = .ok a' ∧ a'.size = a.size ∧ BitArray.WF a' ∧
      (∀ i, i < id → BitArray.bit a' i = BitArray.bit a i) ∧
      ∀ (i : Nat) (e : FunElem), es[i]? = some e → BitArray.bit a' (id + i) = decide (e.factor = 1)
  | [], _, a, hw, _, _ => ⟨a, rfl, rfl, hw, fun _ _ => rfl, by simp⟩
  | e :: es, id, a, hw, hu, h => by
    rw [List.length_cons] at h
    have hlt : id < a.size := by omega
    have key : ∃ b, (if e.factor > 0 then BitArray.set a id else BitArray.unset a id) = .ok b ∧
        b.size = a.size ∧ b.data.length = a.data.length ∧
        ∀ j, BitArray.bit b j = if j = id then decide (e.factor = 1) else BitArray.bit a j := by
      rcases hu e (by simp) with hf | hf
      · rw [hf, if_pos (by decide)]
        exact BitArray.set_spec hw hlt
      · rw [hf, if_neg (by decide)]
        exact BitArray.unset_spec hw hlt
    obtain ⟨b, k1, k2, k3, k4⟩ := key
    have hwb : BitArray.WF b := by
      unfold BitArray.WF at hw ⊢
      rw [k3, k2, hw]
    obtain ⟨a', h1, h2, h3, h4, h5⟩ := fillSigns_spec es (id + 1) b hwb
      (fun e he => hu e (by simp [he])) (by omega)
    refine ⟨a', ?_, by rw [h2, k2], h3, ?_, ?_⟩
    · have hn : decide (e.factor.natAbs = 1) = true := by
        rcases hu e (by simp) with hf | hf <;> simp [hf]
      rw [fillSigns, hn, check_true, ok_bind]
      dsimp only
      split at k1
      · rw [if_pos ‹_›, k1, ok_bind]
        exact h1
      · rw [if_neg ‹_›, k1, ok_bind]
        exact h1
    · intro i hi
      rw [h4 i (by omega), k4, if_neg (by omega)]
    · intro i e' he
      cases i with
      | zero =>
        rw [List.getElem?_cons_zero] at he
        obtain rfl := Option.some.inj he
        rw [Nat.add_zero, h4 id (by omega), k4, if_pos rfl]
      | succ i =>
        rw [List.getElem?_cons_succ] at he
        rw [show id + (i + 1) = id + 1 + i by omega]
        exact h5 i e' he

/-- The coefficients that the constructor of the solver accepts. -/
def Allowed (t : SolverType) (e : FunElem) : Prop :=
  match t with
  | .equalities01 | .inequalities01 => e.factor = 1
  | .equalities101 | .inequalities101 => e.factor = 1 ∨ e.factor = -1
  | _ => True

theorem ctor_allowed {t : SolverType} {c : Merged} {b : Bound} (h : ctor t c = .ok b) :
    ∀ e ∈ c.elems, Allowed t e := by
  intro e he
  by_cases ht : t ≠ .equalitiesZ ∧ t ≠ .inequalitiesZ
  · obtain ⟨h1, h2⟩ := Itm.ctor_unit h ht
    have h1 := h1 e he
    have h3 : Itm.factor t e = 1 ∨ Itm.factor t e = -1 := by
      rw [h2 e he]
      split
      · exact Or.inr rfl
      · exact Or.inl rfl
    rw [h1] at h3
    cases t
    · exact h1.symm
    · exact h3
    · trivial
    · exact h1.symm
    · exact h3
    · trivial
  · cases t <;> simp at ht <;> trivial

/-- The array has, at the place of each coefficient, this coefficient. -/
theorem fill_spec (t : SolverType) (es : List FunElem) (h : ∀ e ∈ es, Allowed t e) :
    ∃ a, fill t es es.length = .ok a ∧
      ∀ (i : Nat) (e : FunElem), es[i]? = some e → factor a i = .ok e.factor := by
  have hints : ∃ a, (do
      let a ← fillInts es 0 (List.replicate es.length 0)
      (.ok (Coeffs.ints a) : Outcome Coeffs)) = .ok a ∧
      ∀ (i : Nat) (e : FunElem), es[i]? = some e → factor a i = .ok e.factor := by
    obtain ⟨a, h1, _, _, h4⟩ := fillInts_spec es 0 (List.replicate es.length 0) (by simp)
    refine ⟨.ints a, by rw [h1]; rfl, ?_⟩
    intro i e he
    have := h4 i e he
    rw [Nat.zero_add] at this
    simp only [factor, this]
  have hones : (∀ e ∈ es, e.factor = 1) → ∃ a, (.ok Coeffs.ones : Outcome Coeffs) = .ok a ∧
      ∀ (i : Nat) (e : FunElem), es[i]? = some e → factor a i = .ok e.factor := by
    intro h1
    refine ⟨_, rfl, ?_⟩
    intro i e he
    rw [h1 e (List.mem_of_getElem? he)]
    rfl
  cases t
  · exact hones h
  · exact hints
  · exact hints
  · exact hones h
  · obtain ⟨a, h1, h2, h3, _, h5⟩ := fillSigns_spec es 0 (BitArray.make es.length)
      (BitArray.make_wf _) h (by simp [BitArray.make])
    refine ⟨.signs a, by simp only [fill]; rw [h1]; rfl, ?_⟩
    intro i e he
    have hi : i < a.size := by
      rw [h2]
      obtain ⟨hlt, _⟩ := List.getElem?_eq_some_iff.mp he
      exact hlt
    have hb := h5 i e he
    rw [Nat.zero_add] at hb
    simp only [factor]
    rw [BitArray.get_eq h3 hi, ok_bind, hb]
    rcases h e (List.mem_of_getElem? he) with hf | hf <;> simp [hf]
  · exact hints

theorem rowSum_spec {a : Coeffs} (x : Assign) : ∀ (rs : List RowValue) (es : List FunElem) (v : Int),
    List.Forall₂ (fun r e => factor a r.value = .ok e.factor ∧ r.column = e.var) rs es →
    rowSum a x rs v = .ok (v + lhs x es)
  | _, _, v, .nil => by simp [rowSum, lhs]
  | r :: rs, e :: es, v, .cons h1 h2 => by
    rw [rowSum, h1.1, ok_bind, rowSum_spec x rs es _ h2, h1.2]
    congr 1
    simp only [lhs, List.map_cons, List.sum_cons]
    split <;> (simp; try omega)

/-- The cells of a row, with the coefficients that they point to. -/
theorem row_spec {csts : List Merged} {n : Nat} {a : Coeffs} (hn : 0 < n)
    (ha : ∀ (i : Nat) (e : FunElem), (csts.flatMap Merged.elems)[i]? = some e →
      factor a i = .ok e.factor) {k : Nat} {c : Merged} (hk : csts[k]? = some c) :
    ∃ R, row (result csts n) k = .ok R ∧
      List.Forall₂ (fun (r : RowValue) (e : FunElem) => factor a r.value = .ok e.factor ∧ r.column = e.var)
        R c.elems := by
  have hlt : k < csts.length := (List.getElem?_eq_some_iff.mp hk).1
  obtain ⟨h1, h2⟩ := accessors_row csts k c hk
  refine ⟨_, row_eq csts n k hlt hn, ?_⟩
  generalize (accessors csts).filter (fun a => decide (a.row = k)) = l at h1 h2
  generalize c.elems = es at h1 h2
  clear hk
  induction l generalizing es with
  | nil =>
    cases es with
    | nil => exact .nil
    | cons e es => simp at h2
  | cons q l ih =>
    cases es with
    | nil => simp at h2
    | cons e es =>
      rw [List.map_cons, List.map_cons, List.cons.injEq] at h1 h2
      exact .cons ⟨ha _ _ h1.1, h2.1⟩ (ih es h1.2 h2.2)

theorem column_pre (csts : List Merged) (s : Itm.Slv) (j : Nat)
    (hr : s.rows = csts.map Merged.elems) (hf : ∀ c ∈ csts, ∀ e ∈ c.elems, Itm.factor s.kind e = e.factor) :
    Mult.column s j =
      ((pre csts 0).filter fun p => decide (p.2.var = j)).map fun p => (p.1, p.2.factor) := by
  unfold Mult.column pre
  rw [hr, List.zipIdx_map, List.flatMap_map, List.filter_flatMap, List.map_flatMap]
  rw [List.flatMap_def, List.flatMap_def]
  congr 1
  apply List.map_congr_left
  intro p hp
  have hc : p.1 ∈ csts := by
    have := List.mk_mem_zipIdx_iff_getElem?.mp (show (p.1, p.2) ∈ csts.zipIdx from hp)
    exact List.mem_of_getElem? this
  simp only [Prod.map, id_eq]
  rw [List.filter_map, List.map_map]
  apply List.map_congr_left
  intro e he
  simp only [Function.comp]
  rw [hf p.1 hc e (List.mem_filter.mp he).1]

theorem columnOf_spec {csts : List Merged} {n : Nat} {a : Coeffs} (hc : 0 < csts.length)
    (ha : ∀ (i : Nat) (e : FunElem), (csts.flatMap Merged.elems)[i]? = some e →
      factor a i = .ok e.factor) {j : Nat} (hj : j < n) :
    columnOf (result csts n) a j =
      .ok (((pre csts 0).filter fun p => decide (p.2.var = j)).map fun p => (p.1, p.2.factor)) := by
  unfold columnOf
  rw [column_eq csts n j hj hc, ok_bind, accessors_eq, List.filter_map, List.map_map]
  have h1 : ((pre csts 0).filter fun p => decide (p.2.var = j)).map (fun p => (p.1, p.2.factor)) =
      ((pre csts 0).zipIdx.filter fun p => decide (p.1.2.var = j)).map
        (fun p => (p.1.1, p.1.2.factor)) := by
    conv_lhs => rw [← List.zipIdx_map_fst 0 (pre csts 0), List.filter_map, List.map_map]
    rfl
  rw [h1, List.mapM_map]
  refine mapM_ok _ (fun p : (Nat × FunElem) × Nat => (p.1.1, p.1.2.factor)) _ ?_
  intro p hp
  have hp' := (List.mem_filter.mp hp).1
  have := List.mk_mem_zipIdx_iff_getElem?.mp (show (p.1, p.2) ∈ (pre csts 0).zipIdx from hp')
  have hs : (csts.flatMap Merged.elems)[p.2]? = some p.1.2 := by
    rw [← pre_snd csts 0, List.getElem?_map, this]
    rfl
  simp only [Function.comp]
  rw [ha _ _ hs]
  rfl

end Bx.Stored
