import Mathlib.Tactic.Linarith
import Mathlib.Tactic.Ring
import Verif.Model.Multipliers
import Verif.Spec.Multipliers
import Verif.Proofs.Itm2

/-! # Row updates with their multipliers -/

namespace Bx.Mult

open Merge SolverCtor Spec Itm

/-! ## Reduced costs -/

theorem row_sum {t : SolverType} {j k : Nat} (g : Nat → Rat) : ∀ row : List FunElem,
    (∀ e ∈ row, factor t e = e.factor) →
    (((row.filter fun e => decide (e.var = j)).map fun e => (k, factor t e)).map fun p : Nat × Int =>
      (p.2 : Rat) * g p.1).sum = (coef row j : Rat) * g k
  | [], _ => by simp [coef]
  | e :: es, h => by
    have ih := row_sum (t := t) (j := j) (k := k) g es fun e he => h e (by simp [he])
    have he := h e (by simp)
    rw [List.filter_cons]
    unfold coef at ih ⊢
    by_cases hj : e.var = j
    · simp only [hj, decide_true, if_true, List.map_cons, List.sum_cons, he, ih]
      push_cast
      ring
    · simp only [hj, decide_false, List.map_cons, List.sum_cons, if_false, zero_add]
      exact ih

theorem column_sum {t : SolverType} {j : Nat} (g : Nat → Rat) : ∀ l : List (List FunElem × Nat),
    (∀ r ∈ l, ∀ e ∈ r.1, factor t e = e.factor) →
    ((l.flatMap fun r => (r.1.filter fun e => decide (e.var = j)).map fun e =>
      (r.2, factor t e)).map fun p : Nat × Int => (p.2 : Rat) * g p.1).sum =
    (l.map fun r => (coef r.1 j : Rat) * g r.2).sum
  | [], _ => by simp
  | r :: l, h => by
    have ih := column_sum (t := t) (j := j) g l fun r hr => h r (by simp [hr])
    rw [List.flatMap_cons, List.map_append, List.sum_append, ih,
      row_sum g r.1 (h r (by simp)), List.map_cons, List.sum_cons]

theorem factors_ok {t : SolverType} {csts : List Merged} {n : Nat} {s : Slv}
    (hs : makeSlv t csts n = .ok s) : ∀ c ∈ csts, ∀ e ∈ c.elems, factor t e = e.factor := by
  intro c hc e he
  obtain ⟨k, hk⟩ := List.getElem?_of_mem hc
  obtain ⟨_, _, _, _, _, _, hrows⟩ := makeSlv_facts hs
  obtain ⟨b, _, _, hcc⟩ := hrows k c hk
  by_cases ht : t ≠ .equalitiesZ ∧ t ≠ .inequalitiesZ
  · exact (ctor_unit hcc ht).1 e he
  · cases t <;> simp at ht <;> rfl

/-- The reduced costs of the code are those of the specification. -/
theorem reduced_eq {t : SolverType} {csts : List Merged} {n : Nat} {s : Slv}
    (hs : makeSlv t csts n = .ok s) (c : CostFun) (m : Mem) (x : Assign) (j : Nat) :
    reduced s c m x j = reducedCost csts m.pi m.P (c j x) j := by
  obtain ⟨hkind, hrows, _⟩ := makeSlv_facts hs
  have hf : ∀ r ∈ (csts.map Merged.elems).zipIdx, ∀ e ∈ r.1, factor t e = e.factor := by
    intro r hr e he
    have h1 : r.1 ∈ csts.map Merged.elems := by
      obtain ⟨a, i⟩ := r
      exact (List.mem_zipIdx' hr).2 ▸ List.getElem_mem _
    obtain ⟨c, hc, hcr⟩ := List.mem_map.mp h1
    exact factors_ok hs c hc e (hcr ▸ he)
  unfold reduced reducedCost column
  rw [hkind, hrows, column_sum m.pi _ hf, column_sum (fun k => m.P k j) _ hf, List.zipIdx_map]
  have key : ∀ l : List (Merged × Nat),
      ((l.map fun q => (coef q.1.elems j : Rat) * m.pi q.2).sum
        + (l.map fun q => (coef q.1.elems j : Rat) * m.P q.2 j).sum) =
      (l.map fun q => (coef q.1.elems j : Rat) * (m.pi q.2 + m.P q.2 j)).sum := by
    intro l
    induction l with
    | nil => simp
    | cons a l ih =>
      simp only [List.map_cons, List.sum_cons]
      rw [← ih]
      ring
  have := key csts.zipIdx
  simp only [List.map_map, Function.comp_def, Prod.map_fst, Prod.map_snd, id_eq]
  rw [← this]
  ring

/-! ## Selection -/

theorem scan_stop {s : Slv} {stop : Int → Bool} {last : Int} : ∀ (n : Nat) (i res : Int),
    scan s stop last i n = .ok res →
    (∃ j, i ≤ j ∧ j < i + n ∧ res = j - 1 ∧ stop j = true ∧ ∀ l, i ≤ l → l < j → stop l = false) ∨
    (res = last ∧ ∀ l, i ≤ l → l < i + n → stop l = false)
  | 0, i, res, h => Or.inr ⟨(Except.ok.inj h).symm, fun l h1 h2 => by simp at h2; omega⟩
  | n + 1, i, res, h => by
    unfold scan at h
    obtain ⟨_, _, h⟩ := bind_eq_ok.mp h
    by_cases hs : stop i
    · rw [if_pos hs] at h
      exact Or.inl ⟨i, Int.le_refl i, by omega, (Except.ok.inj h).symm, hs, fun l h1 h2 => by omega⟩
    · rw [if_neg hs] at h
      have hs' : stop i = false := by simpa using hs
      rcases scan_stop n (i + 1) res h with ⟨j, h1, h2, h3, h4, h5⟩ | ⟨h1, h2⟩
      · refine Or.inl ⟨j, by omega, by omega, h3, h4, fun l h6 h7 => ?_⟩
        by_cases hl : l = i
        · rw [hl]; exact hs'
        · exact h5 l (by omega) h7
      · refine Or.inr ⟨h1, fun l h6 h7 => ?_⟩
        by_cases hl : l = i
        · rw [hl]; exact hs'
        · exact h2 l (by omega) (by omega)

/-- What the four solvers select for a row whose bounds can be met: `m` elements between the
bounds; the scan did not stop on the elements selected beyond the lower bound, and it stopped on the
next one unless the upper bound is reached. -/
theorem select_count {t : SolverType} {csts : List Merged} {n : Nat} {s : Slv}
    (hs : makeSlv t csts n = .ok s) (ht : t ≠ .equalitiesZ ∧ t ≠ .inequalitiesZ)
    {k : Nat} {c : Merged} (hk : csts[k]? = some c) {b : Bound} (hb : boundOf s k = .ok b)
    (hsat : ∃ y, Respects c y) {o : Row} {sel : Int} (h : select s o c.elems b = .ok sel) :
    ∃ m : Nat, m = clamp sel c.elems.length ∧ sel < s.cap ∧ m ≤ c.elems.length ∧
      0 ≤ b.min + cSize t c.elems ∧ b.max + cSize t c.elems ≤ c.elems.length ∧
      b.min + cSize t c.elems ≤ m ∧ (m : Int) ≤ b.max + cSize t c.elems ∧
      (0 ≤ sel → (m : Int) = sel + 1) ∧ (sel < 0 → m = 0) ∧
      (∀ l : Int, b.min + cSize t c.elems ≤ l → l < m → o.stop l = false) ∧
      ((m : Int) < b.max + cSize t c.elems → o.stop m = true) := by
  obtain ⟨hkind, _, hcap0, hcap, _, _, hrows⟩ := makeSlv_facts hs
  obtain ⟨b', hr, hb', hc⟩ := hrows k c hk
  rw [hb'] at hb
  have hbb := Except.ok.inj hb
  subst hbb
  have hlen := hcap c (List.mem_of_getElem? hk)
  have hu : UnitRow t c.elems := ctor_unit hc ht
  obtain ⟨y, hy⟩ := hsat
  have hrange := lhs_range hu y
  rw [rowValue_lhs hc y] at hrange
  have hle := cSize_le t c.elems
  by_cases he : t = .equalities01 ∨ t = .equalities101
  · obtain ⟨hb1, hb2, hb3⟩ := ctor_eq_bounds hc he
    have hseleq : sel = min (c.min + cSize t c.elems) c.elems.length - 1 := by
      rcases he with rfl | rfl
      · have h0 := cSize_01 (Or.inl rfl) c.elems
        simp only [select, hkind] at h
        rw [← Except.ok.inj h, selectEq01, hb1, h0]; simp
      · simp only [select, hkind] at h
        rw [← Except.ok.inj h, selectEq101, hb1]
    obtain ⟨hy1, hy2⟩ := hy
    refine ⟨_, rfl, ?_⟩
    unfold clamp
    refine ⟨by omega, by omega, by omega, by omega, by omega, by omega, by omega, by omega, fun l h1 h2 => by omega,
      fun h1 => by omega⟩
  · have hi : t = .inequalities01 ∨ t = .inequalities101 := by
      cases t <;> simp at he ht ⊢
    obtain ⟨hb0, hb1, hb2, hb3, hb4⟩ := ctor_ineq_bounds hc hi ⟨y, hy⟩
    by_cases heq : b'.min = b'.max
    · have hseleq : sel = min (b'.min + cSize t c.elems) c.elems.length - 1 := by
        rcases hi with rfl | rfl
        · have h0 := cSize_01 (Or.inr rfl) c.elems
          simp only [select, hkind, selectIneq01, heq, if_true] at h
          rw [← Except.ok.inj h, h0, heq]; simp
        · simp only [select, hkind, selectIneq101, heq, if_true] at h
          rw [← Except.ok.inj h, heq]
      refine ⟨_, rfl, ?_⟩
      unfold clamp
      refine ⟨by omega, by omega, by omega, by omega, by omega, by omega, by omega, by omega, fun l h1 h2 => by omega,
        fun h1 => by omega⟩
    · have hsel : select s o c.elems b' =
          scan s o.stop (b'.max + cSize t c.elems - 1) (b'.min + cSize t c.elems)
            (b'.max - b'.min + 1).toNat := by
        rcases hi with rfl | rfl
        · have h0 := cSize_01 (Or.inr rfl) c.elems
          have e1 : min b'.min (c.elems.length : Int) = b'.min := by omega
          have e2 : min b'.max (c.elems.length : Int) = b'.max := by omega
          simp only [select, hkind, selectIneq01, heq, if_false]
          rw [e1, e2, h0]
          simp
        · have e2 : min (b'.max + cSize .inequalities101 c.elems) (c.elems.length : Int) =
              b'.max + cSize .inequalities101 c.elems := by
            omega
          simp only [select, hkind, selectIneq101, heq, if_false]
          rw [e2]
          congr 2
          omega
      rw [hsel] at h
      rcases scan_stop _ _ _ h with ⟨j, h1, h2, h3, h4, h5⟩ | ⟨h1, h2⟩
      · refine ⟨_, rfl, ?_⟩
        have hm : ((clamp sel c.elems.length : Nat) : Int) = j := by unfold clamp; omega
        refine ⟨?_, clamp_le _ _, by omega, by omega, by omega, by omega, by omega, by omega, ?_, ?_⟩
        · omega
        · intro l h6 h7
          exact h5 l h6 (by omega)
        · intro _
          rw [hm]
          exact h4
      · refine ⟨_, rfl, ?_⟩
        have hm : ((clamp sel c.elems.length : Nat) : Int) = b'.max + cSize t c.elems := by
          unfold clamp; omega
        refine ⟨by omega, clamp_le _ _, by omega, by omega, by omega, by omega, by omega, by omega, ?_, by omega⟩
        intro l h6 h7
        exact h2 l h6 (by omega)

/-! ## Assignment -/

/-- What `affect` gives to the variables of the row. -/
theorem affect_values {s : Slv} {k : Nat} {row : List FunElem}
    (hnd : (row.map FunElem.var).Nodup) {ids : List Nat}
    (hp : ids.Perm (List.range row.length)) {sel : Int} {x x' : Assign}
    (h : affect s k row ids sel x = .ok x') :
    (∀ (i : Nat) (e : FunElem), i ∈ ids.take (clamp sel row.length) → row[i]? = some e →
      x' e.var = !isNegative s.kind e) ∧
    (∀ (i : Nat) (e : FunElem), i ∈ ids.drop (clamp sel row.length) → row[i]? = some e →
      x' e.var = isNegative s.kind e) := by
  have hlt : ∀ i ∈ ids, i < row.length := fun i hi => List.mem_range.mp (hp.mem_iff.mp hi)
  have hlen : ids.length = row.length := by simpa using hp.length_eq
  have tup : ∀ e, target s.kind e true = !isNegative s.kind e := by
    intro e; unfold target; cases isNegative s.kind e <;> rfl
  have tdown : ∀ e, target s.kind e false = isNegative s.kind e := by
    intro e; unfold target; cases isNegative s.kind e <;> rfl
  unfold affect at h
  obtain ⟨y, hy, h⟩ := bind_eq_ok.mp h
  obtain ⟨v, _, h⟩ := bind_eq_ok.mp h
  obtain ⟨_, _, h⟩ := bind_eq_ok.mp h
  have := Except.ok.inj h
  subst this
  unfold affectX at hy
  by_cases hneg : sel < 0
  · rw [if_pos hneg] at hy
    obtain ⟨_, _, hy⟩ := bind_eq_ok.mp hy
    obtain ⟨x1, h1, _, h3⟩ := turn_spec (t := s.kind) hnd false ids x hlt
    rw [h1] at hy
    have := Except.ok.inj hy
    subst this
    have h0 : clamp sel row.length = 0 := by unfold clamp; omega
    rw [h0]
    exact ⟨by simp, fun i e hi he => by rw [h3 i e (by simpa using hi) he, tdown]⟩
  · rw [if_neg hneg] at hy
    by_cases hbig : sel + 1 ≥ ids.length
    · rw [if_pos hbig] at hy
      obtain ⟨_, _, hy⟩ := bind_eq_ok.mp hy
      obtain ⟨x1, h1, _, h3⟩ := turn_spec (t := s.kind) hnd true ids x hlt
      rw [h1] at hy
      have := Except.ok.inj hy
      subst this
      have h0 : clamp sel row.length = ids.length := by unfold clamp; omega
      rw [h0]
      exact ⟨fun i e hi he => by rw [h3 i e (List.mem_of_mem_take hi) he, tup], by simp⟩
    · rw [if_neg hbig] at hy
      obtain ⟨_, _, hy⟩ := bind_eq_ok.mp hy
      obtain ⟨_, _, hy⟩ := bind_eq_ok.mp hy
      obtain ⟨x1, h1, h2, h3⟩ := turn_spec (t := s.kind) hnd true
        (ids.take (sel + 1).toNat) x (fun i hi => hlt i (List.mem_of_mem_take hi))
      obtain ⟨x2, h4, h5, h6⟩ := turn_spec (t := s.kind) hnd false
        (ids.drop (sel + 1).toNat) x1 (fun i hi => hlt i (List.mem_of_mem_drop hi))
      rw [h1, ok_bind, h4] at hy
      have := Except.ok.inj hy
      subst this
      have h0 : clamp sel row.length = (sel + 1).toNat := by unfold clamp; omega
      rw [h0]
      have hids : ids.Nodup := hp.nodup_iff.mpr List.nodup_range
      refine ⟨fun i e hi he => ?_, fun i e hi he => by rw [h6 i e hi he, tdown]⟩
      rw [h5, h3 i e hi he, tup]
      intro i' e' hi' he' heq
      have hl := hlt i (List.mem_of_mem_take hi)
      have hl' := hlt i' (List.mem_of_mem_drop hi')
      have hij : i' = i := by
        have := List.nodup_iff_injective_getElem.mp hnd
        rw [List.getElem?_eq_getElem hl] at he
        rw [List.getElem?_eq_getElem hl'] at he'
        have h7 := @this ⟨i', by simpa using hl'⟩ ⟨i, by simpa using hl⟩
          (by simp [Option.some.inj he, Option.some.inj he', heq])
        exact congrArg Fin.val h7
      subst hij
      have := List.nodup_append.mp ((List.take_append_drop (sel + 1).toNat ids).symm ▸ hids)
      exact this.2.2 _ hi _ hi' rfl

/-! ## The cheapest selection -/

/-- Elements at most `tau` against any other selection. -/
theorem prefix_opt {α : Type} (v : α → Rat) (f : α → Bool) (tau : Rat) : ∀ A B : List α,
    (∀ a ∈ A, v a ≤ tau) → (∀ b ∈ B, tau ≤ v b) →
    (A.map v).sum ≤ ((A ++ B).map fun a => if f a then v a else 0).sum +
      tau * ((A.length : Rat) - ((A ++ B).filter f).length)
  | [], [], _, _ => by simp
  | [], b :: B, hA, hB => by
    have ih := prefix_opt v f tau [] B hA fun b hb => hB b (by simp [hb])
    have hb := hB b (by simp)
    simp only [List.nil_append, List.map_nil, List.sum_nil, List.length_nil, List.map_cons,
      List.sum_cons, List.filter_cons] at ih ⊢
    cases f b
    · simp only [Bool.false_eq_true, if_false]
      linarith
    · simp only [if_true, List.length_cons]
      push_cast at ih ⊢
      linarith
  | a :: A, B, hA, hB => by
    have ih := prefix_opt v f tau A B (fun a ha => hA a (by simp [ha])) hB
    have ha := hA a (by simp)
    simp only [List.cons_append, List.map_cons, List.sum_cons, List.filter_cons,
      List.length_cons] at ih ⊢
    cases f a
    · simp only [Bool.false_eq_true, if_false]
      push_cast at ih ⊢
      linarith
    · simp only [if_true, List.length_cons]
      push_cast at ih ⊢
      linarith

/-- The threshold between the selected elements and the others. -/
theorem exists_threshold {α : Type} (v : α → Rat) (R : List α)
    (hsorted : R.Pairwise fun a b => v a ≤ v b) (m : Nat) (lo hi q : Int) (hm : m ≤ R.length)
    (h0 : 0 ≤ lo) (h1 : lo ≤ m) (h2 : (m : Int) ≤ hi) (h3 : hi ≤ R.length)
    (hq : lo ≤ q ∧ q ≤ hi)
    (hlow : ∀ (l : Nat) (r : α), lo ≤ l → l < m → R[l]? = some r → v r ≤ 0)
    (hhigh : (m : Int) < hi → ∀ r, R[m]? = some r → 0 ≤ v r) :
    ∃ tau, (∀ a ∈ R.take m, v a ≤ tau) ∧ (∀ b ∈ R.drop m, tau ≤ v b) ∧
      tau * ((m : Rat) - q) ≤ 0 := by
  have hget := List.pairwise_iff_getElem.mp hsorted
  have below : ∀ (i : Nat) (hi : i < R.length), i + 1 = m → ∀ a ∈ R.take m, v a ≤ v R[i] := by
    intro i hi him a ha
    obtain ⟨j, hj, rfl⟩ := List.getElem_of_mem ha
    have hjm : j < m := by rw [List.length_take] at hj; omega
    rw [List.getElem_take]
    by_cases hji : j = i
    · subst hji; exact le_refl _
    · exact hget j i _ hi (by omega)
  have below' : ∀ (hi : m < R.length), ∀ a ∈ R.take m, v a ≤ v R[m] := by
    intro hi a ha
    obtain ⟨j, hj, rfl⟩ := List.getElem_of_mem ha
    have hjm : j < m := by rw [List.length_take] at hj; omega
    rw [List.getElem_take]
    exact hget j m _ hi hjm
  have above : ∀ (i : Nat) (hi : i < R.length), i ≤ m → ∀ b ∈ R.drop m, v R[i] ≤ v b := by
    intro i hi him b hb
    obtain ⟨j, hj, rfl⟩ := List.getElem_of_mem hb
    rw [List.getElem_drop]
    by_cases hji : m + j = i
    · subst hji; exact le_refl _
    · exact hget i (m + j) hi _ (by omega)
  have hcast : ∀ a b : Int, a ≤ b → (a : Rat) ≤ (b : Rat) := fun a b h => by exact_mod_cast h
  by_cases hlo : lo < m
  · -- the last selected element is at most 0
    obtain ⟨i, hi', him⟩ : ∃ i : Nat, i < R.length ∧ i + 1 = m := ⟨m - 1, by omega, by omega⟩
    have hv : v R[i] ≤ 0 := hlow i R[i] (by omega) (by omega) (List.getElem?_eq_getElem hi')
    by_cases hhi : (m : Int) < hi
    · refine ⟨0, fun a ha => le_trans (below i hi' him a ha) hv, fun b hb => ?_, by simp⟩
      have hml : m < R.length := by omega
      exact le_trans (hhigh hhi _ (List.getElem?_eq_getElem hml)) (above m hml (Nat.le_refl _) b hb)
    · refine ⟨v R[i], below i hi' him, above i hi' (by omega), ?_⟩
      have : (q : Rat) ≤ ((m : Int) : Rat) := hcast _ _ (by omega)
      have h5 : (0 : Rat) ≤ (m : Rat) - q := by
        have : (q : Rat) ≤ (m : Rat) := by exact_mod_cast this
        linarith
      nlinarith
  · have hlo' : lo = m := by omega
    by_cases hhi : (m : Int) < hi
    · have hml : m < R.length := by omega
      refine ⟨v R[m], below' hml, above m hml (Nat.le_refl _), ?_⟩
      have hv := hhigh hhi _ (List.getElem?_eq_getElem hml)
      have : (((m : Int)) : Rat) ≤ (q : Rat) := hcast _ _ (by omega)
      have h5 : (m : Rat) - q ≤ 0 := by
        have : (m : Rat) ≤ (q : Rat) := by exact_mod_cast this
        linarith
      nlinarith
    · have hqm : q = m := by omega
      have hz : (m : Rat) - q = 0 := by rw [hqm]; simp
      by_cases hml : m < R.length
      · exact ⟨v R[m], below' hml, above m hml (Nat.le_refl _), by rw [hz]; simp⟩
      · by_cases hm0 : m = 0
        · refine ⟨0, ?_, ?_, by rw [hz]; simp⟩
          · subst hm0; simp
          · have : R = [] := by
              apply List.eq_nil_of_length_eq_zero; omega
            subst this; simp
        · have hi' : m - 1 < R.length := by omega
          exact ⟨v R[m - 1], below (m - 1) hi' (by omega), above (m - 1) hi' (by omega),
            by rw [hz]; simp⟩

/-! ## A row update -/

theorem update_eq {mode : ObjType} {o : Oracle} {p : Param} {s : Slv} {c : CostFun} {k : Nat}
    {x : Assign} {m : Mem} {x' : Assign} {m' : Mem} (h : update mode o p s c k x m = .ok (x', m')) :
    ∃ row b sel, rowOf s k = .ok row ∧ boundOf s k = .ok b ∧
      select s (toRow mode o s c (decrease m k row p.theta) x p.push row) row b = .ok sel ∧
      affect s k row ((toRow mode o s c (decrease m k row p.theta) x p.push row).sort
        (List.range row.length)) sel x = .ok x' ∧
      m' = affectMem s o row k (o.sort (cells s c (decrease m k row p.theta) x p.push row
        (List.range row.length))) sel p.kappa p.delta (decrease m k row p.theta) := by
  unfold update at h
  obtain ⟨row, h1, h⟩ := bind_eq_ok.mp h
  obtain ⟨b, h2, h⟩ := bind_eq_ok.mp h
  obtain ⟨sel, h3, h⟩ := bind_eq_ok.mp h
  obtain ⟨y, h4, h⟩ := bind_eq_ok.mp h
  have := Except.ok.inj h
  obtain ⟨rfl, rfl⟩ := Prod.mk.injEq .. ▸ this
  exact ⟨row, b, sel, h1, h2, h3, h4, rfl⟩

theorem toRow_ok {mode : ObjType} {o : Oracle} (ho : o.Ok mode) (s : Slv) (c : CostFun) (m : Mem)
    (x : Assign) (push : Option Rat) (row : List FunElem) :
    (toRow mode o s c m x push row).Ok := by
  intro l
  have h := ((ho (cells s c m x push row l)).1).map RC.id
  have : (cells s c m x push row l).map RC.id = l := by
    unfold cells
    rw [List.map_map]
    exact List.map_id _
  rw [this] at h
  exact h

/-- The update on the vector `x` is the one of `Verif.Model.Itm`. -/
theorem update_updateRow {mode : ObjType} {o : Oracle} {p : Param} {s : Slv} {c : CostFun} {k : Nat}
    {x : Assign} {m : Mem} {row : List FunElem} (hr : rowOf s k = .ok row) :
    (∃ x', updateRow s (toRow mode o s c (decrease m k row p.theta) x p.push row) k x = .ok x' ∧
      ∃ m', update mode o p s c k x m = .ok (x', m')) ∨
    (∃ f, updateRow s (toRow mode o s c (decrease m k row p.theta) x p.push row) k x = .error f ∧
      update mode o p s c k x m = .error f) := by
  unfold update updateRow
  simp only [hr, ok_bind]
  cases hb : boundOf s k with
  | error f => exact Or.inr ⟨f, rfl, rfl⟩
  | ok b =>
    simp only [ok_bind]
    cases hsel : select s (toRow mode o s c (decrease m k row p.theta) x p.push row) row b with
    | error f => exact Or.inr ⟨f, rfl, rfl⟩
    | ok sel =>
      simp only [ok_bind]
      cases ha : affect s k row ((toRow mode o s c (decrease m k row p.theta) x p.push row).sort
          (List.range row.length)) sel x with
      | error f => exact Or.inr ⟨f, rfl, rfl⟩
      | ok x' => exact Or.inl ⟨x', rfl, _, rfl⟩

/-- The value of the cell of the position `i`. -/
def val (s : Slv) (c : CostFun) (m : Mem) (x : Assign) (push : Option Rat) (row : List FunElem)
    (i : Nat) : Rat := ((row[i]?).map (valueOf s c m x push i)).getD 0

/-- The sorted vector `R`: its positions, and its values. -/
theorem sorted_cells {mode : ObjType} {o : Oracle} (ho : o.Ok mode) (s : Slv) (c : CostFun) (m : Mem)
    (x : Assign) (push : Option Rat) (row : List FunElem) :
    let R := o.sort (cells s c m x push row (List.range row.length))
    let ids := R.map RC.id
    ids.Perm (List.range row.length) ∧ R = ids.map (fun i => ⟨val s c m x push row i, i⟩) ∧
      ids.Pairwise (fun i j => Before mode (val s c m x push row i) (val s c m x push row j)) := by
  intro R ids
  have hp : ids.Perm (List.range row.length) := toRow_ok ho s c m x push row _
  have hR : R = ids.map (fun i => ⟨val s c m x push row i, i⟩) := by
    have : ∀ r ∈ R, (⟨val s c m x push row r.id, r.id⟩ : RC) = r := by
      intro r hr
      have h1 := ((ho _).1.mem_iff).mp hr
      unfold cells at h1
      obtain ⟨i, _, rfl⟩ := List.mem_map.mp h1
      rfl
    show R = (R.map RC.id).map _
    rw [List.map_map]
    conv_lhs => rw [← List.map_id R]
    apply List.map_congr_left
    intro r hr
    exact (this r hr).symm
  refine ⟨hp, hR, ?_⟩
  have h2 := (ho (cells s c m x push row (List.range row.length))).2
  change R.Pairwise _ at h2
  rw [hR, List.pairwise_map] at h2
  exact h2

theorem valueAt_eq {o : Oracle} {ids : List Nat} {V : Nat → Rat} {l i : Nat} (h : ids[l]? = some i) :
    valueAt o (ids.map fun i => (⟨V i, i⟩ : RC)) (l : Int) = V i := by
  unfold valueAt
  simp [h]

theorem stop_false {mode : ObjType} {v : Rat} {b : Bool} (h : stopIterating mode v b = false) :
    Before mode v 0 := by
  unfold stopIterating at h
  by_cases hv : v = 0
  · subst hv; unfold Before; cases mode <;> simp
  · rw [if_neg hv] at h
    cases mode <;> simpa [Before] using h

theorem stop_true {mode : ObjType} {v : Rat} {b : Bool} (h : stopIterating mode v b = true) :
    Before mode 0 v := by
  unfold stopIterating at h
  by_cases hv : v = 0
  · subst hv; unfold Before; cases mode <;> simp
  · rw [if_neg hv] at h
    cases mode <;> simp [Before] at h ⊢ <;> exact le_of_lt h

/-- The sign of the direction. -/
def sg (mode : ObjType) : Rat := match mode with | .minimize => 1 | .maximize => -1

theorem before_iff {mode : ObjType} {a b : Rat} : Before mode a b ↔ sg mode * a ≤ sg mode * b := by
  cases mode <;> simp [Before, sg]

theorem good_iff {mode : ObjType} {a b : Rat} :
    AtLeastAsGood mode a b ↔ sg mode * a ≤ sg mode * b := by
  cases mode <;> simp [AtLeastAsGood, sg]

/-- `x` puts the position `i` of the row upward. -/
def isUp (t : SolverType) (row : List FunElem) (y : Assign) (i : Nat) : Bool :=
  match row[i]? with
  | none => false
  | some e => xor (isNegative t e) (y e.var)

theorem rowValue_count {t : SolverType} {row : List FunElem} (hu : UnitRow t row) (y : Assign)
    {ids : List Nat} (hp : ids.Perm (List.range row.length)) :
    rowValue t y row = ((ids.filter (isUp t row y)).length : Int) - cSize t row := by
  apply rowValue_split hu (ups := ids.filter (isUp t row y))
    (downs := ids.filter fun i => !isUp t row y i)
  · exact (List.filter_append_perm _ _).trans hp
  · intro i e hi he
    have h := (List.mem_filter.mp hi).2
    unfold isUp at h
    rw [he] at h
    unfold target
    cases hn : isNegative t e <;> cases hy : y e.var <;> simp_all
  · intro i e hi he
    have h := (List.mem_filter.mp hi).2
    unfold isUp at h
    rw [he] at h
    unfold target
    cases hn : isNegative t e <;> cases hy : y e.var <;> simp_all

/-- The price of an assignment, by positions. -/
theorem price_split {t : SolverType} {row : List FunElem} {ids : List Nat}
    (hp : ids.Perm (List.range row.length)) (pr : Nat → Rat) (V : Nat → Rat)
    (hV : ∀ (i : Nat) (e : FunElem), row[i]? = some e →
      V i = if isNegative t e then -pr e.var else pr e.var) (y : Assign) :
    priceOf pr row y = (ids.map fun i => if isUp t row y i then V i else 0).sum +
      (row.map fun e => if isNegative t e then pr e.var else 0).sum := by
  let get : Nat → FunElem := fun i => (row[i]?).getD ⟨0, 0⟩
  have hrow : row = (List.range row.length).map get := by
    apply List.ext_getElem?
    intro i
    by_cases hi : i < row.length
    · simp [hi, get]
    · simp [hi]
  have hF : ∀ F : FunElem → Rat, (row.map F).sum = (ids.map fun i => F (get i)).sum := by
    intro F
    have : (row.map F) = (List.range row.length).map fun i => F (get i) := by
      conv_lhs => rw [hrow]
      simp
    rw [this]
    exact ((hp.map _).sum_eq).symm
  unfold priceOf
  rw [hF, hF, ← List.sum_map_add]
  congr 1
  apply List.map_congr_left
  intro i hi
  have hlt : i < row.length := List.mem_range.mp (hp.mem_iff.mp hi)
  have hg : row[i]? = some (get i) := by simp [get, List.getElem?_eq_getElem hlt]
  have h1 : isUp t row y i = xor (isNegative t (get i)) (y (get i).var) := by
    unfold isUp; rw [hg]
  rw [h1, hV i (get i) hg]
  cases isNegative t (get i) <;> cases y (get i).var <;> simp

theorem sum_mul_left {α : Type} (a : Rat) (f : α → Rat) : ∀ l : List α,
    (l.map fun i => a * f i).sum = a * (l.map f).sum
  | [] => by simp
  | x :: l => by simp only [List.map_cons, List.sum_cons, sum_mul_left a f l]; ring

/-- A row update gives the cheapest assignment of the row for the prices `pr` that its values
stand for. -/
theorem update_opt {t : SolverType} {csts : List Merged} {n : Nat} {s : Slv}
    (hs : makeSlv t csts n = .ok s) (ht : t ≠ .equalitiesZ ∧ t ≠ .inequalitiesZ)
    {k : Nat} {c : Merged} (hk : csts[k]? = some c) (hnd : (c.elems.map FunElem.var).Nodup)
    {mode : ObjType} {o : Oracle} (ho : o.Ok mode) {p : Param} {cost : CostFun} {x x' : Assign}
    {m m' : Mem} (h : update mode o p s cost k x m = .ok (x', m')) (pr : Nat → Rat)
    (hpr : ∀ (i : Nat) (e : FunElem), c.elems[i]? = some e →
      valueOf s cost (decrease m k c.elems p.theta) x p.push i e =
        if isNegative s.kind e then -pr e.var else pr e.var)
    {y : Assign} (hy : Respects c y) :
    Respects c x' ∧ AtLeastAsGood mode (priceOf pr c.elems x') (priceOf pr c.elems y) := by
  obtain ⟨hkind, _, _, _, _, _, hrows⟩ := makeSlv_facts hs
  obtain ⟨b, hr, hb, hc⟩ := hrows k c hk
  obtain ⟨row, b', sel, h1, h2, h3, h4, _⟩ := update_eq h
  rw [hr] at h1
  have := Except.ok.inj h1
  subst this
  rw [hb] at h2
  have := Except.ok.inj h2
  subst this
  set m1 := decrease m k c.elems p.theta with hm1
  have hu : UnitRow t c.elems := ctor_unit hc ht
  obtain ⟨hp, hR, hsorted⟩ := sorted_cells ho s cost m1 x p.push c.elems
  obtain ⟨M, hM, hsel, hMl, hlo0, hhi, hlo, hMhi, _, _, hfalse, htrue⟩ :=
    select_count hs ht hk hb ⟨y, hy⟩ h3
  set R := o.sort (cells s cost m1 x p.push c.elems (List.range c.elems.length)) with hRdef
  set ids := R.map RC.id with hids
  set V := val s cost m1 x p.push c.elems with hVdef
  have hidlen : ids.length = c.elems.length := by simpa using hp.length_eq
  obtain ⟨g1, g2⟩ := affect_values hnd hp h4
  rw [← hM] at g1 g2
  have hV : ∀ (i : Nat) (e : FunElem), c.elems[i]? = some e →
      V i = if isNegative t e then -pr e.var else pr e.var := by
    intro i e he
    rw [← hkind, ← hpr i e he, hVdef]
    unfold val
    rw [he]
    rfl
  have hlt : ∀ i ∈ ids, i < c.elems.length := fun i hi => List.mem_range.mp (hp.mem_iff.mp hi)
  -- what the assignment of the update does
  have hup : ∀ i ∈ ids.take M, isUp t c.elems x' i = true := by
    intro i hi
    have hl := hlt i (List.mem_of_mem_take hi)
    unfold isUp
    rw [List.getElem?_eq_getElem hl]
    simp only
    rw [g1 i _ hi (List.getElem?_eq_getElem hl), hkind]
    cases isNegative t c.elems[i] <;> rfl
  have hdown : ∀ i ∈ ids.drop M, isUp t c.elems x' i = false := by
    intro i hi
    have hl := hlt i (List.mem_of_mem_drop hi)
    unfold isUp
    rw [List.getElem?_eq_getElem hl]
    simp only
    rw [g2 i _ hi (List.getElem?_eq_getElem hl), hkind]
    cases isNegative t c.elems[i] <;> rfl
  have hsplit := List.take_append_drop M ids
  have hcountx : (ids.filter (isUp t c.elems x')).length = M := by
    rw [← hsplit, List.filter_append, List.filter_eq_self.mpr hup,
      List.filter_eq_nil_iff.mpr (fun i hi => by rw [hdown i hi]; simp)]
    rw [List.append_nil, List.length_take, hidlen]
    omega
  have hvx : lhs x' c.elems = (M : Int) - cSize t c.elems := by
    rw [← rowValue_lhs hc x', rowValue_count hu x' hp, hcountx]
  have hvy : lhs y c.elems = ((ids.filter (isUp t c.elems y)).length : Int) - cSize t c.elems := by
    rw [← rowValue_lhs hc y, rowValue_count hu y hp]
  have hby := (ctor_exact hc y).mpr hy
  refine ⟨(ctor_exact hc x').mp (by rw [hvx]; omega), ?_⟩
  rw [good_iff, price_split hp pr V hV x', price_split hp pr V hV y]
  -- the threshold
  have hstop : ∀ (l i : Nat), ids[l]? = some i →
      ((toRow mode o s cost m1 x p.push c.elems).stop l = false → sg mode * V i ≤ 0) ∧
      ((toRow mode o s cost m1 x p.push c.elems).stop l = true → 0 ≤ sg mode * V i) := by
    intro l i hl
    have hva : valueAt o R l = V i := by rw [hR]; exact valueAt_eq hl
    have e1 : (toRow mode o s cost m1 x p.push c.elems).stop l =
        stopIterating mode (valueAt o R l) (o.coin l) := rfl
    rw [e1, hva]
    constructor
    · intro h
      have := before_iff.mp (stop_false h)
      simpa using this
    · intro h
      have := before_iff.mp (stop_true h)
      simpa using this
  obtain ⟨tau, t1, t2, t3⟩ := exists_threshold (fun i => sg mode * V i) ids
    (hsorted.imp fun h => before_iff.mp h) M (b.min + cSize t c.elems) (b.max + cSize t c.elems)
    ((ids.filter (isUp t c.elems y)).length) (by omega) hlo0 hlo hMhi (by omega)
    (by omega)
    (fun l r hl1 hl2 hl3 => (hstop l r hl3).1 (hfalse l hl1 (by exact_mod_cast hl2)))
    (fun hl r hr => (hstop M r hr).2 (htrue hl))
  have key := prefix_opt (fun i => sg mode * V i) (isUp t c.elems y) tau (ids.take M) (ids.drop M)
    t1 t2
  rw [hsplit] at key
  have e1 : ((ids.take M).length : Rat) = M := by
    rw [List.length_take, hidlen, Nat.min_eq_left hMl]
  rw [e1] at key
  push_cast at t3
  have e2 : (ids.map fun i => if isUp t c.elems x' i then V i else 0).sum =
      ((ids.take M).map V).sum := by
    conv_lhs => rw [← hsplit]
    rw [List.map_append, List.sum_append]
    have a1 : (ids.take M).map (fun i => if isUp t c.elems x' i then V i else 0) =
        (ids.take M).map V := List.map_congr_left fun i hi => by rw [hup i hi]; simp
    have a2 : (ids.drop M).map (fun i => if isUp t c.elems x' i then V i else 0) =
        (ids.drop M).map fun _ => 0 := List.map_congr_left fun i hi => by rw [hdown i hi]; simp
    rw [a1, a2]
    simp
  have hmul : ∀ l : List Nat, (l.map fun i => sg mode * V i).sum = sg mode * (l.map V).sum :=
    fun l => sum_mul_left _ _ _
  have hmul2 : (ids.map fun i => if isUp t c.elems y i then sg mode * V i else 0).sum =
      sg mode * (ids.map fun i => if isUp t c.elems y i then V i else 0).sum := by
    rw [← sum_mul_left]
    congr 1
    apply List.map_congr_left
    intro i _
    split <;> simp
  rw [hmul, hmul2] at key
  rw [e2]
  linarith

/-! ## Multipliers and preferences -/

theorem sum_zipIdx_at {α : Type} (f g : α × Nat → Rat) (k : Nat) (c : α) : ∀ (l : List α) (o : Nat),
    o ≤ k → l[k - o]? = some c → (∀ q ∈ l.zipIdx o, q.2 ≠ k → f q = g q) →
    ((l.zipIdx o).map f).sum - ((l.zipIdx o).map g).sum = f (c, k) - g (c, k)
  | [], _, _, h, _ => by simp at h
  | a :: l, o, ho, h, hfg => by
    simp only [List.zipIdx_cons, List.map_cons, List.sum_cons] at hfg ⊢
    by_cases hk : o = k
    · subst hk
      rw [Nat.sub_self, List.getElem?_cons_zero] at h
      have := Option.some.inj h
      subst this
      have : (l.zipIdx (o + 1)).map f = (l.zipIdx (o + 1)).map g := by
        apply List.map_congr_left
        intro q hq
        apply hfg q (by simp [hq])
        have := List.mem_zipIdx (x := q.1) (i := q.2) hq
        omega
      rw [this]
      ring
    · have hs : k - o = (k - (o + 1)) + 1 := by omega
      rw [hs, List.getElem?_cons_succ] at h
      have ih := sum_zipIdx_at f g k c l (o + 1) (by omega) h fun q hq => hfg q (by simp [hq])
      have h0 := hfg (a, o) (by simp) hk
      rw [h0]
      linarith

/-- Two memories that differ on the constraint `k` only. -/
theorem reducedCost_diff {csts : List Merged} {k : Nat} {c : Merged} (hk : csts[k]? = some c)
    {pi pi' : Nat → Rat} {P P' : Nat → Nat → Rat} (j : Nat)
    (hpi : ∀ i, i ≠ k → pi' i = pi i) (hP : ∀ i, i ≠ k → P' i j = P i j) (q : Rat) :
    reducedCost csts pi' P' q j = reducedCost csts pi P q j -
      (coef c.elems j : Rat) * ((pi' k + P' k j) - (pi k + P k j)) := by
  have := sum_zipIdx_at (fun q : Merged × Nat => (coef q.1.elems j : Rat) * (pi' q.2 + P' q.2 j))
    (fun q : Merged × Nat => (coef q.1.elems j : Rat) * (pi q.2 + P q.2 j)) k c csts 0
    (Nat.zero_le _) (by simpa using hk) (fun q _ hq => by
      show _ * (pi' q.2 + P' q.2 j) = _
      rw [hpi _ hq, hP _ hq])
  unfold reducedCost
  simp only at this
  linarith

theorem coef_of_nodup {j : Nat} : ∀ {es : List FunElem}, (es.map FunElem.var).Nodup →
    ∀ {e : FunElem}, e ∈ es → e.var = j → coef es j = e.factor
  | [], _, e, h, _ => by simp at h
  | a :: es, hnd, e, h, hj => by
    rw [List.map_cons, List.nodup_cons] at hnd
    have hz : ∀ es : List FunElem, (∀ e ∈ es, e.var ≠ j) → coef es j = 0 := by
      intro es h
      unfold coef
      have : es.map (fun e => if e.var = j then e.factor else 0) = es.map fun _ => 0 :=
        List.map_congr_left fun e he => by rw [if_neg (h e he)]
      rw [this]
      simp
    have hc : coef (a :: es) j = (if a.var = j then a.factor else 0) + coef es j := by
      simp [coef]
    rw [hc]
    rcases List.mem_cons.mp h with rfl | h
    · rw [if_pos hj, hz es, Int.add_zero]
      intro e' he' hv
      exact hnd.1 (List.mem_map.mpr ⟨e', he', by rw [hv, hj]⟩)
    · rw [if_neg, Int.zero_add, coef_of_nodup hnd.2 h hj]
      intro hv
      exact hnd.1 (List.mem_map.mpr ⟨e, h, by rw [hv, hj]⟩)

theorem coef_of_not_mem {j : Nat} {es : List FunElem} (h : ∀ e ∈ es, e.var ≠ j) : coef es j = 0 := by
  unfold coef
  have : es.map (fun e => if e.var = j then e.factor else 0) = es.map fun _ => 0 :=
    List.map_congr_left fun e he => by rw [if_neg (h e he)]
  rw [this]
  simp

/-- The decay of the code is the one of the specification: a constraint has a preference on its own
variables only. -/
theorem reducedCost_decrease {csts : List Merged} {k : Nat} {c : Merged} (hk : csts[k]? = some c)
    (m : Mem) (theta : Rat) (pi : Nat → Rat) (q : Rat) (j : Nat) :
    reducedCost csts pi (decrease m k c.elems theta).P q j =
      reducedCost csts pi (decayed m.P k theta) q j := by
  rw [reducedCost_diff hk (pi := pi) (P := decayed m.P k theta) j (fun _ _ => rfl) ?_ q]
  · by_cases hj : ∃ e ∈ c.elems, e.var = j
    · have : (decrease m k c.elems theta).P k j = decayed m.P k theta k j := by
        simp [decrease, decayed, hj]
      rw [this]
      ring
    · rw [coef_of_not_mem (fun e he hv => hj ⟨e, he, hv⟩)]
      simp
  · intro i hi
    simp [decrease, decayed, hi]

theorem turnP_other {t : SolverType} {row : List FunElem} {k : Nat} {up : Bool} {d : Rat} {a b : Nat} :
    ∀ (is : List Nat) (P : Nat → Nat → Rat),
      (a ≠ k ∨ ∀ (i : Nat) (e : FunElem), i ∈ is → row[i]? = some e → e.var ≠ b) →
      turnP t row k up d P is a b = P a b
  | [], _, _ => rfl
  | i :: is, P, h => by
    unfold turnP
    cases he : row[i]? with
    | none => rfl
    | some e =>
      simp only
      rw [turnP_other is]
      · rw [if_neg]
        rintro ⟨h1, h2⟩
        rcases h with h | h
        · exact h h1
        · exact h i e (by simp) he h2.symm
      · rcases h with h | h
        · exact Or.inl h
        · exact Or.inr fun i' e' hi' => h i' e' (by simp [hi'])

theorem turnP_at {t : SolverType} {row : List FunElem} (hnd : (row.map FunElem.var).Nodup) {k : Nat}
    {up : Bool} {d : Rat} : ∀ (is : List Nat) (P : Nat → Nat → Rat), is.Nodup →
      (∀ i ∈ is, i < row.length) → ∀ (i : Nat) (e : FunElem), i ∈ is → row[i]? = some e →
      turnP t row k up d P is k e.var = P k e.var + (if xor (isNegative t e) up then d else -d)
  | [], _, _, _, i, e, h, _ => by simp at h
  | a :: is, P, hn, hlt, i, e, h, he => by
    have ha := hlt a (by simp)
    rw [List.nodup_cons] at hn
    have hinj : ∀ (i' : Nat) (e' : FunElem), row[i']? = some e' → e'.var = e.var → i' = i := by
      intro i' e' he' hv
      obtain ⟨hl, rfl⟩ := List.getElem?_eq_some_iff.mp he
      obtain ⟨hl', rfl⟩ := List.getElem?_eq_some_iff.mp he'
      have := List.nodup_iff_injective_getElem.mp hnd
      have h7 := @this ⟨i', by simpa using hl'⟩ ⟨i, by simpa using hl⟩ (by simpa using hv)
      exact congrArg Fin.val h7
    unfold turnP
    rw [List.getElem?_eq_getElem ha]
    simp only
    by_cases hai : a = i
    · subst hai
      have hee : row[a] = e := by
        rw [List.getElem?_eq_getElem ha] at he
        exact Option.some.inj he
      rw [hee, turnP_other is]
      · simp
      · refine Or.inr fun i' e' hi' he' hv => hn.1 ?_
        rw [← hinj i' e' he' hv]
        exact hi'
    · rcases List.mem_cons.mp h with h | h
      · exact absurd h.symm hai
      · rw [turnP_at hnd is _ hn.2 (fun i hi => hlt i (by simp [hi])) i e h he, if_neg]
        rintro ⟨_, h2⟩
        exact hai (hinj a _ (List.getElem?_eq_getElem ha) h2.symm)

/-- An update whose row value is strictly between its extreme values: what it selects, what it adds
to the multiplier and to the preferences. -/
theorem update_interior {t : SolverType} {csts : List Merged} {n : Nat} {s : Slv}
    (hs : makeSlv t csts n = .ok s) (ht : t ≠ .equalitiesZ ∧ t ≠ .inequalitiesZ)
    {k : Nat} {c : Merged} (hk : csts[k]? = some c) (hnd : (c.elems.map FunElem.var).Nodup)
    {mode : ObjType} {o : Oracle} (ho : o.Ok mode) {p : Param} {cost : CostFun} {x x' : Assign}
    {m m' : Mem} (h : update mode o p s cost k x m = .ok (x', m'))
    (hsat : ∃ y, Respects c y)
    (hint : ∃ y z, lhs y c.elems < lhs x' c.elems ∧ lhs x' c.elems < lhs z c.elems) :
    ∃ a b : Rat, sg mode * a ≤ sg mode * b ∧
      (∀ i, i ≠ k → m'.pi i = m.pi i) ∧ m'.pi k = m.pi k + (a + b) / 2 ∧
      (∀ (i : Nat) (e : FunElem), c.elems[i]? = some e →
        (xor (isNegative t e) (x' e.var) = true →
          sg mode * valueOf s cost (decrease m k c.elems p.theta) x p.push i e ≤ sg mode * a) ∧
        (xor (isNegative t e) (x' e.var) = false →
          sg mode * b ≤ sg mode * valueOf s cost (decrease m k c.elems p.theta) x p.push i e)) ∧
      (∀ (i j : Nat), (i ≠ k ∨ ∀ e ∈ c.elems, e.var ≠ j) → m'.P i j = m.P i j) ∧
      (∀ e ∈ c.elems, m'.P k e.var = m.P k e.var * p.theta +
        (if x' e.var then 1 else -1) * (p.delta + ratio p.kappa * (b - a))) := by
  obtain ⟨hkind, _, _, _, _, _, hrows⟩ := makeSlv_facts hs
  obtain ⟨bd, hr, hb, hc⟩ := hrows k c hk
  obtain ⟨row, b', sel, h1, h2, h3, h4, h5⟩ := update_eq h
  rw [hr] at h1
  have := Except.ok.inj h1
  subst this
  rw [hb] at h2
  have := Except.ok.inj h2
  subst this
  set m1 := decrease m k c.elems p.theta with hm1
  have hu : UnitRow t c.elems := ctor_unit hc ht
  obtain ⟨hp, hR, hsorted⟩ := sorted_cells ho s cost m1 x p.push c.elems
  obtain ⟨M, hM, hsel, hMl, _, _, _, _, hM1, hM2, _, _⟩ := select_count hs ht hk hb hsat h3
  set R := o.sort (cells s cost m1 x p.push c.elems (List.range c.elems.length)) with hRdef
  set ids := R.map RC.id with hids
  set V := val s cost m1 x p.push c.elems with hVdef
  have hidlen : ids.length = c.elems.length := by simpa using hp.length_eq
  obtain ⟨g1, g2⟩ := affect_values hnd hp h4
  rw [← hM] at g1 g2
  have hlt : ∀ i ∈ ids, i < c.elems.length := fun i hi => List.mem_range.mp (hp.mem_iff.mp hi)
  have hidnd : ids.Nodup := hp.nodup_iff.mpr List.nodup_range
  have hsplit := List.take_append_drop M ids
  have hvx : lhs x' c.elems = (M : Int) - cSize t c.elems := by
    rw [← rowValue_lhs hc x']
    have e1 : ((ids.take M).length : Int) = M := by
      rw [List.length_take, hidlen, Nat.min_eq_left hMl]
    rw [← e1]
    apply rowValue_split hu (ups := ids.take M) (downs := ids.drop M) (by rw [hsplit]; exact hp)
    · intro i e hi he
      rw [g1 i e hi he, hkind]
      unfold target; cases isNegative t e <;> rfl
    · intro i e hi he
      rw [g2 i e hi he, hkind]
      unfold target; cases isNegative t e <;> rfl
  obtain ⟨y, z, hy, hz⟩ := hint
  have ry := lhs_range hu y
  have rz := lhs_range hu z
  rw [rowValue_lhs hc] at ry rz
  have hsel0 : 0 ≤ sel := by
    by_contra hn
    have := hM2 (by omega)
    omega
  have hMs := hM1 hsel0
  have hMlt : M < c.elems.length := by omega
  obtain ⟨l, hl⟩ : ∃ l : Nat, sel = l := ⟨sel.toNat, by omega⟩
  subst hl
  have hMl1 : M = l + 1 := by omega
  subst hMl1
  have hl1 : l < ids.length := by omega
  have hl2 : l + 1 < ids.length := by omega
  have va : valueAt o R (l : Int) = V ids[l] := by
    rw [hR]; exact valueAt_eq (List.getElem?_eq_getElem hl1)
  have vb : valueAt o R ((l : Int) + 1) = V ids[l + 1] := by
    rw [hR]; exact valueAt_eq (l := l + 1) (List.getElem?_eq_getElem hl2)
  have hget := List.pairwise_iff_getElem.mp hsorted
  have hV : ∀ (i : Nat) (e : FunElem), c.elems[i]? = some e →
      V i = valueOf s cost m1 x p.push i e := by
    intro i e he
    rw [hVdef]
    unfold val
    rw [he]
    rfl
  have hcond : ¬ ((l : Int) + 1 ≥ (R.map RC.id).length) := by
    have : (R.map RC.id).length = c.elems.length := hidlen
    omega
  have hmem : m' = { pi := fun i => if i = k then m1.pi i + (V ids[l] + V ids[l + 1]) / 2 else m1.pi i
                     P := turnP s.kind c.elems k false
                       (p.delta + ratio p.kappa * (V ids[l + 1] - V ids[l]))
                       (turnP s.kind c.elems k true
                         (p.delta + ratio p.kappa * (V ids[l + 1] - V ids[l])) m1.P
                         (ids.take (l + 1))) (ids.drop (l + 1)) } := by
    rw [h5]
    unfold affectMem
    simp only
    rw [if_neg (by omega), if_neg hcond, va, vb]
    rfl
  have hpos : ∀ (i : Nat) (e : FunElem), c.elems[i]? = some e → i ∈ ids := by
    intro i e he
    exact hp.mem_iff.mpr (List.mem_range.mpr (List.getElem?_eq_some_iff.mp he).1)
  refine ⟨V ids[l], V ids[l + 1], before_iff.mp (hget l (l + 1) hl1 hl2 (by omega)), ?_, ?_, ?_, ?_, ?_⟩
  · intro i hi
    rw [hmem]
    simp only
    rw [if_neg hi]
    rfl
  · rw [hmem]
    simp only [if_true]
    rfl
  · intro i e he
    have hi := hpos i e he
    rw [← hV i e he]
    rw [← hsplit, List.mem_append] at hi
    constructor
    · intro hx
      rcases hi with hi | hi
      · obtain ⟨j, hj, hji⟩ := List.getElem_of_mem hi
        rw [List.getElem_take] at hji
        have hjl : j < l + 1 := by rw [List.length_take] at hj; omega
        subst hji
        by_cases hjl' : j = l
        · subst hjl'; exact le_refl _
        · exact before_iff.mp (hget j l (by omega) hl1 (by omega))
      · rw [g2 i e hi he, hkind] at hx
        cases isNegative t e <;> simp at hx
    · intro hx
      rcases hi with hi | hi
      · rw [g1 i e hi he, hkind] at hx
        cases isNegative t e <;> simp at hx
      · obtain ⟨j, hj, hji⟩ := List.getElem_of_mem hi
        rw [List.getElem_drop] at hji
        subst hji
        by_cases hjl' : j = 0
        · subst hjl'; exact le_refl _
        · exact before_iff.mp (hget (l + 1) (l + 1 + j) hl2 _ (by omega))
  · intro i j hij
    rw [hmem]
    simp only
    have hne : ∀ is : List Nat, (i ≠ k ∨ ∀ (i' : Nat) (e : FunElem), i' ∈ is → c.elems[i']? = some e → e.var ≠ j) := by
      intro is
      rcases hij with h | h
      · exact Or.inl h
      · exact Or.inr fun i' e _ he => h e (List.mem_of_getElem? he)
    rw [turnP_other _ _ (hne _), turnP_other _ _ (hne _), hm1]
    unfold decrease
    simp only
    rw [if_neg]
    rintro ⟨h1, h2⟩
    obtain ⟨e, he, hv⟩ := List.mem_map.mp h2
    rcases hij with h | h
    · exact h h1
    · exact h e he hv
  · intro e he
    obtain ⟨i, hie⟩ := List.getElem?_of_mem he
    have hi := hpos i e hie
    have hdec : m1.P k e.var = m.P k e.var * p.theta := by
      rw [hm1]
      unfold decrease
      simp only
      rw [if_pos ⟨trivial, List.mem_map.mpr ⟨e, he, rfl⟩⟩]
    have hinj : ∀ (i' : Nat) (e' : FunElem), c.elems[i']? = some e' → e'.var = e.var → i' = i := by
      intro i' e' he' hv
      obtain ⟨hl, rfl⟩ := List.getElem?_eq_some_iff.mp hie
      obtain ⟨hl', rfl⟩ := List.getElem?_eq_some_iff.mp he'
      have := List.nodup_iff_injective_getElem.mp hnd
      have h7 := @this ⟨i', by simpa using hl'⟩ ⟨i, by simpa using hl⟩ (by simpa using hv)
      exact congrArg Fin.val h7
    have hdisj : i ∈ ids.take (l + 1) → i ∈ ids.drop (l + 1) → False := by
      intro a1 a2
      have := List.nodup_append.mp ((List.take_append_drop (l + 1) ids).symm ▸ hidnd)
      exact this.2.2 _ a1 _ a2 rfl
    have n1 : (ids.take (l + 1)).Nodup := hidnd.sublist (List.take_sublist _ _)
    have n2 : (ids.drop (l + 1)).Nodup := hidnd.sublist (List.drop_sublist _ _)
    rw [hmem]
    simp only
    rw [← hsplit, List.mem_append] at hi
    rcases hi with hi | hi
    · rw [turnP_other, turnP_at hnd _ _ n1 (fun i hi => hlt i (List.mem_of_mem_take hi)) i e hi hie,
        hdec, g1 i e hi hie]
      · cases isNegative s.kind e <;> simp
      · refine Or.inr fun i' e' hi' he' hv => ?_
        rw [hinj i' e' he' hv] at hi'
        exact hdisj hi hi'
    · rw [turnP_at hnd _ _ n2 (fun i hi => hlt i (List.mem_of_mem_drop hi)) i e hi hie, turnP_other,
        hdec, g2 i e hi hie]
      · cases isNegative s.kind e <;> simp
      · refine Or.inr fun i' e' hi' he' hv => ?_
        rw [hinj i' e' he' hv] at hi'
        exact hdisj hi' hi

/-- The assignment that puts every element of a row upward or downward. -/
theorem exists_extreme {t : SolverType} {c : Merged} {b : Bound} (hc : ctor t c = .ok b)
    (ht : t ≠ .equalitiesZ ∧ t ≠ .inequalitiesZ) (hnd : (c.elems.map FunElem.var).Nodup) :
    (∃ y, lhs y c.elems = -(cSize t c.elems : Int)) ∧
    (∃ y, lhs y c.elems = (c.elems.length : Int) - cSize t c.elems) := by
  have hu : UnitRow t c.elems := ctor_unit hc ht
  have hset : ∀ up : Bool, ∃ y : Assign, ∀ e ∈ c.elems, y e.var = target t e up := by
    intro up
    refine ⟨fun j => c.elems.any fun e => decide (e.var = j) && target t e up, fun e he => ?_⟩
    rw [Bool.eq_iff_iff, List.any_eq_true]
    constructor
    · rintro ⟨e', he', h⟩
      simp only [Bool.and_eq_true, decide_eq_true_eq] at h
      have : e' = e := by
        obtain ⟨i, hi, rfl⟩ := List.getElem_of_mem he
        obtain ⟨i', hi', rfl⟩ := List.getElem_of_mem he'
        have := List.nodup_iff_injective_getElem.mp hnd
        have h7 := @this ⟨i', by simpa using hi'⟩ ⟨i, by simpa using hi⟩ (by simpa using h.1)
        have : i' = i := congrArg Fin.val h7
        subst this
        rfl
      rw [← this]
      exact h.2
    · intro h
      exact ⟨e, he, by simp [h]⟩
  constructor
  · obtain ⟨y, hy⟩ := hset false
    refine ⟨y, ?_⟩
    have := rowValue_split hu (x := y) (ups := []) (downs := List.range c.elems.length)
      (List.Perm.refl _) (fun i e h => by simp at h) (fun i e _ he => hy e (List.mem_of_getElem? he))
    rw [rowValue_lhs hc] at this
    simpa using this
  · obtain ⟨y, hy⟩ := hset true
    refine ⟨y, ?_⟩
    have := rowValue_split hu (x := y) (ups := List.range c.elems.length) (downs := [])
      (by simp) (fun i e _ he => hy e (List.mem_of_getElem? he)) (fun i e h => by simp at h)
    rw [rowValue_lhs hc] at this
    simpa using this

/-- An update whose row value is extreme leaves the multipliers. -/
theorem update_extreme {t : SolverType} {csts : List Merged} {n : Nat} {s : Slv}
    (hs : makeSlv t csts n = .ok s) (ht : t ≠ .equalitiesZ ∧ t ≠ .inequalitiesZ)
    {k : Nat} {c : Merged} (hk : csts[k]? = some c) (hnd : (c.elems.map FunElem.var).Nodup)
    {mode : ObjType} {o : Oracle} (ho : o.Ok mode) {p : Param} {cost : CostFun} {x x' : Assign}
    {m m' : Mem} (h : update mode o p s cost k x m = .ok (x', m'))
    (hext : (∀ y, lhs x' c.elems ≤ lhs y c.elems) ∨ (∀ y, lhs y c.elems ≤ lhs x' c.elems)) :
    m'.pi = m.pi := by
  obtain ⟨hkind, _, _, _, _, _, hrows⟩ := makeSlv_facts hs
  obtain ⟨bd, hr, hb, hc⟩ := hrows k c hk
  obtain ⟨row, b', sel, h1, h2, h3, h4, h5⟩ := update_eq h
  rw [hr] at h1
  have := Except.ok.inj h1
  subst this
  have hu : UnitRow t c.elems := ctor_unit hc ht
  set m1 := decrease m k c.elems p.theta with hm1
  obtain ⟨hp, _, _⟩ := sorted_cells ho s cost m1 x p.push c.elems
  set R := o.sort (cells s cost m1 x p.push c.elems (List.range c.elems.length)) with hRdef
  have hidlen : (R.map RC.id).length = c.elems.length := by simpa using hp.length_eq
  obtain ⟨g1, g2⟩ := affect_values hnd hp h4
  have hvx : lhs x' c.elems = (clamp sel c.elems.length : Int) - cSize t c.elems := by
    rw [← rowValue_lhs hc x']
    have e1 : (((R.map RC.id).take (clamp sel c.elems.length)).length : Int) =
        clamp sel c.elems.length := by
      rw [List.length_take, hidlen, Nat.min_eq_left (clamp_le _ _)]
    rw [← e1]
    apply rowValue_split hu (ups := (R.map RC.id).take (clamp sel c.elems.length))
      (downs := (R.map RC.id).drop (clamp sel c.elems.length))
      (by rw [List.take_append_drop]; exact hp)
    · intro i e hi he
      rw [g1 i e hi he, hkind]
      unfold target; cases isNegative t e <;> rfl
    · intro i e hi he
      rw [g2 i e hi he, hkind]
      unfold target; cases isNegative t e <;> rfl
  have hsel : sel < 0 ∨ sel + 1 ≥ (R.map RC.id).length := by
    by_contra hn
    have hcl : ((clamp sel c.elems.length : Nat) : Int) = sel + 1 := by unfold clamp; omega
    obtain ⟨⟨y, hy⟩, ⟨z, hz⟩⟩ := exists_extreme hc ht hnd
    rcases hext with h | h
    · have := h y
      omega
    · have := h z
      omega
  rw [h5]
  unfold affectMem
  simp only
  by_cases h0 : sel < 0
  · rw [if_pos h0]; rfl
  · rw [if_neg h0, if_pos (by omega)]; rfl

end Bx.Mult
