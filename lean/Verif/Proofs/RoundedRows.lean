import Verif.Model.RoundedRows
import Verif.Spec.RoundedRows
import Verif.Proofs.Multipliers
import Verif.Proofs.Rounded

/-! Helper lemmas: row updates with rounding. -/

namespace Bx.RoundedRows

open Merge SolverCtor Spec Itm Mult

/-! ## The computed reduced costs -/

theorem sumColumn_eq (rnd : Rat → Rat) (f : Nat → Rat) : ∀ (l : List (Nat × Int)) (acc : Rat),
    sumColumn rnd f acc l = Rounded.rsum rnd acc (l.map fun p => (p.2 : Rat) * f p.1)
  | [], _ => rfl
  | p :: ps, acc => by
    unfold sumColumn
    rw [sumColumn_eq rnd f ps]
    rfl

theorem roundedSum_eq (rnd : Rat → Rat) (l : List Rat) : roundedSum rnd l = Rounded.rsum rnd 0 l := rfl

theorem column_occurrences {t : SolverType} {csts : List Merged} {n : Nat} {s : Slv}
    (hs : makeSlv t csts n = .ok s) (j : Nat) : column s j = occurrences csts j := by
  obtain ⟨hkind, hrows, _⟩ := makeSlv_facts hs
  unfold column occurrences
  rw [hrows, List.zipIdx_map, List.flatMap_map]
  have : ∀ q ∈ csts.zipIdx, ∀ e ∈ q.1.elems, factor s.kind e = e.factor := by
    intro q hq e he
    rw [hkind]
    obtain ⟨a, i⟩ := q
    exact factors_ok hs a (List.mem_zipIdx' hq |>.2 ▸ List.getElem_mem _) e he
  apply List.flatMap_congr
  intro q hq
  apply List.map_congr_left
  intro e he
  show (q.2, factor s.kind e) = _
  rw [this q hq e (List.mem_filter.mp he).1]

theorem reduced_eq {t : SolverType} {csts : List Merged} {n : Nat} {s : Slv}
    (hs : makeSlv t csts n = .ok s) (rnd : Rat → Rat) (c : CostFun) (m : Mem) (x : Assign) (j : Nat) :
    reduced rnd s c m x j = computedCost rnd csts m.pi m.P (c j x) j := by
  unfold reduced computedCost
  rw [column_occurrences hs, sumColumn_eq, sumColumn_eq]
  rfl

theorem reducedCost_occurrences {t : SolverType} {csts : List Merged} {n : Nat} {s : Slv}
    (hs : makeSlv t csts n = .ok s) (pi : Nat → Rat) (P : Nat → Nat → Rat) (c : Rat) (j : Nat) :
    reducedCost csts pi P c j = c - ((occurrences csts j).map fun o => (o.2 : Rat) * pi o.1).sum
      - ((occurrences csts j).map fun o => (o.2 : Rat) * P o.1 j).sum := by
  rw [← Mult.reduced_eq hs (fun _ _ => c) ⟨pi, P⟩ (fun _ => false) j]
  unfold Mult.reduced
  rw [column_occurrences hs]

theorem mem_occurrences {csts : List Merged} {j : Nat} {o : Nat × Int} (h : o ∈ occurrences csts j) :
    ∃ c, csts[o.1]? = some c ∧ ∃ e ∈ c.elems, e.var = j := by
  unfold occurrences at h
  obtain ⟨⟨c, i⟩, hq, h⟩ := List.mem_flatMap.mp h
  obtain ⟨e, he, rfl⟩ := List.mem_map.mp h
  obtain ⟨h1, h2⟩ := List.mem_filter.mp he
  refine ⟨c, ?_, e, h1, by simpa using h2⟩
  exact List.mem_zipIdx_iff_getElem?.mp hq

theorem computedCost_congr {csts : List Merged} {j : Nat} {P P' : Nat → Nat → Rat} (rnd : Rat → Rat)
    (pi : Nat → Rat) (c : Rat)
    (h : ∀ i d, csts[i]? = some d → (∃ e ∈ d.elems, e.var = j) → P i j = P' i j) :
    computedCost rnd csts pi P c j = computedCost rnd csts pi P' c j := by
  unfold computedCost
  congr 2
  congr 1
  apply List.map_congr_left
  intro o ho
  obtain ⟨d, hd, he⟩ := mem_occurrences ho
  rw [h o.1 d hd he]

theorem computedCost_decrease {csts : List Merged} {k : Nat} {c : Merged} (hk : csts[k]? = some c)
    (rnd : Rat → Rat) (m : Mem) (theta : Rat) (pi : Nat → Rat) (q : Rat) (j : Nat) :
    computedCost rnd csts pi (decrease rnd m k c.elems theta).P q j =
      computedCost rnd csts pi (decayedR rnd m.P k theta) q j := by
  apply computedCost_congr
  intro i d hd he
  unfold decrease decayedR
  simp only
  by_cases hi : i = k
  · subst hi
    rw [hk] at hd
    cases hd
    obtain ⟨e, he, hj⟩ := he
    rw [if_pos ⟨rfl, List.mem_map.mpr ⟨e, he, hj⟩⟩, if_pos rfl]
  · simp [hi]

/-! ## The assignment is the one of an exact update with other costs -/

/-- The costs for which the exact reduced costs of a row, without multipliers or preferences, are the
given values. -/
def costsOf (s : Slv) (row : List FunElem) (V : Nat → FunElem → Rat) : CostFun := fun j _ =>
  match row.zipIdx.find? (fun q => decide (q.1.var = j)) with
  | some q => if isNegative s.kind q.1 then -V q.2 q.1 else V q.2 q.1
  | none => 0

theorem find_nodup {row : List FunElem} (hnd : (row.map FunElem.var).Nodup) {i : Nat} {e : FunElem}
    (h : row[i]? = some e) : row.zipIdx.find? (fun q => decide (q.1.var = e.var)) = some (e, i) := by
  cases hf : row.zipIdx.find? (fun q => decide (q.1.var = e.var)) with
  | none =>
    have := List.find?_eq_none.mp hf (e, i) (by
      rw [List.mem_zipIdx_iff_getElem?]; exact h)
    simp at this
  | some q =>
    have h1 := List.find?_some hf
    have h2 := List.mem_of_find?_eq_some hf
    obtain ⟨e', i'⟩ := q
    rw [List.mem_zipIdx_iff_getElem?] at h2
    simp only [decide_eq_true_eq] at h1 h2
    obtain ⟨hl, rfl⟩ := List.getElem?_eq_some_iff.mp h
    obtain ⟨hl', rfl⟩ := List.getElem?_eq_some_iff.mp h2
    have := List.nodup_iff_injective_getElem.mp hnd
    have h7 := @this ⟨i', by simpa using hl'⟩ ⟨i, by simpa using hl⟩ (by simpa using h1)
    have : i' = i := congrArg Fin.val h7
    subst this
    rfl

/-- Without multipliers or preferences. -/
def noMem : Mem := ⟨fun _ => 0, fun _ _ => 0⟩

theorem decrease_noMem (k : Nat) (row : List FunElem) (theta : Rat) :
    Mult.decrease noMem k row theta = noMem := by
  unfold Mult.decrease noMem
  simp

theorem valueOf_costsOf {s : Slv} {row : List FunElem} (hnd : (row.map FunElem.var).Nodup)
    (V : Nat → FunElem → Rat) (x : Assign) {i : Nat} {e : FunElem} (h : row[i]? = some e) :
    Mult.valueOf s (costsOf s row V) noMem x none i e = V i e := by
  have hr : Mult.reduced s (costsOf s row V) noMem x e.var =
      if isNegative s.kind e then -V i e else V i e := by
    unfold Mult.reduced noMem costsOf
    rw [find_nodup hnd h]
    simp
  unfold Mult.valueOf
  rw [hr]
  split <;> simp

theorem cells_costsOf {s : Slv} {row : List FunElem} (hnd : (row.map FunElem.var).Nodup)
    (rnd : Rat → Rat) (c : CostFun) (m : Mem) (x : Assign) (push : Option Rat) (is : List Nat) :
    Mult.cells s (costsOf s row (valueOf rnd s c m x push)) noMem x none row is =
      cells rnd s c m x push row is := by
  unfold Mult.cells cells
  apply List.map_congr_left
  intro i _
  cases h : row[i]? with
  | none => rfl
  | some e =>
    simp only [Option.map_some, Option.getD_some]
    rw [valueOf_costsOf hnd _ _ h]

theorem toRow_costsOf {s : Slv} {row : List FunElem} (hnd : (row.map FunElem.var).Nodup)
    (rnd : Rat → Rat) (mode : ObjType) (o : Oracle) (c : CostFun) (m : Mem) (x : Assign)
    (push : Option Rat) :
    Mult.toRow mode o s (costsOf s row (valueOf rnd s c m x push)) noMem x none row =
      toRow rnd mode o s c m x push row := by
  unfold Mult.toRow toRow
  simp only [cells_costsOf hnd]

/-- The same assignment, or the same failure, as an exact update with the costs `costsOf`. -/
theorem update_exact {rnd : Rat → Rat} {mode : ObjType} {o : Oracle} {p : Param} {s : Slv}
    {c : CostFun} {k : Nat} {x : Assign} {m : Mem} {row : List FunElem} (hr : rowOf s k = .ok row)
    (hnd : (row.map FunElem.var).Nodup) (kappa delta theta : Rat) :
    (∃ x' m' m'', update rnd mode o p s c k x m = .ok (x', m') ∧
      Mult.update mode o ⟨kappa, delta, theta, none⟩ s
        (costsOf s row (valueOf rnd s c (decrease rnd m k row p.theta) x p.push)) k x noMem =
        .ok (x', m'')) ∨
    (∃ f, update rnd mode o p s c k x m = .error f ∧
      Mult.update mode o ⟨kappa, delta, theta, none⟩ s
        (costsOf s row (valueOf rnd s c (decrease rnd m k row p.theta) x p.push)) k x noMem =
        .error f) := by
  unfold update Mult.update
  simp only [hr, ok_bind, decrease_noMem, toRow_costsOf hnd, cells_costsOf hnd]
  cases hb : boundOf s k with
  | error f => exact Or.inr ⟨f, rfl, rfl⟩
  | ok b =>
    simp only [ok_bind]
    cases hsel : select s (toRow rnd mode o s c (decrease rnd m k row p.theta) x p.push row) row b with
    | error f => exact Or.inr ⟨f, rfl, rfl⟩
    | ok sel =>
      simp only [ok_bind]
      cases ha : affect s k row ((toRow rnd mode o s c (decrease rnd m k row p.theta) x p.push row).sort
          (List.range row.length)) sel x with
      | error f => exact Or.inr ⟨f, rfl, rfl⟩
      | ok x' => exact Or.inl ⟨x', _, _, rfl, rfl⟩

theorem update_exact_ok {rnd : Rat → Rat} {mode : ObjType} {o : Oracle} {p : Param} {s : Slv}
    {c : CostFun} {k : Nat} {x : Assign} {m : Mem} {row : List FunElem} (hr : rowOf s k = .ok row)
    (hnd : (row.map FunElem.var).Nodup) {x' : Assign} {m' : Mem}
    (h : update rnd mode o p s c k x m = .ok (x', m')) :
    ∃ m'', Mult.update mode o ⟨0, 0, 0, none⟩ s
        (costsOf s row (valueOf rnd s c (decrease rnd m k row p.theta) x p.push)) k x noMem =
        .ok (x', m'') := by
  rcases update_exact (rnd := rnd) (mode := mode) (o := o) (p := p) (c := c) (x := x) (m := m) hr hnd
    0 0 0 with ⟨x1, m1, m2, h1, h2⟩ | ⟨f, h1, _⟩
  · rw [h] at h1
    obtain ⟨rfl, rfl⟩ := (Prod.mk.injEq .. ▸ Except.ok.inj h1 : x' = x1 ∧ m' = m1)
    exact ⟨m2, h2⟩
  · rw [h] at h1
    cases h1

/-- The update gives the cheapest assignment of the row for the prices `pr` that its values stand
for. -/
theorem update_opt {t : SolverType} {csts : List Merged} {n : Nat} {s : Slv}
    (hs : makeSlv t csts n = .ok s) (ht : t ≠ .equalitiesZ ∧ t ≠ .inequalitiesZ)
    {k : Nat} {c : Merged} (hk : csts[k]? = some c) (hnd : (c.elems.map FunElem.var).Nodup)
    {rnd : Rat → Rat} {mode : ObjType} {o : Oracle} (ho : o.Ok mode) {p : Param} {cost : CostFun}
    {x x' : Assign} {m m' : Mem} (h : update rnd mode o p s cost k x m = .ok (x', m'))
    (pr : Nat → Rat)
    (hpr : ∀ (i : Nat) (e : FunElem), c.elems[i]? = some e →
      valueOf rnd s cost (decrease rnd m k c.elems p.theta) x p.push i e =
        if isNegative s.kind e then -pr e.var else pr e.var)
    {y : Assign} (hy : Respects c y) :
    Respects c x' ∧ AtLeastAsGood mode (priceOf pr c.elems x') (priceOf pr c.elems y) := by
  obtain ⟨_, _, _, _, _, _, hrows⟩ := makeSlv_facts hs
  obtain ⟨_, hr, _, _⟩ := hrows k c hk
  obtain ⟨m'', h'⟩ := update_exact_ok hr hnd h
  refine Mult.update_opt hs ht hk hnd ho h' pr (fun i e he => ?_) hy
  rw [decrease_noMem, valueOf_costsOf hnd _ _ he]
  exact hpr i e he

theorem update_frame {t : SolverType} {csts : List Merged} {n : Nat} {s : Slv}
    (hs : makeSlv t csts n = .ok s)
    {k : Nat} {c : Merged} (hk : csts[k]? = some c) (hnd : (c.elems.map FunElem.var).Nodup)
    {rnd : Rat → Rat} {mode : ObjType} {o : Oracle} {p : Param} {cost : CostFun}
    {x x' : Assign} {m m' : Mem} (h : update rnd mode o p s cost k x m = .ok (x', m'))
    {j : Nat} (hj : ∀ e ∈ c.elems, e.var ≠ j) : x' j = x j := by
  obtain ⟨_, _, _, _, _, _, hrows⟩ := makeSlv_facts hs
  obtain ⟨_, hr, _, _⟩ := hrows k c hk
  obtain ⟨m'', h'⟩ := update_exact_ok hr hnd h
  rcases update_updateRow (mode := mode) (o := o) (p := ⟨0, 0, 0, none⟩)
    (c := costsOf s c.elems (valueOf rnd s cost (decrease rnd m k c.elems p.theta) x p.push))
    (x := x) (m := noMem) hr with ⟨x1, h1, m1, h2⟩ | ⟨f, _, h2⟩
  · rw [h'] at h2
    have := (Prod.mk.injEq .. ▸ Except.ok.inj h2 : x' = x1 ∧ m'' = m1).1
    subst this
    exact updateRow_frame h1 hr hj
  · rw [h'] at h2
    cases h2

/-! ## The error of a computed reduced cost -/

theorem two_subs_error {rnd : Rat → Rat} {u : Rat} (hu : 0 ≤ u) (hr : ∀ q, |rnd q - q| ≤ u * |q|)
    {K c S A B : Rat} (hK : 1 ≤ K) (hS : |S - A| ≤ (K - 1) * B) (hA : |A| ≤ B) :
    |rnd (c - S) - (c - A)| ≤ (K * (1 + u) - 1) * (|c| + B) := by
  have h1 : |rnd (c - S) - (c - A)| ≤ |rnd (c - S) - (c - S)| + |S - A| := by
    have := abs_sub_le (rnd (c - S)) (c - S) (c - A)
    rwa [show c - S - (c - A) = -(S - A) by ring, abs_neg] at this
  have h2 : |c - S| ≤ |c| + (|A| + |S - A|) := by
    have a := abs_sub c S
    have b := abs_add_le A (S - A)
    rw [show A + (S - A) = S by ring] at b
    linarith
  have h3 := mul_le_mul_of_nonneg_left h2 hu
  have := hr (c - S)
  have hc := abs_nonneg c
  have hB : 0 ≤ B := le_trans (abs_nonneg A) hA
  have h5 : u * (|A| + |S - A|) ≤ u * (K * B) := mul_le_mul_of_nonneg_left (by nlinarith) hu
  have h6 : 0 ≤ (K - 1) * |c| := mul_nonneg (by linarith) hc
  have h7 : 0 ≤ (K - 1) * |c| * u := mul_nonneg h6 hu
  nlinarith

theorem computedCost_error {t : SolverType} {csts : List Merged} {n : Nat} {s : Slv}
    (hs : makeSlv t csts n = .ok s) {rnd : Rat → Rat} {u : Rat} (hu : 0 ≤ u)
    (hr : ∀ q, |rnd q - q| ≤ u * |q|) (pi : Nat → Rat) (P : Nat → Nat → Rat) (c : Rat) (j : Nat) :
    |computedCost rnd csts pi P c j - reducedCost csts pi P c j| ≤
      ((1 + u) ^ ((occurrences csts j).length + 2) - 1) * magnitude csts pi P c j := by
  rw [reducedCost_occurrences hs]
  unfold computedCost magnitude
  generalize occurrences csts j = l
  rw [roundedSum_eq, roundedSum_eq]
  have e1 := Rounded.rsum_error hu hr (l.map fun o => (o.2 : Rat) * pi o.1) 0
  have e2 := Rounded.rsum_error hu hr (l.map fun o => (o.2 : Rat) * P o.1 j) 0
  simp only [List.length_map, zero_add, abs_zero, List.map_map] at e1 e2
  have a1 : |(l.map fun o => (o.2 : Rat) * pi o.1).sum| ≤ (l.map fun o => |(o.2 : Rat) * pi o.1|).sum := by
    have := List.le_sum_of_subadditive (|·| : Rat → Rat) (by simp) (fun a b => abs_add_le a b)
      (l.map fun o => (o.2 : Rat) * pi o.1)
    rw [List.map_map] at this
    exact this
  have a2 : |(l.map fun o => (o.2 : Rat) * P o.1 j).sum| ≤ (l.map fun o => |(o.2 : Rat) * P o.1 j|).sum := by
    have := List.le_sum_of_subadditive (|·| : Rat → Rat) (by simp) (fun a b => abs_add_le a b)
      (l.map fun o => (o.2 : Rat) * P o.1 j)
    rw [List.map_map] at this
    exact this
  have hK : (1 : Rat) ≤ (1 + u) ^ l.length := one_le_pow₀ (by linarith)
  change |_ - _| ≤ (_ - 1) * (l.map fun o => |(o.2 : Rat) * pi o.1|).sum at e1
  change |_ - _| ≤ (_ - 1) * (l.map fun o => |(o.2 : Rat) * P o.1 j|).sum at e2
  generalize (l.map fun o => |(o.2 : Rat) * pi o.1|).sum = B1 at *
  generalize (l.map fun o => |(o.2 : Rat) * P o.1 j|).sum = B2 at *
  generalize (l.map fun o => (o.2 : Rat) * pi o.1).sum = A1 at *
  generalize (l.map fun o => (o.2 : Rat) * P o.1 j).sum = A2 at *
  generalize Rounded.rsum rnd 0 (l.map fun o => (o.2 : Rat) * pi o.1) = S1 at *
  generalize Rounded.rsum rnd 0 (l.map fun o => (o.2 : Rat) * P o.1 j) = S2 at *
  have f1 := two_subs_error hu hr (c := c) hK e1 a1
  rw [show (1 + u) ^ (l.length + 2) = (1 + u) ^ l.length * (1 + u) * (1 + u) by ring]
  generalize (1 + u) ^ l.length = K at *
  generalize rnd (c - S1) = T at *
  -- the second subtraction
  have h1 : |rnd (T - S2) - (c - A1 - A2)| ≤ |rnd (T - S2) - (T - S2)| + |T - (c - A1)| + |S2 - A2| := by
    have g1 := abs_sub_le (rnd (T - S2)) (T - S2) (c - A1 - A2)
    have g2 := abs_sub (T - (c - A1)) (S2 - A2)
    rw [show T - (c - A1) - (S2 - A2) = T - S2 - (c - A1 - A2) by ring] at g2
    linarith
  have h2 : |T - S2| ≤ |c| + B1 + |T - (c - A1)| + (B2 + |S2 - A2|) := by
    have g1 := abs_sub T S2
    have g2 := abs_add_le (T - (c - A1)) (c - A1)
    rw [show T - (c - A1) + (c - A1) = T by ring] at g2
    have g3 := abs_sub c A1
    have g4 := abs_add_le (S2 - A2) A2
    rw [show S2 - A2 + A2 = S2 by ring] at g4
    linarith
  have h3 := mul_le_mul_of_nonneg_left h2 hu
  have h4 := hr (T - S2)
  have hB1 : 0 ≤ B1 := le_trans (abs_nonneg _) a1
  have hB2 : 0 ≤ B2 := le_trans (abs_nonneg _) a2
  have hc := abs_nonneg c
  generalize |T - (c - A1)| = E1 at *
  generalize |S2 - A2| = E2 at *
  generalize |c| = C at *
  have hE2 : E2 ≤ (K * (1 + u) - 1) * B2 := by
    refine le_trans e2 (mul_le_mul_of_nonneg_right ?_ hB2)
    nlinarith
  have k1 : (1 + u) * E1 ≤ (1 + u) * ((K * (1 + u) - 1) * (C + B1)) :=
    mul_le_mul_of_nonneg_left f1 (by linarith)
  have k2 : (1 + u) * E2 ≤ (1 + u) * ((K * (1 + u) - 1) * B2) :=
    mul_le_mul_of_nonneg_left hE2 (by linarith)
  nlinarith

theorem computedCost_exact {t : SolverType} {csts : List Merged} {n : Nat} {s : Slv}
    (hs : makeSlv t csts n = .ok s) {p : Nat} (hp : 0 < p) {g : Int} {pi : Nat → Rat}
    {P : Nat → Nat → Rat} {c : Rat} {j : Nat} (hc : Grid g c) (hpi : ∀ i, Grid g (pi i))
    (hP : ∀ i, Grid g (P i j)) (hb : magnitude csts pi P c j ≤ 2 ^ p * 2 ^ g) :
    computedCost (binary p) csts pi P c j = reducedCost csts pi P c j := by
  rw [reducedCost_occurrences hs]
  unfold computedCost
  unfold magnitude at hb
  revert hb
  generalize occurrences csts j = l
  intro hb
  rw [roundedSum_eq, roundedSum_eq]
  have hmul : ∀ (a : Int) (q : Rat), Grid g q → Grid g ((a : Rat) * q) := by
    rintro a q ⟨m, rfl⟩
    exact ⟨a * m, by push_cast; ring⟩
  have nn : ∀ f : Nat × Int → Rat, 0 ≤ (l.map fun o => |f o|).sum := fun f => List.sum_nonneg (by
    intro a ha
    obtain ⟨b, _, rfl⟩ := List.mem_map.mp ha
    exact abs_nonneg _)
  have n1 := nn fun o => (o.2 : Rat) * pi o.1
  have n2 := nn fun o => (o.2 : Rat) * P o.1 j
  have nc := abs_nonneg c
  have g0 : Grid g 0 := ⟨0, by simp⟩
  have hsum : ∀ L : List Rat, (∀ f ∈ L, Grid g f) → Grid g L.sum := by
    intro L
    induction L with
    | nil => intro _; simpa using g0
    | cons a L ih =>
      intro h
      rw [List.sum_cons]
      exact (h a (by simp)).add (ih fun f hf => h f (by simp [hf]))
  have hneg : ∀ q, Grid g q → Grid g (-q) := by
    rintro q ⟨m, rfl⟩
    exact ⟨-m, by push_cast; ring⟩
  have m1 : ∀ f ∈ l.map fun o => (o.2 : Rat) * pi o.1, Grid g f := by
    intro f hf
    obtain ⟨o, _, rfl⟩ := List.mem_map.mp hf
    exact hmul _ _ (hpi _)
  have m2 : ∀ f ∈ l.map fun o => (o.2 : Rat) * P o.1 j, Grid g f := by
    intro f hf
    obtain ⟨o, _, rfl⟩ := List.mem_map.mp hf
    exact hmul _ _ (hP _)
  have r1 := Rounded.rsum_exact hp (e := g) (l.map fun o => (o.2 : Rat) * pi o.1) 0 g0 m1 (by
    rw [List.map_map, abs_zero, zero_add]
    change (l.map fun o => |(o.2 : Rat) * pi o.1|).sum ≤ _
    linarith)
  have r2 := Rounded.rsum_exact hp (e := g) (l.map fun o => (o.2 : Rat) * P o.1 j) 0 g0 m2 (by
    rw [List.map_map, abs_zero, zero_add]
    change (l.map fun o => |(o.2 : Rat) * P o.1 j|).sum ≤ _
    linarith)
  rw [r1, r2, zero_add, zero_add]
  have a1 : |(l.map fun o => (o.2 : Rat) * pi o.1).sum| ≤ (l.map fun o => |(o.2 : Rat) * pi o.1|).sum := by
    have := List.le_sum_of_subadditive (|·| : Rat → Rat) (by simp) (fun a b => abs_add_le a b)
      (l.map fun o => (o.2 : Rat) * pi o.1)
    rw [List.map_map] at this
    exact this
  have a2 : |(l.map fun o => (o.2 : Rat) * P o.1 j).sum| ≤ (l.map fun o => |(o.2 : Rat) * P o.1 j|).sum := by
    have := List.le_sum_of_subadditive (|·| : Rat → Rat) (by simp) (fun a b => abs_add_le a b)
      (l.map fun o => (o.2 : Rat) * P o.1 j)
    rw [List.map_map] at this
    exact this
  have s1 := hsum _ m1
  have s2 := hsum _ m2
  generalize (l.map fun o => (o.2 : Rat) * pi o.1).sum = A1 at *
  generalize (l.map fun o => (o.2 : Rat) * P o.1 j).sum = A2 at *
  have b1 := abs_sub c A1
  have b2 := abs_sub (c - A1) A2
  have G1 : Grid g (c - A1) := by rw [sub_eq_add_neg]; exact hc.add (hneg _ s1)
  have G2 : Grid g (c - A1 - A2) := by rw [sub_eq_add_neg]; exact G1.add (hneg _ s2)
  rw [G1.binary hp (by linarith), G2.binary hp (by linarith)]

/-! ## Near prices give near optimal assignments -/

/-- The prices on which two assignments differ. -/
theorem priceOf_diff (pr rc : Nat → Rat) (err : Nat → Rat) (x y : Assign) : ∀ es : List FunElem,
    (∀ e ∈ es, |pr e.var - rc e.var| ≤ err e.var) →
    |(priceOf pr es x - priceOf pr es y) - (priceOf rc es x - priceOf rc es y)| ≤
      (es.map fun e => if x e.var = y e.var then 0 else err e.var).sum
  | [], _ => by simp [priceOf]
  | e :: es, h => by
    have ih := priceOf_diff pr rc err x y es (fun e he => h e (by simp [he]))
    have he := h e (by simp)
    unfold priceOf at ih ⊢
    simp only [List.map_cons, List.sum_cons]
    generalize (es.map fun e => if x e.var then pr e.var else 0).sum = a at *
    generalize (es.map fun e => if y e.var then pr e.var else 0).sum = b at *
    generalize (es.map fun e => if x e.var then rc e.var else 0).sum = a' at *
    generalize (es.map fun e => if y e.var then rc e.var else 0).sum = b' at *
    generalize (es.map fun e => if x e.var = y e.var then 0 else err e.var).sum = E at *
    rw [abs_le] at ih he ⊢
    cases x e.var <;> cases y e.var <;> simp <;> constructor <;> linarith

/-! ## The multipliers and the preferences -/

theorem update_eq {rnd : Rat → Rat} {mode : ObjType} {o : Oracle} {p : Param} {s : Slv} {c : CostFun}
    {k : Nat} {x : Assign} {m : Mem} {x' : Assign} {m' : Mem}
    (h : update rnd mode o p s c k x m = .ok (x', m')) :
    ∃ row b sel, rowOf s k = .ok row ∧ boundOf s k = .ok b ∧
      select s (toRow rnd mode o s c (decrease rnd m k row p.theta) x p.push row) row b = .ok sel ∧
      affect s k row ((toRow rnd mode o s c (decrease rnd m k row p.theta) x p.push row).sort
        (List.range row.length)) sel x = .ok x' ∧
      m' = affectMem rnd s o row k (o.sort (cells rnd s c (decrease rnd m k row p.theta) x p.push row
        (List.range row.length))) sel p.kappa p.delta (decrease rnd m k row p.theta) := by
  unfold update at h
  obtain ⟨row, h1, h⟩ := bind_eq_ok.mp h
  obtain ⟨b, h2, h⟩ := bind_eq_ok.mp h
  obtain ⟨sel, h3, h⟩ := bind_eq_ok.mp h
  obtain ⟨y, h4, h⟩ := bind_eq_ok.mp h
  have := Except.ok.inj h
  obtain ⟨rfl, rfl⟩ := Prod.mk.injEq .. ▸ this
  exact ⟨row, b, sel, h1, h2, h3, h4, rfl⟩

theorem update_extreme {t : SolverType} {csts : List Merged} {n : Nat} {s : Slv}
    (hs : makeSlv t csts n = .ok s) (ht : t ≠ .equalitiesZ ∧ t ≠ .inequalitiesZ)
    {k : Nat} {c : Merged} (hk : csts[k]? = some c) (hnd : (c.elems.map FunElem.var).Nodup)
    {rnd : Rat → Rat} {mode : ObjType} {o : Oracle} (ho : o.Ok mode) {p : Param} {cost : CostFun}
    {x x' : Assign} {m m' : Mem} (h : update rnd mode o p s cost k x m = .ok (x', m'))
    (hext : (∀ y, lhs x' c.elems ≤ lhs y c.elems) ∨ (∀ y, lhs y c.elems ≤ lhs x' c.elems)) :
    m'.pi = m.pi := by
  obtain ⟨hkind, _, _, _, _, _, hrows⟩ := makeSlv_facts hs
  obtain ⟨bd, hr, hb, hc⟩ := hrows k c hk
  obtain ⟨row, b', sel, h1, h2, h3, h4, h5⟩ := update_eq h
  rw [hr] at h1
  have := Except.ok.inj h1
  subst this
  have hu : UnitRow t c.elems := ctor_unit hc ht
  set m1 := decrease rnd m k c.elems p.theta with hm1
  obtain ⟨hp, _, _⟩ := sorted_cells ho s (costsOf s c.elems (valueOf rnd s cost m1 x p.push)) noMem x
    none c.elems
  rw [cells_costsOf hnd] at hp
  set R := o.sort (cells rnd s cost m1 x p.push c.elems (List.range c.elems.length)) with hRdef
  have hidlen : (R.map RC.id).length = c.elems.length := by simpa using hp.length_eq
  obtain ⟨g1, g2⟩ := affect_values hnd hp h4
  have hvx : lhs x' c.elems = (clamp sel c.elems.length : Int) - cSize t c.elems := by
    rw [← rowValue_lhs hc x']
    have e1 : (((R.map RC.id).take (clamp sel c.elems.length)).length : Int) =
        clamp sel c.elems.length := by
      rw [List.length_take, hidlen, Nat.min_eq_left (clamp_le _ _)]
    rw [← e1]
    apply rowValue_split hu (ups := (R.map RC.id).take (clamp sel c.elems.length))
      (downs := (R.map RC.id).drop (clamp sel c.elems.length))
      (by rw [List.take_append_drop]; exact hp)
    · intro i e hi he
      rw [g1 i e hi he, hkind]
      unfold target; cases isNegative t e <;> rfl
    · intro i e hi he
      rw [g2 i e hi he, hkind]
      unfold target; cases isNegative t e <;> rfl
  have hsel : sel < 0 ∨ sel + 1 ≥ (R.map RC.id).length := by
    by_contra hn
    have hcl : ((clamp sel c.elems.length : Nat) : Int) = sel + 1 := by unfold clamp; omega
    obtain ⟨⟨y, hy⟩, ⟨z, hz⟩⟩ := exists_extreme hc ht hnd
    rcases hext with h | h
    · have := h y
      omega
    · have := h z
      omega
  rw [h5]
  unfold affectMem
  simp only
  by_cases h0 : sel < 0
  · rw [if_pos h0]; rfl
  · rw [if_neg h0, if_pos (by omega)]; rfl

theorem turnP_other {rnd : Rat → Rat} {t : SolverType} {row : List FunElem} {k : Nat} {up : Bool}
    {d : Rat} {a b : Nat} :
    ∀ (is : List Nat) (P : Nat → Nat → Rat),
      (a ≠ k ∨ ∀ (i : Nat) (e : FunElem), i ∈ is → row[i]? = some e → e.var ≠ b) →
      turnP rnd t row k up d P is a b = P a b
  | [], _, _ => rfl
  | i :: is, P, h => by
    unfold turnP
    cases he : row[i]? with
    | none => rfl
    | some e =>
      simp only
      rw [turnP_other is]
      · rw [if_neg]
        rintro ⟨h1, h2⟩
        rcases h with h | h
        · exact h h1
        · exact h i e (by simp) he h2.symm
      · rcases h with h | h
        · exact Or.inl h
        · exact Or.inr fun i' e' hi' => h i' e' (by simp [hi'])

theorem turnP_at {rnd : Rat → Rat} {t : SolverType} {row : List FunElem}
    (hnd : (row.map FunElem.var).Nodup) {k : Nat} {up : Bool} {d : Rat} :
     ∀ (is : List Nat) (P : Nat → Nat → Rat), is.Nodup →
      (∀ i ∈ is, i < row.length) → ∀ (i : Nat) (e : FunElem), i ∈ is → row[i]? = some e →
      turnP rnd t row k up d P is k e.var =
        rnd (P k e.var + (if xor (isNegative t e) up then d else -d))
  | [], _, _, _, i, e, h, _ => by simp at h
  | a :: is, P, hn, hlt, i, e, h, he => by
    have ha := hlt a (by simp)
    rw [List.nodup_cons] at hn
    have hinj : ∀ (i' : Nat) (e' : FunElem), row[i']? = some e' → e'.var = e.var → i' = i := by
      intro i' e' he' hv
      obtain ⟨hl, rfl⟩ := List.getElem?_eq_some_iff.mp he
      obtain ⟨hl', rfl⟩ := List.getElem?_eq_some_iff.mp he'
      have := List.nodup_iff_injective_getElem.mp hnd
      have h7 := @this ⟨i', by simpa using hl'⟩ ⟨i, by simpa using hl⟩ (by simpa using hv)
      exact congrArg Fin.val h7
    unfold turnP
    rw [List.getElem?_eq_getElem ha]
    simp only
    by_cases hai : a = i
    · subst hai
      have hee : row[a] = e := by
        rw [List.getElem?_eq_getElem ha] at he
        exact Option.some.inj he
      rw [hee, turnP_other is]
      · simp
      · refine Or.inr fun i' e' hi' he' hv => hn.1 ?_
        rw [← hinj i' e' he' hv]
        exact hi'
    · rcases List.mem_cons.mp h with h | h
      · exact absurd h.symm hai
      · rw [turnP_at hnd is _ hn.2 (fun i hi => hlt i (by simp [hi])) i e h he, if_neg]
        rintro ⟨_, h2⟩
        exact hai (hinj a _ (List.getElem?_eq_getElem ha) h2.symm)

/-- An update whose row value is strictly between its extreme values: what it adds to the multiplier
and to the preferences. -/
theorem update_interior {t : SolverType} {csts : List Merged} {n : Nat} {s : Slv}
    (hs : makeSlv t csts n = .ok s) (ht : t ≠ .equalitiesZ ∧ t ≠ .inequalitiesZ)
    {k : Nat} {c : Merged} (hk : csts[k]? = some c) (hnd : (c.elems.map FunElem.var).Nodup)
    {rnd : Rat → Rat} {mode : ObjType} {o : Oracle} (ho : o.Ok mode) {p : Param} {cost : CostFun}
    {x x' : Assign} {m m' : Mem} (h : update rnd mode o p s cost k x m = .ok (x', m'))
    (hsat : ∃ y, Respects c y)
    (hint : ∃ y z, lhs y c.elems < lhs x' c.elems ∧ lhs x' c.elems < lhs z c.elems) :
    ∃ a b : Rat, sg mode * a ≤ sg mode * b ∧
      (∀ i, i ≠ k → m'.pi i = m.pi i) ∧ m'.pi k = rnd (m.pi k + rnd (rnd (a + b) / 2)) ∧
      (∃ i e, c.elems[i]? = some e ∧
        valueOf rnd s cost (decrease rnd m k c.elems p.theta) x p.push i e = a) ∧
      (∃ i e, c.elems[i]? = some e ∧
        valueOf rnd s cost (decrease rnd m k c.elems p.theta) x p.push i e = b) ∧
      (∀ (i : Nat) (e : FunElem), c.elems[i]? = some e →
        (xor (isNegative t e) (x' e.var) = true →
          sg mode * valueOf rnd s cost (decrease rnd m k c.elems p.theta) x p.push i e ≤ sg mode * a) ∧
        (xor (isNegative t e) (x' e.var) = false →
          sg mode * b ≤ sg mode * valueOf rnd s cost (decrease rnd m k c.elems p.theta) x p.push i e)) ∧
      (∀ (i j : Nat), (i ≠ k ∨ ∀ e ∈ c.elems, e.var ≠ j) → m'.P i j = m.P i j) ∧
      (∀ e ∈ c.elems, m'.P k e.var = rnd (rnd (m.P k e.var * p.theta) +
        (if x' e.var then 1 else -1) * rnd (p.delta + rnd (ratio rnd p.kappa * rnd (b - a))))) := by
  obtain ⟨hkind, _, _, _, _, _, hrows⟩ := makeSlv_facts hs
  obtain ⟨bd, hr, hb, hc⟩ := hrows k c hk
  obtain ⟨row, b', sel, h1, h2, h3, h4, h5⟩ := update_eq h
  rw [hr] at h1
  have := Except.ok.inj h1
  subst this
  rw [hb] at h2
  have := Except.ok.inj h2
  subst this
  set m1 := decrease rnd m k c.elems p.theta with hm1
  have hu : UnitRow t c.elems := ctor_unit hc ht
  obtain ⟨hp, hR, hsorted⟩ := sorted_cells ho s (costsOf s c.elems (valueOf rnd s cost m1 x p.push)) noMem x none c.elems
  rw [cells_costsOf hnd] at hp hR hsorted
  obtain ⟨M, hM, hsel, hMl, _, _, _, _, hM1, hM2, _, _⟩ := select_count hs ht hk hb hsat h3
  set R := o.sort (cells rnd s cost m1 x p.push c.elems (List.range c.elems.length)) with hRdef
  set ids := R.map RC.id with hids
  set V := val s (costsOf s c.elems (valueOf rnd s cost m1 x p.push)) noMem x none c.elems with hVdef
  have hidlen : ids.length = c.elems.length := by simpa using hp.length_eq
  obtain ⟨g1, g2⟩ := affect_values hnd hp h4
  rw [← hM] at g1 g2
  have hlt : ∀ i ∈ ids, i < c.elems.length := fun i hi => List.mem_range.mp (hp.mem_iff.mp hi)
  have hidnd : ids.Nodup := hp.nodup_iff.mpr List.nodup_range
  have hsplit := List.take_append_drop M ids
  have hvx : lhs x' c.elems = (M : Int) - cSize t c.elems := by
    rw [← rowValue_lhs hc x']
    have e1 : ((ids.take M).length : Int) = M := by
      rw [List.length_take, hidlen, Nat.min_eq_left hMl]
    rw [← e1]
    apply rowValue_split hu (ups := ids.take M) (downs := ids.drop M) (by rw [hsplit]; exact hp)
    · intro i e hi he
      rw [g1 i e hi he, hkind]
      unfold target; cases isNegative t e <;> rfl
    · intro i e hi he
      rw [g2 i e hi he, hkind]
      unfold target; cases isNegative t e <;> rfl
  obtain ⟨y, z, hy, hz⟩ := hint
  have ry := lhs_range hu y
  have rz := lhs_range hu z
  rw [rowValue_lhs hc] at ry rz
  have hsel0 : 0 ≤ sel := by
    by_contra hn
    have := hM2 (by omega)
    omega
  have hMs := hM1 hsel0
  have hMlt : M < c.elems.length := by omega
  obtain ⟨l, hl⟩ : ∃ l : Nat, sel = l := ⟨sel.toNat, by omega⟩
  subst hl
  have hMl1 : M = l + 1 := by omega
  subst hMl1
  have hl1 : l < ids.length := by omega
  have hl2 : l + 1 < ids.length := by omega
  have va : valueAt o R (l : Int) = V ids[l] := by
    rw [hR]; exact valueAt_eq (List.getElem?_eq_getElem hl1)
  have vb : valueAt o R ((l : Int) + 1) = V ids[l + 1] := by
    rw [hR]; exact valueAt_eq (l := l + 1) (List.getElem?_eq_getElem hl2)
  have hget := List.pairwise_iff_getElem.mp hsorted
  have hV : ∀ (i : Nat) (e : FunElem), c.elems[i]? = some e →
      V i = valueOf rnd s cost m1 x p.push i e := by
    intro i e he
    rw [hVdef]
    unfold val
    rw [he]
    exact valueOf_costsOf hnd _ _ he
  have hcond : ¬ ((l : Int) + 1 ≥ (R.map RC.id).length) := by
    have : (R.map RC.id).length = c.elems.length := hidlen
    omega
  set d := rnd (p.delta + rnd (ratio rnd p.kappa * rnd (V ids[l + 1] - V ids[l]))) with hd
  have hmem : m' =
      { pi := fun i => if i = k then rnd (m1.pi i + rnd (rnd (V ids[l] + V ids[l + 1]) / 2)) else m1.pi i
        P := turnP rnd s.kind c.elems k false d
          (turnP rnd s.kind c.elems k true d m1.P (ids.take (l + 1))) (ids.drop (l + 1)) } := by
    rw [h5]
    unfold affectMem
    simp only
    rw [if_neg (by omega), if_neg hcond, va, vb]
    rfl
  have hpos : ∀ (i : Nat) (e : FunElem), c.elems[i]? = some e → i ∈ ids := by
    intro i e he
    exact hp.mem_iff.mpr (List.mem_range.mpr (List.getElem?_eq_some_iff.mp he).1)
  refine ⟨V ids[l], V ids[l + 1], before_iff.mp (hget l (l + 1) hl1 hl2 (by omega)), ?_, ?_,
    ⟨ids[l], _, List.getElem?_eq_getElem (hlt _ (List.getElem_mem hl1)), (hV _ _
      (List.getElem?_eq_getElem (hlt _ (List.getElem_mem hl1)))).symm⟩,
    ⟨ids[l + 1], _, List.getElem?_eq_getElem (hlt _ (List.getElem_mem hl2)), (hV _ _
      (List.getElem?_eq_getElem (hlt _ (List.getElem_mem hl2)))).symm⟩, ?_, ?_, ?_⟩
  · intro i hi
    rw [hmem]
    simp only
    rw [if_neg hi]
    rfl
  · rw [hmem]
    simp only [if_true]
    rfl
  · intro i e he
    have hi := hpos i e he
    rw [← hV i e he]
    rw [← hsplit, List.mem_append] at hi
    constructor
    · intro hx
      rcases hi with hi | hi
      · obtain ⟨j, hj, hji⟩ := List.getElem_of_mem hi
        rw [List.getElem_take] at hji
        have hjl : j < l + 1 := by rw [List.length_take] at hj; omega
        subst hji
        by_cases hjl' : j = l
        · subst hjl'; exact le_refl _
        · exact before_iff.mp (hget j l (by omega) hl1 (by omega))
      · rw [g2 i e hi he, hkind] at hx
        cases isNegative t e <;> simp at hx
    · intro hx
      rcases hi with hi | hi
      · rw [g1 i e hi he, hkind] at hx
        cases isNegative t e <;> simp at hx
      · obtain ⟨j, hj, hji⟩ := List.getElem_of_mem hi
        rw [List.getElem_drop] at hji
        subst hji
        by_cases hjl' : j = 0
        · subst hjl'; exact le_refl _
        · exact before_iff.mp (hget (l + 1) (l + 1 + j) hl2 _ (by omega))
  · intro i j hij
    rw [hmem]
    simp only
    have hne : ∀ is : List Nat, (i ≠ k ∨ ∀ (i' : Nat) (e : FunElem), i' ∈ is → c.elems[i']? = some e → e.var ≠ j) := by
      intro is
      rcases hij with h | h
      · exact Or.inl h
      · exact Or.inr fun i' e _ he => h e (List.mem_of_getElem? he)
    rw [turnP_other _ _ (hne _), turnP_other _ _ (hne _), hm1]
    unfold decrease
    simp only
    rw [if_neg]
    rintro ⟨h1, h2⟩
    obtain ⟨e, he, hv⟩ := List.mem_map.mp h2
    rcases hij with h | h
    · exact h h1
    · exact h e he hv
  · intro e he
    obtain ⟨i, hie⟩ := List.getElem?_of_mem he
    have hi := hpos i e hie
    have hdec : m1.P k e.var = rnd (m.P k e.var * p.theta) := by
      rw [hm1]
      unfold decrease
      simp only
      rw [if_pos ⟨trivial, List.mem_map.mpr ⟨e, he, rfl⟩⟩]
    have hinj : ∀ (i' : Nat) (e' : FunElem), c.elems[i']? = some e' → e'.var = e.var → i' = i := by
      intro i' e' he' hv
      obtain ⟨hl, rfl⟩ := List.getElem?_eq_some_iff.mp hie
      obtain ⟨hl', rfl⟩ := List.getElem?_eq_some_iff.mp he'
      have := List.nodup_iff_injective_getElem.mp hnd
      have h7 := @this ⟨i', by simpa using hl'⟩ ⟨i, by simpa using hl⟩ (by simpa using hv)
      exact congrArg Fin.val h7
    have hdisj : i ∈ ids.take (l + 1) → i ∈ ids.drop (l + 1) → False := by
      intro a1 a2
      have := List.nodup_append.mp ((List.take_append_drop (l + 1) ids).symm ▸ hidnd)
      exact this.2.2 _ a1 _ a2 rfl
    have n1 : (ids.take (l + 1)).Nodup := hidnd.sublist (List.take_sublist _ _)
    have n2 : (ids.drop (l + 1)).Nodup := hidnd.sublist (List.drop_sublist _ _)
    rw [hmem]
    simp only
    rw [← hsplit, List.mem_append] at hi
    rcases hi with hi | hi
    · rw [turnP_other, turnP_at hnd _ _ n1 (fun i hi => hlt i (List.mem_of_mem_take hi)) i e hi hie,
        hdec, g1 i e hi hie]
      · cases isNegative s.kind e <;> simp [d]
      · refine Or.inr fun i' e' hi' he' hv => ?_
        rw [hinj i' e' he' hv] at hi'
        exact hdisj hi hi'
    · rw [turnP_at hnd _ _ n2 (fun i hi => hlt i (List.mem_of_mem_drop hi)) i e hi hie, turnP_other,
        hdec, g2 i e hi hie]
      · cases isNegative s.kind e <;> simp [d]
      · refine Or.inr fun i' e' hi' he' hv => ?_
        rw [hinj i' e' he' hv] at hi'
        exact hdisj hi' hi

end Bx.RoundedRows
