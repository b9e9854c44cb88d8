import Verif.Model.ZNumeric
import Verif.Spec.ZNumeric
import Verif.Proofs.Multipliers
import Verif.Proofs.ZSolver

/-! # Row updates with integer coefficients, with their multipliers -/

namespace Bx.ZNum

open Merge SolverCtor Spec Exhaustive Itm Mult ZSolver

/-! ## Reduced costs -/

theorem absCoef_cons (e : FunElem) (es : List FunElem) (j : Nat) :
    absCoef (e :: es) j = (if e.var = j then e.factor.natAbs else 0) + absCoef es j := by
  simp [absCoef]

theorem absCoef_of_not_mem {j : Nat} : ∀ {es : List FunElem}, (∀ e ∈ es, e.var ≠ j) → absCoef es j = 0
  | [], _ => rfl
  | e :: es, h => by
    rw [absCoef_cons, if_neg (h e (by simp)), absCoef_of_not_mem fun e he => h e (by simp [he])]

theorem absCoef_of_nodup {j : Nat} : ∀ {es : List FunElem}, (es.map FunElem.var).Nodup →
    ∀ {e : FunElem}, e ∈ es → e.var = j → absCoef es j = e.factor.natAbs
  | [], _, e, h, _ => by simp at h
  | a :: es, hnd, e, h, hj => by
    rw [List.map_cons, List.nodup_cons] at hnd
    rw [absCoef_cons]
    rcases List.mem_cons.mp h with rfl | h
    · rw [if_pos hj, absCoef_of_not_mem, Nat.add_zero]
      intro e' he' hv
      exact hnd.1 (List.mem_map.mpr ⟨e', he', by rw [hv, hj]⟩)
    · rw [if_neg, Nat.zero_add, absCoef_of_nodup hnd.2 h hj]
      intro hv
      exact hnd.1 (List.mem_map.mpr ⟨e, h, by rw [hv, hj]⟩)

theorem absReducedCost_eq {csts : List Merged} {j : Nat}
    (h : ∀ c ∈ csts, ∀ e ∈ c.elems, e.var = j → 0 ≤ e.factor)
    (pi : Nat → Rat) (P : Nat → Nat → Rat) (q : Rat) :
    absReducedCost csts pi P q j = reducedCost csts pi P q j := by
  unfold absReducedCost reducedCost
  congr 2
  apply List.map_congr_left
  rintro ⟨c, i⟩ hc
  have hm : c ∈ csts := by
    have := (List.mem_zipIdx' hc).2
    exact this ▸ List.getElem_mem _
  have : (absCoef c.elems j : Int) = coef c.elems j := by
    have hf : ∀ es : List FunElem, (∀ e ∈ es, e.var = j → 0 ≤ e.factor) →
        (absCoef es j : Int) = coef es j := by
      intro es
      induction es with
      | nil => intro _; rfl
      | cons e es ih =>
        intro h
        have h1 := h e (by simp)
        have ih := ih fun e he => h e (List.mem_cons_of_mem _ he)
        have hc : coef (e :: es) j = (if e.var = j then e.factor else 0) + coef es j := by
          simp [coef]
        rw [absCoef_cons, hc, ← ih, Nat.cast_add]
        by_cases hv : e.var = j
        · have := h1 hv
          rw [if_pos hv, if_pos hv]
          omega
        · rw [if_neg hv, if_neg hv]
          rfl
    exact hf _ (h c hm)
  have h2 : (absCoef c.elems j : Rat) = (coef c.elems j : Rat) := by
    rw [← this]
    push_cast
    rfl
  simp only [h2]

theorem abs_row_sum {t : SolverType} {j k : Nat} (g : Nat → Rat) : ∀ row : List FunElem,
    (∀ e ∈ row, factor t e = e.factor) →
    (((row.filter fun e => decide (e.var = j)).map fun e => (k, factor t e)).map fun p : Nat × Int =>
      (p.2.natAbs : Rat) * g p.1).sum = (absCoef row j : Rat) * g k
  | [], _ => by simp [absCoef]
  | e :: es, h => by
    have ih := abs_row_sum (t := t) (j := j) (k := k) g es fun e he => h e (by simp [he])
    have he := h e (by simp)
    rw [List.filter_cons, absCoef_cons]
    by_cases hj : e.var = j
    · simp only [hj, decide_true, if_true, List.map_cons, List.sum_cons, he, ih]
      push_cast
      ring
    · simp only [hj, decide_false, if_false, Nat.zero_add]
      exact ih

theorem abs_column_sum {t : SolverType} {j : Nat} (g : Nat → Rat) :
    ∀ l : List (List FunElem × Nat), (∀ r ∈ l, ∀ e ∈ r.1, factor t e = e.factor) →
    ((l.flatMap fun r => (r.1.filter fun e => decide (e.var = j)).map fun e =>
      (r.2, factor t e)).map fun p : Nat × Int => (p.2.natAbs : Rat) * g p.1).sum =
    (l.map fun r => (absCoef r.1 j : Rat) * g r.2).sum
  | [], _ => by simp
  | r :: l, h => by
    have ih := abs_column_sum (t := t) (j := j) g l fun r hr => h r (by simp [hr])
    rw [List.flatMap_cons, List.map_append, List.sum_append, ih,
      abs_row_sum g r.1 (h r (by simp)), List.map_cons, List.sum_cons]

theorem makeZ_slv {csts : List Merged} {n : Nat} {z : ZSlv} (h : makeZ csts n = .ok z) :
    z.slv.rows = csts.map Merged.elems := by
  unfold makeZ at h
  obtain ⟨mat, hm, h⟩ := bind_eq_ok.mp h
  obtain ⟨cap, hcap, h⟩ := bind_eq_ok.mp h
  obtain ⟨ex, hex, h⟩ := bind_eq_ok.mp h
  rw [← Except.ok.inj h]

/-- The reduced costs of the code are those of the specification. -/
theorem reduced_eq {csts : List Merged} {n : Nat} {z : ZSlv} (hz : makeZ csts n = .ok z)
    (c : CostFun) (m : Mem) (x : Assign) (j : Nat) :
    reduced z.slv c m x j = absReducedCost csts m.pi m.P (c j x) j := by
  unfold reduced absReducedCost column
  rw [(makeZ_facts hz).1, makeZ_slv hz]
  rw [abs_column_sum (fun i => m.pi i + m.P i j) _ (fun r _ e _ => rfl), List.zipIdx_map]
  simp only [List.map_map]
  rfl

/-- Two memories that differ on the constraint `k` only. -/
theorem absReducedCost_diff {csts : List Merged} {k : Nat} {c : Merged} (hk : csts[k]? = some c)
    {pi pi' : Nat → Rat} {P P' : Nat → Nat → Rat} (j : Nat)
    (hpi : ∀ i, i ≠ k → pi' i = pi i) (hP : ∀ i, i ≠ k → P' i j = P i j) (q : Rat) :
    absReducedCost csts pi' P' q j = absReducedCost csts pi P q j -
      (absCoef c.elems j : Rat) * ((pi' k + P' k j) - (pi k + P k j)) := by
  have := sum_zipIdx_at (fun q : Merged × Nat => (absCoef q.1.elems j : Rat) * (pi' q.2 + P' q.2 j))
    (fun q : Merged × Nat => (absCoef q.1.elems j : Rat) * (pi q.2 + P q.2 j)) k c csts 0
    (Nat.zero_le _) (by simpa using hk) (fun q _ hq => by
      show _ * (pi' q.2 + P' q.2 j) = _
      rw [hpi _ hq, hP _ hq])
  unfold absReducedCost
  simp only at this
  linarith

theorem absReducedCost_decrease {csts : List Merged} {k : Nat} {c : Merged} (hk : csts[k]? = some c)
    (m : Mem) (theta : Rat) (pi : Nat → Rat) (q : Rat) (j : Nat) :
    absReducedCost csts pi (decrease m k c.elems theta).P q j =
      absReducedCost csts pi (decayed m.P k theta) q j := by
  rw [absReducedCost_diff hk (pi := pi) (P := decayed m.P k theta) j (fun _ _ => rfl) ?_ q]
  · by_cases hj : ∃ e ∈ c.elems, e.var = j
    · have : (decrease m k c.elems theta).P k j = decayed m.P k theta k j := by
        simp [decrease, decayed, hj]
      rw [this]
      ring
    · rw [absCoef_of_not_mem (fun e he hv => hj ⟨e, he, hv⟩)]
      simp
  · intro i hi
    simp [decrease, decayed, hi]

/-! ## The assignment is the one of `Verif.Model.ZSolver` -/

theorem turn_fst {s : Slv} {c : CostFun} {row : List FunElem} {k : Nat} {up : Bool} {d : Rat} :
    ∀ (is : List Nat) (x : Assign) (m : Mem),
      (turn s c row k up d is x m).map Prod.fst = setAll row up x is
  | [], _, _ => rfl
  | i :: is, x, m => by
    unfold turn setAll
    cases row[i]? with
    | none => rfl
    | some e => exact turn_fst is _ _

theorem map_bind_fst {α β : Type} {o : Outcome (α × β)} {f : α × β → Outcome (α × β)}
    {g : α → Outcome α} (h : ∀ r, (f r).map Prod.fst = g r.1) :
    (o >>= f).map Prod.fst = o.map Prod.fst >>= g := by
  cases o with
  | error e => rfl
  | ok r => exact h r

theorem affect_fst (z : ZSlv) (stale : Rc) (p : Param) (c : CostFun) (k : Nat) (row : List FunElem)
    (R : List Rc) (sel : Int) (x : Assign) (m : Mem) :
    (affect z stale p c k row R sel x m).map Prod.fst =
      localAffectX z.slv row (R.map Rc.id) sel x := by
  unfold affect localAffectX
  dsimp only
  by_cases h0 : sel < 0
  · rw [if_pos h0, if_pos h0]
    cases readR z.slv 0 with
    | error f => rfl
    | ok u => exact turn_fst _ _ _
  · rw [if_neg h0, if_neg h0]
    by_cases h1 : sel + 1 ≥ (R.map Rc.id).length
    · rw [if_pos h1, if_pos h1]
      cases readR z.slv sel with
      | error f => rfl
      | ok u => exact turn_fst _ _ _
    · rw [if_neg h1, if_neg h1]
      cases readR z.slv sel with
      | error f => rfl
      | ok u =>
        simp only [ok_bind]
        cases readR z.slv (sel + 1) with
        | error f => rfl
        | ok u =>
          simp only [ok_bind]
          rw [map_bind_fst (g := fun x => setAll row false x ((R.map Rc.id).drop (sel + 1).toNat))
            (fun r => turn_fst _ _ _), turn_fst]

theorem update_fst (mode : ObjType) (o : ZOracle) (p : Param) (z : ZSlv) (c : CostFun) (k : Nat)
    (x : Assign) (m : Mem) {row : List FunElem} (hr : rowOf z.slv k = .ok row) :
    (update mode o p z c k x m).map Prod.fst =
      updateRowZ mode z (toRow o z c (decrease m k row p.theta) x p.push row) k x := by
  unfold update updateRowZ localAffect
  simp only [hr, ok_bind]
  cases boundOf z.slv k with
  | error f => rfl
  | ok b =>
    simp only [ok_bind]
    cases kindAt z k with
    | error f => rfl
    | ok kd =>
      simp only [ok_bind]
      cases choose mode z (toRow o z c (decrease m k row p.theta) x p.push row) k kd b
          (ZSolver.reduced (toRow o z c (decrease m k row p.theta) x p.push row).cost row) with
      | error f => rfl
      | ok out =>
        simp only [ok_bind]
        rw [← affect_fst z o.stale p c k row out.1 out.2 x (decrease m k row p.theta)]
        cases affect z o.stale p c k row out.1 out.2 x (decrease m k row p.theta) with
        | error f => rfl
        | ok r =>
          show Except.map Prod.fst (isValidConstraint z.slv k r.1 >>= _) =
            (isValidConstraint z.slv k r.1 >>= _)
          cases isValidConstraint z.slv k r.1 with
          | error f => rfl
          | ok v => cases v <;> rfl

theorem fst_ok {α β : Type} {o : Outcome (α × β)} {a : α} (h : o.map Prod.fst = .ok a) :
    ∃ b, o = .ok (a, b) := by
  cases o with
  | error f => simp [Except.map] at h
  | ok r => exact ⟨r.2, by rw [← Except.ok.inj h]⟩

theorem fst_error {α β : Type} {o : Outcome (α × β)} {f : Fault} (h : o.map Prod.fst = .error f) :
    o = .error f := by
  cases o with
  | error f' => simpa [Except.map] using h
  | ok r => simp [Except.map] at h

theorem toRow_ok {o : ZOracle} {mode : ObjType} (ho : o.Ok mode) (z : ZSlv) (c : CostFun) (m : Mem)
    (x : Assign) (push : Option Rat) (row : List FunElem) : (toRow o z c m x push row).Ok mode :=
  ⟨fun l => (ho.1 l).1, ho.2.1, ho.2.2⟩

theorem update_eq {mode : ObjType} {o : ZOracle} {p : Param} {z : ZSlv} {c : CostFun} {k : Nat}
    {x x' : Assign} {m m' : Mem} {csts : List Merged} {n : Nat} (hz : makeZ csts n = .ok z)
    {d : Merged} (hk : csts[k]? = some d) (h : update mode o p z c k x m = .ok (x', m')) :
    ∃ out, choose mode z (toRow o z c (decrease m k d.elems p.theta) x p.push d.elems) k (kindOf d)
        (rowBound d) (ZSolver.reduced (costAt z.slv c (decrease m k d.elems p.theta) x p.push d.elems)
          d.elems) = .ok out ∧
      affect z o.stale p c k d.elems out.1 out.2 x (decrease m k d.elems p.theta) = .ok (x', m') := by
  obtain ⟨hr, hb, hkd, _⟩ := (makeZ_facts hz).2.2.2 k d hk
  unfold update at h
  simp only [hr, hb, hkd, ok_bind] at h
  obtain ⟨out, h1, h⟩ := bind_eq_ok.mp h
  obtain ⟨r, h2, h⟩ := bind_eq_ok.mp h
  obtain ⟨v, _, h⟩ := bind_eq_ok.mp h
  obtain ⟨_, _, h⟩ := bind_eq_ok.mp h
  rw [Except.ok.inj h] at h2
  exact ⟨out, h1, h2⟩

/-! ## The best assignment of the row -/

theorem reduced_cost {f : Nat → Rat} {row : List FunElem} {x : Assign} {y : Nat → Bool}
    {pr : Nat → Rat} (h : ∀ (i : Nat) (e : FunElem), row[i]? = some e → x e.var = y i ∧ f i = pr e.var) :
    Spec.cost y (ZSolver.reduced f row) = priceOf pr row x := by
  unfold Spec.cost ZSolver.reduced priceOf
  rw [List.map_map]
  conv_rhs => rw [← List.zipIdx_map_fst 0 row]
  rw [List.map_map]
  congr 1
  apply List.map_congr_left
  rintro ⟨e, i⟩ hp
  have he : row[i]? = some e := by simpa using List.mem_zipIdx_iff_getElem?.mp hp
  simp only [Function.comp_apply]
  rw [(h i e he).1, (h i e he).2]

/-- An update whose sub-solver keeps `out` gives the row the values of `out`. -/
theorem update_chosen {mode : ObjType} {o : ZOracle} (ho : o.Ok mode) {p : Param} {z : ZSlv}
    {c : CostFun} {k : Nat}
    {x x' : Assign} {m m' : Mem} {csts : List Merged} {n : Nat} (hz : makeZ csts n = .ok z)
    {d : Merged} (hk : csts[k]? = some d) (hnd : (d.elems.map FunElem.var).Nodup)
    {out : List Rc × Int}
    (h1 : choose mode z (toRow o z c (decrease m k d.elems p.theta) x p.push d.elems) k (kindOf d)
        (rowBound d) (ZSolver.reduced (costAt z.slv c (decrease m k d.elems p.theta) x p.push d.elems)
          d.elems) = .ok out)
    (hp : out.1.Perm (ZSolver.reduced (costAt z.slv c (decrease m k d.elems p.theta) x p.push d.elems)
      d.elems)) (hle : out.2 ≤ d.elems.length)
    (hw : (rowBound d).min ≤ weight (chosen out) (ZSolver.reduced
        (costAt z.slv c (decrease m k d.elems p.theta) x p.push d.elems) d.elems) ∧
      weight (chosen out) (ZSolver.reduced
        (costAt z.slv c (decrease m k d.elems p.theta) x p.push d.elems) d.elems) ≤ (rowBound d).max)
    (h : update mode o p z c k x m = .ok (x', m')) :
    satM x' d ∧ ∀ (i : Nat) (e : FunElem), d.elems[i]? = some e → x' e.var = chosen out i := by
  obtain ⟨hr, hb, hkd, _⟩ := (makeZ_facts hz).2.2.2 k d hk
  have hf := update_fst mode o p z c k x m hr
  rw [h] at hf
  have hf : updateRowZ mode z (toRow o z c (decrease m k d.elems p.theta) x p.push d.elems) k x =
    .ok x' := hf.symm
  unfold updateRowZ at hf
  simp only [hr, hb, hkd, ok_bind] at hf
  have h1' : choose mode z (toRow o z c (decrease m k d.elems p.theta) x p.push d.elems) k (kindOf d)
        (rowBound d) (ZSolver.reduced (toRow o z c (decrease m k d.elems p.theta) x p.push d.elems).cost
          d.elems) = .ok out := h1
  rw [h1', ok_bind] at hf
  rcases affect_of_choose hz hk hnd hp hle hw x with ⟨x'', g1, g2, g3⟩ | ⟨g1, _⟩
  · rw [g1] at hf
    have := Except.ok.inj hf
    subst this
    exact ⟨g2, g3⟩
  · rw [g1] at hf
    cases hf

/-- The positions of an assignment. -/
theorem chosen_of (row : List FunElem) (y : Assign) :
    ∃ f : Nat → Bool, ∀ (i : Nat) (e : FunElem), row[i]? = some e → y e.var = f i :=
  ⟨fun i => ((row[i]?).map fun e => y e.var).getD false, fun i e he => by simp [he]⟩

/-! ## Multipliers and preferences -/

theorem reduced_congr {s : Slv} {c : CostFun} {m m' : Mem} {x x' : Assign} {j : Nat}
    (hpi : m.pi = m'.pi) (hP : ∀ i, m.P i j = m'.P i j) (hc : c j x = c j x') :
    reduced s c m x j = reduced s c m' x' j := by
  unfold reduced
  rw [hc]
  congr 2
  apply List.map_congr_left
  intro p _
  rw [hpi, hP]

/-- The change of a preference. -/
def change (up : Bool) (rep d : Rat) : Rat :=
  if up then d + (if rep ≥ 0 then -rep + d else 0) else -d + (if rep ≤ 0 then rep - d else 0)

theorem repaired_eq (up : Bool) (rep d : Rat) (m : Mem) (k j : Nat) :
    repaired up rep d (addP m k j (if up then d else -d)) k j = addP m k j (change up rep d) := by
  unfold repaired change
  cases up
  · by_cases h : rep ≤ 0
    · simp only [Bool.false_eq_true, if_false, h, if_true, addP, Mem.mk.injEq, true_and]
      funext a b
      split <;> ring
    · simp [h]
  · by_cases h : rep ≥ 0
    · simp only [h, if_true, addP, Mem.mk.injEq, true_and]
      funext a b
      split <;> ring
    · simp [h]

theorem turn_spec {s : Slv} {c : CostFun} {row : List FunElem} (hnd : (row.map FunElem.var).Nodup)
    {k : Nat} {up : Bool} {d : Rat} :
    ∀ (is : List Nat) (x x' : Assign) (m m' : Mem), is.Nodup →
      turn s c row k up d is x m = .ok (x', m') →
      m'.pi = m.pi ∧
      (∀ a b, (a ≠ k ∨ ∀ (i : Nat) (e : FunElem), i ∈ is → row[i]? = some e → e.var ≠ b) →
        m'.P a b = m.P a b) ∧
      (∀ b, (∀ (i : Nat) (e : FunElem), i ∈ is → row[i]? = some e → e.var ≠ b) → x' b = x b) ∧
      ∀ (i : Nat) (e : FunElem), i ∈ is → row[i]? = some e → x' e.var = up ∧
        ∃ y, m'.P k e.var = m.P k e.var +
          change up (reduced s c (addP m k e.var (if up then d else -d)) y e.var) d
  | [], x, x', m, m', _, h => by
    have := Except.ok.inj h
    simp only [Prod.mk.injEq] at this
    obtain ⟨rfl, rfl⟩ := this
    exact ⟨rfl, fun _ _ _ => rfl, fun _ _ => rfl, by simp⟩
  | a :: is, x, x', m, m', hn, h => by
    rw [List.nodup_cons] at hn
    unfold turn at h
    cases ha : row[a]? with
    | none => rw [ha] at h; cases h
    | some f =>
      rw [ha] at h
      simp only [repaired_eq] at h
      obtain ⟨h1, h2, h3, h4⟩ := turn_spec hnd is _ _ _ _ hn.2 h
      have hother : ∀ (i : Nat) (e : FunElem), i ∈ is → row[i]? = some e → e.var ≠ f.var := by
        intro i e hi he hv
        have := pos_inj hnd he ha hv
        subst this
        exact hn.1 hi
      refine ⟨h1, fun b b' hb => ?_, fun b hb => ?_, fun i e hi he => ?_⟩
      · rw [h2 b b' (by
          rcases hb with hb | hb
          · exact Or.inl hb
          · exact Or.inr fun i e hi he => hb i e (by simp [hi]) he)]
        show (if b = k ∧ b' = f.var then _ else _) = _
        rw [if_neg]
        rintro ⟨e1, e2⟩
        rcases hb with hb | hb
        · exact hb e1
        · exact hb a f (by simp) ha e2.symm
      · rw [h3 b fun i e hi he => hb i e (by simp [hi]) he]
        have := hb a f (by simp) ha
        simp [write, Ne.symm this]
      · rcases List.mem_cons.mp hi with rfl | hi
        · rw [ha] at he
          have := Option.some.inj he
          subst this
          refine ⟨?_, write x f.var up, ?_⟩
          · rw [h3 f.var hother]
            simp [write]
          · rw [h2 k f.var (Or.inr hother)]
            show (if k = k ∧ f.var = f.var then _ else _) = _
            rw [if_pos ⟨rfl, rfl⟩]
        · obtain ⟨g1, y, g2⟩ := h4 i e hi he
          refine ⟨g1, y, ?_⟩
          have hne := hother i e hi he
          have e1 : (addP m k f.var (change up (reduced s c
              (addP m k f.var (if up then d else -d)) (write x f.var up) f.var) d)).P k e.var =
              m.P k e.var := by
            show (if k = k ∧ e.var = f.var then _ else _) = _
            rw [if_neg (fun h => hne h.2)]
          rw [g2, e1]
          congr 2
          apply reduced_congr
          · rfl
          · intro b
            show (if b = k ∧ e.var = e.var then _ else _) = (if b = k ∧ e.var = e.var then _ else _)
            have e2 : (addP m k f.var (change up (reduced s c
              (addP m k f.var (if up then d else -d)) (write x f.var up) f.var) d)).P b e.var =
              m.P b e.var := by
              show (if b = k ∧ e.var = f.var then _ else _) = _
              rw [if_neg (fun h => hne h.2)]
            rw [e2]
          · rfl

/-- What `local_affect` does to the row. -/
theorem affect_spec {z : ZSlv} {stale : Rc} {p : Param} {c : CostFun} {k : Nat} {row : List FunElem}
    (hnd : (row.map FunElem.var).Nodup) {R : List Rc} {sel : Int} {x x' : Assign} {m m' : Mem}
    (hp : (R.map Rc.id).Perm (List.range row.length))
    (h : affect z stale p c k row R sel x m = .ok (x', m')) :
    m'.pi = (addPi m k (if sel < 0 then valueAt stale R 0 / 2
      else if sel + 1 ≥ row.length then valueAt stale R sel * (3 / 2)
      else (valueAt stale R sel + valueAt stale R (sel + 1)) / 2)).pi ∧
    (∀ a b, (a ≠ k ∨ ∀ e ∈ row, e.var ≠ b) → m'.P a b = m.P a b) ∧
    (∀ b, (∀ e ∈ row, e.var ≠ b) → x' b = x b) ∧
    ∀ e ∈ row, ∃ y, m'.P k e.var = m.P k e.var + change (x' e.var)
      (reduced z.slv c ⟨m'.pi, (addP m k e.var (if x' e.var then step p else -step p)).P⟩ y e.var)
      (step p) := by
  have hlen : (R.map Rc.id).length = row.length := by rw [hp.length_eq]; simp
  have hidn : (R.map Rc.id).Nodup := hp.nodup_iff.mpr List.nodup_range
  have hmem : ∀ (i : Nat) (e : FunElem), row[i]? = some e → i ∈ R.map Rc.id := fun i e he =>
    hp.mem_iff.mpr (List.mem_range.mpr (List.getElem?_eq_some_iff.mp he).1)
  have one : ∀ (up : Bool) (v : Rat),
      turn z.slv c row k up (step p) (R.map Rc.id) x (addPi m k v) = .ok (x', m') →
      m'.pi = (addPi m k v).pi ∧
      (∀ a b, (a ≠ k ∨ ∀ e ∈ row, e.var ≠ b) → m'.P a b = m.P a b) ∧
      (∀ b, (∀ e ∈ row, e.var ≠ b) → x' b = x b) ∧
      ∀ e ∈ row, ∃ y, m'.P k e.var = m.P k e.var + change (x' e.var)
        (reduced z.slv c ⟨m'.pi, (addP m k e.var (if x' e.var then step p else -step p)).P⟩ y e.var)
        (step p) := by
    intro up v h
    obtain ⟨h1, h2, h3, h4⟩ := turn_spec hnd _ _ _ _ _ hidn h
    refine ⟨h1, fun a b hb => ?_, fun b hb => ?_, fun e he => ?_⟩
    · rw [h2 a b (by
        rcases hb with hb | hb
        · exact Or.inl hb
        · exact Or.inr fun i e _ he => hb e (List.mem_of_getElem? he))]
      rfl
    · exact h3 b fun i e _ he => hb e (List.mem_of_getElem? he)
    · obtain ⟨i, hi⟩ := List.getElem?_of_mem he
      obtain ⟨g1, y, g2⟩ := h4 i e (hmem i e hi) hi
      rw [g1]
      refine ⟨y, ?_⟩
      rw [g2, h1]
      rfl
  unfold affect at h
  dsimp only at h
  by_cases h0 : sel < 0
  · rw [if_pos h0] at h
    rw [if_pos h0]
    obtain ⟨_, _, h⟩ := bind_eq_ok.mp h
    exact one _ _ h
  · rw [if_neg h0] at h
    rw [if_neg h0]
    by_cases h1 : sel + 1 ≥ (R.map Rc.id).length
    · rw [if_pos h1] at h
      rw [if_pos (by omega)]
      obtain ⟨_, _, h⟩ := bind_eq_ok.mp h
      exact one _ _ h
    · rw [if_neg h1] at h
      rw [if_neg (by omega)]
      obtain ⟨_, _, h⟩ := bind_eq_ok.mp h
      obtain ⟨_, _, h⟩ := bind_eq_ok.mp h
      obtain ⟨⟨x1, m1⟩, ha, hb⟩ := bind_eq_ok.mp h
      dsimp only at hb
      have hsplit := List.take_append_drop (sel + 1).toNat (R.map Rc.id)
      rw [← hsplit] at hidn
      obtain ⟨n1, n2, hdis⟩ := List.nodup_append.mp hidn
      obtain ⟨a1, a2, a3, a4⟩ := turn_spec hnd _ _ _ _ _ n1 ha
      obtain ⟨b1, b2, b3, b4⟩ := turn_spec hnd _ _ _ _ _ n2 hb
      refine ⟨by rw [b1, a1], fun a b hb => ?_, fun b hb => ?_, fun e he => ?_⟩
      · have hb' : ∀ l : List Nat, a ≠ k ∨ ∀ (i : Nat) (e : FunElem), i ∈ l → row[i]? = some e →
            e.var ≠ b := by
          intro l
          rcases hb with hb | hb
          · exact Or.inl hb
          · exact Or.inr fun i e _ he => hb e (List.mem_of_getElem? he)
        rw [b2 a b (hb' _), a2 a b (hb' _)]
        rfl
      · rw [b3 b fun i e _ he => hb e (List.mem_of_getElem? he),
          a3 b fun i e _ he => hb e (List.mem_of_getElem? he)]
      · obtain ⟨i, hi⟩ := List.getElem?_of_mem he
        have hm := hmem i e hi
        rw [← hsplit, List.mem_append] at hm
        have hno : ∀ (l l' : List Nat), i ∈ l → (∀ q ∈ l, ∀ r ∈ l', q ≠ r) →
            ∀ (i' : Nat) (e' : FunElem), i' ∈ l' → row[i']? = some e' → e'.var ≠ e.var := by
          intro l l' hl hd i' e' hi' he' hv
          have := pos_inj hnd he' hi hv
          subst this
          exact hd i' hl i' hi' rfl
        rcases hm with hm | hm
        · obtain ⟨g1, y, g2⟩ := a4 i e hm hi
          have hn := hno _ _ hm hdis
          have hx : x' e.var = true := by rw [b3 _ hn, g1]
          rw [hx]
          refine ⟨y, ?_⟩
          rw [b2 k e.var (Or.inr hn), g2, b1, a1]
          rfl
        · obtain ⟨g1, y, g2⟩ := b4 i e hm hi
          have hn := hno _ _ hm fun q hq r hr => (hdis r hr q hq).symm
          rw [g1]
          refine ⟨y, ?_⟩
          have hP : ∀ b, m1.P b e.var = m.P b e.var := fun b => by
            rw [a2 b e.var (Or.inr hn)]; rfl
          rw [g2, hP]
          congr 2
          apply reduced_congr
          · show m1.pi = m'.pi
            rw [b1]
          · intro b
            show (if b = k ∧ e.var = e.var then _ else _) = (if b = k ∧ e.var = e.var then _ else _)
            rw [hP]
          · rfl

theorem marks_fst {ex : Ex} : ∀ {rc : List Rc} {start : Nat} {items : List (Rc × Bool)},
    marks ex start rc = .ok items → items.map Prod.fst = rc
  | [], _, _, h => by rw [← Except.ok.inj h]; rfl
  | c :: cs, start, items, h => by
    unfold marks at h
    obtain ⟨v, _, h⟩ := bind_eq_ok.mp h
    obtain ⟨r, hr, h⟩ := bind_eq_ok.mp h
    rw [← Except.ok.inj h, List.map_cons, marks_fst hr]

theorem exhaustive_perm {t : ObjType} {sort : List (Rc × Bool) → List (Rc × Bool)}
    (hs : SortOk (before t) sort) {ex : Ex} {k : Nat} {rc : List Rc} {out : List Rc × Int}
    (h : Exhaustive.solve rnd t sort ex k rc = .ok out) : out.1.Perm rc := by
  unfold Exhaustive.solve at h
  split at h
  · cases h
  · obtain ⟨_, _, h⟩ := bind_eq_ok.mp h
    obtain ⟨_, _, h⟩ := bind_eq_ok.mp h
    obtain ⟨items, hm, h⟩ := bind_eq_ok.mp h
    obtain ⟨_, _, h⟩ := bind_eq_ok.mp h
    rw [← Except.ok.inj h]
    have := (hs items).1.map Prod.fst
    rwa [marks_fst hm] at this

/-- Every choice reorders the row. -/
theorem choose_perm {t : ObjType} {csts : List Merged} {n : Nat} {z : ZSlv}
    (hz : makeZ csts n = .ok z) {k : Nat} {c : Merged} (hk : csts[k]? = some c)
    {o : ZRow} (ho : o.Ok t) {out : List Rc × Int}
    (h : choose t z o k (kindOf c) (rowBound c) (ZSolver.reduced o.cost c.elems) = .ok out) :
    out.1.Perm (ZSolver.reduced o.cost c.elems) := by
  obtain ⟨_, _, _, hct, hf, hbb, _⟩ := (makeZ_facts hz).2.2.2 k c hk
  obtain ⟨ho1, ho2, ho3⟩ := ho
  obtain ⟨k1, _⟩ := kindOf_facts c
  have hsp := ho1 (ZSolver.reduced o.cost c.elems)
  have bb : 10 ≤ c.elems.length → ∀ out, BranchBound.solve o.rnd t o.sort1 o.sort2
      (o.sort (ZSolver.reduced o.cost c.elems)) (rowBound c).min (rowBound c).max = .ok out →
      out.1.Perm (ZSolver.reduced o.cost c.elems) := by
    intro hl out h
    have hff := reduced_f o.cost c.elems
    obtain ⟨out', g1, g2, _⟩ := BranchBound.solve_spec (rnd := o.rnd) (t := t) ho2 ho3
      (rc := o.sort (ZSolver.reduced o.cost c.elems))
      (by rw [hsp.length_eq, reduced_length]; omega) (fun a ha => by
        have : a.f ∈ c.elems.map FunElem.factor := by
          rw [← hff]; exact List.mem_map.mpr ⟨a, hsp.mem_iff.mp ha, rfl⟩
        obtain ⟨e, he, he'⟩ := List.mem_map.mp this
        rw [← he']; exact hf e he)
      (((hsp.map Rc.id).nodup_iff).mpr (by rw [reduced_id]; exact List.nodup_range)) hbb
    rw [h] at g1
    rw [Except.ok.inj g1]
    exact g2.trans hsp
  have sel : ∀ (other : Outcome (List Rc × Int)),
      (∀ out, other = .ok out → out.1.Perm (ZSolver.reduced o.cost c.elems)) →
      (selectZ t z.slv.cap o.stale (o.sort (ZSolver.reduced o.cost c.elems)) (rowBound c) >>= fun sel =>
        orElse sel (o.sort (ZSolver.reduced o.cost c.elems)) other) = .ok out →
      out.1.Perm (ZSolver.reduced o.cost c.elems) := by
    intro other hother h
    obtain ⟨r, _, h⟩ := bind_eq_ok.mp h
    cases r with
    | some i =>
      rw [← Except.ok.inj h]
      exact hsp
    | none => exact hother out h
  unfold choose at h
  cases hkc : kindOf c with
  | branchAndBound =>
    rw [hkc] at h
    exact bb (k1 (Or.inl hkc)) out h
  | exhaustive =>
    rw [hkc] at h
    exact exhaustive_perm ho3 h
  | unconstrainedBranchAndBound =>
    rw [hkc] at h
    exact sel _ (bb (k1 (Or.inr hkc))) h
  | unconstrainedExhaustive =>
    rw [hkc] at h
    exact sel _ (fun out h => (exhaustive_perm ho3 h).trans hsp) h
  | linear =>
    rw [hkc] at h
    exact sel _ (fun out h => by rw [← Except.ok.inj h]; exact hsp) h

/-- What an update does to the multipliers and to the preferences. -/
theorem update_mem {mode : ObjType} {o : ZOracle} (ho : o.Ok mode) {p : Param} {z : ZSlv}
    {c : CostFun} {k : Nat}
    {x x' : Assign} {m m' : Mem} {csts : List Merged} {n : Nat} (hz : makeZ csts n = .ok z)
    {d : Merged} (hk : csts[k]? = some d) (hnd : (d.elems.map FunElem.var).Nodup)
    (h : update mode o p z c k x m = .ok (x', m')) :
    (∀ i, i ≠ k → m'.pi i = m.pi i) ∧
    (∀ a b, (a ≠ k ∨ ∀ e ∈ d.elems, e.var ≠ b) → m'.P a b = m.P a b) ∧
    (∀ b, (∀ e ∈ d.elems, e.var ≠ b) → x' b = x b) ∧
    ∀ e ∈ d.elems, ∃ y, m'.P k e.var = m.P k e.var * p.theta + change (x' e.var)
      (absReducedCost csts m'.pi (decayed m.P k p.theta) (c e.var y) e.var -
        (e.factor.natAbs : Rat) * (if x' e.var then step p else -step p)) (step p) := by
  obtain ⟨out, h1, h2⟩ := update_eq hz hk h
  have hp := choose_perm hz hk (toRow_ok ho _ _ _ _ _ _) h1
  have hids : (out.1.map Rc.id).Perm (List.range d.elems.length) := by
    have := hp.map Rc.id
    rwa [reduced_id] at this
  obtain ⟨g1, g2, g3, g4⟩ := affect_spec hnd hids h2
  refine ⟨fun i hi => ?_, fun a b hb => ?_, g3, fun e he => ?_⟩
  · rw [g1]
    show (if i = k then _ else _) = _
    rw [if_neg hi]
    rfl
  · rw [g2 a b hb]
    show (if _ then _ else _) = _
    rw [if_neg]
    rintro ⟨e1, e2⟩
    rcases hb with hb | hb
    · exact hb e1
    · obtain ⟨e, he, hv⟩ := List.mem_map.mp e2
      exact hb e he hv
  · obtain ⟨y, hy⟩ := g4 e he
    have e1 : (decrease m k d.elems p.theta).P k e.var = m.P k e.var * p.theta := by
      show (if _ then _ else _) = _
      rw [if_pos ⟨rfl, List.mem_map.mpr ⟨e, he, rfl⟩⟩]
    rw [e1] at hy
    refine ⟨y, ?_⟩
    rw [hy]
    congr 2
    rw [reduced_eq hz, absReducedCost_diff hk (pi := m'.pi) (P := decayed m.P k p.theta) e.var
      (fun _ _ => rfl) ?_, absCoef_of_nodup hnd he rfl]
    · congr 2
      show _ + (if k = k ∧ e.var = e.var then _ else _) - _ = _
      rw [if_pos ⟨rfl, rfl⟩, e1]
      simp only [decayed, if_true]
      ring
    · intro i hi
      show (if _ then _ else _) = _
      rw [if_neg (fun h => hi h.1)]
      simp [decrease, decayed, hi]

/-! ## The constructor -/

theorem ctors_ok {t : SolverType} {f : Merged → Bound} : ∀ {csts : List Merged},
    (∀ c ∈ csts, ctor t c = .ok (f c)) → ctors t csts = .ok (csts.map f)
  | [], _ => rfl
  | c :: cs, h => by
    unfold ctors
    rw [h c (by simp), ok_bind, ctors_ok fun d hd => h d (by simp [hd])]
    rfl

/-- The rows and the bounds are those of `Verif.Model.Itm`. -/
theorem makeZ_makeSlv {csts : List Merged} {n : Nat} {z : ZSlv} (h : makeZ csts n = .ok z) :
    makeSlv .inequalitiesZ csts n = .ok z.slv := by
  have hf := makeZ_facts h
  unfold makeZ at h
  obtain ⟨mat, hm, h⟩ := bind_eq_ok.mp h
  obtain ⟨cap, hcap, h⟩ := bind_eq_ok.mp h
  obtain ⟨ex, hex, h⟩ := bind_eq_ok.mp h
  unfold makeSlv
  rw [hm, ok_bind, hcap, ok_bind, ctors_ok (f := rowBound) fun c hc => by
    obtain ⟨k, hk⟩ := List.getElem?_of_mem hc
    exact (hf.2.2.2 k c hk).2.2.2.1, ok_bind, ← Except.ok.inj h]

theorem kindOf_short {c : Merged} (hbig : ∃ e ∈ c.elems, e.factor < -1 ∨ 1 < e.factor)
    (hl : c.elems.length < 10) (hside : c.min = c.max ∨
      ((∃ y, lhs y c.elems < c.min) ∧ ∃ y, c.max < lhs y c.elems)) : kindOf c = .exhaustive := by
  have hany : (c.elems.any fun e => decide (e.factor < -1) || decide (e.factor > 1)) = true := by
    obtain ⟨e, he, h⟩ := hbig
    exact List.any_eq_true.mpr ⟨e, he, by simpa using h⟩
  have hbase : baseKind c.elems = .exhaustive := by
    unfold baseKind; rw [if_pos hany, if_pos hl]
  unfold kindOf
  rw [hbase]
  rcases hside with h | ⟨⟨y, hy⟩, w, hw⟩
  · simp [h]
  · have h1 := lhs_ge_lower y c.elems
    have h2 := lhs_le_upper w c.elems
    have : ¬ (lowerSum c.elems ≥ c.min ∨ upperSum c.elems ≤ c.max) := by omega
    simp [this]

theorem kindOf_long {c : Merged} (hbig : ∃ e ∈ c.elems, e.factor < -1 ∨ 1 < e.factor)
    (hl : 10 ≤ c.elems.length) (hside : c.min = c.max ∨
      ((∃ y, lhs y c.elems < c.min) ∧ ∃ y, c.max < lhs y c.elems)) : kindOf c = .branchAndBound := by
  have hany : (c.elems.any fun e => decide (e.factor < -1) || decide (e.factor > 1)) = true := by
    obtain ⟨e, he, h⟩ := hbig
    exact List.any_eq_true.mpr ⟨e, he, by simpa using h⟩
  have hbase : baseKind c.elems = .branchAndBound := by
    unfold baseKind; rw [if_pos hany, if_neg (by omega)]
  unfold kindOf
  rw [hbase]
  rcases hside with h | ⟨⟨y, hy⟩, w, hw⟩
  · simp [h]
  · have h1 := lhs_ge_lower y c.elems
    have h2 := lhs_le_upper w c.elems
    have : ¬ (lowerSum c.elems ≥ c.min ∨ upperSum c.elems ≤ c.max) := by omega
    simp [this]

/-! ## Optimality -/

/-- A selection of the sub-solver that is best gives the best assignment. -/
theorem update_best {mode : ObjType} {o : ZOracle} (ho : o.Ok mode) {p : Param} {z : ZSlv}
    {c : CostFun} {k : Nat} {x x' : Assign} {m m' : Mem} {csts : List Merged} {n : Nat}
    (hz : makeZ csts n = .ok z) {d : Merged} (hk : csts[k]? = some d)
    (hnd : (d.elems.map FunElem.var).Nodup) {out : List Rc × Int}
    (h1 : choose mode z (toRow o z c (decrease m k d.elems p.theta) x p.push d.elems) k (kindOf d)
        (rowBound d) (ZSolver.reduced (costAt z.slv c (decrease m k d.elems p.theta) x p.push d.elems)
          d.elems) = .ok out)
    (hp : out.1.Perm (ZSolver.reduced (costAt z.slv c (decrease m k d.elems p.theta) x p.push d.elems)
      d.elems)) (hle : out.2 ≤ d.elems.length)
    (hw : (rowBound d).min ≤ weight (chosen out) (ZSolver.reduced
        (costAt z.slv c (decrease m k d.elems p.theta) x p.push d.elems) d.elems) ∧
      weight (chosen out) (ZSolver.reduced
        (costAt z.slv c (decrease m k d.elems p.theta) x p.push d.elems) d.elems) ≤ (rowBound d).max)
    (pr : Nat → Rat) (hpr : ∀ e ∈ d.elems,
      valueOf z.slv c (decrease m k d.elems p.theta) x p.push e.var = pr e.var)
    (y : Assign) (hy : satM y d)
    (hbest : ∀ f : Nat → Bool, (∀ (i : Nat) (e : FunElem), d.elems[i]? = some e → y e.var = f i) →
      (rowBound d).min ≤ weight f (ZSolver.reduced
        (costAt z.slv c (decrease m k d.elems p.theta) x p.push d.elems) d.elems) →
      weight f (ZSolver.reduced
        (costAt z.slv c (decrease m k d.elems p.theta) x p.push d.elems) d.elems) ≤ (rowBound d).max →
      AtLeastAsGood mode (Spec.cost (chosen out) (ZSolver.reduced
        (costAt z.slv c (decrease m k d.elems p.theta) x p.push d.elems) d.elems))
        (Spec.cost f (ZSolver.reduced
        (costAt z.slv c (decrease m k d.elems p.theta) x p.push d.elems) d.elems)))
    (h : update mode o p z c k x m = .ok (x', m')) :
    AtLeastAsGood mode (priceOf pr d.elems x') (priceOf pr d.elems y) := by
  obtain ⟨_, hch⟩ := update_chosen ho hz hk hnd h1 hp hle hw h
  obtain ⟨f, hf⟩ := chosen_of d.elems y
  have hct := ((makeZ_facts hz).2.2.2 k d hk).2.2.2.1
  have hv : ∀ (i : Nat) (e : FunElem), d.elems[i]? = some e →
      costAt z.slv c (decrease m k d.elems p.theta) x p.push d.elems i = pr e.var := by
    intro i e he
    unfold costAt
    rw [he]
    exact hpr e (List.mem_of_getElem? he)
  rw [← reduced_cost (f := costAt z.slv c (decrease m k d.elems p.theta) x p.push d.elems)
      (x := x') (y := chosen out) (pr := pr) fun i e he => ⟨hch i e he, hv i e he⟩,
    ← reduced_cost (f := costAt z.slv c (decrease m k d.elems p.theta) x p.push d.elems)
      (x := y) (y := f) (pr := pr) fun i e he => ⟨hf i e he, hv i e he⟩]
  have hwf := (ctor_exact hct y).mpr hy
  rw [← reduced_weight (cost := costAt z.slv c (decrease m k d.elems p.theta) x p.push d.elems) hf]
    at hwf
  exact hbest f hf hwf.1 hwf.2

/-- The short rows: the exhaustive sub-solver. -/
theorem update_short {mode : ObjType} {o : ZOracle} (ho : o.Ok mode) {p : Param} {z : ZSlv}
    {c : CostFun} {k : Nat} {x x' : Assign} {m m' : Mem} {csts : List Merged} {n : Nat}
    (hz : makeZ csts n = .ok z) {d : Merged} (hk : csts[k]? = some d)
    (hnd : (d.elems.map FunElem.var).Nodup) (hkind : kindOf d = .exhaustive) (h2 : 2 ≤ d.elems.length)
    (pr : Nat → Rat) (hpr : ∀ e ∈ d.elems,
      valueOf z.slv c (decrease m k d.elems p.theta) x p.push e.var = pr e.var)
    (y : Assign) (hy : satM y d) (h : update mode o p z c k x m = .ok (x', m')) :
    AtLeastAsGood mode (priceOf pr d.elems x') (priceOf pr d.elems y) := by
  obtain ⟨_, _, _, hct, hf, hbb, hready⟩ := (makeZ_facts hz).2.2.2 k d hk
  obtain ⟨out, g1, g2, g3, g4, _, g6, g7, g8⟩ := Exhaustive.solve_spec_id (t := mode) ho.2.2
    (hready (Or.inl hkind)) ((kindOf_facts d).2 (Or.inl hkind)) hf
    (reduced_f (costAt z.slv c (decrease m k d.elems p.theta) x p.push d.elems) d.elems)
    (by rw [reduced_id]; exact List.nodup_range)
  refine update_best ho hz hk hnd (out := out) ?_ g2 (by rw [reduced_length] at g4; omega) ⟨g6, g7⟩
    pr hpr y hy (fun f _ => g8 h2 f) h
  rw [hkind]
  exact g1

/-- The long rows with positive coefficients: the branch-and-bound sub-solver. -/
theorem update_long {mode : ObjType} {o : ZOracle} (ho : o.Ok mode) {p : Param} {z : ZSlv}
    {c : CostFun} {k : Nat} {x x' : Assign} {m m' : Mem} {csts : List Merged} {n : Nat}
    (hz : makeZ csts n = .ok z) {d : Merged} (hk : csts[k]? = some d)
    (hnd : (d.elems.map FunElem.var).Nodup) (hkind : kindOf d = .branchAndBound)
    (hpos : ∀ e ∈ d.elems, 0 < e.factor)
    (pr : Nat → Rat) (hpr : ∀ e ∈ d.elems,
      valueOf z.slv c (decrease m k d.elems p.theta) x p.push e.var = pr e.var)
    (y : Assign) (hy : satM y d) (htwo : ∃ e ∈ d.elems, ∃ e' ∈ d.elems, e.var ≠ e'.var ∧
      y e.var = true ∧ y e'.var = true) (h : update mode o p z c k x m = .ok (x', m')) :
    AtLeastAsGood mode (priceOf pr d.elems x') (priceOf pr d.elems y) := by
  obtain ⟨_, _, _, hct, hf, hbb, _⟩ := (makeZ_facts hz).2.2.2 k d hk
  have h10 := (kindOf_facts d).1 (Or.inl hkind)
  set rc := ZSolver.reduced (costAt z.slv c (decrease m k d.elems p.theta) x p.push d.elems) d.elems
    with hrc
  have hsp := (ho.1 rc).1
  have hff := reduced_f (costAt z.slv c (decrease m k d.elems p.theta) x p.push d.elems) d.elems
  rw [← hrc] at hff
  have hfac : ∀ a ∈ o.sort rc, ∃ e ∈ d.elems, e.factor = a.f := fun a ha => by
    have : a.f ∈ d.elems.map FunElem.factor := by
      rw [← hff]; exact List.mem_map.mpr ⟨a, hsp.mem_iff.mp ha, rfl⟩
    exact List.mem_map.mp this
  have hid : (rc.map Rc.id) = List.range d.elems.length := reduced_id _ _
  have hsid : ((o.sort rc).map Rc.id).Nodup :=
    ((hsp.map Rc.id).nodup_iff).mpr (by rw [hid]; exact List.nodup_range)
  have hrl : rc.length = d.elems.length := reduced_length _ _
  obtain ⟨out, g1, g2, g3, g4, _, g6, g7⟩ := BranchBound.solve_spec_id (t := mode) ho.2.1 ho.2.2
    (rc := o.sort rc) (by rw [hsp.length_eq, hrl]; omega)
    (fun a ha => by obtain ⟨e, he, he'⟩ := hfac a ha; rw [← he']; exact hf e he) hsid hbb
  have hsat : ∃ f, (rowBound d).min ≤ weight f (o.sort rc) ∧ weight f (o.sort rc) ≤ (rowBound d).max := by
    obtain ⟨f, hf⟩ := chosen_of d.elems y
    refine ⟨f, ?_⟩
    rw [weight_perm hsp, hrc, reduced_weight hf]
    exact (ctor_exact hct y).mpr hy
  have g6 := g6 hsat
  rw [weight_perm hsp] at g6
  refine update_best ho hz hk hnd (out := out) ?_ (g2.trans hsp)
    (by rw [hsp.length_eq, hrl] at g4; exact g4) g6 pr hpr y hy ?_ h
  · rw [hkind]
    exact g1
  · intro f hfy w1 w2
    rw [← hrc] at w1 w2 ⊢
    have hne : o.sort1 ((o.sort rc).map BranchBound.itemOf) ≠ [] := by
      intro hn
      have := (ho.2.1 ((o.sort rc).map BranchBound.itemOf)).length_eq
      rw [hn] at this
      simp only [List.length_nil, List.length_map, hsp.length_eq, hrl] at this
      omega
    obtain ⟨first, hfirst⟩ : ∃ first,
        (o.sort1 ((o.sort rc).map BranchBound.itemOf)).head? = some first := by
      cases hs : o.sort1 ((o.sort rc).map BranchBound.itemOf) with
      | nil => exact absurd hs hne
      | cons a l => exact ⟨a, rfl⟩
    have key := g7 (fun a ha => by obtain ⟨e, he, he'⟩ := hfac a ha; rw [← he']; exact hpos e he)
      first hfirst f (by rw [weight_perm hsp]; exact w1) (by rw [weight_perm hsp]; exact w2) ?_
    · have hcp : ∀ g, Spec.cost g (o.sort rc) = Spec.cost g rc := fun g =>
        (hsp.map _).sum_eq
      rwa [hcp, hcp] at key
    · obtain ⟨e, he, e', he', hne', hy1, hy2⟩ := htwo
      have pick : ∀ e ∈ d.elems, y e.var = true → ∃ i a, d.elems[i]? = some e ∧ a ∈ o.sort rc ∧
          a.id = i ∧ f i = true := by
        intro e he hye
        obtain ⟨i, hi⟩ := List.getElem?_of_mem he
        have hm : i ∈ rc.map Rc.id := by
          rw [hid]; exact List.mem_range.mpr (List.getElem?_eq_some_iff.mp hi).1
        obtain ⟨a, ha, hai⟩ := List.mem_map.mp hm
        exact ⟨i, a, hi, hsp.mem_iff.mpr ha, hai, by rw [← hfy i e hi]; exact hye⟩
      obtain ⟨i, a, hi, ha, hai, hfi⟩ := pick e he hy1
      obtain ⟨j, b, hj, hb, hbj, hfj⟩ := pick e' he' hy2
      by_cases hfst : i = first.variable_
      · refine ⟨b, hb, by rw [hbj]; exact hfj, ?_⟩
        rw [hbj]
        intro hjf
        have : i = j := by rw [hfst]; exact hjf.symm
        subst this
        rw [hi] at hj
        exact hne' (congrArg FunElem.var (Option.some.inj hj))
      · exact ⟨a, ha, by rw [hai]; exact hfi, by rw [hai]; exact hfst⟩

/-- The entry `i` of a reordered row is a variable of the row with its value. -/
theorem entry {z : ZSlv} {c : CostFun} {m : Mem} {x : Assign} {push : Option Rat} {row : List FunElem}
    {R : List Rc} (hp : R.Perm (ZSolver.reduced (costAt z.slv c m x push row) row)) {i : Nat}
    (hi : i < row.length) (stale : Rc) :
    ∃ q e, R[i]? = some q ∧ row[q.id]? = some e ∧ valueAt stale R i = valueOf z.slv c m x push e.var := by
  have hl : R.length = row.length := by rw [hp.length_eq]; simp [ZSolver.reduced]
  have hR : R[i]? = some R[i] := List.getElem?_eq_getElem (by omega)
  have hm := hp.mem_iff.mp (List.mem_of_getElem? hR)
  unfold ZSolver.reduced at hm
  obtain ⟨⟨e, j⟩, hj, he⟩ := List.mem_map.mp hm
  have hj : row[j]? = some e := by simpa using List.mem_zipIdx_iff_getElem?.mp hj
  refine ⟨R[i], e, hR, ?_, ?_⟩
  · rw [← he]
    exact hj
  · unfold valueAt
    rw [Int.toNat_natCast, hR]
    show R[i].value = _
    rw [← he]
    simp [costAt, hj]

/-- The multiplier of the row after an update. -/
theorem update_pi {mode : ObjType} {o : ZOracle} (ho : o.Ok mode) {p : Param} {z : ZSlv}
    {c : CostFun} {k : Nat}
    {x x' : Assign} {m m' : Mem} {csts : List Merged} {n : Nat} (hz : makeZ csts n = .ok z)
    {d : Merged} (hk : csts[k]? = some d) (hnd : (d.elems.map FunElem.var).Nodup)
    (hne : d.elems ≠ [])
    (h : update mode o p z c k x m = .ok (x', m')) :
    ((∀ e ∈ d.elems, x' e.var = false) ∧ ∃ e ∈ d.elems, m'.pi k = m.pi k +
        valueOf z.slv c (decrease m k d.elems p.theta) x p.push e.var / 2) ∨
    (∀ e ∈ d.elems, x' e.var = true) ∨
    ∃ e ∈ d.elems, ∃ e' ∈ d.elems, x' e.var = true ∧ x' e'.var = false ∧ m'.pi k = m.pi k +
      (valueOf z.slv c (decrease m k d.elems p.theta) x p.push e.var +
        valueOf z.slv c (decrease m k d.elems p.theta) x p.push e'.var) / 2 := by
  obtain ⟨out, h1, h2⟩ := update_eq hz hk h
  have hp := choose_perm hz hk (toRow_ok ho _ _ _ _ _ _) h1
  have hids : (out.1.map Rc.id).Perm (List.range d.elems.length) := by
    have := hp.map Rc.id
    rwa [reduced_id] at this
  obtain ⟨g1, _⟩ := affect_spec hnd hids h2
  have gk := congrFun g1 k
  simp only [addPi, if_true] at gk
  have hpi : (decrease m k d.elems p.theta).pi k = m.pi k := rfl
  rw [hpi] at gk
  have hx := affect_fst z o.stale p c k d.elems out.1 out.2 x (decrease m k d.elems p.theta)
  rw [h2] at hx
  obtain ⟨hkind, hcap, hge, hrows⟩ := makeZ_facts hz
  have hlen := hge d (List.mem_of_getElem? hk)
  have hl : 0 < d.elems.length := List.length_pos_iff.mpr hne
  have hs : out.2 < z.slv.cap := by
    by_contra hs
    rw [localAffectX_ub hlen hids hcap (by omega) x] at hx
    cases hx
  obtain ⟨x'', k1, _, k3⟩ := localAffectX_spec hnd hids hcap hlen hs x
  rw [k1] at hx
  have hx : x' = x'' := Except.ok.inj hx
  subst hx
  have hidl : (out.1.map Rc.id).length = d.elems.length := by rw [hids.length_eq]; simp
  have hidn : (out.1.map Rc.id).Nodup := hids.nodup_iff.mpr List.nodup_range
  by_cases h0 : out.2 < 0
  · left
    rw [if_pos h0] at gk
    obtain ⟨q, e, _, he, hv⟩ := entry hp hl o.stale
    refine ⟨fun f hf => ?_, e, List.mem_of_getElem? he, ?_⟩
    · obtain ⟨i, hi⟩ := List.getElem?_of_mem hf
      rw [k3 i f hi, show (out.2 + 1).toNat = 0 by omega]
      simp
    · rw [gk, show (0 : Int) = ((0 : Nat) : Int) from rfl, hv]
  · right
    rw [if_neg h0] at gk
    by_cases hf : out.2 + 1 ≥ d.elems.length
    · left
      intro f hf'
      obtain ⟨i, hi⟩ := List.getElem?_of_mem hf'
      rw [k3 i f hi, List.take_of_length_le (by omega), decide_eq_true_eq]
      exact hids.mem_iff.mpr (List.mem_range.mpr (List.getElem?_eq_some_iff.mp hi).1)
    · right
      rw [if_neg hf] at gk
      obtain ⟨a, ha⟩ := Int.eq_ofNat_of_zero_le (not_lt.mp h0)
      rw [ha] at gk hf k3
      obtain ⟨q, e, hq, he, hv⟩ := entry hp (i := a) (by omega) o.stale
      obtain ⟨q', e', hq', he', hv'⟩ := entry hp (i := a + 1) (by omega) o.stale
      have e1 : (((a : Nat) : Int) + 1).toNat = a + 1 := by omega
      rw [e1] at k3
      have i1 : (out.1.map Rc.id)[a]? = some q.id := by simp [hq]
      have i2 : (out.1.map Rc.id)[a + 1]? = some q'.id := by simp [hq']
      refine ⟨e, List.mem_of_getElem? he, e', List.mem_of_getElem? he', ?_, ?_, ?_⟩
      · rw [k3 _ _ he, decide_eq_true_eq]
        exact List.mem_of_getElem? (i := a) (by rw [List.getElem?_take_of_lt (by omega), i1])
      · rw [k3 _ _ he', decide_eq_false_iff_not]
        intro hm
        obtain ⟨b, hb⟩ := List.getElem?_of_mem hm
        rw [List.getElem?_take] at hb
        split at hb
        · rename_i hlt
          have := (List.getElem?_inj (List.getElem?_eq_some_iff.mp hb).1 hidn).mp (hb.trans i2.symm)
          omega
        · cases hb
      · have e2 : valueAt o.stale out.1 ((a : Int) + 1) = valueAt o.stale out.1 ((a + 1 : Nat) : Int) := by
          rw [Nat.cast_add, Nat.cast_one]
        rw [gk, e2, hv']
        show m.pi k + (valueAt o.stale out.1 (a : Int) + _) / 2 = _
        rw [hv]

end Bx.ZNum
