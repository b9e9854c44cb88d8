import Verif.Model.RoundedZ
import Verif.Spec.RoundedZ
import Verif.Proofs.RoundedRows
import Verif.Proofs.ZNumeric

/-! Helper lemmas: row updates with integer coefficients and rounding. -/

namespace Bx.RoundedZ

open Merge SolverCtor Spec Exhaustive Itm Mult ZSolver
open ZNum (ZOracle valueAt)

/-! ## The computed reduced costs -/

theorem sumColumn_eq (rnd : Rat → Rat) (m : Mem) (j : Nat) : ∀ (l : List (Nat × Int)) (acc : Rat),
    sumColumn rnd m j acc l = Rounded.rsum rnd acc (l.map fun o =>
      rnd (rnd (o.2.natAbs : Rat) * rnd (m.pi o.1 + m.P o.1 j)))
  | [], _ => rfl
  | p :: ps, acc => by
    unfold sumColumn
    rw [sumColumn_eq rnd m j ps]
    rfl

theorem reduced_eq {csts : List Merged} {n : Nat} {z : ZSlv} (hz : makeZ csts n = .ok z)
    (rnd : Rat → Rat) (c : CostFun) (m : Mem) (x : Assign) (j : Nat) :
    reduced rnd z.slv c m x j = computedAbsCost rnd csts m.pi m.P (c j x) j := by
  unfold reduced computedAbsCost
  rw [RoundedRows.column_occurrences (ZNum.makeZ_makeSlv hz), sumColumn_eq]
  rfl

theorem absReducedCost_occurrences {csts : List Merged} {n : Nat} {z : ZSlv}
    (hz : makeZ csts n = .ok z) (pi : Nat → Rat) (P : Nat → Nat → Rat) (c : Rat) (j : Nat) :
    absReducedCost csts pi P c j =
      c - ((occurrences csts j).map fun o => (o.2.natAbs : Rat) * (pi o.1 + P o.1 j)).sum := by
  rw [← ZNum.reduced_eq hz (fun _ _ => c) ⟨pi, P⟩ (fun _ => false) j]
  unfold ZNum.reduced
  rw [RoundedRows.column_occurrences (ZNum.makeZ_makeSlv hz)]

theorem computedAbsCost_congr {csts : List Merged} {j : Nat} {P P' : Nat → Nat → Rat} (rnd : Rat → Rat)
    (pi : Nat → Rat) (c : Rat)
    (h : ∀ i d, csts[i]? = some d → (∃ e ∈ d.elems, e.var = j) → P i j = P' i j) :
    computedAbsCost rnd csts pi P c j = computedAbsCost rnd csts pi P' c j := by
  unfold computedAbsCost
  congr 3
  apply List.map_congr_left
  intro o ho
  obtain ⟨d, hd, he⟩ := RoundedRows.mem_occurrences ho
  rw [h o.1 d hd he]

theorem computedAbsCost_decrease {csts : List Merged} {k : Nat} {c : Merged} (hk : csts[k]? = some c)
    (rnd : Rat → Rat) (m : Mem) (theta : Rat) (pi : Nat → Rat) (q : Rat) (j : Nat) :
    computedAbsCost rnd csts pi (RoundedRows.decrease rnd m k c.elems theta).P q j =
      computedAbsCost rnd csts pi (decayedR rnd m.P k theta) q j := by
  apply computedAbsCost_congr
  intro i d hd he
  unfold RoundedRows.decrease decayedR
  simp only
  by_cases hi : i = k
  · subst hi
    rw [hk] at hd
    cases hd
    obtain ⟨e, he, hj⟩ := he
    rw [if_pos ⟨rfl, List.mem_map.mpr ⟨e, he, hj⟩⟩, if_pos rfl]
  · simp [hi]

/-! ## The assignment is the one of `Verif.Model.ZSolver` -/

theorem turn_fst {rnd : Rat → Rat} {s : Slv} {c : CostFun} {row : List FunElem} {k : Nat} {up : Bool}
    {d : Rat} : ∀ (is : List Nat) (x : Assign) (m : Mem),
      (turn rnd s c row k up d is x m).map Prod.fst = setAll row up x is
  | [], _, _ => rfl
  | i :: is, x, m => by
    unfold turn setAll
    cases row[i]? with
    | none => rfl
    | some e => exact turn_fst is _ _

theorem affect_fst (rnd : Rat → Rat) (z : ZSlv) (stale : Rc) (p : Param) (c : CostFun) (k : Nat)
    (row : List FunElem) (R : List Rc) (sel : Int) (x : Assign) (m : Mem) :
    (affect rnd z stale p c k row R sel x m).map Prod.fst =
      localAffectX z.slv row (R.map Rc.id) sel x := by
  unfold affect localAffectX
  dsimp only
  by_cases h0 : sel < 0
  · rw [if_pos h0, if_pos h0]
    cases readR z.slv 0 with
    | error f => rfl
    | ok u => exact turn_fst _ _ _
  · rw [if_neg h0, if_neg h0]
    by_cases h1 : sel + 1 ≥ (R.map Rc.id).length
    · rw [if_pos h1, if_pos h1]
      cases readR z.slv sel with
      | error f => rfl
      | ok u => exact turn_fst _ _ _
    · rw [if_neg h1, if_neg h1]
      cases readR z.slv sel with
      | error f => rfl
      | ok u =>
        simp only [ok_bind]
        cases readR z.slv (sel + 1) with
        | error f => rfl
        | ok u =>
          simp only [ok_bind]
          rw [ZNum.map_bind_fst
            (g := fun x => setAll row false x ((R.map Rc.id).drop (sel + 1).toNat))
            (fun r => turn_fst _ _ _), turn_fst]

theorem update_fst (rnd : Rat → Rat) (mode : ObjType) (o : ZOracle) (p : Param) (z : ZSlv) (c : CostFun)
    (k : Nat) (x : Assign) (m : Mem) {row : List FunElem} (hr : rowOf z.slv k = .ok row) :
    (update rnd mode o p z c k x m).map Prod.fst =
      updateRowZ mode z (toRow rnd o z c (RoundedRows.decrease rnd m k row p.theta) x p.push row) k x := by
  unfold update updateRowZ localAffect
  simp only [hr, ok_bind]
  cases boundOf z.slv k with
  | error f => rfl
  | ok b =>
    simp only [ok_bind]
    cases kindAt z k with
    | error f => rfl
    | ok kd =>
      simp only [ok_bind]
      cases choose mode z (toRow rnd o z c (RoundedRows.decrease rnd m k row p.theta) x p.push row) k kd
          b (ZSolver.reduced (toRow rnd o z c (RoundedRows.decrease rnd m k row p.theta) x p.push
            row).cost row) with
      | error f => rfl
      | ok out =>
        simp only [ok_bind]
        rw [← affect_fst rnd z o.stale p c k row out.1 out.2 x
          (RoundedRows.decrease rnd m k row p.theta)]
        cases affect rnd z o.stale p c k row out.1 out.2 x
            (RoundedRows.decrease rnd m k row p.theta) with
        | error f => rfl
        | ok r =>
          show Except.map Prod.fst (isValidConstraint z.slv k r.1 >>= _) =
            (isValidConstraint z.slv k r.1 >>= _)
          cases isValidConstraint z.slv k r.1 with
          | error f => rfl
          | ok v => cases v <;> rfl

theorem toRow_ok {rnd : Rat → Rat} {o : ZOracle} {mode : ObjType} (ho : o.Ok mode) (z : ZSlv)
    (c : CostFun) (m : Mem) (x : Assign) (push : Option Rat) (row : List FunElem) :
    (toRow rnd o z c m x push row).Ok mode :=
  ⟨fun l => (ho.1 l).1, ho.2.1, ho.2.2⟩

theorem update_eq {rnd : Rat → Rat} {mode : ObjType} {o : ZOracle} {p : Param} {z : ZSlv} {c : CostFun}
    {k : Nat} {x x' : Assign} {m m' : Mem} {csts : List Merged} {n : Nat} (hz : makeZ csts n = .ok z)
    {d : Merged} (hk : csts[k]? = some d) (h : update rnd mode o p z c k x m = .ok (x', m')) :
    ∃ out, choose mode z (toRow rnd o z c (RoundedRows.decrease rnd m k d.elems p.theta) x p.push
        d.elems) k (kindOf d) (rowBound d) (ZSolver.reduced (toRow rnd o z c
          (RoundedRows.decrease rnd m k d.elems p.theta) x p.push d.elems).cost d.elems) = .ok out ∧
      affect rnd z o.stale p c k d.elems out.1 out.2 x (RoundedRows.decrease rnd m k d.elems p.theta) =
        .ok (x', m') := by
  obtain ⟨hr, hb, hkd, _⟩ := (makeZ_facts hz).2.2.2 k d hk
  unfold update at h
  simp only [hr, hb, hkd, ok_bind] at h
  obtain ⟨out, h1, h⟩ := bind_eq_ok.mp h
  obtain ⟨r, h2, h⟩ := bind_eq_ok.mp h
  obtain ⟨v, _, h⟩ := bind_eq_ok.mp h
  obtain ⟨_, _, h⟩ := bind_eq_ok.mp h
  rw [Except.ok.inj h] at h2
  exact ⟨out, h1, h2⟩

/-! ## The best assignment of a row, whatever its values -/

theorem summed_list {row : List FunElem} {x : Assign} {f : Nat → Bool} {pr : Nat → Rat} :
    ∀ {L : List Rc}, (∀ c ∈ L, ∃ e, row[c.id]? = some e ∧ c.value = pr e.var ∧ x e.var = f c.id) →
      (L.filter fun c => f c.id).map Rc.value =
        ((L.filterMap fun c => row[c.id]?).filter fun e => x e.var).map fun e => pr e.var
  | [], _ => rfl
  | c :: L, h => by
    obtain ⟨e, h1, h2, h3⟩ := h c (by simp)
    have ih := summed_list (x := x) (f := f) (pr := pr) (L := L) fun c hc => h c (by simp [hc])
    rw [List.filterMap_cons, h1, List.filter_cons, List.filter_cons, h3]
    cases f c.id <;> simp [ih, h2]

theorem summedCost_eq {rnd : Rat → Rat} {row : List FunElem} {x : Assign} {f : Nat → Bool}
    {pr : Nat → Rat} {L : List Rc}
    (h : ∀ c ∈ L, ∃ e, row[c.id]? = some e ∧ c.value = pr e.var ∧ x e.var = f c.id) :
    summedCost rnd f L = summedPrice rnd pr (L.filterMap fun c => row[c.id]?) x := by
  unfold summedCost summedPrice roundedSum
  rw [← summed_list h, List.foldl_map]

theorem filterMap_reduced (cost : Nat → Rat) (row : List FunElem) :
    (ZSolver.reduced cost row).filterMap (fun c => row[c.id]?) = row := by
  unfold ZSolver.reduced
  rw [List.filterMap_map]
  have : row.zipIdx.filterMap ((fun c : Rc => row[c.id]?) ∘ fun p => ⟨cost p.2, p.2, p.1.factor⟩) =
      row.zipIdx.filterMap fun p => some p.1 := by
    apply List.filterMap_congr
    rintro ⟨e, i⟩ hp
    simpa using List.mem_zipIdx_iff_getElem?.mp hp
  rw [this, List.filterMap_eq_map']
  exact List.zipIdx_map_fst 0 row

theorem mem_reduced {cost : Nat → Rat} {row : List FunElem} {c : Rc}
    (h : c ∈ ZSolver.reduced cost row) : ∃ e, row[c.id]? = some e ∧ c.value = cost c.id := by
  unfold ZSolver.reduced at h
  obtain ⟨⟨e, i⟩, hp, rfl⟩ := List.mem_map.mp h
  exact ⟨e, by simpa using List.mem_zipIdx_iff_getElem?.mp hp, rfl⟩

/-- An update whose sub-solver keeps `out` gives the row the values of `out`. -/
theorem row_chosen {mode : ObjType} {r : ZRow} {z : ZSlv} {k : Nat} {x x' : Assign}
    {csts : List Merged} {n : Nat} (hz : makeZ csts n = .ok z)
    {d : Merged} (hk : csts[k]? = some d) (hnd : (d.elems.map FunElem.var).Nodup)
    {out : List Rc × Int}
    (h1 : choose mode z r k (kindOf d) (rowBound d) (ZSolver.reduced r.cost d.elems) = .ok out)
    (hp : out.1.Perm (ZSolver.reduced r.cost d.elems)) (hle : out.2 ≤ d.elems.length)
    (hw : (rowBound d).min ≤ weight (chosen out) (ZSolver.reduced r.cost d.elems) ∧
      weight (chosen out) (ZSolver.reduced r.cost d.elems) ≤ (rowBound d).max)
    (h : updateRowZ mode z r k x = .ok x') :
    ∀ (i : Nat) (e : FunElem), d.elems[i]? = some e → x' e.var = chosen out i := by
  obtain ⟨hr, hb, hkd, _⟩ := (makeZ_facts hz).2.2.2 k d hk
  unfold updateRowZ at h
  simp only [hr, hb, hkd, ok_bind] at h
  rw [h1, ok_bind] at h
  rcases affect_of_choose hz hk hnd hp hle hw x with ⟨x'', g1, _, g3⟩ | ⟨g1, _⟩
  · rw [g1] at h
    have := Except.ok.inj h
    subst this
    exact g3
  · rw [g1] at h
    cases h

/-- The short rows: the exhaustive sub-solver. -/
theorem row_short {mode : ObjType} {r : ZRow} (ho : r.Ok mode) {z : ZSlv} {k : Nat} {x x' : Assign}
    {csts : List Merged} {n : Nat} (hz : makeZ csts n = .ok z) {d : Merged} (hk : csts[k]? = some d)
    (hnd : (d.elems.map FunElem.var).Nodup) (hkind : kindOf d = .exhaustive) (h2 : 2 ≤ d.elems.length)
    {pr : Nat → Rat} (hpr : ∀ (i : Nat) (e : FunElem), d.elems[i]? = some e → r.cost i = pr e.var)
    {y : Assign} (hy : satM y d) (h : updateRowZ mode z r k x = .ok x') :
    AtLeastAsGood mode (summedPrice r.rnd pr d.elems x') (summedPrice r.rnd pr d.elems y) := by
  obtain ⟨_, _, _, hct, hf, hbb, hready⟩ := (makeZ_facts hz).2.2.2 k d hk
  obtain ⟨out, g1, g2, g3, g4, _, g6, g7, g8⟩ := Exhaustive.solve_spec (rnd := r.rnd) (t := mode) ho.2.2
    (hready (Or.inl hkind)) ((kindOf_facts d).2 (Or.inl hkind)) hf (reduced_f r.cost d.elems)
    (by rw [reduced_id]; exact List.nodup_range)
  have hch := row_chosen hz hk hnd (out := out) (by rw [hkind]; exact g1) g2
    (by rw [reduced_length] at g4; omega) ⟨g6, g7⟩ h
  obtain ⟨f, hfy⟩ := ZNum.chosen_of d.elems y
  have hwf := (ctor_exact hct y).mpr hy
  rw [← reduced_weight (cost := r.cost) hfy] at hwf
  have key := g8 h2 f hwf.1 hwf.2
  have conv : ∀ (w : Assign) (g : Nat → Bool),
      (∀ (i : Nat) (e : FunElem), d.elems[i]? = some e → w e.var = g i) →
      summedCost r.rnd g (ZSolver.reduced r.cost d.elems) = summedPrice r.rnd pr d.elems w := by
    intro w g hg
    rw [summedCost_eq (row := d.elems) (x := w) (pr := pr), filterMap_reduced]
    intro c hc
    obtain ⟨e, he, hv⟩ := mem_reduced hc
    exact ⟨e, he, by rw [hv, hpr _ _ he], hg _ _ he⟩
  rwa [conv x' _ hch, conv y f hfy] at key

/-- The long rows with positive coefficients: the branch-and-bound sub-solver. -/
theorem row_long {mode : ObjType} {r : ZRow} (ho : r.Ok mode) {z : ZSlv} {k : Nat} {x x' : Assign}
    {csts : List Merged} {n : Nat} (hz : makeZ csts n = .ok z) {d : Merged} (hk : csts[k]? = some d)
    (hnd : (d.elems.map FunElem.var).Nodup) (hkind : kindOf d = .branchAndBound)
    (hpos : ∀ e ∈ d.elems, 0 < e.factor)
    {pr : Nat → Rat} (hpr : ∀ (i : Nat) (e : FunElem), d.elems[i]? = some e → r.cost i = pr e.var)
    (hrep : ∀ e ∈ d.elems, r.rnd (pr e.var) = pr e.var)
    (h : updateRowZ mode z r k x = .ok x') :
    ∃ es : List FunElem, es.Perm d.elems ∧ ∀ y, satM y d →
      (∃ e ∈ d.elems, ∃ e' ∈ d.elems, e.var ≠ e'.var ∧ y e.var = true ∧ y e'.var = true) →
      AtLeastAsGood mode (summedPrice r.rnd pr es x') (summedPrice r.rnd pr es y) := by
  obtain ⟨_, _, _, hct, hf, hbb, _⟩ := (makeZ_facts hz).2.2.2 k d hk
  have h10 := (kindOf_facts d).1 (Or.inl hkind)
  set rc := ZSolver.reduced r.cost d.elems with hrc
  have hsp := ho.1 rc
  have hff := reduced_f r.cost d.elems
  rw [← hrc] at hff
  have hfac : ∀ a ∈ r.sort rc, ∃ e ∈ d.elems, e.factor = a.f := fun a ha => by
    have : a.f ∈ d.elems.map FunElem.factor := by
      rw [← hff]; exact List.mem_map.mpr ⟨a, hsp.mem_iff.mp ha, rfl⟩
    exact List.mem_map.mp this
  have hid : (rc.map Rc.id) = List.range d.elems.length := reduced_id _ _
  have hsid : ((r.sort rc).map Rc.id).Nodup :=
    ((hsp.map Rc.id).nodup_iff).mpr (by rw [hid]; exact List.nodup_range)
  have hrl : rc.length = d.elems.length := reduced_length _ _
  obtain ⟨out, g1, g2, g3, g4, _, g6, g7⟩ := BranchBound.solve_spec (rnd := r.rnd) (t := mode) ho.2.1
    ho.2.2 (rc := r.sort rc) (by rw [hsp.length_eq, hrl]; omega)
    (fun a ha => by obtain ⟨e, he, he'⟩ := hfac a ha; rw [← he']; exact hf e he) hsid hbb
  set items := r.sort1 ((r.sort rc).map BranchBound.itemOf) with hitems
  have hL : (items.map BranchBound.rcOf).Perm rc := by
    have := (ho.2.1 ((r.sort rc).map BranchBound.itemOf)).map BranchBound.rcOf
    rw [BranchBound.rcOf_itemOf] at this
    exact this.trans hsp
  refine ⟨(items.map BranchBound.rcOf).filterMap fun c => d.elems[c.id]?, ?_, fun y hy htwo => ?_⟩
  · have := hL.filterMap fun c : Rc => d.elems[c.id]?
    rwa [hrc, filterMap_reduced] at this
  obtain ⟨f, hfy⟩ := ZNum.chosen_of d.elems y
  have hwf := (ctor_exact hct y).mpr hy
  rw [← reduced_weight (cost := r.cost) hfy, ← hrc, ← weight_perm hsp] at hwf
  have g6 := g6 ⟨f, hwf⟩
  rw [weight_perm hsp] at g6
  have hch := row_chosen hz hk hnd (out := out) (by rw [hkind]; exact g1) (g2.trans hsp)
    (by rw [hsp.length_eq, hrl] at g4; exact g4) g6 h
  have hne : items ≠ [] := by
    intro hn
    have := hL.length_eq
    rw [hn] at this
    simp only [List.map_nil, List.length_nil, hrl] at this
    omega
  obtain ⟨first, hfirst⟩ : ∃ first, items.head? = some first := by
    cases hs : items with
    | nil => exact absurd hs hne
    | cons a l => exact ⟨a, rfl⟩
  have key := g7 (fun a ha => by obtain ⟨e, he, he'⟩ := hfac a ha; rw [← he']; exact hpos e he)
    (fun a ha => by
      obtain ⟨e, he, hv⟩ := mem_reduced (hsp.mem_iff.mp ha)
      rw [hv, hpr _ _ he]
      exact hrep e (List.mem_of_getElem? he)) first hfirst f hwf.1 hwf.2 ?_
  · have conv : ∀ (w : Assign) (g : Nat → Bool),
        (∀ (i : Nat) (e : FunElem), d.elems[i]? = some e → w e.var = g i) →
        summedCost r.rnd g (items.map BranchBound.rcOf) =
          summedPrice r.rnd pr ((items.map BranchBound.rcOf).filterMap fun c => d.elems[c.id]?) w := by
      intro w g hg
      apply summedCost_eq
      intro c hc
      obtain ⟨e, he, hv⟩ := mem_reduced (hL.mem_iff.mp hc)
      exact ⟨e, he, by rw [hv, hpr _ _ he], hg _ _ he⟩
    rwa [conv x' _ hch, conv y f hfy] at key
  · obtain ⟨e, he, e', he', hne', hy1, hy2⟩ := htwo
    have pick : ∀ e ∈ d.elems, y e.var = true → ∃ i a, d.elems[i]? = some e ∧ a ∈ r.sort rc ∧
        a.id = i ∧ f i = true := by
      intro e he hye
      obtain ⟨i, hi⟩ := List.getElem?_of_mem he
      have hm : i ∈ rc.map Rc.id := by
        rw [hid]; exact List.mem_range.mpr (List.getElem?_eq_some_iff.mp hi).1
      obtain ⟨a, ha, hai⟩ := List.mem_map.mp hm
      exact ⟨i, a, hi, hsp.mem_iff.mpr ha, hai, by rw [← hfy i e hi]; exact hye⟩
    obtain ⟨i, a, hi, ha, hai, hfi⟩ := pick e he hy1
    obtain ⟨j, b, hj, hb, hbj, hfj⟩ := pick e' he' hy2
    by_cases hfst : i = first.variable_
    · refine ⟨b, hb, by rw [hbj]; exact hfj, ?_⟩
      rw [hbj]
      intro hjf
      have : i = j := by rw [hfst]; exact hjf.symm
      subst this
      rw [hi] at hj
      exact hne' (congrArg FunElem.var (Option.some.inj hj))
    · exact ⟨a, ha, by rw [hai]; exact hfi, by rw [hai]; exact hfst⟩

/-! ## Errors -/

theorem map_sum_le {α : Type} {f g : α → Rat} : ∀ {l : List α}, (∀ a ∈ l, f a ≤ g a) →
    (l.map f).sum ≤ (l.map g).sum
  | [], _ => le_rfl
  | a :: l, h => by
    have := map_sum_le (l := l) fun b hb => h b (by simp [hb])
    have := h a (by simp)
    simp only [List.map_cons, List.sum_cons]
    linarith

theorem map_sum_mul {α : Type} (a : Rat) (f : α → Rat) : ∀ l : List α,
    (l.map fun b => a * f b).sum = a * (l.map f).sum
  | [] => by simp
  | b :: l => by
    simp only [List.map_cons, List.sum_cons, map_sum_mul a f l]
    ring

theorem abs_map_sum_le {α : Type} {f g h : α → Rat} : ∀ {l : List α}, (∀ a ∈ l, |f a - g a| ≤ h a) →
    |(l.map f).sum - (l.map g).sum| ≤ (l.map h).sum
  | [], _ => by simp
  | a :: l, hl => by
    have h1 := abs_map_sum_le (l := l) fun b hb => hl b (by simp [hb])
    have h2 := hl a (by simp)
    simp only [List.map_cons, List.sum_cons]
    have := abs_add_le (f a - g a) ((l.map f).sum - (l.map g).sum)
    rw [show f a - g a + ((l.map f).sum - (l.map g).sum) = f a + (l.map f).sum - (g a + (l.map g).sum)
      by ring] at this
    linarith

/-- A product of a rounded coefficient and of a rounded sum, rounded. -/
theorem product_error {rnd : Rat → Rat} {u : Rat} (hu : 0 ≤ u) (hr : ∀ q, |rnd q - q| ≤ u * |q|)
    (a b : Rat) : |rnd (rnd a * rnd b) - a * b| ≤ ((1 + u) ^ 3 - 1) * (|a| * |b|) := by
  have ha := hr a
  have hb := hr b
  have h0 := abs_nonneg a
  have h0' := abs_nonneg b
  have hra : |rnd a| ≤ (1 + u) * |a| := by
    have := abs_add_le (rnd a - a) a
    rw [sub_add_cancel] at this
    linarith
  have h1 : |rnd a * rnd b - a * b| ≤ ((1 + u) ^ 2 - 1) * (|a| * |b|) := by
    have e : rnd a * rnd b - a * b = rnd a * (rnd b - b) + (rnd a - a) * b := by ring
    have := abs_add_le (rnd a * (rnd b - b)) ((rnd a - a) * b)
    rw [← e, abs_mul, abs_mul] at this
    have k1 : |rnd a| * |rnd b - b| ≤ (1 + u) * |a| * (u * |b|) :=
      mul_le_mul hra hb (abs_nonneg _) (by positivity)
    have k2 : |rnd a - a| * |b| ≤ u * |a| * |b| := mul_le_mul_of_nonneg_right ha h0'
    nlinarith
  have h2 := hr (rnd a * rnd b)
  have h3 : |rnd a * rnd b| ≤ (1 + u) ^ 2 * (|a| * |b|) := by
    have := abs_add_le (rnd a * rnd b - a * b) (a * b)
    rw [sub_add_cancel, abs_mul a b] at this
    linarith
  have h4 := abs_add_le (rnd (rnd a * rnd b) - rnd a * rnd b) (rnd a * rnd b - a * b)
  rw [sub_add_sub_cancel] at h4
  have h5 := mul_le_mul_of_nonneg_left h3 hu
  nlinarith

/-- The rounded sum of inexact terms. -/
theorem inexact_sum {rnd : Rat → Rat} {u : Rat} (hu : 0 ≤ u) (hr : ∀ q, |rnd q - q| ≤ u * |q|)
    {α : Type} (l : List α) (f g b : α → Rat) (N : α → Nat)
    (hf : ∀ a ∈ l, |f a - g a| ≤ ((1 + u) ^ N a - 1) * b a) (hg : ∀ a ∈ l, |g a| ≤ b a) :
    |Rounded.rsum rnd 0 (l.map f) - (l.map g).sum| ≤
      (l.map fun a => ((1 + u) ^ (N a + l.length) - 1) * b a).sum := by
  have h1 := Rounded.rsum_error hu hr (l.map f) 0
  simp only [List.length_map, zero_add, abs_zero, List.map_map] at h1
  have hK : (1 : Rat) ≤ (1 + u) ^ l.length := one_le_pow₀ (by linarith)
  have h2 : (l.map ((|·|) ∘ f)).sum ≤ (l.map fun a => (1 + u) ^ N a * b a).sum := by
    apply map_sum_le
    intro a ha
    have := abs_add_le (f a - g a) (g a)
    rw [sub_add_cancel] at this
    have h3 := hf a ha
    have h4 := hg a ha
    show |f a| ≤ _
    linarith
  have h3 := abs_map_sum_le hf
  have h4 := abs_add_le (Rounded.rsum rnd 0 (l.map f) - (l.map f).sum) ((l.map f).sum - (l.map g).sum)
  rw [sub_add_sub_cancel] at h4
  have h5 := mul_le_mul_of_nonneg_left h2 (show 0 ≤ (1 + u) ^ l.length - 1 by linarith)
  have h6 : (l.map fun a => ((1 + u) ^ (N a + l.length) - 1) * b a).sum =
      ((1 + u) ^ l.length - 1) * (l.map fun a => (1 + u) ^ N a * b a).sum +
        (l.map fun a => ((1 + u) ^ N a - 1) * b a).sum := by
    generalize l.length = L
    clear * -
    induction l with
    | nil => simp
    | cons a l ih =>
      simp only [List.map_cons, List.sum_cons]
      rw [ih, pow_add]
      ring
  rw [h6]
  linarith

theorem computedAbsCost_error {csts : List Merged} {n : Nat} {z : ZSlv} (hz : makeZ csts n = .ok z)
    {rnd : Rat → Rat} {u : Rat} (hu : 0 ≤ u)
    (hr : ∀ q, |rnd q - q| ≤ u * |q|) (pi : Nat → Rat) (P : Nat → Nat → Rat) (c : Rat) (j : Nat) :
    |computedAbsCost rnd csts pi P c j - absReducedCost csts pi P c j| ≤
      ((1 + u) ^ ((occurrences csts j).length + 4) - 1) * absMagnitude csts pi P c j := by
  rw [absReducedCost_occurrences hz]
  unfold computedAbsCost absMagnitude
  generalize occurrences csts j = l
  rw [RoundedRows.roundedSum_eq]
  have e := inexact_sum hu hr l (fun o => rnd (rnd (o.2.natAbs : Rat) * rnd (pi o.1 + P o.1 j)))
    (fun o => (o.2.natAbs : Rat) * (pi o.1 + P o.1 j))
    (fun o => (o.2.natAbs : Rat) * |pi o.1 + P o.1 j|) (fun _ => 3)
    (fun o _ => by
      have := product_error hu hr (o.2.natAbs : Rat) (pi o.1 + P o.1 j)
      rwa [abs_of_nonneg (show (0 : Rat) ≤ (o.2.natAbs : Rat) by positivity)] at this)
    (fun o _ => by
      rw [abs_mul, abs_of_nonneg (show (0 : Rat) ≤ (o.2.natAbs : Rat) by positivity)])
  rw [map_sum_mul] at e
  have a : |(l.map fun o => (o.2.natAbs : Rat) * (pi o.1 + P o.1 j)).sum| ≤
      (l.map fun o => (o.2.natAbs : Rat) * |pi o.1 + P o.1 j|).sum := by
    have := abs_map_sum_le (l := l) (f := fun o => (o.2.natAbs : Rat) * (pi o.1 + P o.1 j))
      (g := fun _ => 0) (h := fun o => (o.2.natAbs : Rat) * |pi o.1 + P o.1 j|) (fun o _ => by
        rw [sub_zero, abs_mul, abs_of_nonneg (show (0 : Rat) ≤ (o.2.natAbs : Rat) by positivity)])
    simpa using this
  have := RoundedRows.two_subs_error hu hr (c := c) (K := (1 + u) ^ (3 + l.length))
    (one_le_pow₀ (by linarith)) e a
  rwa [← pow_succ, show 3 + l.length + 1 = l.length + 4 by omega] at this

/-- The prices of a row and their computed sum. -/
theorem summedPrice_error {rnd : Rat → Rat} {u : Rat} (hu : 0 ≤ u) (hr : ∀ q, |rnd q - q| ≤ u * |q|)
    (pr ex b : Nat → Rat) (N : Nat → Nat) (es : List FunElem) (x : Assign)
    (hf : ∀ e ∈ es, |pr e.var - ex e.var| ≤ ((1 + u) ^ N e.var - 1) * b e.var)
    (hg : ∀ e ∈ es, |ex e.var| ≤ b e.var) :
    |summedPrice rnd pr es x - priceOf ex es x| ≤
      (es.map fun e => if x e.var then ((1 + u) ^ (N e.var + es.length) - 1) * b e.var else 0).sum := by
  unfold summedPrice priceOf
  rw [RoundedRows.roundedSum_eq]
  have h := inexact_sum hu hr (es.filter fun e => x e.var) (fun e => pr e.var) (fun e => ex e.var)
    (fun e => b e.var) (fun e => N e.var) (fun e he => hf e (List.mem_filter.mp he).1)
    (fun e he => hg e (List.mem_filter.mp he).1)
  have hfs : ∀ (l : List FunElem) (F : FunElem → Rat), ((l.filter fun e => x e.var).map F).sum =
      (l.map fun e => if x e.var then F e else 0).sum := by
    intro l F
    induction l with
    | nil => rfl
    | cons e l ih =>
      rw [List.filter_cons]
      cases hx : x e.var <;> simp [hx, ih]
  rw [hfs, hfs] at h
  refine le_trans h (map_sum_le fun e he => ?_)
  cases hx : x e.var
  · simp
  · simp only [if_true]
    have hb : 0 ≤ b e.var := le_trans (abs_nonneg _) (hg e he)
    refine mul_le_mul_of_nonneg_right (sub_le_sub_right ?_ _) hb
    exact pow_le_pow_right₀ (by linarith) (Nat.add_le_add_left (List.length_filter_le _ _) _)

theorem absReducedCost_le {csts : List Merged} {n : Nat} {z : ZSlv} (hz : makeZ csts n = .ok z)
    (pi : Nat → Rat) (P : Nat → Nat → Rat) (c : Rat) (j : Nat) :
    |absReducedCost csts pi P c j| ≤ absMagnitude csts pi P c j := by
  rw [absReducedCost_occurrences hz]
  unfold absMagnitude
  have a := abs_map_sum_le (l := occurrences csts j)
    (f := fun o => (o.2.natAbs : Rat) * (pi o.1 + P o.1 j))
    (g := fun _ => 0) (h := fun o => (o.2.natAbs : Rat) * |pi o.1 + P o.1 j|) (fun o _ => by
      rw [sub_zero, abs_mul, abs_of_nonneg (show (0 : Rat) ≤ (o.2.natAbs : Rat) by positivity)])
  have b := abs_sub c ((occurrences csts j).map fun o => (o.2.natAbs : Rat) * (pi o.1 + P o.1 j)).sum
  simp only [List.map_const', List.sum_replicate, nsmul_zero, sub_zero] at a
  linarith

/-! ## Exact cases -/

theorem grid_mul {g : Int} (a : Nat) {q : Rat} (h : Grid g q) : Grid g ((a : Rat) * q) := by
  obtain ⟨m, rfl⟩ := h
  exact ⟨a * m, by push_cast; ring⟩

theorem grid_neg {g : Int} {q : Rat} (h : Grid g q) : Grid g (-q) := by
  obtain ⟨m, rfl⟩ := h
  exact ⟨-m, by push_cast; ring⟩

theorem grid_sum {g : Int} : ∀ {L : List Rat}, (∀ f ∈ L, Grid g f) → Grid g L.sum
  | [], _ => ⟨0, by simp⟩
  | a :: L, h => by
    rw [List.sum_cons]
    exact (h a (by simp)).add (grid_sum fun f hf => h f (by simp [hf]))

theorem computedAbsCost_exact {csts : List Merged} {n : Nat} {z : ZSlv} (hz : makeZ csts n = .ok z)
    {p : Nat} (hp : 0 < p) {g : Int} {pi : Nat → Rat}
    {P : Nat → Nat → Rat} {c : Rat} {j : Nat} (hc : Grid g c) (hpi : ∀ i, Grid g (pi i))
    (hP : ∀ i, Grid g (P i j)) (ha : ∀ o ∈ occurrences csts j, o.2 ≠ 0 ∧ o.2.natAbs ≤ 2 ^ p)
    (hb : absMagnitude csts pi P c j ≤ 2 ^ p * 2 ^ g) :
    computedAbsCost (binary p) csts pi P c j = absReducedCost csts pi P c j ∧
      Grid g (absReducedCost csts pi P c j) := by
  have hle := absReducedCost_le hz pi P c j
  rw [absReducedCost_occurrences hz] at hle ⊢
  unfold computedAbsCost
  unfold absMagnitude at hb hle
  revert hb ha hle
  generalize occurrences csts j = l
  intro ha hle hb
  rw [RoundedRows.roundedSum_eq]
  have nn : ∀ o : Nat × Int, 0 ≤ (o.2.natAbs : Rat) * |pi o.1 + P o.1 j| := fun o => by positivity
  have nc := abs_nonneg c
  have ht : ∀ o ∈ l, (o.2.natAbs : Rat) * |pi o.1 + P o.1 j| ≤ 2 ^ p * 2 ^ g := by
    intro o ho
    have : (o.2.natAbs : Rat) * |pi o.1 + P o.1 j| ≤
        (l.map fun o => (o.2.natAbs : Rat) * |pi o.1 + P o.1 j|).sum :=
      List.single_le_sum (by
        intro a ha
        obtain ⟨b, _, rfl⟩ := List.mem_map.mp ha
        exact nn b) _ (List.mem_map.mpr ⟨o, ho, rfl⟩)
    linarith
  have hterm : (l.map fun o => binary p (binary p (o.2.natAbs : Rat) * binary p (pi o.1 + P o.1 j))) =
      l.map fun o => (o.2.natAbs : Rat) * (pi o.1 + P o.1 j) := by
    apply List.map_congr_left
    intro o ho
    obtain ⟨h0, h1⟩ := ha o ho
    have hG := (hpi o.1).add (hP o.1)
    have hA : binary p (o.2.natAbs : Rat) = (o.2.natAbs : Rat) := by
      have := binary_grid hp (m := (o.2.natAbs : Int)) (e := 0) (by
        rw [abs_of_nonneg (by positivity)]; exact_mod_cast h1)
      simpa using this
    have hone : (1 : Rat) ≤ (o.2.natAbs : Rat) := by
      exact_mod_cast Int.natAbs_pos.mpr h0
    have hB : binary p (pi o.1 + P o.1 j) = pi o.1 + P o.1 j := hG.binary hp (by
      have := ht o ho
      have := mul_le_mul_of_nonneg_right hone (abs_nonneg (pi o.1 + P o.1 j))
      linarith)
    rw [hA, hB]
    refine (grid_mul _ hG).binary hp ?_
    rw [abs_mul, abs_of_nonneg (show (0 : Rat) ≤ (o.2.natAbs : Rat) by positivity)]
    exact ht o ho
  have m1 : ∀ f ∈ l.map fun o => (o.2.natAbs : Rat) * (pi o.1 + P o.1 j), Grid g f := by
    intro f hf
    obtain ⟨o, _, rfl⟩ := List.mem_map.mp hf
    exact grid_mul _ ((hpi _).add (hP _))
  have r1 := Rounded.rsum_exact hp (e := g) (l.map fun o => (o.2.natAbs : Rat) * (pi o.1 + P o.1 j)) 0
    ⟨0, by simp⟩ m1 (by
      rw [List.map_map, abs_zero, zero_add]
      have : ((|·|) ∘ fun o : Nat × Int => (o.2.natAbs : Rat) * (pi o.1 + P o.1 j)) =
          fun o => (o.2.natAbs : Rat) * |pi o.1 + P o.1 j| := by
        funext o
        simp only [Function.comp_apply]
        rw [abs_mul, abs_of_nonneg (show (0 : Rat) ≤ (o.2.natAbs : Rat) by positivity)]
      rw [this]
      linarith)
  rw [hterm, r1, zero_add]
  have G : Grid g (c - (l.map fun o => (o.2.natAbs : Rat) * (pi o.1 + P o.1 j)).sum) := by
    rw [sub_eq_add_neg]
    exact hc.add (grid_neg (grid_sum m1))
  exact ⟨G.binary hp (by linarith), G⟩

theorem summedPrice_exact {p : Nat} (hp : 0 < p) {g : Int} {pr : Nat → Rat} {es : List FunElem}
    (x : Assign) (hg : ∀ e ∈ es, Grid g (pr e.var))
    (hb : (es.map fun e => |pr e.var|).sum ≤ 2 ^ p * 2 ^ g) :
    summedPrice (binary p) pr es x = priceOf pr es x := by
  unfold summedPrice priceOf
  rw [RoundedRows.roundedSum_eq]
  have hfs : ∀ (l : List FunElem) (F : FunElem → Rat), ((l.filter fun e => x e.var).map F).sum =
      (l.map fun e => if x e.var then F e else 0).sum := by
    intro l F
    induction l with
    | nil => rfl
    | cons e l ih =>
      rw [List.filter_cons]
      cases hx : x e.var <;> simp [hx, ih]
  rw [Rounded.rsum_exact hp (e := g), zero_add, hfs]
  · exact ⟨0, by simp⟩
  · intro f hf
    obtain ⟨e, he, rfl⟩ := List.mem_map.mp hf
    exact hg e (List.mem_filter.mp he).1
  · rw [List.map_map, abs_zero, zero_add]
    have := hfs es fun e => |pr e.var|
    show ((es.filter fun e => x e.var).map fun e => |pr e.var|).sum ≤ _
    rw [this]
    have h2 : (es.map fun e => if x e.var then |pr e.var| else 0).sum ≤
        (es.map fun e => |pr e.var|).sum := map_sum_le fun e _ => by
      cases x e.var <;> simp
    exact le_trans h2 hb

/-! ## Multipliers and preferences -/

/-- The new value of a preference `v`. -/
def moved (rnd : Rat → Rat) (up : Bool) (rep d v : Rat) : Rat :=
  if up then if rep ≥ 0 then rnd (rnd (rnd (v + d) + -rep) + d) else rnd (v + d)
  else if rep ≤ 0 then rnd (rnd (rnd (v + -d) + rep) + -d) else rnd (v + -d)

theorem repaired_pi (rnd : Rat → Rat) (up : Bool) (rep d : Rat) (m : Mem) (k j : Nat) :
    (repaired rnd up rep d m k j).pi = m.pi := by
  unfold repaired
  split <;> split <;> rfl

theorem repaired_eq (rnd : Rat → Rat) (up : Bool) (rep d : Rat) (m : Mem) (k j a b : Nat) :
    (repaired rnd up rep d (addP rnd m k j (if up then d else -d)) k j).P a b =
      if a = k ∧ b = j then moved rnd up rep d (m.P a b) else m.P a b := by
  unfold repaired moved
  by_cases h : a = k ∧ b = j
  · cases up
    · by_cases hr : rep ≤ 0 <;> simp [hr, addP, h]
    · by_cases hr : rep ≥ 0 <;> simp [hr, addP, h]
  · cases up
    · by_cases hr : rep ≤ 0 <;> simp [hr, addP, h]
    · by_cases hr : rep ≥ 0 <;> simp [hr, addP, h]

theorem turn_spec {rnd : Rat → Rat} {s : Slv} {c : CostFun} {row : List FunElem}
    (hnd : (row.map FunElem.var).Nodup) {k : Nat} {up : Bool} {d : Rat} :
    ∀ (is : List Nat) (x x' : Assign) (m m' : Mem), is.Nodup →
      turn rnd s c row k up d is x m = .ok (x', m') →
      m'.pi = m.pi ∧
      (∀ a b, (a ≠ k ∨ ∀ (i : Nat) (e : FunElem), i ∈ is → row[i]? = some e → e.var ≠ b) →
        m'.P a b = m.P a b) ∧
      (∀ b, (∀ (i : Nat) (e : FunElem), i ∈ is → row[i]? = some e → e.var ≠ b) → x' b = x b) ∧
      ∀ (i : Nat) (e : FunElem), i ∈ is → row[i]? = some e → x' e.var = up ∧
        ∃ rep, m'.P k e.var = moved rnd up rep d (m.P k e.var)
  | [], x, x', m, m', _, h => by
    have := Except.ok.inj h
    simp only [Prod.mk.injEq] at this
    obtain ⟨rfl, rfl⟩ := this
    exact ⟨rfl, fun _ _ _ => rfl, fun _ _ => rfl, by simp⟩
  | a :: is, x, x', m, m', hn, h => by
    rw [List.nodup_cons] at hn
    unfold turn at h
    cases ha : row[a]? with
    | none => rw [ha] at h; cases h
    | some f =>
      rw [ha] at h
      simp only at h
      obtain ⟨h1, h2, h3, h4⟩ := turn_spec hnd is _ _ _ _ hn.2 h
      have hother : ∀ (i : Nat) (e : FunElem), i ∈ is → row[i]? = some e → e.var ≠ f.var := by
        intro i e hi he hv
        have := pos_inj hnd he ha hv
        subst this
        exact hn.1 hi
      refine ⟨by rw [h1, repaired_pi]; rfl, fun b b' hb => ?_, fun b hb => ?_, fun i e hi he => ?_⟩
      · rw [h2 b b' (by
          rcases hb with hb | hb
          · exact Or.inl hb
          · exact Or.inr fun i e hi he => hb i e (by simp [hi]) he), repaired_eq, if_neg]
        rintro ⟨e1, e2⟩
        rcases hb with hb | hb
        · exact hb e1
        · exact hb a f (by simp) ha e2.symm
      · rw [h3 b fun i e hi he => hb i e (by simp [hi]) he]
        have := hb a f (by simp) ha
        simp [write, Ne.symm this]
      · rcases List.mem_cons.mp hi with rfl | hi
        · rw [ha] at he
          have := Option.some.inj he
          subst this
          refine ⟨?_, reduced rnd s c (addP rnd m k f.var (if up then d else -d)) (write x f.var up)
            f.var, ?_⟩
          · rw [h3 f.var hother]
            simp [write]
          · rw [h2 k f.var (Or.inr hother), repaired_eq, if_pos ⟨rfl, rfl⟩]
        · obtain ⟨g1, y, g2⟩ := h4 i e hi he
          refine ⟨g1, y, ?_⟩
          rw [g2, repaired_eq, if_neg fun h => hother i e hi he h.2]

/-- What `local_affect` does to the row. -/
theorem affect_spec {rnd : Rat → Rat} {z : ZSlv} {stale : Rc} {p : Param} {c : CostFun} {k : Nat}
    {row : List FunElem} (hnd : (row.map FunElem.var).Nodup) {R : List Rc} {sel : Int}
    {x x' : Assign} {m m' : Mem}
    (hp : (R.map Rc.id).Perm (List.range row.length))
    (h : affect rnd z stale p c k row R sel x m = .ok (x', m')) :
    (∃ v, m'.pi = (addPi rnd m k v).pi) ∧
    (∀ a b, (a ≠ k ∨ ∀ e ∈ row, e.var ≠ b) → m'.P a b = m.P a b) ∧
    (∀ b, (∀ e ∈ row, e.var ≠ b) → x' b = x b) ∧
    ∀ e ∈ row, ∃ rep, m'.P k e.var = moved rnd (x' e.var) rep (step rnd p) (m.P k e.var) := by
  have hlen : (R.map Rc.id).length = row.length := by rw [hp.length_eq]; simp
  have hidn : (R.map Rc.id).Nodup := hp.nodup_iff.mpr List.nodup_range
  have hmem : ∀ (i : Nat) (e : FunElem), row[i]? = some e → i ∈ R.map Rc.id := fun i e he =>
    hp.mem_iff.mpr (List.mem_range.mpr (List.getElem?_eq_some_iff.mp he).1)
  have one : ∀ (up : Bool) (v : Rat),
      turn rnd z.slv c row k up (step rnd p) (R.map Rc.id) x (addPi rnd m k v) = .ok (x', m') →
      (∃ v, m'.pi = (addPi rnd m k v).pi) ∧
      (∀ a b, (a ≠ k ∨ ∀ e ∈ row, e.var ≠ b) → m'.P a b = m.P a b) ∧
      (∀ b, (∀ e ∈ row, e.var ≠ b) → x' b = x b) ∧
      ∀ e ∈ row, ∃ rep, m'.P k e.var = moved rnd (x' e.var) rep (step rnd p) (m.P k e.var) := by
    intro up v h
    obtain ⟨h1, h2, h3, h4⟩ := turn_spec hnd _ _ _ _ _ hidn h
    refine ⟨⟨v, h1⟩, fun a b hb => ?_, fun b hb => ?_, fun e he => ?_⟩
    · rw [h2 a b (by
        rcases hb with hb | hb
        · exact Or.inl hb
        · exact Or.inr fun i e _ he => hb e (List.mem_of_getElem? he))]
      rfl
    · exact h3 b fun i e _ he => hb e (List.mem_of_getElem? he)
    · obtain ⟨i, hi⟩ := List.getElem?_of_mem he
      obtain ⟨g1, y, g2⟩ := h4 i e (hmem i e hi) hi
      rw [g1]
      exact ⟨y, g2⟩
  unfold affect at h
  dsimp only at h
  by_cases h0 : sel < 0
  · rw [if_pos h0] at h
    obtain ⟨_, _, h⟩ := bind_eq_ok.mp h
    exact one _ _ h
  · rw [if_neg h0] at h
    by_cases h1 : sel + 1 ≥ (R.map Rc.id).length
    · rw [if_pos h1] at h
      obtain ⟨_, _, h⟩ := bind_eq_ok.mp h
      exact one _ _ h
    · rw [if_neg h1] at h
      obtain ⟨_, _, h⟩ := bind_eq_ok.mp h
      obtain ⟨_, _, h⟩ := bind_eq_ok.mp h
      obtain ⟨⟨x1, m1⟩, ha, hb⟩ := bind_eq_ok.mp h
      dsimp only at hb
      have hsplit := List.take_append_drop (sel + 1).toNat (R.map Rc.id)
      rw [← hsplit] at hidn
      obtain ⟨n1, n2, hdis⟩ := List.nodup_append.mp hidn
      obtain ⟨a1, a2, a3, a4⟩ := turn_spec hnd _ _ _ _ _ n1 ha
      obtain ⟨b1, b2, b3, b4⟩ := turn_spec hnd _ _ _ _ _ n2 hb
      refine ⟨⟨_, by rw [b1, a1]⟩, fun a b hb => ?_, fun b hb => ?_, fun e he => ?_⟩
      · have hb' : ∀ l : List Nat, a ≠ k ∨ ∀ (i : Nat) (e : FunElem), i ∈ l → row[i]? = some e →
            e.var ≠ b := by
          intro l
          rcases hb with hb | hb
          · exact Or.inl hb
          · exact Or.inr fun i e _ he => hb e (List.mem_of_getElem? he)
        rw [b2 a b (hb' _), a2 a b (hb' _)]
        rfl
      · rw [b3 b fun i e _ he => hb e (List.mem_of_getElem? he),
          a3 b fun i e _ he => hb e (List.mem_of_getElem? he)]
      · obtain ⟨i, hi⟩ := List.getElem?_of_mem he
        have hm := hmem i e hi
        rw [← hsplit, List.mem_append] at hm
        have hno : ∀ (l l' : List Nat), i ∈ l → (∀ q ∈ l, ∀ r ∈ l', q ≠ r) →
            ∀ (i' : Nat) (e' : FunElem), i' ∈ l' → row[i']? = some e' → e'.var ≠ e.var := by
          intro l l' hl hd i' e' hi' he' hv
          have := pos_inj hnd he' hi hv
          subst this
          exact hd i' hl i' hi' rfl
        rcases hm with hm | hm
        · obtain ⟨g1, y, g2⟩ := a4 i e hm hi
          have hn := hno _ _ hm hdis
          have hx : x' e.var = true := by rw [b3 _ hn, g1]
          rw [hx]
          refine ⟨y, ?_⟩
          rw [b2 k e.var (Or.inr hn), g2]
          rfl
        · obtain ⟨g1, y, g2⟩ := b4 i e hm hi
          have hn := hno _ _ hm fun q hq r hr => (hdis r hr q hq).symm
          rw [g1]
          refine ⟨y, ?_⟩
          rw [g2, a2 k e.var (Or.inr hn)]
          rfl

/-- What an update does to the multipliers and to the preferences. -/
theorem update_mem {rnd : Rat → Rat} {mode : ObjType} {o : ZOracle} (ho : o.Ok mode) {p : Param}
    {z : ZSlv} {c : CostFun} {k : Nat}
    {x x' : Assign} {m m' : Mem} {csts : List Merged} {n : Nat} (hz : makeZ csts n = .ok z)
    {d : Merged} (hk : csts[k]? = some d) (hnd : (d.elems.map FunElem.var).Nodup)
    (h : update rnd mode o p z c k x m = .ok (x', m')) :
    (∀ i, i ≠ k → m'.pi i = m.pi i) ∧
    (∀ a b, (a ≠ k ∨ ∀ e ∈ d.elems, e.var ≠ b) → m'.P a b = m.P a b) ∧
    (∀ b, (∀ e ∈ d.elems, e.var ≠ b) → x' b = x b) ∧
    ∀ e ∈ d.elems, ∃ rep, m'.P k e.var =
      moved rnd (x' e.var) rep (step rnd p) (rnd (m.P k e.var * p.theta)) := by
  obtain ⟨out, h1, h2⟩ := update_eq hz hk h
  have hp := ZNum.choose_perm hz hk (toRow_ok ho _ _ _ _ _ _) h1
  have hids : (out.1.map Rc.id).Perm (List.range d.elems.length) := by
    have := hp.map Rc.id
    rwa [reduced_id] at this
  obtain ⟨⟨v, g1⟩, g2, g3, g4⟩ := affect_spec hnd hids h2
  refine ⟨fun i hi => ?_, fun a b hb => ?_, g3, fun e he => ?_⟩
  · rw [g1]
    show (if i = k then _ else _) = _
    rw [if_neg hi]
    rfl
  · rw [g2 a b hb]
    show (if _ then _ else _) = _
    rw [if_neg]
    rintro ⟨e1, e2⟩
    rcases hb with hb | hb
    · exact hb e1
    · obtain ⟨e, he, hv⟩ := List.mem_map.mp e2
      exact hb e he hv
  · obtain ⟨y, hy⟩ := g4 e he
    have e1 : (RoundedRows.decrease rnd m k d.elems p.theta).P k e.var = rnd (m.P k e.var * p.theta) := by
      show (if _ then _ else _) = _
      rw [if_pos ⟨rfl, List.mem_map.mpr ⟨e, he, rfl⟩⟩]
    rw [e1] at hy
    exact ⟨y, hy⟩

/-- Less preference for a variable raises its computed price. -/
theorem computedAbsCost_anti {csts : List Merged} {rnd : Rat → Rat} (hr : Rounding rnd) {j : Nat}
    {P P' : Nat → Nat → Rat} (h : ∀ i, P' i j ≤ P i j) (pi : Nat → Rat) (q : Rat) :
    computedAbsCost rnd csts pi P q j ≤ computedAbsCost rnd csts pi P' q j := by
  unfold computedAbsCost
  rw [RoundedRows.roundedSum_eq, RoundedRows.roundedSum_eq]
  apply hr.mono
  apply sub_le_sub_left
  have key : ∀ (l : List (Nat × Int)) (a b : Rat), a ≤ b →
      Rounded.rsum rnd a (l.map fun o => rnd (rnd (o.2.natAbs : Rat) * rnd (pi o.1 + P' o.1 j))) ≤
      Rounded.rsum rnd b (l.map fun o => rnd (rnd (o.2.natAbs : Rat) * rnd (pi o.1 + P o.1 j))) := by
    intro l
    induction l with
    | nil => exact fun a b h => h
    | cons o l ih =>
      intro a b hab
      refine ih _ _ (hr.mono (add_le_add hab (hr.mono ?_)))
      refine mul_le_mul_of_nonneg_left (hr.mono ?_) ?_
      · have := h o.1
        linarith
      · have := hr.mono (show (0 : Rat) ≤ (o.2.natAbs : Rat) by positivity)
        rwa [hr.zero] at this
  exact key _ _ _ le_rfl

end Bx.RoundedZ
