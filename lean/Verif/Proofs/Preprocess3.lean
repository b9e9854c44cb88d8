import Verif.Proofs.Preprocess2

/-! Helper lemmas for the preprocessor, part 3: initial state,
`try_affect_variable`, `try_remove_unused_variable`. -/

namespace Bx.Preprocess

open Spec

/-! ### Constraints with positive factors -/

theorem sumFactor_eq (c : Constr) : sumFactor c = (c.elems.map FunElem.factor).sum := by
  unfold sumFactor
  rw [← List.sum_eq_foldl]

theorem lhs_bounds (z : Assign) : ∀ es : List FunElem, (∀ e ∈ es, 0 < e.factor) →
    0 ≤ lhs z es ∧ lhs z es ≤ (es.map FunElem.factor).sum ∧
    (lhs z es = (es.map FunElem.factor).sum → ∀ e ∈ es, z e.var = true) ∧
    (lhs z es = 0 → ∀ e ∈ es, z e.var = false)
  | [], _ => by simp [lhs]
  | e :: es, h => by
    have h0 := h e (by simp)
    obtain ⟨h1, h2, h3, h4⟩ := lhs_bounds z es (fun e' h' => h e' (by simp [h']))
    rw [lhs_cons, List.map_cons, List.sum_cons]
    cases hz : z e.var
    · simp only [Bool.false_eq_true, if_false]
      refine ⟨by omega, by omega, fun hh => by omega, fun hh e' he' => ?_⟩
      rcases List.mem_cons.mp he' with rfl | he'
      · exact hz
      · exact h4 (by omega) e' he'
    · simp only [if_true]
      refine ⟨by omega, by omega, fun hh e' he' => ?_, fun hh => by omega⟩
      rcases List.mem_cons.mp he' with rfl | he'
      · exact hz
      · exact h3 (by omega) e' he'

theorem lhs_all_true (z : Assign) : ∀ es : List FunElem, (∀ e ∈ es, z e.var = true) →
    lhs z es = (es.map FunElem.factor).sum
  | [], _ => rfl
  | e :: es, h => by
    rw [lhs_cons, lhs_all_true z es (fun e' h' => h e' (by simp [h'])), h e (by simp)]
    simp

theorem lhs_all_false (z : Assign) : ∀ es : List FunElem, (∀ e ∈ es, z e.var = false) →
    lhs z es = 0
  | [], _ => rfl
  | e :: es, h => by
    rw [lhs_cons, lhs_all_false z es (fun e' h' => h e' (by simp [h'])), h e (by simp)]
    simp

theorem allFactorPositive_iff (c : Constr) :
    allFactorPositive c = true ↔ ∀ e ∈ c.elems, 0 < e.factor := by
  unfold allFactorPositive
  simp

theorem shortcut_none_sound {k : Kind} {c : Constr} (h : shortcut k c = some none) (z : Assign) :
    satK k c z := by
  unfold shortcut at h
  split at h
  case isFalse => simp at h
  case isTrue hp =>
    obtain ⟨b1, b2, _, _⟩ := lhs_bounds z c.elems ((allFactorPositive_iff c).mp hp)
    rw [sumFactor_eq] at h
    unfold satK
    cases k <;> simp only [test] at h ⊢
    · split at h <;> simp at h
    · split at h
      · simp at h
      · split at h
        · simp only [decide_eq_true_eq]; omega
        · simp at h
    · split at h
      · simp at h
      · split at h
        · simp only [decide_eq_true_eq]; omega
        · simp at h

theorem shortcut_some_sound {k : Kind} {c : Constr} {b : Bool}
    (h : shortcut k c = some (some b)) :
    (∀ x, satK k c x → ∀ e ∈ c.elems, x e.var = b) ∧
    (∀ x, satK k c x → ∀ z, (∀ e ∈ c.elems, z e.var = b) → satK k c z) := by
  have key : ∀ x, satK k c x → ∀ e ∈ c.elems, x e.var = b := by
    intro x hx
    unfold shortcut at h
    split at h
    case isFalse => simp at h
    case isTrue hp =>
      obtain ⟨b1, b2, b3, b4⟩ := lhs_bounds x c.elems ((allFactorPositive_iff c).mp hp)
      rw [sumFactor_eq] at h
      unfold satK at hx
      cases k <;> simp only [test, decide_eq_true_eq] at h hx
      · split at h
        case isFalse => simp at h
        case isTrue hv =>
          simp only [Option.some.injEq] at h
          by_cases h0 : c.value = 0
          · have : b = false := by rw [← h]; simp [h0]
            subst this
            exact b4 (by omega)
          · have : b = true := by rw [← h]; simp [h0]
            subst this
            exact b3 (by omega)
      · split at h
        · simp only [Option.some.injEq] at h
          subst h
          exact b3 (by omega)
        · split at h <;> simp at h
      · split at h
        · simp only [Option.some.injEq] at h
          subst h
          exact b4 (by omega)
        · split at h <;> simp at h
  refine ⟨key, fun x hx z hz => ?_⟩
  have hk := key x hx
  unfold satK at hx ⊢
  rwa [lhs_congr (x := z) (y := x) fun e he => by rw [hz e he, hk e he]]

/-! ### `try_affect_variable` -/

theorem tryStep_good {pb : Problem} {Feas : Assign → Prop} (hc : Ctx pb Feas) {st : St}
    {k : Kind} {i : Nat} {c : Constr} (hinv : Inv pb Feas st []) (hv : st.vars = [])
    (hci : (csts pb k)[i]? = some c) :
    Good Feas (tryStep k st (c, i))
      (fun st' => Inv pb Feas st' [] ∧ st'.vars = [] ∧ Grows st st' ∧
        st'.cnt k i ≠ 1 ∧ ∀ k' i', st.cnt k' i' ≠ 1 → st'.cnt k' i' ≠ 1) := by
  have hmem : c ∈ csts pb k := List.mem_of_getElem? hci
  have hset : ∀ k' i', st.cnt k' i' ≠ 1 → setCnt st.cnt k i 0 k' i' ≠ 1 := by
    intro k' i' h
    unfold setCnt
    split
    · omega
    · exact h
  have hself : setCnt st.cnt k i 0 k i ≠ 1 := by simp [setCnt]
  have hcnt : ∀ k' i' c', (csts pb k')[i']? = some c' → 0 < setCnt st.cnt k i 0 k' i' →
      setCnt st.cnt k i 0 k' i' =
        ((unknown st.vars c'.elems).length : Int) + (([] : List (Kind × Nat)).count (k', i') : Int) := by
    intro k' i' c' h' hpos
    by_cases hk : k' = k ∧ i' = i
    · simp [setCnt, hk] at hpos
    · simp only [setCnt, if_neg hk] at hpos ⊢
      exact hinv.cnt k' i' c' h' hpos
  unfold tryStep
  simp only
  split
  case isTrue h1 =>
    have hu : (unknown st.vars c.elems).length = 1 := by
      have := hinv.cnt k i c hci (by omega)
      simp at this
      omega
    refine (reduce_good hc hinv hci hu (Q := []) (fun _ _ _ => rfl)).mono ?_
    rintro st' ⟨a1, a2, a3, a4⟩
    refine ⟨a1, a2.trans hv, a3, ?_, ?_⟩
    · rw [a4]; exact hself
    · rw [a4]; exact hset
  case isFalse h1 =>
    split
    · exact Or.inl ⟨st, rfl, hinv, hv, fun _ hp => hp, h1, fun _ _ h => h⟩
    · rename_i hs
      refine Or.inl ⟨_, rfl, ⟨hinv.known, hcnt, ?_⟩, hv, fun _ hp => hp, hself, hset⟩
      intro hF k' i' c' h' hz z hz'
      by_cases hk : k' = k ∧ i' = i
      · obtain ⟨rfl, rfl⟩ := hk
        rw [hci] at h'; cases h'
        exact shortcut_none_sound hs z
      · simp only [setCnt, if_neg hk] at hz
        exact hinv.zero hF k' i' c' h' hz z hz'
    · rename_i b hs
      obtain ⟨s1, s2⟩ := shortcut_some_sound hs
      obtain ⟨p1, p2, p3⟩ := KInv.pushAll b c.elems st.lifo hinv.known (hc.lt k c hmem)
        (fun e _ => by rw [hv]; rfl) (fun x hx => s1 x (hc.sat x hx k c hmem))
      refine Or.inl ⟨⟨st.vars, setCnt st.cnt k i 0, pushAll st.lifo c b⟩, rfl,
        ⟨p1, hcnt, ?_⟩, hv, p2, hself, hset⟩
      intro hF k' i' c' h' hz z hz'
      by_cases hk : k' = k ∧ i' = i
      · obtain ⟨rfl, rfl⟩ := hk
        rw [hci] at h'; cases h'
        obtain ⟨x, hx⟩ := hF
        exact s2 x (hc.sat x hx k' c hmem) z (fun e he => hz' _ (p3 ⟨x, hx⟩ e he))
      · simp only [setCnt, if_neg hk] at hz
        exact hinv.zero hF k' i' c' h' hz z (agrees_sub hz' p2)

theorem tryFold_good {pb : Problem} {Feas : Assign → Prop} (hc : Ctx pb Feas) (k : Kind) :
    ∀ (l : List (Constr × Nat)) (st : St), Inv pb Feas st [] → st.vars = [] →
      (∀ p ∈ l, (csts pb k)[p.2]? = some p.1) →
      Good Feas (l.foldlM (tryStep k) st)
        (fun st' => Inv pb Feas st' [] ∧ st'.vars = [] ∧ Grows st st' ∧
          (∀ p ∈ l, st'.cnt k p.2 ≠ 1) ∧ ∀ k' i', st.cnt k' i' ≠ 1 → st'.cnt k' i' ≠ 1)
  | [], st, h, hv, _ => Or.inl ⟨st, rfl, h, hv, fun _ hp => hp, by simp, fun _ _ h => h⟩
  | (c, i) :: l, st, h, hv, hl => by
    rw [List.foldlM_cons]
    refine (tryStep_good hc h hv (hl (c, i) (by simp))).bind ?_
    rintro st' ⟨a1, a2, a3, a4, a5⟩
    refine (tryFold_good hc k l st' a1 a2 (fun p hp => hl p (by simp [hp]))).mono ?_
    rintro st'' ⟨b1, b2, b3, b4, b5⟩
    refine ⟨b1, b2, fun p hp => b3 p (a3 p hp), ?_, fun k' i' h => b5 k' i' (a5 k' i' h)⟩
    intro p hp
    rcases List.mem_cons.mp hp with rfl | hp
    · exact b5 _ _ a4
    · exact b4 p hp

theorem zipIdx_get {cs : List Constr} {p : Constr × Nat} (h : p ∈ cs.zipIdx) :
    cs[p.2]? = some p.1 := by
  obtain ⟨c, i⟩ := p
  exact List.mk_mem_zipIdx_iff_getElem?.mp h

theorem tryAffectVariable_good {pb : Problem} {Feas : Assign → Prop} (hc : Ctx pb Feas)
    {st : St} (hinv : Inv pb Feas st []) (hv : st.vars = [])
    (hcnt : ∀ k i, (csts pb k)[i]? = none → st.cnt k i ≠ 1) :
    Good Feas (tryAffectVariable pb st)
      (fun st' => Inv pb Feas st' [] ∧ st'.vars = [] ∧ Grows st st' ∧ NoOne st') := by
  unfold tryAffectVariable
  refine (tryFold_good hc .eq pb.eqs.zipIdx st hinv hv (fun p hp => zipIdx_get hp)).bind ?_
  rintro s1 ⟨a1, a2, a3, a4, a5⟩
  refine (tryFold_good hc .ge pb.ges.zipIdx s1 a1 a2 (fun p hp => zipIdx_get hp)).bind ?_
  rintro s2 ⟨b1, b2, b3, b4, b5⟩
  refine (tryFold_good hc .le pb.les.zipIdx s2 b1 b2 (fun p hp => zipIdx_get hp)).mono ?_
  rintro s3 ⟨c1, c2, c3, c4, c5⟩
  refine ⟨c1, c2, fun p hp => c3 p (b3 p (a3 p hp)), ?_⟩
  intro k i
  cases hk : (csts pb k)[i]? with
  | none => exact c5 _ _ (b5 _ _ (a5 _ _ (hcnt k i hk)))
  | some c =>
    cases k
    · exact c5 _ _ (b5 _ _ (a4 (c, i) (List.mk_mem_zipIdx_iff_getElem?.mpr hk)))
    · exact c5 _ _ (b4 (c, i) (List.mk_mem_zipIdx_iff_getElem?.mpr hk))
    · exact c4 (c, i) (List.mk_mem_zipIdx_iff_getElem?.mpr hk)

/-! ### Initial states -/

theorem initCnt_inv {pb : Problem} {Feas : Assign → Prop} (hc : Ctx pb Feas)
    {lifo : List (Nat × Bool)} (hk : KInv pb.values.length Feas [] lifo) :
    Inv pb Feas { cnt := initCnt pb, lifo := lifo } [] := by
  refine ⟨hk, ?_, ?_⟩
  · intro k i c h _
    have hu : unknown ([] : List (Nat × Bool)) c.elems = c.elems := by
      simp [unknown, List.lookup]
    simp [initCnt, h, hu]
  · rintro ⟨x, hx⟩ k i c h hz z _
    simp only [initCnt, h] at hz
    have h0 : c.elems = [] := List.length_eq_zero_iff.mp (by omega)
    have := hc.sat x hx k c (List.mem_of_getElem? h)
    unfold satK at this ⊢
    rw [h0] at this ⊢
    exact this

theorem affectBounded_fold {n : Nat} {Feas : Assign → Prop} :
    ∀ (l : List (VarValue × Nat)) (lifo : List (Nat × Bool)),
      KInv n Feas [] lifo → (∀ p ∈ l, p.2 < n) →
      (∀ x, Feas x → ∀ p ∈ l, p.1.min = p.1.max → x p.2 = decide (p.1.max ≠ 0)) →
      KInv n Feas [] (l.foldl (fun l p =>
        if p.1.min = p.1.max then lifoEmplace l p.2 (decide (p.1.max ≠ 0)) else l) lifo) ∧
      (∀ p ∈ lifo, p ∈ l.foldl (fun l p =>
        if p.1.min = p.1.max then lifoEmplace l p.2 (decide (p.1.max ≠ 0)) else l) lifo) ∧
      ((∃ x, Feas x) → ∀ p ∈ l, p.1.min = p.1.max →
        (p.2, decide (p.1.max ≠ 0)) ∈ l.foldl (fun l p =>
        if p.1.min = p.1.max then lifoEmplace l p.2 (decide (p.1.max ≠ 0)) else l) lifo)
  | [], lifo, h, _, _ => ⟨h, fun _ hp => hp, by simp⟩
  | p :: l, lifo, h, h1, h2 => by
    rw [List.foldl_cons]
    by_cases hb : p.1.min = p.1.max
    · rw [if_pos hb]
      obtain ⟨k1, k2, k3⟩ := h.push (i := p.2) (b := decide (p.1.max ≠ 0)) (h1 p (by simp))
        rfl (fun x hx => h2 x hx p (by simp) hb)
      obtain ⟨l1, l2, l3⟩ := affectBounded_fold l _ k1 (fun q hq => h1 q (by simp [hq]))
        (fun x hx q hq => h2 x hx q (by simp [hq]))
      refine ⟨l1, fun q hq => l2 q (by simpa using k2 q (by simpa using hq)), ?_⟩
      intro hF q hq hqb
      rcases List.mem_cons.mp hq with rfl | hq
      · exact l2 _ (by simpa using k3 hF)
      · exact l3 hF q hq hqb
    · rw [if_neg hb]
      obtain ⟨l1, l2, l3⟩ := affectBounded_fold l _ h (fun q hq => h1 q (by simp [hq]))
        (fun x hx q hq => h2 x hx q (by simp [hq]))
      refine ⟨l1, l2, ?_⟩
      intro hF q hq hqb
      rcases List.mem_cons.mp hq with rfl | hq
      · exact absurd hqb hb
      · exact l3 hF q hq hqb

/-! ### `try_remove_unused_variable` -/

/-- One iteration of `try_remove_unused_variable`. -/
def unusedStep (pb : Problem) (st : St) (i : Nat) : St :=
  if (st.vars.lookup i).isNone && isUnused pb st i then
    { st with vars := (i, unusedValue pb i) :: st.vars }
  else st

theorem removeUnused_eq (pb : Problem) (st : St) :
    removeUnused pb st = (List.range pb.values.length).foldl (unusedStep pb) st := rfl

theorem isUnused_congr {pb : Problem} {st st' : St} (h : st.cnt = st'.cnt) (i : Nat) :
    isUnused pb st i = isUnused pb st' i := by
  unfold isUnused; rw [h]

theorem removeUnused_fold (pb : Problem) :
    ∀ (L : List Nat) (st : St), (st.vars.map Prod.fst).Nodup →
      (L.foldl (unusedStep pb) st).cnt = st.cnt ∧
      (L.foldl (unusedStep pb) st).lifo = st.lifo ∧
      ((L.foldl (unusedStep pb) st).vars.map Prod.fst).Nodup ∧
      (∀ p ∈ (L.foldl (unusedStep pb) st).vars, p ∈ st.vars ∨ p.1 ∈ L) ∧
      ∀ i, (L.foldl (unusedStep pb) st).vars.lookup i =
        match st.vars.lookup i with
        | some b => some b
        | none => if i ∈ L ∧ isUnused pb st i = true then some (unusedValue pb i) else none
  | [], st, h => by
    refine ⟨rfl, rfl, h, fun p hp => Or.inl hp, fun i => ?_⟩
    simp only [List.foldl_nil, List.not_mem_nil, false_and, if_false]
    cases st.vars.lookup i <;> rfl
  | j :: L, st, h => by
    rw [List.foldl_cons]
    have hcnt : (unusedStep pb st j).cnt = st.cnt := by unfold unusedStep; split <;> rfl
    have hlifo : (unusedStep pb st j).lifo = st.lifo := by unfold unusedStep; split <;> rfl
    have hvars : (unusedStep pb st j).vars =
        if (st.vars.lookup j).isNone && isUnused pb st j then
          (j, unusedValue pb j) :: st.vars else st.vars := by
      unfold unusedStep; split <;> rfl
    have hnd : ((unusedStep pb st j).vars.map Prod.fst).Nodup := by
      rw [hvars]
      split
      · rename_i hh
        simp only [Bool.and_eq_true, Option.isNone_iff_eq_none] at hh
        rw [List.map_cons, List.nodup_cons]
        exact ⟨lookup_none_iff.mp hh.1, h⟩
      · exact h
    obtain ⟨i1, i2, i3, i4, i5⟩ := removeUnused_fold pb L (unusedStep pb st j) hnd
    refine ⟨i1.trans hcnt, i2.trans hlifo, i3, ?_, ?_⟩
    · intro p hp
      rcases i4 p hp with hp | hp
      · rw [hvars] at hp
        split at hp
        · rcases List.mem_cons.mp hp with rfl | hp
          · exact Or.inr (by simp)
          · exact Or.inl hp
        · exact Or.inl hp
      · exact Or.inr (by simp [hp])
    · intro i
      rw [i5 i, isUnused_congr hcnt i]
      have hl : (unusedStep pb st j).vars.lookup i =
          match st.vars.lookup i with
          | some b => some b
          | none => if i = j ∧ isUnused pb st i = true then some (unusedValue pb i) else none := by
        rw [hvars]
        by_cases hij : i = j
        · subst hij
          cases hs : st.vars.lookup i with
          | none =>
            cases isUnused pb st i <;> simp [hs, List.lookup]
          | some b => simp [hs]
        · cases hs : st.vars.lookup i with
          | none =>
            split <;> simp [hs, List.lookup, beq_false_of_ne hij, hij]
          | some b =>
            split <;> simp [hs, List.lookup, beq_false_of_ne hij]
      rw [hl]
      cases st.vars.lookup i with
      | some b => rfl
      | none =>
        by_cases hij : i = j
        · subst hij
          cases isUnused pb st i <;> simp
        · simp [hij]

end Bx.Preprocess
