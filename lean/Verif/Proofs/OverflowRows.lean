import Verif.Proofs.Overflow
import Verif.Proofs.Merge

/-! Lemmas about the functions with a 32 bits `int`: the solvers. -/

namespace Bx.Checked

open Merge SolverCtor Spec Exhaustive Itm ZSolver

/-! ## Merged constraints -/

/-- What the merge of small constraints gives: a bound is absent or small. -/
def Fit (m : Merged) : Prop :=
  sumAbs m.elems ≤ 2147483647 ∧
  (m.min = intMin ∨ sumAbs m.elems + m.min.natAbs ≤ 2147483647) ∧
  (m.max = intMax ∨ sumAbs m.elems + m.max.natAbs ≤ 2147483647)

theorem step_fit {op : Op} {ret ret' : List Merged} {c : Constr} (hc : Small c)
    (hr : ∀ m ∈ ret, Fit m) (h : stepOf op ret c = .ok ret') : ∀ m ∈ ret', Fit m := by
  unfold Small at hc
  have hw : sumAbs c.elems ≤ 2147483647 := by omega
  cases op with
  | equal =>
    simp only [stepOf, stepEqual] at h
    rcases update_spec' h rfl (by
      intro m m' hm
      split at hm
      · cases hm; rfl
      · cases hm) with ⟨pre, m, post, m', h1, h2, h3, h4⟩ | ⟨h1, h2⟩
    · split at h3
      · cases h3
        subst h1 h4
        intro d hd
        simp only [List.mem_append, List.mem_cons] at hd
        rcases hd with hd | rfl | hd
        · exact hr d (by simp [hd])
        · exact ⟨by rw [h2]; exact hw, .inr (by rw [h2]; exact hc), .inr (by rw [h2]; exact hc)⟩
        · exact hr d (by simp [hd])
      · cases h3
    · subst h2
      intro d hd
      simp only [List.mem_append, List.mem_singleton] at hd
      rcases hd with hd | rfl
      · exact hr d hd
      · exact ⟨hw, .inr hc, .inr hc⟩
  | less =>
    simp only [stepOf, stepLess] at h
    rcases update_spec' h rfl (by intro m m' hm; cases hm; rfl) with
      ⟨pre, m, post, m', h1, h2, h3, h4⟩ | ⟨h1, h2⟩
    · cases h3
      subst h1 h4
      intro d hd
      simp only [List.mem_append, List.mem_cons] at hd
      rcases hd with hd | rfl | hd
      · exact hr d (by simp [hd])
      · have hm := hr m (by simp)
        refine ⟨hm.1, hm.2.1, ?_⟩
        dsimp only
        rcases Int.le_total m.max c.value with hle | hle
        · rw [Int.min_eq_left hle]
          exact hm.2.2
        · rw [Int.min_eq_right hle, h2]
          exact .inr hc
      · exact hr d (by simp [hd])
    · subst h2
      intro d hd
      simp only [List.mem_append, List.mem_singleton] at hd
      rcases hd with hd | rfl
      · exact hr d hd
      · exact ⟨hw, .inl rfl, .inr hc⟩
  | greater =>
    simp only [stepOf, stepGreater] at h
    rcases update_spec' h rfl (by intro m m' hm; cases hm; rfl) with
      ⟨pre, m, post, m', h1, h2, h3, h4⟩ | ⟨h1, h2⟩
    · cases h3
      subst h1 h4
      intro d hd
      simp only [List.mem_append, List.mem_cons] at hd
      rcases hd with hd | rfl | hd
      · exact hr d (by simp [hd])
      · have hm := hr m (by simp)
        refine ⟨hm.1, ?_, hm.2.2⟩
        dsimp only
        rcases Int.le_total m.min c.value with hle | hle
        · rw [Int.max_eq_right hle, h2]
          exact .inr hc
        · rw [Int.max_eq_left hle]
          exact hm.2.1
      · exact hr d (by simp [hd])
    · subst h2
      intro d hd
      simp only [List.mem_append, List.mem_singleton] at hd
      rcases hd with hd | rfl
      · exact hr d hd
      · exact ⟨hw, .inr hc, .inl rfl⟩

theorem foldl_fit {op : Op} : ∀ {cs : List Constr} {ret ret' : List Merged},
    (∀ c ∈ cs, Small c) → (∀ m ∈ ret, Fit m) → cs.foldlM (stepOf op) ret = .ok ret' →
      ∀ m ∈ ret', Fit m
  | [], ret, ret', _, hr, h => by
    simp only [List.foldlM_nil, pure_eq_ok, Except.ok.injEq] at h
    exact h ▸ hr
  | c :: cs, ret, ret', hs, hr, h => by
    rw [List.foldlM_cons] at h
    obtain ⟨r, h1, h2⟩ := bind_eq_ok.1 h
    exact foldl_fit (fun c hc => hs c (List.mem_cons_of_mem _ hc))
      (step_fit (hs c List.mem_cons_self) hr h1) h2

theorem fills_fit {pb : Problem} (hs : SmallPb pb) : ∀ {l : List Op} {ret ret' : List Merged},
    (∀ m ∈ ret, Fit m) → l.foldlM (fill pb) ret = .ok ret' → ∀ m ∈ ret', Fit m
  | [], ret, ret', hr, h => by
    simp only [List.foldlM_nil, pure_eq_ok, Except.ok.injEq] at h
    exact h ▸ hr
  | op :: l, ret, ret', hr, h => by
    rw [List.foldlM_cons] at h
    obtain ⟨r, h1, h2⟩ := bind_eq_ok.1 h
    rw [fill_eq] at h1
    refine fills_fit hs (foldl_fit ?_ hr h1) h2
    cases op
    · exact hs.1
    · exact hs.2.1
    · exact hs.2.2

theorem make_fit {s : Sorts} (ho : s.Ok) {o : Order} {pb : Problem} (hs : SmallPb pb)
    {csts : List Merged} (h : make s o pb = .ok csts) : ∀ m ∈ csts, Fit m := by
  rcases make_cases s ho o pb with ⟨f, _, e⟩ | ⟨r, hr, ⟨ret, e, hsame⟩ | ⟨⟨w, e⟩, _⟩⟩
  · rw [e] at h; cases h
  · rw [e] at h
    cases h
    intro m hm
    obtain ⟨a, ha, h1, h2, h3⟩ := hsame.bwd m hm
    have := fills_fit hs (by simp) hr a ha
    unfold Fit at this ⊢
    rw [h1, h2, sumAbs_perm h3]
    exact this
  · rw [e] at h; cases h

/-! ## Bounds of a row -/

theorem lowerSum_cons (e : FunElem) (es : List FunElem) :
    lowerSum (e :: es) = (if e.factor > 0 then 0 else e.factor) + lowerSum es := by
  simp [lowerSum]

theorem upperSum_cons (e : FunElem) (es : List FunElem) :
    upperSum (e :: es) = (if e.factor > 0 then e.factor else 0) + upperSum es := by
  simp [upperSum]

theorem upper_sub_lower : ∀ es : List FunElem, upperSum es - lowerSum es = sumAbs es
  | [] => rfl
  | e :: es => by
    rw [lowerSum_cons, upperSum_cons, sumAbs_cons]
    have := upper_sub_lower es
    split <;> omega

theorem lowerSum_nonpos : ∀ es : List FunElem, lowerSum es ≤ 0
  | [] => Int.le_refl 0
  | e :: es => by
    rw [lowerSum_cons]
    have := lowerSum_nonpos es
    split <;> omega

theorem upperSum_nonneg : ∀ es : List FunElem, 0 ≤ upperSum es
  | [] => Int.le_refl 0
  | e :: es => by
    rw [upperSum_cons]
    have := upperSum_nonneg es
    split <;> omega

/-- The bounds of a row are equal and small, or between the extreme values of the row. -/
def Near (es : List FunElem) (b : Bound) : Prop :=
  sumAbs es ≤ 2147483647 ∧
  ((b.min = b.max ∧ sumAbs es + b.min.natAbs ≤ 2147483647) ∨
   (lowerSum es ≤ b.min ∧ b.min ≤ b.max ∧ b.max ≤ upperSum es))

theorem Fit.point {m : Merged} (h : Fit m) (he : m.min = m.max) :
    sumAbs m.elems + m.min.natAbs ≤ 2147483647 := by
  obtain ⟨_, h1, h2⟩ := h
  unfold intMin at h1
  unfold intMax at h2
  omega

theorem ones_sums : ∀ {es : List FunElem}, (∀ e ∈ es, e.factor = 1) →
    lowerSum es = 0 ∧ upperSum es = es.length
  | [], _ => ⟨rfl, rfl⟩
  | e :: es, h => by
    obtain ⟨h1, h2⟩ := ones_sums fun e he => h e (List.mem_cons_of_mem _ he)
    rw [lowerSum_cons, upperSum_cons, h1, h2, h e List.mem_cons_self]
    simp
    omega

theorem units_sums : ∀ {es : List FunElem}, (∀ e ∈ es, e.factor.natAbs = 1) →
    lowerSum es = -(negatives es : Int) ∧ upperSum es = (es.length : Int) - negatives es
  | [], _ => ⟨rfl, rfl⟩
  | e :: es, h => by
    obtain ⟨h1, h2⟩ := units_sums fun e he => h e (List.mem_cons_of_mem _ he)
    have h1e := h e List.mem_cons_self
    have hn : negatives (e :: es) = (if e.factor < 0 then 1 else 0) + negatives es := by
      unfold negatives
      rw [List.filter_cons]
      by_cases hlt : e.factor < 0
      · simp [hlt]
        omega
      · simp [hlt]
    rw [lowerSum_cons, upperSum_cons, h1, h2, hn, List.length_cons]
    rcases (by omega : e.factor = 1 ∨ e.factor = -1) with he | he <;> simp [he] <;> omega

theorem negatives_le (es : List FunElem) : negatives es ≤ es.length := List.length_filter_le _ _

theorem ctor_near {t : SolverType} {m : Merged} {b : Bound} (hf : Fit m)
    (h : ctor t m = .ok b) :
    Near m.elems b ∧ ∀ e ∈ m.elems, factor t e = e.factor := by
  have hZ : inequalitiesZ m = .ok b → Near m.elems b := by
    intro h
    unfold inequalitiesZ at h
    obtain ⟨_, _, h⟩ := bind_eq_ok.1 h
    obtain ⟨_, h2, h⟩ := bind_eq_ok.1 h
    cases h
    rw [check_eq_ok] at h2
    have h2 := of_decide_eq_true h2
    split at h2
    · next he => rw [if_pos he]; exact ⟨hf.1, .inl ⟨he, hf.point he⟩⟩
    · next he =>
      rw [if_neg he]
      exact ⟨hf.1, .inr ⟨Int.le_max_left _ _, h2, Int.min_le_left _ _⟩⟩
  cases t
  case equalities01 =>
    simp only [ctor, equalities01] at h
    obtain ⟨_, h1, h⟩ := bind_eq_ok.1 h
    obtain ⟨_, h2, h⟩ := bind_eq_ok.1 h
    cases h
    rw [check_eq_ok] at h1 h2
    simp only [List.all_eq_true, decide_eq_true_eq] at h1 h2
    exact ⟨⟨hf.1, .inl ⟨rfl, hf.point h2⟩⟩, fun e he => (h1 e he).symm⟩
  case equalities101 =>
    simp only [ctor, equalities101] at h
    obtain ⟨_, h1, h⟩ := bind_eq_ok.1 h
    obtain ⟨_, h2, h⟩ := bind_eq_ok.1 h
    cases h
    rw [check_eq_ok] at h1 h2
    simp only [decide_eq_true_eq] at h2
    exact ⟨⟨hf.1, .inl ⟨rfl, hf.point h2⟩⟩, fun e he => rfl⟩
  case inequalities01 =>
    simp only [ctor, inequalities01] at h
    obtain ⟨_, h1, h⟩ := bind_eq_ok.1 h
    obtain ⟨_, h2, h⟩ := bind_eq_ok.1 h
    cases h
    rw [check_eq_ok] at h1 h2
    simp only [List.all_eq_true, decide_eq_true_eq] at h1
    have h2 := of_decide_eq_true h2
    refine ⟨?_, fun e he => (h1 e he).symm⟩
    obtain ⟨hl, hu⟩ := ones_sums h1
    split at h2
    · next he => rw [if_pos he]; exact ⟨hf.1, .inl ⟨he, hf.point he⟩⟩
    · next he =>
      rw [if_neg he]
      exact ⟨hf.1, .inr ⟨by rw [hl]; exact Int.le_max_left _ _, h2,
        by rw [hu]; exact Int.min_le_left _ _⟩⟩
  case inequalities101 =>
    simp only [ctor, inequalities101] at h
    obtain ⟨_, h1, h⟩ := bind_eq_ok.1 h
    obtain ⟨_, h2, h⟩ := bind_eq_ok.1 h
    cases h
    rw [check_eq_ok] at h1 h2
    simp only [List.all_eq_true, decide_eq_true_eq] at h1
    have h2 := of_decide_eq_true h2
    refine ⟨?_, fun e he => rfl⟩
    obtain ⟨hl, hu⟩ := units_sums h1
    have hle := negatives_le m.elems
    split at h2
    · next he => rw [if_pos he]; exact ⟨hf.1, .inl ⟨he, hf.point he⟩⟩
    · next he =>
      rw [if_neg he]
      refine ⟨hf.1, .inr ⟨by rw [hl]; exact Int.le_max_left _ _, h2, ?_⟩⟩
      rw [hu]
      refine Int.le_trans (Int.min_le_left _ _) ?_
      omega
  case equalitiesZ => exact ⟨hZ h, fun e he => rfl⟩
  case inequalitiesZ => exact ⟨hZ h, fun e he => rfl⟩

/-! ## Row values -/

theorem rowValue_eq {t : SolverType} (x : Assign) : ∀ {es : List FunElem} (acc : Int),
    (∀ e ∈ es, factor t e = e.factor) → sumAbs es + acc.natAbs ≤ 2147483647 →
      rowValue t x acc es = .ok (acc + Itm.rowValue t x es)
  | [], acc, _, _ => by simp [rowValue, Itm.rowValue]
  | e :: es, acc, hf, h => by
    rw [sumAbs_cons] at h
    have he := hf e List.mem_cons_self
    have hes : ∀ e ∈ es, factor t e = e.factor := fun e he => hf e (List.mem_cons_of_mem _ he)
    unfold rowValue Itm.rowValue
    rw [he]
    split
    · rw [int32_of (by omega), ok_bind, int32_of (by omega), ok_bind,
        rowValue_eq x _ hes (by omega)]
      congr 1
      omega
    · rw [int32_of (by simp), ok_bind, int32_of (by omega), ok_bind,
        rowValue_eq x _ hes (by omega)]
      congr 1
      omega

theorem rowValue_between {t : SolverType} (x : Assign) : ∀ {es : List FunElem},
    (∀ e ∈ es, factor t e = e.factor) →
      lowerSum es ≤ Itm.rowValue t x es ∧ Itm.rowValue t x es ≤ upperSum es
  | [], _ => ⟨Int.le_refl 0, Int.le_refl 0⟩
  | e :: es, hf => by
    obtain ⟨h1, h2⟩ := rowValue_between x fun e he => hf e (List.mem_cons_of_mem _ he)
    unfold Itm.rowValue
    rw [lowerSum_cons, upperSum_cons, hf e List.mem_cons_self]
    split <;> split <;> omega

/-- Every row of the solver has near bounds and its own factors. -/
def SlvOk (s : Slv) : Prop :=
  ∀ (k : Nat) (row : List FunElem) (b : Bound), s.rows[k]? = some row → s.bounds[k]? = some b →
    Near row b ∧ ∀ e ∈ row, factor s.kind e = e.factor

theorem isValidConstraint_eq {s : Slv} (hs : SlvOk s) (k : Nat) (x : Assign) :
    isValidConstraint s k x = Itm.isValidConstraint s k x := by
  unfold isValidConstraint Itm.isValidConstraint rowOf boundOf
  cases hr : s.rows[k]? with
  | none => rfl
  | some row =>
    cases hb : s.bounds[k]? with
    | none => rfl
    | some b =>
      obtain ⟨h1, h2⟩ := hs k row b hr hb
      simp only [ok_bind]
      rw [rowValue_eq x 0 h2 (by simpa using h1.1), ok_bind, Int.zero_add]

theorem infeasibilityLoop_eq {s : Slv} (hs : SlvOk s) (x : Assign) : ∀ ks : List Nat,
    infeasibilityLoop s x ks = Itm.infeasibilityLoop s x ks
  | [] => rfl
  | k :: ks => by
    unfold infeasibilityLoop Itm.infeasibilityLoop rowOf boundOf
    rw [infeasibilityLoop_eq hs x ks]
    cases hr : s.rows[k]? with
    | none => rfl
    | some row =>
      cases hb : s.bounds[k]? with
      | none => rfl
      | some b =>
        obtain ⟨h1, h2⟩ := hs k row b hr hb
        simp only [ok_bind]
        rw [rowValue_eq x 0 h2 (by simpa using h1.1), ok_bind, Int.zero_add]
        obtain ⟨h3, h4⟩ := rowValue_between x h2
        have h5 := upper_sub_lower row
        have h6 := lowerSum_nonpos row
        have h7 := upperSum_nonneg row
        obtain ⟨hw, hn⟩ := h1
        by_cases hlo : b.min > Itm.rowValue s.kind x row
        · simp only [if_pos hlo]
          rw [int32_of (by omega), ok_bind]
        · simp only [if_neg hlo]
          by_cases hup : b.max < Itm.rowValue s.kind x row
          · simp only [if_pos hup]
            rw [int32_of (by omega), ok_bind]
          · simp only [if_neg hup]
            cases Itm.infeasibilityLoop s x ks <;> rfl

theorem infeasibility_eq {s : Slv} (hs : SlvOk s) (x : Assign) :
    infeasibility s x = Itm.infeasibility s x :=
  infeasibilityLoop_eq hs x _

theorem affect_eq {s : Slv} (hs : SlvOk s) (k : Nat) (row : List FunElem) (ids : List Nat)
    (selected : Int) (x : Assign) :
    affect s k row ids selected x = Itm.affect s k row ids selected x := by
  unfold affect Itm.affect
  simp only [isValidConstraint_eq hs]

/-! ## Selection -/

theorem cSize_le (t : SolverType) : ∀ row : List FunElem, (cSize t row : Int) ≤ -lowerSum row
  | [] => Int.le_refl 0
  | e :: es => by
    have ih := cSize_le t es
    rw [lowerSum_cons]
    unfold cSize at ih ⊢
    rw [List.filter_cons]
    by_cases hn : isNegative t e = true
    · rw [if_pos hn, List.length_cons]
      have : e.factor < 0 := by
        unfold isNegative at hn
        split at hn
        · cases hn
        · cases hn
        · exact of_decide_eq_true hn
      rw [if_neg (by omega)]
      push_cast
      omega
    · rw [if_neg hn]
      split <;> omega

theorem select_eq {s : Slv} {row : List FunElem} {b : Bound} (h : Near row b) (o : Row) :
    select s o row b = Itm.select s o row b := by
  unfold select Itm.select
  have hc : ∀ t, (cSize t row : Int) ≤ -lowerSum row := fun t => cSize_le t row
  have h5 := upper_sub_lower row
  have h6 := lowerSum_nonpos row
  have h7 := upperSum_nonneg row
  obtain ⟨hw, hn⟩ := h
  have hone : ∀ (v r : Int), -2147483647 ≤ v → v ≤ 2147483647 → 0 ≤ r →
      int32 (min v r - 1) = .ok (min v r - 1) := by
    intro v r h1 h2 h3
    have := Int.min_le_left v r
    have : -2147483647 ≤ min v r := Int.le_min.2 ⟨h1, by omega⟩
    unfold int32
    rw [if_pos]
    unfold intMin intMax
    omega
  cases s.kind <;> dsimp only
  · exact hone _ _ (by omega) (by omega) (by omega)
  · have := hc .equalities101
    unfold selectEq101 Itm.selectEq101
    rw [int32_of (by omega), ok_bind, hone _ _ (by omega) (by omega) (by omega)]
  · unfold selectIneq01 Itm.selectIneq01
    split
    · exact hone _ _ (by omega) (by omega) (by omega)
    · rfl
  · have := hc .inequalities101
    unfold selectIneq101 Itm.selectIneq101
    split
    · rw [int32_of (by omega), ok_bind, hone _ _ (by omega) (by omega) (by omega)]
    · rw [int32_of (by omega), ok_bind, int32_of (by omega), ok_bind]

theorem updateRow_eq {s : Slv} (hs : SlvOk s) (o : Row) (k : Nat) (x : Assign) :
    updateRow s o k x = Itm.updateRow s o k x := by
  unfold updateRow Itm.updateRow rowOf boundOf
  cases hr : s.rows[k]? with
  | none => rfl
  | some row =>
    cases hb : s.bounds[k]? with
    | none => rfl
    | some b =>
      obtain ⟨h1, h2⟩ := hs k row b hr hb
      simp only [ok_bind, select_eq h1, affect_eq hs]

theorem ctors_get {t : SolverType} : ∀ {csts : List Merged} {bs : List Bound},
    ctors t csts = .ok bs → ∀ (k : Nat) (m : Merged) (b : Bound), csts[k]? = some m →
      bs[k]? = some b → ctor t m = .ok b
  | [], bs, _, k, m, b, hm, _ => by simp at hm
  | c :: cs, bs, h, k, m, b, hm, hb => by
    unfold ctors at h
    obtain ⟨b0, h1, h⟩ := bind_eq_ok.1 h
    obtain ⟨bs0, h2, h⟩ := bind_eq_ok.1 h
    cases h
    cases k with
    | zero =>
      simp only [List.getElem?_cons_zero, Option.some.injEq] at hm hb
      subst hm hb
      exact h1
    | succ k =>
      simp only [List.getElem?_cons_succ] at hm hb
      exact ctors_get h2 k m b hm hb

theorem makeSlv_ok {t : SolverType} {csts : List Merged} {n : Nat} {s : Slv}
    (hf : ∀ m ∈ csts, Fit m) (h : makeSlv t csts n = .ok s) : SlvOk s := by
  unfold makeSlv at h
  obtain ⟨_, _, h⟩ := bind_eq_ok.1 h
  obtain ⟨_, _, h⟩ := bind_eq_ok.1 h
  obtain ⟨bs, hb, h⟩ := bind_eq_ok.1 h
  cases h
  intro k row b hrow hbk
  dsimp only at hrow hbk ⊢
  rw [List.getElem?_map] at hrow
  cases hm : csts[k]? with
  | none => rw [hm] at hrow; cases hrow
  | some m =>
    rw [hm] at hrow
    cases hrow
    exact ctor_near (hf m (List.mem_of_getElem? hm)) (ctors_get hb k m b hm hbk)

end Bx.Checked
