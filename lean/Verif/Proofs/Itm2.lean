import Verif.Proofs.Itm
import Verif.Props.SparseMatrix

/-! Helper lemmas: the constructor of the solvers, the selection of the
variables and the violated constraints. -/

namespace Bx.Itm

open Merge SolverCtor Spec

/-! ## Constructor -/

theorem ctors_spec {t : SolverType} : ∀ {csts : List Merged} {bs : List Bound},
    ctors t csts = .ok bs → bs.length = csts.length ∧
    ∀ (k : Nat) (c : Merged), csts[k]? = some c → ∃ b, bs[k]? = some b ∧ ctor t c = .ok b
  | [], bs, h => by
    have : ([] : List Bound) = bs := Except.ok.inj h
    subst this
    simp
  | c :: cs, bs, h => by
    unfold ctors at h
    obtain ⟨b, hb, h⟩ := bind_eq_ok.mp h
    obtain ⟨bs', hbs, h⟩ := bind_eq_ok.mp h
    have : b :: bs' = bs := Except.ok.inj h
    subst this
    obtain ⟨h1, h2⟩ := ctors_spec hbs
    refine ⟨by simp [h1], ?_⟩
    intro k c' hk
    cases k with
    | zero =>
      have : c = c' := by simpa using hk
      subst this
      exact ⟨b, by simp, hb⟩
    | succ k => simpa using h2 k c' (by simpa using hk)

theorem foldl_max_ge (cs : List Merged) : ∀ a : Nat,
    a ≤ cs.foldl (fun m c => max m c.elems.length) a ∧
    ∀ c ∈ cs, c.elems.length ≤ cs.foldl (fun m c => max m c.elems.length) a := by
  induction cs with
  | nil => intro a; simp
  | cons c cs ih =>
    intro a
    obtain ⟨h1, h2⟩ := ih (max a c.elems.length)
    simp only [List.foldl_cons]
    refine ⟨Nat.le_trans (Nat.le_max_left _ _) h1, ?_⟩
    intro c' hc'
    rcases List.mem_cons.mp hc' with rfl | hc'
    · exact Nat.le_trans (Nat.le_max_right _ _) h1
    · exact h2 c' hc'

theorem foldl_max_eq (cs : List Merged) : ∀ a : Nat,
    cs.foldl (fun m c => max m c.elems.length) a = a ∨
    ∃ c ∈ cs, cs.foldl (fun m c => max m c.elems.length) a = c.elems.length := by
  induction cs with
  | nil => intro a; simp
  | cons c cs ih =>
    intro a
    simp only [List.foldl_cons]
    rcases ih (max a c.elems.length) with h | ⟨c', hc', h⟩
    · rw [h]
      rcases Nat.le_total a c.elems.length with h' | h'
      · exact Or.inr ⟨c, by simp, by omega⟩
      · exact Or.inl (by omega)
    · exact Or.inr ⟨c', by simp [hc'], h⟩

theorem makeSlv_facts {t : SolverType} {csts : List Merged} {n : Nat} {s : Slv}
    (h : makeSlv t csts n = .ok s) :
    s.kind = t ∧ s.rows = csts.map Merged.elems ∧ 0 < s.cap ∧
    (∀ c ∈ csts, c.elems.length ≤ s.cap) ∧
    (∃ c ∈ csts, c.elems.length = s.cap) ∧ s.bounds.length = csts.length ∧
    (∀ (k : Nat) (c : Merged), csts[k]? = some c →
      ∃ b, rowOf s k = .ok c.elems ∧ boundOf s k = .ok b ∧ ctor t c = .ok b) := by
  unfold makeSlv at h
  obtain ⟨mat, hm, h⟩ := bind_eq_ok.mp h
  obtain ⟨cap, hcap, h⟩ := bind_eq_ok.mp h
  obtain ⟨bs, hbs, h⟩ := bind_eq_ok.mp h
  have := Except.ok.inj h
  subst this
  obtain ⟨h1, h2⟩ := ctors_spec hbs
  have hge : ∀ c ∈ csts, c.elems.length ≤ cap := by
    intro c hc
    cases csts with
    | nil => simp at hc
    | cons c0 cs =>
      have hcap : cs.foldl (fun m c => max m c.elems.length) c0.elems.length = cap :=
        Except.ok.inj hcap
      obtain ⟨h3, h4⟩ := foldl_max_ge cs c0.elems.length
      rw [hcap] at h3 h4
      rcases List.mem_cons.mp hc with rfl | hc
      · exact h3
      · exact h4 c hc
  have heq : ∃ c ∈ csts, c.elems.length = cap := by
    cases csts with
    | nil => exact absurd hcap (by simp [reducedCostsSize])
    | cons c0 cs =>
      have hcap : cs.foldl (fun m c => max m c.elems.length) c0.elems.length = cap :=
        Except.ok.inj hcap
      rcases foldl_max_eq cs c0.elems.length with h | ⟨c, hc, h⟩
      · exact ⟨c0, by simp, by rw [← h, hcap]⟩
      · exact ⟨c, by simp [hc], by rw [← h, hcap]⟩
  refine ⟨rfl, rfl, ?_, hge, heq, h1, ?_⟩
  · by_contra h0
    have h0 : cap = 0 := Nat.eq_zero_of_not_pos h0
    have hall : ∀ c ∈ csts, c.elems = [] := by
      intro c hc
      have := hge c hc
      exact List.length_eq_zero_iff.mp (by omega)
    rw [Sparse.C17_empty_matrix_is_undefined csts n hall] at hm
    simp at hm
  · intro k c hk
    obtain ⟨b, hb1, hb2⟩ := h2 k c hk
    refine ⟨b, ?_, ?_, hb2⟩
    · simp [rowOf, hk]
    · simp [boundOf, hb1]

theorem ctor_unit {t : SolverType} {c : Merged} {b : Bound} (h : ctor t c = .ok b)
    (ht : t ≠ .equalitiesZ ∧ t ≠ .inequalitiesZ) : UnitRow t c.elems := by
  have h1 : ∀ e ∈ c.elems, e.factor = 1 ∨ (e.factor = -1 ∧ t ≠ .equalities01 ∧ t ≠ .inequalities01) := by
    intro e he
    cases t <;> simp only [ctor, equalities01, equalities101, inequalities01, inequalities101] at h
      <;> first | exact absurd rfl ht.1 | exact absurd rfl ht.2 | skip
    all_goals
      obtain ⟨_, h1, _⟩ := bind_eq_ok.mp h
      rw [check_eq_ok] at h1
      have := List.all_eq_true.mp h1 e he
      simp only [decide_eq_true_eq] at this
    · exact Or.inl this
    · rcases Int.natAbs_eq e.factor with h | h <;> rw [this] at h
      · exact Or.inl h
      · exact Or.inr ⟨h, by simp, by simp⟩
    · exact Or.inl this
    · rcases Int.natAbs_eq e.factor with h | h <;> rw [this] at h
      · exact Or.inl h
      · exact Or.inr ⟨h, by simp, by simp⟩
  clear h
  constructor
  · intro e he
    rcases h1 e he with hf | ⟨hf, h2, h3⟩
    · cases t <;> simp [factor, hf]
    · cases t <;> simp [factor] at *
  · intro e he
    rcases h1 e he with hf | ⟨hf, h2, h3⟩
    · cases t <;> simp [factor, isNegative, hf]
    · clear h1
      cases t <;> simp [factor, isNegative, hf] at *

theorem rowValue_lhs {t : SolverType} {c : Merged} {b : Bound} (h : ctor t c = .ok b)
    (x : Assign) : rowValue t x c.elems = lhs x c.elems := by
  have hf : ∀ e ∈ c.elems, factor t e = e.factor := by
    by_cases ht : t ≠ .equalitiesZ ∧ t ≠ .inequalitiesZ
    · exact (ctor_unit h ht).1
    · intro e _
      cases t <;> simp at ht <;> rfl
  rw [rowValue_eq, lhs]
  congr 1
  apply List.map_congr_left
  intro e he
  rw [hf e he]
  split <;> simp

/-- Bounds kept by the constructors of the equality solvers. -/
theorem ctor_eq_bounds {t : SolverType} {c : Merged} {b : Bound} (h : ctor t c = .ok b)
    (ht : t = .equalities01 ∨ t = .equalities101) :
    b.min = c.min ∧ b.max = c.min ∧ c.min = c.max := by
  rcases ht with rfl | rfl <;>
    · simp only [ctor, equalities01, equalities101] at h
      obtain ⟨_, _, h⟩ := bind_eq_ok.mp h
      obtain ⟨_, h2, h⟩ := bind_eq_ok.mp h
      rw [check_eq_ok, decide_eq_true_eq] at h2
      have := Except.ok.inj h
      subst this
      exact ⟨rfl, rfl, h2⟩

theorem cSize_01 {t : SolverType} (ht : t = .equalities01 ∨ t = .inequalities01)
    (row : List FunElem) : cSize t row = 0 := by
  have : isNegative t = fun _ => false := by
    funext e
    rcases ht with rfl | rfl <;> rfl
  simp [cSize, this]

theorem cSize_le (t : SolverType) (row : List FunElem) : cSize t row ≤ row.length :=
  List.length_filter_le _ _

theorem cSize_101 {t : SolverType} (ht : t = .equalities101 ∨ t = .inequalities101)
    (row : List FunElem) : cSize t row = negatives row := by
  have : isNegative t = fun e => decide (e.factor < 0) := by
    funext e
    rcases ht with rfl | rfl <;> rfl
  simp [cSize, negatives, this]

/-- The possible values of a row with unit coefficients. -/
theorem lhs_range {t : SolverType} {row : List FunElem} (hu : UnitRow t row) (x : Assign) :
    -(cSize t row : Int) ≤ rowValue t x row ∧
    rowValue t x row ≤ (row.length : Int) - cSize t row := by
  have hu2 := hu.2
  clear hu
  induction row with
  | nil => simp [cSize, rowValue]
  | cons e es ih =>
    have h1 := ih fun e' he => hu2 e' (by simp [he])
    have h2 := hu2 e (by simp)
    simp only [cSize, rowValue, List.filter_cons, List.length_cons] at *
    rw [h2]
    cases isNegative t e <;> cases x e.var <;> simp <;> omega

/-! ## Selection -/

theorem scan_spec (s : Slv) (stop : Int → Bool) (last : Int) : ∀ (n : Nat) (i : Int), 0 ≤ i →
    (∃ j, i ≤ j ∧ j < i + n ∧ scan s stop last i n = .ok (j - 1)) ∨
    scan s stop last i n = .ok last ∨
    (scan s stop last i n = .error (.ub "R[i]") ∧ (s.cap : Int) < i + n)
  | 0, i, _ => Or.inr (Or.inl rfl)
  | n + 1, i, h => by
    unfold scan
    by_cases hc : i < s.cap
    · rw [readR_ok h hc]
      by_cases hs : stop i
      · exact Or.inl ⟨i, Int.le_refl i, by omega, by simp [hs]⟩
      · simp only [ok_bind, hs]
        rcases scan_spec s stop last n (i + 1) (by omega) with ⟨j, h1, h2, h3⟩ | h1 | ⟨h1, h2⟩
        · exact Or.inl ⟨j, by omega, by omega, by simpa using h3⟩
        · exact Or.inr (Or.inl (by simpa using h1))
        · exact Or.inr (Or.inr ⟨by simpa using h1, by omega⟩)
    · refine Or.inr (Or.inr ⟨?_, by omega⟩)
      simp [readR, hc]

/-- What the inequality solvers select: a number of variables between the two
bounds, or an out of bounds read of `R[r]`, only for the longest row. -/
theorem select_ineq {s : Slv} {o : Row} {row : List FunElem} {b : Bound}
    (hk : s.kind = .inequalities01 ∨ s.kind = .inequalities101)
    (hb : b.min ≤ b.max) (hcap : row.length ≤ s.cap)
    (hlo : -(cSize s.kind row : Int) ≤ b.min ∧ b.min ≤ (row.length : Int) - cSize s.kind row)
    (hhi : -(cSize s.kind row : Int) ≤ b.max ∧ b.max ≤ (row.length : Int) - cSize s.kind row) :
    (∃ sel, select s o row b = .ok sel ∧ b.min + cSize s.kind row ≤ sel + 1 ∧
      sel + 1 ≤ b.max + cSize s.kind row) ∨
    (select s o row b = .error (.ub "R[i]") ∧ s.cap ≤ row.length ∧
      b.max + cSize s.kind row = row.length ∧ b.min ≠ b.max) := by
  have e01 : s.kind = .inequalities01 → cSize s.kind row = 0 := fun h => cSize_01 (Or.inr h) row
  by_cases heq : b.min = b.max
  · left
    rcases hk with h | h
    · have := e01 h
      refine ⟨min b.min row.length - 1, ?_, by omega, by omega⟩
      simp [select, h, selectIneq01, heq]
    · refine ⟨min (b.min + cSize s.kind row) row.length - 1, ?_, by omega, by omega⟩
      simp [select, h, selectIneq101, heq]
  · have hsel : select s o row b =
        scan s o.stop (b.max + cSize s.kind row - 1) (b.min + cSize s.kind row)
          (b.max - b.min + 1).toNat := by
      rcases hk with h | h
      · have := e01 h
        have e1 : min b.min (row.length : Int) = b.min + cSize s.kind row := by omega
        have e2 : min b.max (row.length : Int) = b.max + cSize s.kind row := by omega
        simp only [select, h, selectIneq01, heq, if_false]
        rw [h] at e1 e2
        rw [e1, e2]
        congr 2
        omega
      · have e2 : min (b.max + cSize s.kind row) (row.length : Int) = b.max + cSize s.kind row := by
          omega
        simp only [select, h, selectIneq101, heq, if_false]
        rw [h] at e2
        rw [e2]
        congr 2
        omega
    rw [hsel]
    rcases scan_spec s o.stop (b.max + cSize s.kind row - 1) (b.max - b.min + 1).toNat
      (b.min + cSize s.kind row) (by omega) with ⟨j, h1, h2, h3⟩ | h | ⟨h1, h2⟩
    · exact Or.inl ⟨j - 1, h3, by omega, by omega⟩
    · exact Or.inl ⟨_, h, by omega, by omega⟩
    · have : ((b.max - b.min + 1).toNat : Int) = b.max - b.min + 1 := Int.toNat_of_nonneg (by omega)
      exact Or.inr ⟨h1, by omega, by omega, heq⟩

/-! ## Row update -/

/-- Everything about a row update, for a row with unit coefficients whose bounds
can be met. -/
theorem updateRow_eq {t : SolverType} {csts : List Merged} {n : Nat} {s : Slv}
    (hs : makeSlv t csts n = .ok s) (ht : t = .equalities01 ∨ t = .equalities101)
    {k : Nat} {c : Merged} (hk : csts[k]? = some c) (hnd : (c.elems.map FunElem.var).Nodup)
    {o : Row} (ho : o.Ok) (x : Assign) :
    ∃ x', (∀ j, (∀ e ∈ c.elems, e.var ≠ j) → x' j = x j) ∧
      updateRow s o k x = (if lhs x' c.elems = c.min then .ok x'
        else .error (.contract "is_valid_constraint(slv, k, x)")) ∧
      ((∃ y, lhs y c.elems = c.min) → lhs x' c.elems = c.min) := by
  obtain ⟨hkind, _, hcap0, hcap, _, _, hrows⟩ := makeSlv_facts hs
  obtain ⟨b, hr, hb, hc⟩ := hrows k c hk
  have htz : t ≠ .equalitiesZ ∧ t ≠ .inequalitiesZ := by
    rcases ht with rfl | rfl <;> simp
  have hu : UnitRow s.kind c.elems := hkind ▸ ctor_unit hc htz
  obtain ⟨hb1, hb2, _⟩ := ctor_eq_bounds hc ht
  have hmem : c ∈ csts := List.mem_of_getElem? hk
  have hsel : ∃ sel, select s o c.elems b = .ok sel ∧
      sel = min (c.min + cSize s.kind c.elems) c.elems.length - 1 := by
    rcases ht with rfl | rfl
    · have h0 := cSize_01 (Or.inl hkind) c.elems
      refine ⟨_, by simp only [select, hkind]; rfl, ?_⟩
      rw [selectEq01, hb1, h0]; simp
    · refine ⟨_, by simp only [select, hkind]; rfl, ?_⟩
      rw [selectEq101, hb1, hkind]
  obtain ⟨sel, hsel, hseleq⟩ := hsel
  have hlen := hcap c hmem
  obtain ⟨x', h1, h2, h3⟩ := affect_spec hr hb hnd hu hlen hcap0
    (ids := o.sort (List.range c.elems.length)) (ho _) sel (by omega) x
  have hv : rowValue s.kind x' c.elems = lhs x' c.elems := by rw [hkind]; exact rowValue_lhs hc x'
  refine ⟨x', h1, ?_, ?_⟩
  · unfold updateRow
    simp only [hr, hb, ok_bind, hsel, h3, hb1, hb2, hv]
    by_cases heq : lhs x' c.elems = c.min
    · rw [if_pos heq, if_pos (by omega)]
    · rw [if_neg heq, if_neg (by omega)]
  · rintro ⟨y, hy⟩
    have hr := lhs_range hu y
    have : rowValue s.kind y c.elems = lhs y c.elems := by rw [hkind]; exact rowValue_lhs hc y
    rw [← hv, h2]
    unfold clamp
    omega

/-- Bounds kept by the constructors of the inequality solvers with unit
coefficients. -/
theorem ctor_ineq_bounds {t : SolverType} {c : Merged} {b : Bound} (h : ctor t c = .ok b)
    (ht : t = .inequalities01 ∨ t = .inequalities101) (hsat : ∃ y, satM y c) :
    b.min ≤ b.max ∧
    -(cSize t c.elems : Int) ≤ b.min ∧ b.min ≤ (c.elems.length : Int) - cSize t c.elems ∧
    -(cSize t c.elems : Int) ≤ b.max ∧ b.max ≤ (c.elems.length : Int) - cSize t c.elems := by
  obtain ⟨y, hy1, hy2⟩ := hsat
  have hu : UnitRow t c.elems := ctor_unit h (by rcases ht with rfl | rfl <;> simp)
  have hr := lhs_range hu y
  rw [rowValue_lhs h y] at hr
  have hle := cSize_le t c.elems
  rcases ht with rfl | rfl
  · have h0 := cSize_01 (Or.inr rfl) c.elems
    simp only [ctor, inequalities01] at h
    obtain ⟨_, _, h⟩ := bind_eq_ok.mp h
    obtain ⟨_, h2, h⟩ := bind_eq_ok.mp h
    rw [check_eq_ok, decide_eq_true_eq] at h2
    have := Except.ok.inj h
    subst this
    refine ⟨h2, ?_⟩
    split <;> simp only at * <;> refine ⟨?_, ?_, ?_, ?_⟩ <;> omega
  · have h0 := cSize_101 (Or.inr rfl) c.elems
    simp only [ctor, inequalities101] at h
    obtain ⟨_, _, h⟩ := bind_eq_ok.mp h
    obtain ⟨_, h2, h⟩ := bind_eq_ok.mp h
    rw [check_eq_ok, decide_eq_true_eq] at h2
    have := Except.ok.inj h
    subst this
    refine ⟨h2, ?_⟩
    split <;> simp only at * <;> refine ⟨?_, ?_, ?_, ?_⟩ <;> omega

theorem updateRow_ineq {t : SolverType} {csts : List Merged} {n : Nat} {s : Slv}
    (hs : makeSlv t csts n = .ok s) (ht : t = .inequalities01 ∨ t = .inequalities101)
    {k : Nat} {c : Merged} (hk : csts[k]? = some c) (hnd : (c.elems.map FunElem.var).Nodup)
    (hsat : ∃ y, satM y c) {o : Row} (ho : o.Ok) (x : Assign) :
    (∃ x', updateRow s o k x = .ok x' ∧ satM x' c ∧
      (∀ j, (∀ e ∈ c.elems, e.var ≠ j) → x' j = x j)) ∨
    (updateRow s o k x = .error (.ub "R[i]") ∧ s.cap = c.elems.length) := by
  obtain ⟨hkind, _, hcap0, hcap, _, _, hrows⟩ := makeSlv_facts hs
  obtain ⟨b, hr, hb, hc⟩ := hrows k c hk
  have hu : UnitRow s.kind c.elems := hkind ▸ ctor_unit hc (by rcases ht with rfl | rfl <;> simp)
  have hlen := hcap c (List.mem_of_getElem? hk)
  obtain ⟨hb0, hb1, hb2, hb3, hb4⟩ := ctor_ineq_bounds hc ht hsat
  rw [← hkind] at hb1 hb2 hb3 hb4
  rcases select_ineq (s := s) (o := o) (row := c.elems) (b := b)
    (by rw [hkind]; exact ht) hb0 hlen ⟨hb1, hb2⟩ ⟨hb3, hb4⟩ with ⟨sel, h1, h2, h3⟩ | ⟨h1, h2, _⟩
  · left
    obtain ⟨x', g1, g2, g3⟩ := affect_spec hr hb hnd hu hlen hcap0
      (ids := o.sort (List.range c.elems.length)) (ho _) sel (by omega) x
    have hv : rowValue s.kind x' c.elems = lhs x' c.elems := by rw [hkind]; exact rowValue_lhs hc x'
    have hin : b.min ≤ rowValue s.kind x' c.elems ∧ rowValue s.kind x' c.elems ≤ b.max := by
      rw [g2]; unfold clamp; omega
    refine ⟨x', ?_, ?_, g1⟩
    · unfold updateRow
      simp only [hr, hb, ok_bind, h1, g3]
      rw [if_pos hin]
    · rw [hv] at hin
      exact (ctor_exact hc x').mp hin
  · right
    refine ⟨?_, by omega⟩
    unfold updateRow
    simp only [hr, hb, ok_bind, h1, error_bind]

/-- A row update that returns changes no other variable, whatever the
constraint. -/
theorem updateRow_frame {s : Slv} {o : Row} {k : Nat} {x x' : Assign}
    (h : updateRow s o k x = .ok x') {row : List FunElem} (hr : rowOf s k = .ok row)
    {j : Nat} (hj : ∀ e ∈ row, e.var ≠ j) : x' j = x j := by
  have ht : ∀ (up : Bool) (ids : List Nat) (x x' : Assign),
      turn s.kind row up x ids = .ok x' → x' j = x j := by
    intro up ids
    induction ids with
    | nil => intro x x' h; rw [← Except.ok.inj h]
    | cons i is ih =>
      intro x x' h
      unfold turn at h
      cases hi : row[i]? with
      | none => rw [hi] at h; simp at h
      | some e =>
        rw [hi] at h
        rw [ih _ _ h]
        have := hj e (List.mem_of_getElem? hi)
        simp [write, Ne.symm this]
  unfold updateRow at h
  simp only [hr, ok_bind] at h
  obtain ⟨b, _, h⟩ := bind_eq_ok.mp h
  obtain ⟨sel, _, h⟩ := bind_eq_ok.mp h
  unfold affect at h
  obtain ⟨y, hy, h⟩ := bind_eq_ok.mp h
  obtain ⟨v, _, h⟩ := bind_eq_ok.mp h
  obtain ⟨_, _, h⟩ := bind_eq_ok.mp h
  have := Except.ok.inj h
  subst this
  unfold affectX at hy
  split at hy
  · obtain ⟨_, _, hy⟩ := bind_eq_ok.mp hy
    exact ht _ _ _ _ hy
  · split at hy
    · obtain ⟨_, _, hy⟩ := bind_eq_ok.mp hy
      exact ht _ _ _ _ hy
    · obtain ⟨_, _, hy⟩ := bind_eq_ok.mp hy
      obtain ⟨_, _, hy⟩ := bind_eq_ok.mp hy
      obtain ⟨x1, h1, hy⟩ := bind_eq_ok.mp hy
      rw [ht _ _ _ _ hy, ht _ _ _ _ h1]

/-! ## Violated constraints -/

instance (x : Assign) (c : Merged) : Decidable (satM x c) := by unfold satM; infer_instance

theorem isValid_spec {t : SolverType} {csts : List Merged} {n : Nat} {s : Slv}
    (hs : makeSlv t csts n = .ok s) {k : Nat} {c : Merged} (hk : csts[k]? = some c) (x : Assign) :
    isValidConstraint s k x = .ok (decide (satM x c)) := by
  obtain ⟨hkind, _, _, _, _, _, hrows⟩ := makeSlv_facts hs
  obtain ⟨b, hr, hb, hc⟩ := hrows k c hk
  unfold isValidConstraint
  simp only [hr, hb, ok_bind, hkind, rowValue_lhs hc x]
  have := ctor_exact hc x
  rw [← Bool.decide_and]
  simp only [this]

/-- Constraint `k` is violated by `x`. -/
def Violates (csts : List Merged) (x : Assign) (k : Nat) : Prop :=
  ∃ c, csts[k]? = some c ∧ ¬ (c.min ≤ lhs x c.elems ∧ lhs x c.elems ≤ c.max)

instance (csts : List Merged) (x : Assign) (k : Nat) : Decidable (Violates csts x k) :=
  match h : csts[k]? with
  | none => isFalse (by rintro ⟨c, hc, _⟩; rw [h] at hc; simp at hc)
  | some c =>
    if hx : c.min ≤ lhs x c.elems ∧ lhs x c.elems ≤ c.max then
      isFalse (by
        rintro ⟨c', hc, hn⟩; rw [h] at hc
        have := Option.some.inj hc; subst this; exact hn hx)
    else isTrue ⟨c, h, hx⟩

theorem violates_iff {csts : List Merged} {x : Assign} {k : Nat} {c : Merged}
    (hk : csts[k]? = some c) : Violates csts x k ↔ ¬ satM x c := by
  constructor
  · rintro ⟨c', hc, hn⟩
    rw [hk] at hc
    have := Option.some.inj hc; subst this; exact hn
  · intro h; exact ⟨c, hk, h⟩

theorem violatedLoop_spec {t : SolverType} {csts : List Merged} {n : Nat} {s : Slv}
    (hs : makeSlv t csts n = .ok s) (x : Assign) : ∀ ks : List Nat, (∀ k ∈ ks, k < csts.length) →
    violatedLoop s x ks = .ok (ks.filter fun k => decide (Violates csts x k)) ∧
    (∀ a, localViolatedLoop s x ks a =
      .ok (a + (ks.filter fun k => decide (Violates csts x k)).length)) ∧
    isValidLoop s x ks = .ok (decide (ks.filter (fun k => decide (Violates csts x k)) = []))
  | [], _ => ⟨rfl, fun _ => rfl, rfl⟩
  | k :: ks, h => by
    obtain ⟨h1, h2, h3⟩ := violatedLoop_spec hs x ks fun k hk => h k (by simp [hk])
    have hlt : k < csts.length := h k (by simp)
    have hk : csts[k]? = some csts[k] := List.getElem?_eq_getElem hlt
    have hv := isValid_spec hs hk x
    have hiff := violates_iff (x := x) hk
    unfold violatedLoop localViolatedLoop isValidLoop
    simp only [hv, ok_bind, h1, h2, h3, List.filter_cons]
    by_cases hsat : satM x csts[k]
    · have : ¬ Violates csts x k := fun hn => (hiff.mp hn) hsat
      simp [hsat, this]
    · have : Violates csts x k := hiff.mpr hsat
      simp [hsat, this]
      omega

theorem infeasibilityLoop_spec {t : SolverType} {csts : List Merged} {n : Nat} {s : Slv}
    (hs : makeSlv t csts n = .ok s) (x : Assign) : ∀ ks : List Nat, (∀ k ∈ ks, k < csts.length) →
    ∃ l, infeasibilityLoop s x ks = .ok l ∧
      l.map Prod.fst = ks.filter (fun k => decide (Violates csts x k)) ∧
      ∀ p ∈ l, ∃ c, csts[p.1]? = some c ∧
        (p.2 = c.min - lhs x c.elems ∨ p.2 = lhs x c.elems - c.max) ∧ 0 < p.2
  | [], _ => ⟨[], rfl, rfl, by simp⟩
  | k :: ks, h => by
    obtain ⟨l, h1, h2, h3⟩ := infeasibilityLoop_spec hs x ks fun k hk => h k (by simp [hk])
    have hlt : k < csts.length := h k (by simp)
    obtain ⟨c, hk⟩ : ∃ c, csts[k]? = some c := ⟨_, List.getElem?_eq_getElem hlt⟩
    obtain ⟨hkind, _, _, _, _, _, hrows⟩ := makeSlv_facts hs
    obtain ⟨b, hr, hb, hc⟩ := hrows k c hk
    have hiff := violates_iff (x := x) hk
    have hex := ctor_exact hc x
    have hdist : (b.min > lhs x c.elems → b.min = c.min) ∧ (b.max < lhs x c.elems → b.max = c.max) := by
      have hl := lhs_ge_lower x c.elems
      have hu := lhs_le_upper x c.elems
      cases t <;>
        simp only [ctor, equalities01, equalities101, inequalities01, inequalities101,
          inequalitiesZ] at hc <;>
        obtain ⟨_, hall, hc⟩ := bind_eq_ok.mp hc <;>
        obtain ⟨_, hle, hc⟩ := bind_eq_ok.mp hc <;>
        have hbe := Except.ok.inj hc <;>
        subst hbe <;>
        simp only [check_eq_ok, decide_eq_true_eq, List.all_eq_true] at hall hle
      · exact ⟨fun _ => rfl, fun _ => hle⟩
      · exact ⟨fun _ => rfl, fun _ => hle⟩
      · split
        · exact ⟨fun _ => rfl, fun _ => rfl⟩
        · simp only; constructor <;> intro _ <;> omega
      · have e1 := lower_01 hall
        have e2 := upper_01 hall
        split
        · exact ⟨fun _ => rfl, fun _ => rfl⟩
        · simp only; constructor <;> intro _ <;> omega
      · obtain ⟨e1, e2, e3⟩ := bounds_101 hall
        split
        · exact ⟨fun _ => rfl, fun _ => rfl⟩
        · simp only; constructor <;> intro _ <;> omega
      · split
        · exact ⟨fun _ => rfl, fun _ => rfl⟩
        · simp only; constructor <;> intro _ <;> omega
    unfold infeasibilityLoop
    simp only [hr, hb, ok_bind, h1, hkind, rowValue_lhs hc x]
    refine ⟨_, rfl, ?_, ?_⟩
    · by_cases g1 : b.min > lhs x c.elems
      · have : Violates csts x k := hiff.mpr fun hh => by
          have := hex.mpr hh; omega
        simp [g1, this, h2]
      · by_cases g2 : b.max < lhs x c.elems
        · have : Violates csts x k := hiff.mpr fun hh => by
            have := hex.mpr hh; omega
          simp [g1, g2, this, h2]
        · have : ¬ Violates csts x k := fun hh => hiff.mp hh (hex.mp ⟨by omega, by omega⟩)
          simp [g1, g2, this, h2]
    · intro p hp
      split at hp
      · rename_i g1
        rcases List.mem_cons.mp hp with rfl | hp
        · refine ⟨c, hk, Or.inl ?_, ?_⟩
          · simp only; rw [hdist.1 g1]
          · simp only; omega
        · exact h3 p hp
      · split at hp
        · rename_i g2
          rcases List.mem_cons.mp hp with rfl | hp
          · refine ⟨c, hk, Or.inr ?_, ?_⟩
            · simp only; rw [hdist.2 g2]
            · simp only; omega
          · exact h3 p hp
        · exact h3 p hp

end Bx.Itm
