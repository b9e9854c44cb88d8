import Verif.Model.Solve
import Verif.Props.Itm
import Verif.Props.Merge

/-! Helper lemmas on the solving loop. -/

namespace Bx.Itm

open Merge SolverCtor Spec

theorem addLinear_eq (x : Assign) : ∀ (es : List ObjElem) (r : Rat),
    addLinear x r es = r + (es.map fun e => if x e.var then e.factor else 0).sum
  | [], r => by simp [addLinear]
  | e :: es, r => by
    rw [addLinear, addLinear_eq x es]
    simp only [List.map_cons, List.sum_cons]
    cases x e.var
    · simp
    · simp [Rat.add_assoc]

theorem addQuadratic_eq (x : Assign) : ∀ (es : List QuadElem) (r : Rat),
    addQuadratic x r es = r + (es.map fun e => if x e.a && x e.b then e.factor else 0).sum
  | [], r => by simp [addQuadratic]
  | e :: es, r => by
    rw [addQuadratic, addQuadratic_eq x es]
    simp only [List.map_cons, List.sum_cons]
    cases x e.a && x e.b
    · simp
    · simp [Rat.add_assoc]

theorem results_eq (o : Objective) (x : Assign) : results o x = objective o x := by
  unfold results objective
  cases h : o.qelems with
  | nil => simp [addLinear_eq]
  | cons e es => simp only [List.isEmpty_cons, addQuadratic_eq, addLinear_eq]; rfl

/-- The number of violated constraints. -/
def violations (csts : List Merged) (x : Assign) : Nat :=
  ((List.range csts.length).filter fun k => decide (Violates csts x k)).length

theorem violations_zero {csts : List Merged} {x : Assign} :
    violations csts x = 0 ↔ Within x csts := by
  unfold violations
  rw [List.length_eq_zero_iff, List.eq_nil_iff_forall_not_mem]
  constructor
  · intro h c hc
    obtain ⟨k, hk⟩ := List.getElem?_of_mem hc
    by_contra hn
    refine h k ?_
    rw [List.mem_filter, List.mem_range, decide_eq_true_eq]
    exact ⟨(List.getElem?_eq_some_iff.mp hk).1, c, hk, hn⟩
  · intro h k hk
    rw [List.mem_filter, List.mem_range, decide_eq_true_eq] at hk
    obtain ⟨_, c, hc, hn⟩ := hk
    exact hn (h c (List.mem_of_getElem? hc))

theorem violated_eq {t : SolverType} {csts : List Merged} {n : Nat} {s : Slv}
    (hs : makeSlv t csts n = .ok s) (x : Assign) :
    violated s x = .ok ((List.range csts.length).filter fun k => decide (Violates csts x k)) ∧
    localViolated s x = .ok (violations csts x) ∧
    ∃ d, infeasibility s x = .ok d ∧
      d.map Prod.fst = (List.range csts.length).filter fun k => decide (Violates csts x k) := by
  obtain ⟨_, hrows, _⟩ := makeSlv_facts hs
  have hlen : s.rows.length = csts.length := by rw [hrows]; simp
  have hlt : ∀ k ∈ List.range csts.length, k < csts.length := fun k hk => List.mem_range.mp hk
  obtain ⟨h1, h2, _⟩ := violatedLoop_spec hs x _ hlt
  obtain ⟨d, g1, g2, _⟩ := infeasibilityLoop_spec hs x _ hlt
  refine ⟨?_, ?_, d, ?_, g2⟩
  · unfold violated; rw [hlen]; exact h1
  · unfold localViolated violations; rw [hlen, h2, Nat.zero_add]
  · unfold infeasibility; rw [hlen]; exact g1

/-- What a pass returns, whatever the order. -/
theorem run_spec {ρ : Type} {t : SolverType} {csts : List Merged} {n : Nat} {s : Slv}
    (hs : makeSlv t csts n = .ok s) {upd : ρ → Nat → Assign → Outcome Assign} {p : Pass ρ}
    {c c' : Compute} {x x' : Assign} {rem : Nat} (h : run s upd p c x = .ok (rem, c', x')) :
    rem = violations csts x' ∧ c'.order = c.order ∧ c'.useCycle = c.useCycle ∧
    (c.order ≠ .piSignChange → c.order ≠ .infeasibilityDecr → c.order ≠ .infeasibilityIncr →
      c'.R.length = rem) ∧
    (c.order = .infeasibilityDecr ∨ c.order = .infeasibilityIncr → c'.mOrder.length = rem) := by
  unfold run at h
  have hv : ∀ (y : Assign) (r : List Nat), violated s y = .ok r → r.length = violations csts y := by
    intro y r hr
    have := Except.ok.inj ((violated_eq hs y).1.symm.trans hr)
    rw [← this]; rfl
  have hd : ∀ (y : Assign) (d : List (Nat × Int)), infeasibility s y = .ok d →
      d.length = violations csts y := by
    intro y d hr
    obtain ⟨d', g1, g2⟩ := (violated_eq hs y).2.2
    have := Except.ok.inj (g1.symm.trans hr)
    subst this
    have := congrArg List.length g2
    rw [List.length_map] at this
    exact this
  cases ho : c.order <;> simp only [ho] at h <;>
    obtain ⟨y, _, h⟩ := bind_eq_ok.mp h <;>
    obtain ⟨r, hr, h⟩ := bind_eq_ok.mp h <;>
    have h := Except.ok.inj h <;>
    simp only [Prod.mk.injEq] at h <;>
    obtain ⟨rfl, rfl, rfl⟩ := h
  case piSignChange =>
    have := Except.ok.inj ((violated_eq hs y).2.1.symm.trans hr)
    exact ⟨this.symm, rfl, rfl, by simp, by simp⟩
  case infeasibilityDecr => exact ⟨hd y r hr, rfl, rfl, by simp, by simp⟩
  case infeasibilityIncr => exact ⟨hd y r hr, rfl, rfl, by simp, by simp⟩
  all_goals exact ⟨hv y r hr, rfl, rfl, by simp, by simp⟩

/-- Invariant of the loop. -/
structure Inv (csts : List Merged) (t : ObjType) (o : Objective) (st : St) : Prop where
  len : st.trace.length = st.passes
  best : st.best.remaining = some 0 → ∃ x, st.best.x = some x ∧ x ∈ st.trace ∧ Within x csts ∧
    st.best.value = some (results o x) ∧
    ∀ y ∈ st.trace, Within y csts → AtLeastAsGood t (results o x) (results o y)
  nothing : st.best.remaining ≠ some 0 → (∀ y ∈ st.trace, ¬ Within y csts) ∧ st.best.value = none

/-- A pass that ends on a feasible vector, then `store_if_better`. -/
theorem Inv.store {csts : List Merged} {t : ObjType} {o : Objective} {st : St}
    (h : Inv csts t o st) {x : Assign} (hx : Within x csts) (st' : St)
    (hp : st'.passes = st.passes + 1) (hf : st'.trace = st.trace ++ [x])
    (hb : st'.best = storeValue t st.best x (results o x)) :
    Inv csts t o st' ∧ st'.best.remaining = some 0 := by
  have hlen : st'.trace.length = st'.passes := by rw [hf, hp]; simp [h.len]
  by_cases h0 : st.best.remaining = some 0
  · obtain ⟨z, h1, h2, h5, h3, h4⟩ := h.best h0
    by_cases hbet : isBetter t (results o x) st.best.value = true
    · have hb' : st'.best = ⟨some x, some 0, some (results o x)⟩ := by
        rw [hb, storeValue, if_pos hbet]
      refine ⟨⟨hlen, fun _ => ⟨x, by rw [hb'], by rw [hf]; simp, hx, by rw [hb'], ?_⟩, ?_⟩,
        by rw [hb']⟩
      · intro y hy hy2
        rw [hf] at hy
        rw [h3] at hbet
        rcases List.mem_append.mp hy with hy | hy
        · have := h4 y hy hy2
          cases t <;> simp only [isBetter, AtLeastAsGood, decide_eq_true_eq] at *
          · exact Rat.le_trans this (Rat.le_of_lt hbet)
          · exact Rat.le_trans (Rat.le_of_lt hbet) this
        · rw [List.mem_singleton.mp hy]
          cases t <;> exact Rat.le_refl
      · intro hn; rw [hb'] at hn; exact absurd rfl hn
    · have hb' : st'.best = st.best := by
        rw [hb, storeValue, if_neg hbet]
      refine ⟨⟨hlen, fun _ => ⟨z, by rw [hb', h1], by rw [hf]; simp [h2], h5, by rw [hb', h3], ?_⟩,
        ?_⟩, by rw [hb', h0]⟩
      · intro y hy hy2
        rw [hf] at hy
        rw [h3] at hbet
        rcases List.mem_append.mp hy with hy | hy
        · exact h4 y hy hy2
        · rw [List.mem_singleton.mp hy]
          cases t <;> simp only [isBetter, AtLeastAsGood, decide_eq_true_eq, Rat.not_lt] at *
          · exact hbet
          · exact hbet
      · intro hn; rw [hb', h0] at hn; exact absurd rfl hn
  · obtain ⟨h1, h2⟩ := h.nothing h0
    have hb' : st'.best = ⟨some x, some 0, some (results o x)⟩ := by
      rw [hb, storeValue, h2]; rfl
    refine ⟨⟨hlen, fun _ => ⟨x, by rw [hb'], by rw [hf]; simp, hx, by rw [hb'], ?_⟩, ?_⟩,
      by rw [hb']⟩
    · intro y hy hy2
      rw [hf] at hy
      rcases List.mem_append.mp hy with hy | hy
      · exact absurd hy2 (h1 y hy)
      · rw [List.mem_singleton.mp hy]
        cases t <;> exact Rat.le_refl
    · intro hn; rw [hb'] at hn; exact absurd rfl hn

/-- A pass that ends on a vector that is not feasible. -/
theorem Inv.skip {csts : List Merged} {t : ObjType} {o : Objective} {st : St}
    (h : Inv csts t o st) {x : Assign} (hx : ¬ Within x csts) (st' : St)
    (hp : st'.passes = st.passes + 1) (hf : st'.trace = st.trace ++ [x])
    (hb : st'.best = st.best ∨ (st.best.remaining ≠ some 0 ∧ st'.best.remaining ≠ some 0 ∧
      st'.best.value = st.best.value)) :
    Inv csts t o st' ∧ (st.best.remaining = some 0 ↔ st'.best.remaining = some 0) := by
  have hlen : st'.trace.length = st'.passes := by rw [hf, hp]; simp [h.len]
  have hall : ∀ y ∈ st'.trace, Within y csts → y ∈ st.trace := by
    intro y hy hy2
    rw [hf] at hy
    rcases List.mem_append.mp hy with hy | hy
    · exact hy
    · rw [List.mem_singleton.mp hy] at hy2; exact absurd hy2 hx
  rcases hb with hb | ⟨h1, h2, h3⟩
  · refine ⟨⟨hlen, ?_, ?_⟩, by rw [hb]⟩
    · rw [hb]
      intro h0
      obtain ⟨z, g1, g2, g3, g4, g5⟩ := h.best h0
      exact ⟨z, g1, by rw [hf]; simp [g2], g3, g4, fun y hy hy2 => g5 y (hall y hy hy2) hy2⟩
    · rw [hb]
      intro h0
      obtain ⟨g1, g2⟩ := h.nothing h0
      exact ⟨fun y hy hy2 => g1 y (hall y hy hy2) hy2, g2⟩
  · refine ⟨⟨hlen, fun h0 => absurd h0 h2, fun _ => ?_⟩, by simp [h1, h2]⟩
    obtain ⟨g1, g2⟩ := h.nothing h1
    exact ⟨fun y hy hy2 => g1 y (hall y hy hy2) hy2, h3.trans g2⟩

theorem storeRemaining_pos {b : Best} {x : Assign} {r : Nat} (hr : r ≠ 0)
    (hb : b.remaining ≠ some 0) : (storeRemaining b x r).remaining ≠ some 0 ∧
      (storeRemaining b x r).value = b.value := by
  unfold storeRemaining
  split
  · exact ⟨by simpa using hr, rfl⟩
  · exact ⟨hb, rfl⟩

/-! ### What a pass visits -/

/-- The violated constraints, in increasing order. -/
def vset (csts : List Merged) (x : Assign) : List Nat :=
  (List.range csts.length).filter fun k => decide (Violates csts x k)

theorem vset_nil {csts : List Merged} {x : Assign} : vset csts x = [] ↔ Within x csts := by
  rw [← List.length_eq_zero_iff]; exact violations_zero

/-- The vector of the order holds the violated constraints. -/
structure Fresh (csts : List Merged) (c : Compute) (x : Assign) : Prop where
  notSign : c.order ≠ .piSignChange
  noCycle : c.useCycle = false
  inf : c.order = .infeasibilityDecr ∨ c.order = .infeasibilityIncr →
    c.mOrder.map Prod.fst = vset csts x
  other : c.order ≠ .infeasibilityDecr → c.order ≠ .infeasibilityIncr → c.R = vset csts x

theorem run_fresh {ρ : Type} {t : SolverType} {csts : List Merged} {n : Nat} {s : Slv}
    (hs : makeSlv t csts n = .ok s) {upd : ρ → Nat → Assign → Outcome Assign} {p : Pass ρ}
    (hp : p.Ok) {c c' : Compute} {x x' : Assign} {rem : Nat} (hf : Fresh csts c x)
    (h : run s upd p c x = .ok (rem, c', x')) :
    Fresh csts c' x' ∧ ∃ l, l.Perm (vset csts x) ∧ updateRows upd p.row 0 l x = .ok x' := by
  obtain ⟨h1, h2, h3, h4⟩ := hf
  unfold run at h
  have hv : ∀ (y : Assign) (r : List Nat), violated s y = .ok r → r = vset csts y := by
    intro y r hr
    exact (Except.ok.inj ((violated_eq hs y).1.symm.trans hr)).symm
  have hd : ∀ (y : Assign) (d : List (Nat × Int)), infeasibility s y = .ok d →
      d.map Prod.fst = vset csts y := by
    intro y d hr
    obtain ⟨d', g1, g2⟩ := (violated_eq hs y).2.2
    have := Except.ok.inj (g1.symm.trans hr)
    subst this
    exact g2
  cases ho : c.order <;> simp only [ho] at h h1 h3 h4 <;>
    simp only [ne_eq, not_true_eq_false, not_false_eq_true, reduceCtorEq, true_or, or_true,
      forall_const, false_or] at h1 h3 h4 <;>
    obtain ⟨y, hy, h⟩ := bind_eq_ok.mp h <;>
    obtain ⟨r, hr, h⟩ := bind_eq_ok.mp h <;>
    have h := Except.ok.inj h <;>
    simp only [Prod.mk.injEq] at h <;>
    obtain ⟨rfl, rfl, rfl⟩ := h
  case infeasibilityDecr =>
    exact ⟨⟨by simp [ho], h2, fun _ => hd y r hr, by simp [ho]⟩, _,
      ((hp.2 c.mOrder).map Prod.fst).trans (h3 ▸ List.Perm.refl _), hy⟩
  case infeasibilityIncr =>
    exact ⟨⟨by simp [ho], h2, fun _ => hd y r hr, by simp [ho]⟩, _,
      ((hp.2 c.mOrder).map Prod.fst).trans (h3 ▸ List.Perm.refl _), hy⟩
  case reversing =>
    exact ⟨⟨by simp [ho], h2, by simp [ho], fun _ _ => hv y r hr⟩, _,
      h4 ▸ List.reverse_perm _, hy⟩
  case none =>
    exact ⟨⟨by simp [ho], h2, by simp [ho], fun _ _ => hv y r hr⟩, _,
      h4 ▸ List.Perm.refl _, hy⟩
  case cycle =>
    exact ⟨⟨by simp [ho], h2, by simp [ho], fun _ _ => hv y r hr⟩, _,
      h4 ▸ List.Perm.refl _, hy⟩
  all_goals
    exact ⟨⟨by simp [ho], h2, by simp [ho], fun _ _ => hv y r hr⟩, _,
      (hp.1 c.R).trans (h4 ▸ List.Perm.refl _), hy⟩

/-- Each vector of the trace comes from the one before by updates of the
constraints that it violates. -/
def Linked {ρ : Type} (csts : List Merged) (upd : ρ → Nat → Assign → Outcome Assign) (r : Run ρ)
    (tr : List Assign) : Prop :=
  ∀ (i : Nat) x x', (r.x0 :: tr)[i]? = some x → tr[i]? = some x' →
    ∃ l, l.Perm (vset csts x) ∧ updateRows upd (r.pass i).row 0 l x = .ok x'

structure Chain {ρ : Type} (csts : List Merged) (upd : ρ → Nat → Assign → Outcome Assign)
    (r : Run ρ) (st : St) : Prop where
  fresh : Fresh csts st.compute st.x
  len : st.trace.length = st.passes
  last : (r.x0 :: st.trace)[st.passes]? = some st.x
  linked : Linked csts upd r st.trace

theorem Chain.step {ρ : Type} {t : SolverType} {csts : List Merged} {n : Nat} {s : Slv}
    (hs : makeSlv t csts n = .ok s) {upd : ρ → Nat → Assign → Outcome Assign} {r : Run ρ}
    (hr : r.Ok) {st : St} (hc : Chain csts upd r st) {rem : Nat} {c : Compute} {x : Assign}
    (h : run s upd (r.pass st.passes) st.compute st.x = .ok (rem, c, x)) (st' : St)
    (h1 : st'.compute = c) (h2 : st'.x = x) (h3 : st'.passes = st.passes + 1)
    (h4 : st'.trace = st.trace ++ [x]) : Chain csts upd r st' := by
  obtain ⟨g1, l, g2, g3⟩ := run_fresh hs (hr _) hc.fresh h
  refine ⟨by rw [h1, h2]; exact g1, by rw [h4, h3]; simp [hc.len], ?_, ?_⟩
  · rw [h4, h3, h2, List.getElem?_cons_succ, List.getElem?_append_right (by rw [hc.len])]
    simp [hc.len]
  · intro i y y' hy hy'
    rw [h4] at hy hy'
    by_cases hi : i < st.trace.length
    · rw [List.getElem?_append_left hi] at hy'
      rw [← List.cons_append, List.getElem?_append_left (by simp; omega)] at hy
      exact hc.linked i y y' hy hy'
    · have hi' : i < (st.trace ++ [x]).length := (List.getElem?_eq_some_iff.mp hy').1
      have hi2 : i = st.trace.length := by simp at hi'; omega
      subst hi2
      rw [← List.cons_append, List.getElem?_append_left (by simp), hc.len, hc.last] at hy
      rw [List.getElem?_append_right (Nat.le_refl _)] at hy'
      simp only [Nat.sub_self, List.getElem?_cons_zero, Option.some.injEq] at hy hy'
      subst hy
      subst hy'
      rw [hc.len]
      exact ⟨l, g2, g3⟩

section Loops

variable {ρ : Type} {kind : SolverType} {csts : List Merged} {n : Nat} {s : Slv}
  {upd : ρ → Nat → Assign → Outcome Assign} {r : Run ρ} {t : ObjType} {o : Objective}

theorem mainLoop_spec (hs : makeSlv kind csts n = .ok s) : ∀ (k : Nat) (st st' : St) (e : Exit),
    mainLoop s upd r t o k st = .ok (st', e) → Inv csts t o st → st.best.remaining ≠ some 0 →
    Inv csts t o st' ∧ st.passes ≤ st'.passes ∧ st'.passes ≤ st.passes + k ∧
    (e = .found ↔ st'.best.remaining = some 0) ∧
    (e = .found → st'.trace.getLast? = some st'.x ∧ Within st'.x csts ∧
      st'.best.x = some st'.x) ∧
    (e = .limit → st'.passes = st.passes + k) ∧
    (e = .kappa → r.kappaOver st'.passes = true) ∧
    (e = .time → r.timeUp st'.passes = true)
  | 0, st, st', e, h, hi, h0 => by
    have h := Except.ok.inj h
    simp only [Prod.mk.injEq] at h
    obtain ⟨rfl, rfl⟩ := h
    exact ⟨hi, Nat.le_refl _, Nat.le_refl _, by simp [h0], by simp, by simp, by simp, by simp⟩
  | k + 1, st, st', e, h, hi, h0 => by
    unfold mainLoop at h
    obtain ⟨⟨rem, c, x⟩, hrun, h⟩ := bind_eq_ok.mp h
    obtain ⟨hrem, _⟩ := run_spec hs hrun
    simp only at h
    by_cases hz : rem = 0
    · rw [if_pos hz] at h
      have h := Except.ok.inj h
      simp only [Prod.mk.injEq] at h
      obtain ⟨rfl, rfl⟩ := h
      have hw : Within x csts := violations_zero.mp (hrem ▸ hz)
      obtain ⟨g1, g2⟩ := hi.store hw
        { st with compute := c, x := x, passes := st.passes + 1, trace := st.trace ++ [x],
                  best := storeValue t st.best x (results o x), bestRemaining := some 0 }
        rfl rfl rfl
      refine ⟨g1, by simp, by simp, ⟨fun _ => g2, fun _ => rfl⟩,
        fun _ => ⟨by simp, hw, ?_⟩, by simp, by simp, by simp⟩
      simp only [storeValue, (hi.nothing h0).2, isBetter, if_true]
    · rw [if_neg hz] at h
      have hw : ¬ Within x csts := fun hw => hz (hrem.trans (violations_zero.mpr hw))
      -- the state after the store
      generalize hst1 : (if ltInt rem st.bestRemaining = true then
          ({ st with compute := c, x := x, passes := st.passes + 1, trace := st.trace ++ [x],
                     best := storeRemaining st.best x rem, bestRemaining := some rem } : St)
        else { st with compute := c, x := x, passes := st.passes + 1,
                       trace := st.trace ++ [x] }) = st1 at h
      have hp1 : st1.passes = st.passes + 1 ∧ st1.compute = c ∧ Inv csts t o st1 ∧
          st1.best.remaining ≠ some 0 := by
        by_cases hl : ltInt rem st.bestRemaining = true
        · rw [if_pos hl] at hst1
          subst hst1
          obtain ⟨g1, g2⟩ := storeRemaining_pos (x := x) hz h0
          exact ⟨rfl, rfl, (hi.skip hw _ rfl rfl (Or.inr ⟨h0, g1, g2⟩)).1, g1⟩
        · rw [if_neg hl] at hst1
          subst hst1
          exact ⟨rfl, rfl, (hi.skip hw
            { st with compute := c, x := x, passes := st.passes + 1, trace := st.trace ++ [x] }
            rfl rfl (Or.inl rfl)).1, h0⟩
      obtain ⟨hp, hc1, hi1, h01⟩ := hp1
      by_cases hk : r.kappaOver st1.passes = true
      · rw [if_pos hk] at h
        have h := Except.ok.inj h
        simp only [Prod.mk.injEq] at h
        obtain ⟨rfl, rfl⟩ := h
        exact ⟨hi1, by omega, by omega, by simp [h01], by simp, by simp, fun _ => hk, by simp⟩
      · rw [if_neg hk] at h
        by_cases ht : r.timeUp st1.passes = true
        · rw [if_pos ht] at h
          have h := Except.ok.inj h
          simp only [Prod.mk.injEq] at h
          obtain ⟨rfl, rfl⟩ := h
          exact ⟨hi1, by omega, by omega, by simp [h01], by simp, by simp, by simp, fun _ => ht⟩
        · rw [if_neg ht] at h
          obtain ⟨g1, g2, g3, g4, g5, g6, g7⟩ := mainLoop_spec hs k st1 st' e h hi1 h01
          exact ⟨g1, by omega, by omega, g4, g5, fun he => by rw [g6 he]; omega, g7⟩

theorem mainLoop_chain (hs : makeSlv kind csts n = .ok s) (hr : r.Ok) :
    ∀ (k : Nat) (st st' : St) (e : Exit),
    mainLoop s upd r t o k st = .ok (st', e) → Chain csts upd r st → Chain csts upd r st'
  | 0, st, st', e, h, hc => by
    have h := Except.ok.inj h
    simp only [Prod.mk.injEq] at h
    obtain ⟨rfl, rfl⟩ := h
    exact hc
  | k + 1, st, st', e, h, hc => by
    unfold mainLoop at h
    obtain ⟨⟨rem, c, x⟩, hrun, h⟩ := bind_eq_ok.mp h
    simp only at h
    by_cases hz : rem = 0
    · rw [if_pos hz] at h
      have h := Except.ok.inj h
      simp only [Prod.mk.injEq] at h
      obtain ⟨rfl, rfl⟩ := h
      exact hc.step hs hr hrun _ rfl rfl rfl rfl
    · rw [if_neg hz] at h
      generalize hst1 : (if ltInt rem st.bestRemaining = true then
          ({ st with compute := c, x := x, passes := st.passes + 1, trace := st.trace ++ [x],
                     best := storeRemaining st.best x rem, bestRemaining := some rem } : St)
        else { st with compute := c, x := x, passes := st.passes + 1,
                       trace := st.trace ++ [x] }) = st1 at h
      have hc1 : Chain csts upd r st1 := by
        by_cases hl : ltInt rem st.bestRemaining = true
        · rw [if_pos hl] at hst1
          subst hst1
          exact hc.step hs hr hrun _ rfl rfl rfl rfl
        · rw [if_neg hl] at hst1
          subst hst1
          exact hc.step hs hr hrun _ rfl rfl rfl rfl
      by_cases hk : r.kappaOver st1.passes = true
      · rw [if_pos hk] at h
        have h := Except.ok.inj h
        simp only [Prod.mk.injEq] at h
        obtain ⟨rfl, rfl⟩ := h
        exact hc1
      · rw [if_neg hk] at h
        by_cases ht : r.timeUp st1.passes = true
        · rw [if_pos ht] at h
          have h := Except.ok.inj h
          simp only [Prod.mk.injEq] at h
          obtain ⟨rfl, rfl⟩ := h
          exact hc1
        · rw [if_neg ht] at h
          exact mainLoop_chain hs hr k st1 st' e h hc1

theorem pushInner_spec (hs : makeSlv kind csts n = .ok s) : ∀ (k : Nat) (st st' : St),
    pushInner s upd r t o k st = .ok st' → Inv csts t o st → st.best.remaining = some 0 →
    Inv csts t o st' ∧ st'.passes ≤ st.passes + k ∧ st'.best.remaining = some 0 ∧
    (∃ l, st'.trace = st.trace ++ l) ∧ (r.Ok → Chain csts upd r st → Chain csts upd r st')
  | 0, st, st', h, hi, h0 => by
    have h := Except.ok.inj h
    subst h
    exact ⟨hi, Nat.le_refl _, h0, ⟨[], by simp⟩, fun _ a => a⟩
  | k + 1, st, st', h, hi, h0 => by
    unfold pushInner at h
    obtain ⟨⟨rem, c, x⟩, hrun, h⟩ := bind_eq_ok.mp h
    obtain ⟨hrem, _⟩ := run_spec hs hrun
    simp only at h
    by_cases hz : rem = 0
    · rw [if_pos hz] at h
      have h := Except.ok.inj h
      subst h
      have hw : Within x csts := violations_zero.mp (hrem ▸ hz)
      obtain ⟨g1, g2⟩ := hi.store hw
        { st with compute := c, x := x, passes := st.passes + 1, trace := st.trace ++ [x],
                  best := storeValue t st.best x (results o x) } rfl rfl rfl
      exact ⟨g1, by simp, g2, ⟨_, rfl⟩, fun hr hc => hc.step hs hr hrun _ rfl rfl rfl rfl⟩
    · rw [if_neg hz] at h
      have hw : ¬ Within x csts := fun hw => hz (hrem.trans (violations_zero.mpr hw))
      obtain ⟨hi1, hb1⟩ := hi.skip hw
        { st with compute := c, x := x, passes := st.passes + 1, trace := st.trace ++ [x] }
        rfl rfl (Or.inl rfl)
      have hc1 : r.Ok → Chain csts upd r st → Chain csts upd r
          { st with compute := c, x := x, passes := st.passes + 1, trace := st.trace ++ [x] } :=
        fun hr hc => hc.step hs hr hrun _ rfl rfl rfl rfl
      by_cases hk : r.kappaOver (st.passes + 1) = true
      · rw [if_pos hk] at h
        have h := Except.ok.inj h
        subst h
        exact ⟨hi1, by simp, h0, ⟨_, rfl⟩, hc1⟩
      · rw [if_neg hk] at h
        by_cases ht : r.timeUp (st.passes + 1) = true
        · rw [if_pos ht] at h
          have h := Except.ok.inj h
          subst h
          exact ⟨hi1, by simp, h0, ⟨_, rfl⟩, hc1⟩
        · rw [if_neg ht] at h
          obtain ⟨g1, g2, g3, ⟨l, g4⟩, g5⟩ := pushInner_spec hs k _ st' h hi1 h0
          refine ⟨g1, by simp only at g2; omega, g3, ⟨x :: l, ?_⟩, fun a b => g5 a (hc1 a b)⟩
          rw [g4]; simp

theorem pushLoop_spec (hs : makeSlv kind csts n = .ok s) (iters : Nat) :
    ∀ (k : Nat) (st st' : St),
    pushLoop s upd r t o iters k st = .ok st' → Inv csts t o st → st.best.remaining = some 0 →
    Inv csts t o st' ∧ st'.passes ≤ st.passes + k * (1 + iters) ∧
    st'.best.remaining = some 0 ∧
    (∃ l, st'.trace = st.trace ++ l) ∧ (r.Ok → Chain csts upd r st → Chain csts upd r st')
  | 0, st, st', h, hi, h0 => by
    have h := Except.ok.inj h
    subst h
    exact ⟨hi, by simp, h0, ⟨[], by simp⟩, fun _ a => a⟩
  | k + 1, st, st', h, hi, h0 => by
    unfold pushLoop at h
    obtain ⟨⟨rem, c, x⟩, hrun, h⟩ := bind_eq_ok.mp h
    unfold pushAndRun at hrun
    obtain ⟨hrem, _⟩ := run_spec hs hrun
    simp only at h
    generalize hst1 : (if rem = 0 then
        ({ st with compute := c, x := x, passes := st.passes + 1, trace := st.trace ++ [x],
                   best := storeValue t st.best x (results o x) } : St)
      else { st with compute := c, x := x, passes := st.passes + 1,
                     trace := st.trace ++ [x] }) = st1 at h
    have hp1 : st1.passes = st.passes + 1 ∧ Inv csts t o st1 ∧ st1.best.remaining = some 0 ∧
        st1.compute = c ∧ st1.x = x ∧ st1.trace = st.trace ++ [x] := by
      by_cases hz : rem = 0
      · rw [if_pos hz] at hst1
        subst hst1
        have hw : Within x csts := violations_zero.mp (hrem ▸ hz)
        obtain ⟨g1, g2⟩ := hi.store hw
          { st with compute := c, x := x, passes := st.passes + 1, trace := st.trace ++ [x],
                    best := storeValue t st.best x (results o x) } rfl rfl rfl
        exact ⟨rfl, g1, g2, rfl, rfl, rfl⟩
      · rw [if_neg hz] at hst1
        subst hst1
        have hw : ¬ Within x csts := fun hw => hz (hrem.trans (violations_zero.mpr hw))
        exact ⟨rfl, (hi.skip hw
          { st with compute := c, x := x, passes := st.passes + 1, trace := st.trace ++ [x] }
          rfl rfl (Or.inl rfl)).1, h0, rfl, rfl, rfl⟩
    obtain ⟨hp, hi1, hb1, hc1, hx1, ht1⟩ := hp1
    have hmul : (k + 1) * (1 + iters) = k * (1 + iters) + (1 + iters) := Nat.succ_mul _ _
    have hch : r.Ok → Chain csts upd r st → Chain csts upd r st1 := by
      intro hr hc
      rw [hc.fresh.noCycle] at hrun
      simp only [Bool.false_eq_true, if_false] at hrun
      exact hc.step hs hr hrun st1 hc1 hx1 hp ht1
    by_cases ht : r.timeUp st1.passes = true
    · rw [if_pos ht] at h
      have h := Except.ok.inj h
      subst h
      exact ⟨hi1, by omega, hb1, ⟨_, ht1⟩, hch⟩
    · rw [if_neg ht] at h
      obtain ⟨st2, h2, h⟩ := bind_eq_ok.mp h
      obtain ⟨g1, g2, g3, ⟨l1, g4⟩, g5⟩ := pushInner_spec hs iters st1 st2 h2 hi1 hb1
      obtain ⟨f1, f2, f3, ⟨l2, f4⟩, f5⟩ := pushLoop_spec hs iters k st2 st' h g1 g3
      refine ⟨f1, by omega, f3, ⟨x :: l1 ++ l2, ?_⟩, fun a b => f5 a (g5 a (hch a b))⟩
      rw [f4, g4, ht1]
      simp

end Loops

theorem init_fresh {t : SolverType} {csts : List Merged} {n : Nat} {s : Slv}
    (hs : makeSlv t csts n = .ok s) {o : COrder} {x : Assign} {c : Compute}
    (h : (Compute.make o n).init s x = .ok c) (h1 : o ≠ .piSignChange) (h2 : o ≠ .cycle) :
    Fresh csts c x := by
  have hv : ∀ (r : List Nat), violated s x = .ok r → r = vset csts x := by
    intro r hr
    exact (Except.ok.inj ((violated_eq hs x).1.symm.trans hr)).symm
  have hd : ∀ (d : List (Nat × Int)), infeasibility s x = .ok d →
      d.map Prod.fst = vset csts x := by
    intro d hr
    obtain ⟨d', g1, g2⟩ := (violated_eq hs x).2.2
    have := Except.ok.inj (g1.symm.trans hr)
    subst this
    exact g2
  unfold Compute.init Compute.make at h
  cases o <;>
    simp only [ne_eq, not_true_eq_false, reduceCtorEq, if_false, decide_false] at h h1 h2 <;>
    obtain ⟨r, hr, h⟩ := bind_eq_ok.mp h <;>
    have h := Except.ok.inj h <;>
    subst h
  case infeasibilityDecr => exact ⟨by simp, rfl, fun _ => hd r hr, by simp⟩
  case infeasibilityIncr => exact ⟨by simp, rfl, fun _ => hd r hr, by simp⟩
  all_goals exact ⟨by simp, rfl, by simp, fun _ _ => hv r hr⟩

/-- Everything about an answer of the functor. -/
theorem functor_spec {ρ : Type} {kind : SolverType}
    {upd : Slv → ρ → Nat → Assign → Outcome Assign} {r : Run ρ} {p : Params} {t : ObjType}
    {o : Objective} {csts : List Merged} {nvars : Nat} {a : Answer}
    (h : functor kind upd r p t o csts nvars = .ok a) :
    Inv csts t o a.final ∧ a.mainPasses ≤ p.limit ∧
    (a.exit = .limit → a.mainPasses = p.limit) ∧
    a.final.passes ≤ a.mainPasses + p.pushes * (1 + p.pushIter) ∧
    (a.exit ≠ .found → a.final.passes = a.mainPasses) ∧
    (a.exit = .found ↔ a.final.best.remaining = some 0) ∧
    a.status = statusOf a.exit a.final.best.remaining ∧
    a.solution = a.final.best.x.map (fun x => ((List.range nvars).map x, a.final.best.value)) ∧
    (a.exit = .kappa → r.kappaOver a.mainPasses = true) ∧
    (a.exit = .time → r.timeUp a.mainPasses = true) ∧
    (a.exit = .found → ∃ x, a.final.trace[a.mainPasses - 1]? = some x ∧ Within x csts ∧
      a.mainPasses ≠ 0) ∧
    (r.Ok → p.order ≠ .piSignChange → p.order ≠ .cycle →
      ∃ s, makeSlv kind csts nvars = .ok s ∧ Linked csts (upd s) r a.final.trace) := by
  unfold functor at h
  obtain ⟨s, hs, h⟩ := bind_eq_ok.mp h
  obtain ⟨c, hc, h⟩ := bind_eq_ok.mp h
  obtain ⟨⟨st, e⟩, hm, h⟩ := bind_eq_ok.mp h
  simp only at h
  obtain ⟨st', hst', h⟩ := bind_eq_ok.mp h
  have h := Except.ok.inj h
  subst h
  unfold pushPhase at hst'
  have hi : Inv csts t o { compute := c, x := r.x0 } :=
    ⟨by simp, by simp, by simp⟩
  have hch0 : p.order ≠ .piSignChange → p.order ≠ .cycle →
      Chain csts (upd s) r { compute := c, x := r.x0 } := by
    intro h1 h2
    exact ⟨init_fresh hs hc h1 h2, rfl, rfl, by intro i x x' _ h; simp at h⟩
  obtain ⟨g1, g2, g3, g4, g5, g6, g7, g8⟩ := mainLoop_spec hs _ _ _ _ hm hi (by simp)
  simp only [Nat.zero_add] at g3 g6
  by_cases he : e = .found
  · rw [if_pos he] at hst'
    obtain ⟨f1, f2, f3, ⟨l, f4⟩, f5⟩ := pushLoop_spec hs _ _ _ _ hst' g1 (g4.mp he)
    refine ⟨f1, g3, fun hh => g6 hh, f2, fun hh => absurd he hh, by simp [he, f3], rfl, rfl, g7, g8,
      fun _ => ?_, fun hr h1 h2 =>
        ⟨s, hs, (f5 hr (mainLoop_chain hs hr _ _ _ _ hm (hch0 h1 h2))).linked⟩⟩
    obtain ⟨d1, d2, _⟩ := g5 he
    have hne : st.trace ≠ [] := by intro hh; rw [hh] at d1; simp at d1
    have hpos : 0 < st.trace.length := List.length_pos_iff.mpr hne
    have hl := g1.len
    refine ⟨st.x, ?_, d2, by simp only; omega⟩
    simp only
    rw [f4, ← hl, List.getElem?_append_left (by omega), ← List.getLast?_eq_getElem?]
    exact d1
  · rw [if_neg he] at hst'
    have h := Except.ok.inj hst'
    subst h
    exact ⟨g1, g3, fun hh => g6 hh, by simp, fun _ => rfl, g4, rfl, rfl, g7, g8,
      fun hh => absurd hh he,
      fun hr h1 h2 => ⟨s, hs, (mainLoop_chain hs hr _ _ _ _ hm (hch0 h1 h2)).linked⟩⟩

end Bx.Itm
