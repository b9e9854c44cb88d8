import Verif.Proofs.Preprocess4
import Mathlib.Tactic.Linarith
import Mathlib.Algebra.Order.Ring.Rat

/-! Helper lemmas for the preprocessor, part 5: from the final state to the
reduced problem. -/

namespace Bx.Preprocess

open Spec

/-- `y` on the kept variables and the affected values make up `x`. -/
def Rel (V : List (Nat × Bool)) (n : Nat) (x y : Assign) : Prop :=
  ∀ i, i < n → match V.lookup i with
    | some b => x i = b
    | none => y (newIdx V i) = x i

theorem Rel.agrees {V : List (Nat × Bool)} {n : Nat} {x y : Assign} (h : Rel V n x y)
    (hnd : (V.map Prod.fst).Nodup) (hl : ∀ p ∈ V, p.1 < n) : Agrees V x := by
  intro p hp
  have := h p.1 (hl p hp)
  rw [lookup_of_mem hnd (k := p.1) (b := p.2) hp] at this
  exact this

theorem Rel.lhs {V : List (Nat × Bool)} {n : Nat} {x y : Assign} (h : Rel V n x y) :
    ∀ {es : List FunElem}, (∀ e ∈ es, e.var < n) →
      lhs y ((unknown V es).map fun e => ⟨e.factor, newIdx V e.var⟩) = lhs x (unknown V es) := by
  intro es hes
  unfold Spec.lhs
  rw [List.map_map]
  congr 1
  refine List.map_congr_left fun e he => ?_
  rw [unknown, List.mem_filter] at he
  have := h e.var (hes e he.1)
  have hl : V.lookup e.var = none := by simpa using he.2
  rw [hl] at this
  simp only [Function.comp] at this ⊢
  rw [this]

theorem Rel.sat {V : List (Nat × Bool)} {n : Nat} {x y : Assign} (h : Rel V n x y)
    (hnd : (V.map Prod.fst).Nodup) (hl : ∀ p ∈ V, p.1 < n) {k : Kind} {c : Constr}
    (hc : ∀ e ∈ c.elems, e.var < n) : satK k (redCst V c) y ↔ satK k c x := by
  unfold satK
  rw [lhs_split (h.agrees hnd hl) c.elems, ← h.lhs hc]
  simp only [redCst]
  rw [test_shift]

/-- Every reduced constraint is satisfied. -/
def RedSat (pb : Problem) (st : St) (y : Assign) : Prop :=
  ∀ k, ∀ c ∈ redCsts st k (csts pb k), satK k c y

theorem Fin.sound {pb : Problem} {Feas : Assign → Prop} {st : St} {V0 : List (Nat × Bool)}
    (hc : Ctx pb Feas) (hf : Fin pb Feas st V0) (hno : NoOne st) (hF : ∃ x, Feas x)
    {x y : Assign} (hr : Rel st.vars pb.values.length x y) (hy : RedSat pb st y) :
    ∀ k, ∀ c ∈ csts pb k, satK k c x := by
  intro k c hmem
  obtain ⟨i, hi⟩ := List.mem_iff_getElem?.mp hmem
  by_cases hz : st.cnt k i ≤ 0
  · exact hf.zero hF k i c hi hz x (hr.agrees hf.nodup hf.lt)
  · have h1 := hno k i
    rw [← hr.sat hf.nodup hf.lt (hc.lt k c hmem)]
    exact hy k _ (mem_redCsts.mpr ⟨i, c, hi, by omega, rfl⟩)

/-- The completion of an assignment by the affected values. -/
def override (V : List (Nat × Bool)) (x : Assign) : Assign :=
  fun i => (V.lookup i).getD (x i)

theorem Fin.complete {pb : Problem} {Feas : Assign → Prop} {st : St} {V0 : List (Nat × Bool)}
    (hc : Ctx pb Feas) (hf : Fin pb Feas st V0) {x y : Assign} (hx : Feas x)
    (hr : Rel st.vars pb.values.length (override st.vars x) y) : RedSat pb st y := by
  intro k c hmem
  obtain ⟨i, c', hi, hpos, rfl⟩ := mem_redCsts.mp hmem
  have hc' := List.mem_of_getElem? hi
  rw [hr.sat hf.nodup hf.lt (hc.lt k c' hc')]
  have hxs := hc.sat x hx k c' hc'
  unfold satK at hxs ⊢
  rw [lhs_congr (y := x)]
  · exact hxs
  · intro e he
    unfold override
    cases hl : st.vars.lookup e.var with
    | none => rfl
    | some b =>
      cases hl0 : V0.lookup e.var with
      | none =>
        exact absurd rfl ((hf.new _ _ hl0 hl).2 k i c' hi (by omega) e he)
      | some b' =>
        have h1 := hf.sub _ _ hl0
        rw [hl] at h1
        cases h1
        exact (hf.agree0 x hx _ (mem_of_lookup hl0)).symm

/-! ### Objective -/

/-- The linear part of the copied objective. -/
def redObj (pb : Problem) (V : List (Nat × Bool)) : Objective where
  elems := (pb.objective.elems.filter fun e => (V.lookup e.var).isNone).map
    fun e => ⟨e.factor, newIdx V e.var⟩
  qelems := []
  value := pb.objective.value + (pb.objective.elems.map fun e =>
    if V.lookup e.var = some true then e.factor else 0).sum

theorem bqpObjective_linear (pb : Problem) (st : St) (hq : pb.objective.qelems = []) :
    bqpObjective pb st = {} := by
  unfold bqpObjective
  generalize List.range pb.values.length = L
  induction L with
  | nil => rfl
  | cons i L ih =>
    rw [List.foldl_cons]
    have : (if ((st.vars.lookup i).isNone && isUnused pb st i) = true then
        bqpVariable pb {} i else {}) = ({} : MergeObj) := by
      split
      · unfold bqpVariable; rw [hq]; rfl
      · rfl
    rw [this]
    exact ih

theorem objCopy_linear (pb : Problem) (V : List (Nat × Bool)) (n : Nat)
    (hq : pb.objective.qelems = []) (hl : ∀ e ∈ pb.objective.elems, e.var < n) :
    objCopy pb (mappingLoop V n 0 0) {} = .ok (redObj pb V) := by
  unfold objCopy
  rw [objLinear_eq V n _ _ hl, hq]
  simp only [ok_bind, objQuadratic, objMerge, redObj]
  congr 2
  simp

theorem Rel.objective {V : List (Nat × Bool)} {n : Nat} {x y : Assign} (h : Rel V n x y) :
    ∀ {es : List ObjElem}, (∀ e ∈ es, e.var < n) →
      (es.map fun e => if V.lookup e.var = some true then e.factor else 0).sum +
      (((es.filter fun e => (V.lookup e.var).isNone).map fun e =>
        (⟨e.factor, newIdx V e.var⟩ : ObjElem)).map
          fun e => if y e.var then e.factor else 0).sum =
      (es.map fun e => if x e.var then e.factor else 0).sum
  | [], _ => by simp
  | e :: es, hes => by
    have ih := Rel.objective h (es := es) (fun e' h' => hes e' (by simp [h']))
    have he := h e.var (hes e (by simp))
    rw [List.filter_cons]
    cases hl : V.lookup e.var with
    | none =>
      rw [hl] at he
      simp only at he
      simp only [Option.isNone_none, if_true, List.map_cons, List.sum_cons, hl, he, ← ih,
        reduceCtorEq, if_false]
      ring
    | some b =>
      rw [hl] at he
      simp only at he
      simp only [Option.isNone_some, Bool.false_eq_true, if_false, List.map_cons, List.sum_cons,
        hl, he, ← ih, Option.some.injEq]
      ring

theorem redObj_eq {pb : Problem} {V : List (Nat × Bool)} {n : Nat} {x y : Assign}
    (h : Rel V n x y) (hq : pb.objective.qelems = [])
    (hl : ∀ e ∈ pb.objective.elems, e.var < n) :
    Spec.objective (redObj pb V) y = Spec.objective pb.objective x := by
  have h1 := h.objective hl
  unfold Spec.objective redObj
  simp only [hq, List.map_nil, List.sum_nil, ← h1]
  ring

theorem chosen_best (t : ObjType) (f : Rat) (b : Bool) :
    AtLeastAsGood t (if chosen t f then f else 0) (if b then f else 0) := by
  cases t <;> cases b <;>
    simp only [AtLeastAsGood, chosen, decide_eq_true_eq, Bool.false_eq_true, if_false, if_true] <;>
    split <;> linarith

theorem good_add {t : ObjType} {a b c d : Rat} (h1 : AtLeastAsGood t a b)
    (h2 : AtLeastAsGood t c d) : AtLeastAsGood t (a + c) (b + d) := by
  cases t <;> simp only [AtLeastAsGood] at * <;> linarith

theorem good_refl (t : ObjType) (a : Rat) : AtLeastAsGood t a a := by
  cases t <;> simp [AtLeastAsGood]

theorem good_sum {t : ObjType} {α : Type} (f g : α → Rat) : ∀ (l : List α),
    (∀ a ∈ l, AtLeastAsGood t (f a) (g a)) →
    AtLeastAsGood t (l.map f).sum (l.map g).sum
  | [], _ => good_refl t 0
  | a :: l, h => by
    simp only [List.map_cons, List.sum_cons]
    exact good_add (h a (by simp)) (good_sum f g l fun b hb => h b (by simp [hb]))

theorem find_of_nodup {es : List ObjElem} (h : (es.map ObjElem.var).Nodup) {e : ObjElem}
    (he : e ∈ es) : es.find? (fun e' => e.var == e'.var) = some e := by
  induction es with
  | nil => simp at he
  | cons a es ih =>
    simp only [List.map_cons, List.nodup_cons] at h
    rcases List.mem_cons.mp he with rfl | he'
    · simp
    · have hne : e.var ≠ a.var := by
        intro hh
        exact h.1 (hh ▸ List.mem_map_of_mem he')
      rw [List.find?_cons_of_neg (by simpa using hne)]
      exact ih h.2 he'

/-- The values of the unused variables are the best ones for a linear
objective. -/
theorem Fin.better {pb : Problem} {Feas : Assign → Prop} {st : St} {V0 : List (Nat × Bool)}
    (hf : Fin pb Feas st V0) (hq : pb.objective.qelems = [])
    (hn : (pb.objective.elems.map ObjElem.var).Nodup) {x : Assign} (hx : Feas x) :
    AtLeastAsGood pb.type (Spec.objective pb.objective (override st.vars x))
      (Spec.objective pb.objective x) := by
  unfold Spec.objective
  simp only [hq, List.map_nil, List.sum_nil]
  refine good_add (good_add (good_refl _ _) (good_sum _ _ _ ?_)) (good_refl _ _)
  intro e he
  unfold override
  cases hl : st.vars.lookup e.var with
  | none => exact good_refl _ _
  | some b =>
    simp only [Option.getD_some]
    cases hl0 : V0.lookup e.var with
    | some b' =>
      have h1 := hf.sub _ _ hl0
      rw [hl] at h1
      cases h1
      have := hf.agree0 x hx _ (mem_of_lookup hl0)
      simp only at this
      rw [this]
      exact good_refl _ _
    | none =>
      have hb := (hf.new _ _ hl0 hl).1
      have : unusedValue pb e.var = chosen pb.type e.factor := by
        unfold unusedValue
        rw [find_of_nodup hn he]
      rw [hb, this]
      exact chosen_best _ _ _

/-! ### The two entry points -/

theorem affects_nil (pb : Problem) (fuel : Nat) (st : St) (h : st.lifo = []) :
    affects pb fuel st = .ok st := by
  unfold affects
  rw [h]

theorem finish_eq (pb : Problem) (st : St) {Feas : Assign → Prop} (hinv : Inv pb Feas st [])
    (hl : st.lifo = []) :
    finish pb st = makeProblem pb (removeUnused pb st) (bqpObjective pb st) := by
  unfold finish
  simp only
  rw [affects_nil _ _ _ (removeUnused_fin hinv hl).1.lifo]
  rfl

/-- What a run yields: either `bx_reach` on an infeasible problem, or a final
state from which the problem is made; with the states before it. -/
theorem run_states (pb : Problem)
    (hc : Ctx pb fun x => (∀ k, ∀ c ∈ csts pb k, satK k c x) ∧ RespectsFixed pb.values x) :
    (run pb = .error (.contract "bx_reach") ∧
      ¬ ∃ x, (∀ k, ∀ c ∈ csts pb k, satK k c x) ∧ RespectsFixed pb.values x) ∨
    ∃ st V0 mo, Fin pb (fun x => (∀ k, ∀ c ∈ csts pb k, satK k c x) ∧ RespectsFixed pb.values x)
        st V0 ∧ NoOne st ∧
      ((∃ x, (∀ k, ∀ c ∈ csts pb k, satK k c x) ∧ RespectsFixed pb.values x) →
        ∀ i v, pb.values[i]? = some v → v.min = v.max →
          V0.lookup i = some (decide (v.max ≠ 0))) ∧
      (pb.objective.qelems = [] → mo = {}) ∧
      run pb = makeProblem pb st mo ∧
      ∃ s1 s2, cacheInRange pb = true ∧
        tryAffectVariable pb (affectBounded pb { cnt := initCnt pb }) = .ok s1 ∧
        affects pb pb.values.length s1 = .ok s2 ∧ st = removeUnused pb s2 ∧
        affects pb pb.values.length st = .ok st := by
  set Feas : Assign → Prop :=
    fun x => (∀ k, ∀ c ∈ csts pb k, satK k c x) ∧ RespectsFixed pb.values x with hFeas
  have hrange : cacheInRange pb = true := by
    unfold cacheInRange
    simp only [Bool.and_eq_true, validIndex_iff]
    exact ⟨⟨hc.lt .eq, hc.lt .ge⟩, hc.lt .le⟩
  unfold run
  rw [hrange]
  simp only [Bool.not_true, Bool.false_eq_true, if_false]
  have hk0 : KInv pb.values.length Feas [] [] :=
    ⟨by simp, by simp, fun x _ p hp => by simp at hp⟩
  obtain ⟨b1, b2, b3⟩ := affectBounded_fold (n := pb.values.length) (Feas := Feas)
    pb.values.zipIdx [] hk0
    (fun p hp => by
      obtain ⟨v, i⟩ := p
      have := List.mk_mem_zipIdx_iff_getElem?.mp hp
      exact (List.getElem?_eq_some_iff.mp this).1)
    (fun x hx p hp hb => by
      obtain ⟨v, i⟩ := p
      have := List.mk_mem_zipIdx_iff_getElem?.mp hp
      exact hx.2 i v this hb)
  have hinv0 : Inv pb Feas (affectBounded pb { cnt := initCnt pb }) [] := initCnt_inv hc b1
  have hg := tryAffectVariable_good hc hinv0 rfl (by
    intro k i h
    simp [affectBounded, initCnt, h])
  rcases hg with ⟨s1, e1, g1, g2, g3, g4⟩ | ⟨e1, hn⟩
  · rw [e1]
    simp only [ok_bind]
    rcases affects_good hc pb.values.length s1 g1 (by omega) with ⟨s2, e2, a1, a2, a3, a4⟩ | ⟨e2, hn⟩
    · rw [e2]
      simp only [ok_bind]
      obtain ⟨f1, f2⟩ := removeUnused_fin a1 a2
      refine Or.inr ⟨removeUnused pb s2, s2.vars, bqpObjective pb s2, f1, ?_, ?_,
        fun hq => bqpObjective_linear pb s2 hq, finish_eq pb s2 a1 a2,
        s1, s2, trivial, rfl, e2, rfl, affects_nil _ _ _ f1.lifo⟩
      · intro k i
        rw [f2]
        exact a4 g4 k i
      · intro hF i v hv hb
        have hm := b3 hF (v, i) (List.mk_mem_zipIdx_iff_getElem?.mpr hv) hb
        have hm' : (i, decide (v.max ≠ 0)) ∈
            (affectBounded pb { cnt := initCnt pb }).vars ++
            (affectBounded pb { cnt := initCnt pb }).lifo := List.mem_append_right _ hm
        have h3 := a3 _ (g3 _ hm')
        rw [a2, List.append_nil] at h3
        have hnd := a1.known.nodup
        rw [a2, List.append_nil] at hnd
        exact lookup_of_mem hnd h3
    · left
      exact ⟨by rw [e2]; rfl, hn⟩
  · left
    exact ⟨by rw [e1]; rfl, hn⟩

/-- What a run yields: either `bx_reach` on an infeasible problem, or a final
state from which the problem is made. -/
theorem run_cases (pb : Problem)
    (hc : Ctx pb fun x => (∀ k, ∀ c ∈ csts pb k, satK k c x) ∧ RespectsFixed pb.values x) :
    (run pb = .error (.contract "bx_reach") ∧
      ¬ ∃ x, (∀ k, ∀ c ∈ csts pb k, satK k c x) ∧ RespectsFixed pb.values x) ∨
    ∃ st V0 mo, Fin pb (fun x => (∀ k, ∀ c ∈ csts pb k, satK k c x) ∧ RespectsFixed pb.values x)
        st V0 ∧ NoOne st ∧
      ((∃ x, (∀ k, ∀ c ∈ csts pb k, satK k c x) ∧ RespectsFixed pb.values x) →
        ∀ i v, pb.values[i]? = some v → v.min = v.max →
          V0.lookup i = some (decide (v.max ≠ 0))) ∧
      (pb.objective.qelems = [] → mo = {}) ∧
      run pb = makeProblem pb st mo := by
  rcases run_states pb hc with h | ⟨st, V0, mo, h1, h2, h3, h4, h5, _⟩
  · exact Or.inl h
  · exact Or.inr ⟨st, V0, mo, h1, h2, h3, h4, h5⟩

/-- The same for `affect`. -/
theorem affect_cases (pb : Problem) (v : Nat) (b : Bool) (hv : v < pb.values.length)
    (hc : Ctx pb fun x => (∀ k, ∀ c ∈ csts pb k, satK k c x) ∧ x v = b)
    (hlen : ∀ k, ∀ c ∈ csts pb k, c.elems.length ≠ 1) :
    (affect pb v b = .error (.contract "bx_reach") ∧
      ¬ ∃ x, (∀ k, ∀ c ∈ csts pb k, satK k c x) ∧ x v = b) ∨
    ∃ st V0 mo, Fin pb (fun x => (∀ k, ∀ c ∈ csts pb k, satK k c x) ∧ x v = b) st V0 ∧
      NoOne st ∧ V0.lookup v = some b ∧
      (pb.objective.qelems = [] → mo = {}) ∧
      affect pb v b = makeProblem pb st mo := by
  set Feas : Assign → Prop :=
    fun x => (∀ k, ∀ c ∈ csts pb k, satK k c x) ∧ x v = b with hFeas
  have hrange : cacheInRange pb = true := by
    unfold cacheInRange
    simp only [Bool.and_eq_true, validIndex_iff]
    exact ⟨⟨hc.lt .eq, hc.lt .ge⟩, hc.lt .le⟩
  unfold affect
  rw [hrange, decide_eq_true hv]
  simp only [check_true, ok_bind, Bool.not_true, Bool.false_eq_true, if_false]
  have hk0 : KInv pb.values.length Feas [] [(v, b)] :=
    ⟨by simp, by simpa using hv, fun x hx p hp => by
      simp at hp; subst hp; exact hx.2⟩
  have hinv0 : Inv pb Feas { cnt := initCnt pb, lifo := [(v, b)] } [] := initCnt_inv hc hk0
  have hno0 : NoOne { cnt := initCnt pb, lifo := [(v, b)] } := by
    intro k i
    simp only [initCnt]
    cases h : (csts pb k)[i]? with
    | none => simp
    | some c =>
      have := hlen k c (List.mem_of_getElem? h)
      simp only
      omega
  rcases affects_good hc pb.values.length _ hinv0 (by omega) with
    ⟨s2, e2, a1, a2, a3, a4⟩ | ⟨e2, hn⟩
  · rw [e2]
    simp only [ok_bind]
    obtain ⟨f1, f2⟩ := removeUnused_fin a1 a2
    refine Or.inr ⟨removeUnused pb s2, s2.vars, bqpObjective pb s2, f1, ?_, ?_,
      fun hq => bqpObjective_linear pb s2 hq, finish_eq pb s2 a1 a2⟩
    · intro k i
      rw [f2]
      exact a4 hno0 k i
    · have h3 := a3 (v, b) (by simp)
      rw [a2, List.append_nil] at h3
      have hnd := a1.known.nodup
      rw [a2, List.append_nil] at hnd
      exact lookup_of_mem hnd h3
  · left
    exact ⟨by rw [e2]; rfl, hn⟩

/-! ### Bridge with the specification -/

theorem satisfies_iff (pb : Problem) (x : Assign) :
    Satisfies pb.eqs pb.ges pb.les x ↔ ∀ k, ∀ c ∈ csts pb k, satK k c x := by
  unfold Satisfies satK
  constructor
  · rintro ⟨h1, h2, h3⟩ k c hc
    cases k
    · simpa [test] using h1 c hc
    · simpa [test] using h2 c hc
    · simpa [test] using h3 c hc
  · intro h
    refine ⟨fun c hc => ?_, fun c hc => ?_, fun c hc => ?_⟩
    · simpa [test] using h .eq c hc
    · simpa [test] using h .ge c hc
    · simpa [test] using h .le c hc

theorem ctx_of_wf {pb : Problem} (wf : WellFormed pb.objective pb.eqs pb.ges pb.les pb.values.length)
    {Feas : Assign → Prop} (hs : ∀ x, Feas x → ∀ k, ∀ c ∈ csts pb k, satK k c x) : Ctx pb Feas where
  lt := fun k => match k with
    | .eq => wf.eqs_lt
    | .ge => wf.ges_lt
    | .le => wf.les_lt
  nodup := fun k => match k with
    | .eq => wf.eqs_nodup
    | .ge => wf.ges_nodup
    | .le => wf.les_nodup
  sat := hs

theorem nodup_get_inj {α : Type} {l : List α} (h : l.Nodup) {i j : Nat} {a : α}
    (hi : l[i]? = some a) (hj : l[j]? = some a) : i = j := by
  obtain ⟨hi1, hi2⟩ := List.getElem?_eq_some_iff.mp hi
  obtain ⟨hj1, hj2⟩ := List.getElem?_eq_some_iff.mp hj
  exact (List.Nodup.getElem_inj_iff h).mp (hi2.trans hj2.symm)

section Names

variable {names : List String} {V : List (Nat × Bool)} {ns an : List String}

theorem kept_name (hns : ns.map some = (keptIdx V names.length).map (fun j => names[j]?))
    {i : Nat} (hi : i < names.length) (hl : V.lookup i = none) :
    ns[newIdx V i]? = names[i]? := by
  have := congrArg (fun l => l[newIdx V i]?) hns
  simp only [List.getElem?_map, keptIdx_get V hi hl, Option.map_some] at this
  cases hh : ns[newIdx V i]? with
  | none => rw [hh] at this; simp at this
  | some w => rw [hh] at this; simpa using this

theorem name_kept (hnd : names.Nodup)
    (hns : ns.map some = (keptIdx V names.length).map (fun j => names[j]?))
    {i j : Nat} {n : String} (hi : names[i]? = some n) (hj : ns[j]? = some n) :
    V.lookup i = none ∧ j = newIdx V i := by
  have h1 := congrArg (fun l => l[j]?) hns
  simp only [List.getElem?_map, hj, Option.map_some] at h1
  cases hk : (keptIdx V names.length)[j]? with
  | none => rw [hk] at h1; simp at h1
  | some i' =>
    rw [hk] at h1
    simp only [Option.map_some, Option.some.injEq] at h1
    have hi' : i' = i := nodup_get_inj hnd h1.symm hi
    subst hi'
    have hm := List.mem_of_getElem? hk
    rw [keptIdx, List.mem_filter] at hm
    have hl : V.lookup i' = none := by simpa using hm.2
    have hlt := List.mem_range.mp hm.1
    refine ⟨hl, ?_⟩
    have hk2 := keptIdx_get V hlt hl
    have hknd : (keptIdx V names.length).Nodup := List.nodup_range.filter _
    exact nodup_get_inj hknd hk hk2

theorem name_gone (hnd : names.Nodup)
    (han : an.map some = (goneIdx V names.length).map (fun j => names[j]?))
    {i : Nat} {n : String} {b : Bool} (hi : names[i]? = some n)
    (hm : (n, b) ∈ an.zip (((goneIdx V names.length).map
      (fun j => if V.lookup j = some true then (1 : Int) else 0)).map fun v => decide (v ≠ 0))) :
    V.lookup i = some b := by
  obtain ⟨j, hj⟩ := List.mem_iff_getElem?.mp hm
  rw [List.getElem?_zip_eq_some] at hj
  obtain ⟨h1, h2⟩ := hj
  have h3 := congrArg (fun l => l[j]?) han
  simp only [List.getElem?_map, h1, Option.map_some] at h3 h2
  cases hk : (goneIdx V names.length)[j]? with
  | none => rw [hk] at h3; simp at h3
  | some i' =>
    rw [hk] at h3 h2
    simp only [Option.map_some, Option.some.injEq] at h3 h2
    have hi' : i' = i := nodup_get_inj hnd h3.symm hi
    subst hi'
    have hmem := List.mem_of_getElem? hk
    rw [goneIdx, List.mem_filter] at hmem
    cases hl : V.lookup i' with
    | none => rw [hl] at hmem; simp at hmem
    | some c => rw [hl] at h2; cases c <;> simp at h2 <;> simp [← h2]

theorem gone_name (han : an.map some = (goneIdx V names.length).map (fun j => names[j]?))
    {i : Nat} {n : String} {b : Bool} (hi : names[i]? = some n) (hl : V.lookup i = some b) :
    (n, b) ∈ an.zip (((goneIdx V names.length).map
      (fun j => if V.lookup j = some true then (1 : Int) else 0)).map fun v => decide (v ≠ 0)) := by
  have hmem : i ∈ goneIdx V names.length := by
    rw [goneIdx, List.mem_filter, List.mem_range]
    exact ⟨(List.getElem?_eq_some_iff.mp hi).1, by simp [hl]⟩
  obtain ⟨j, hj⟩ := List.mem_iff_getElem?.mp hmem
  refine List.mem_iff_getElem?.mpr ⟨j, ?_⟩
  rw [List.getElem?_zip_eq_some]
  constructor
  · have h3 := congrArg (fun l => l[j]?) han
    simp only [List.getElem?_map, hj, Option.map_some, hi] at h3
    cases hh : an[j]? with
    | none => rw [hh] at h3; simp at h3
    | some w => rw [hh] at h3; simpa using h3
  · simp only [List.getElem?_map, hj, Option.map_some, hl]
    cases b <;> simp

end Names

end Bx.Preprocess
