import Verif.Proofs.Preprocess3

/-! Helper lemmas for the preprocessor, part 4: final state and copy
functions. -/

namespace Bx.Preprocess

open Spec

/-- The state from which the reduced problem is built. `V0` are the values
found by propagation, the other ones are those of the unused variables. -/
structure Fin (pb : Problem) (Feas : Assign → Prop) (st : St) (V0 : List (Nat × Bool)) :
    Prop where
  nodup : (st.vars.map Prod.fst).Nodup
  lt : ∀ p ∈ st.vars, p.1 < pb.values.length
  lifo : st.lifo = []
  cnt : ∀ k i c, (csts pb k)[i]? = some c → 0 < st.cnt k i →
    st.cnt k i = ((unknown st.vars c.elems).length : Int)
  zero : (∃ x, Feas x) → ∀ k i c, (csts pb k)[i]? = some c → st.cnt k i ≤ 0 →
    ∀ z, Agrees st.vars z → satK k c z
  sub : ∀ i b, V0.lookup i = some b → st.vars.lookup i = some b
  agree0 : ∀ x, Feas x → Agrees V0 x
  new : ∀ i b, V0.lookup i = none → st.vars.lookup i = some b →
    b = unusedValue pb i ∧ ∀ k j c, (csts pb k)[j]? = some c → 0 < st.cnt k j →
      ∀ e ∈ c.elems, e.var ≠ i
  used : ∀ i, i < pb.values.length → st.vars.lookup i = none →
    ∃ k j c, (csts pb k)[j]? = some c ∧ 0 < st.cnt k j ∧ ∃ e ∈ c.elems, e.var = i

theorem removeUnused_fin {pb : Problem} {Feas : Assign → Prop} {st : St}
    (hinv : Inv pb Feas st []) (hl : st.lifo = []) :
    Fin pb Feas (removeUnused pb st) st.vars ∧
    (removeUnused pb st).cnt = st.cnt := by
  have hkn := hinv.known
  have hnd := hkn.nodup
  have hzero := hinv.zero
  have hagree := hkn.agree
  have hlt := hkn.lt
  simp only [hl, List.append_nil] at hnd hzero hagree hlt
  rw [removeUnused_eq]
  obtain ⟨h1, h2, h3, h4, h5⟩ :=
    removeUnused_fold pb (List.range pb.values.length) st hnd
  generalize (List.range pb.values.length).foldl (unusedStep pb) st = st' at *
  have hunused : ∀ i, isUnused pb st i = true → ∀ k j c, (csts pb k)[j]? = some c →
      0 < st.cnt k j → ∀ e ∈ c.elems, e.var ≠ i := by
    intro i hi k j c hc hpos e he hei
    unfold isUnused at hi
    rw [List.all_eq_true] at hi
    have := hi (k, j) (mem_visit hc he hei)
    simp only [decide_eq_true_eq] at this
    omega
  have hsub : ∀ i b, st.vars.lookup i = some b → st'.vars.lookup i = some b := by
    intro i b hb
    rw [h5 i, hb]
  have hnew : ∀ i b, st.vars.lookup i = none → st'.vars.lookup i = some b →
      b = unusedValue pb i ∧ isUnused pb st i = true := by
    intro i b hn hb
    rw [h5 i, hn] at hb
    simp only at hb
    split at hb
    · rename_i hh
      exact ⟨by simpa using hb.symm, hh.2⟩
    · simp at hb
  refine ⟨⟨h3, ?_, h2.trans hl, ?_, ?_, hsub, hagree, ?_, ?_⟩, h1⟩
  · intro p hp
    rcases h4 p hp with hp | hp
    · exact hlt p hp
    · exact List.mem_range.mp hp
  · intro k i c hc hpos
    rw [h1] at hpos ⊢
    rw [hinv.cnt k i c hc hpos]
    have : unknown st'.vars c.elems = unknown st.vars c.elems := by
      unfold unknown
      refine List.filter_congr fun e he => ?_
      cases hv : st.vars.lookup e.var with
      | some b => rw [hsub _ _ hv]
      | none =>
        cases hv' : st'.vars.lookup e.var with
        | none => rfl
        | some b =>
          exact absurd rfl (hunused _ (hnew _ _ hv hv').2 k i c hc hpos e he)
    rw [this]; simp
  · intro hF k i c hc hz z hz'
    rw [h1] at hz
    refine hzero hF k i c hc hz z fun p hp => ?_
    exact hz' _ (mem_of_lookup (hsub p.1 p.2 (lookup_of_mem hnd hp)))
  · intro i b hn hb
    obtain ⟨e1, e2⟩ := hnew i b hn hb
    refine ⟨e1, ?_⟩
    rw [h1]
    exact hunused i e2
  · intro i hi hn
    rw [h5 i] at hn
    cases hv : st.vars.lookup i with
    | some b => rw [hv] at hn; simp at hn
    | none =>
      rw [hv] at hn
      simp only [List.mem_range, hi, true_and] at hn
      split at hn
      · simp at hn
      · rename_i hu
        unfold isUnused at hu
        rw [List.all_eq_true] at hu
        push Not at hu
        obtain ⟨⟨k, j⟩, h6, h7⟩ := hu
        have h8 : ¬ st.cnt k j ≤ 0 := fun h => h7 (decide_eq_true h)
        obtain ⟨c, hc, e, he, hei⟩ := visit_valid h6
        exact ⟨k, j, c, hc, by rw [h1]; omega, e, he, hei⟩

/-! ### The mapping -/

/-- New index of a kept variable. -/
def newIdx (V : List (Nat × Bool)) (i : Nat) : Nat :=
  ((List.range i).filter fun j => (V.lookup j).isNone).length

/-- The entry of a variable. -/
def entry (V : List (Nat × Bool)) (i : Nat) : Entry :=
  match V.lookup i with
  | none => .kept (newIdx V i)
  | some b => .gone b

theorem newIdx_succ (V : List (Nat × Bool)) (i : Nat) :
    newIdx V (i + 1) = newIdx V i + (if (V.lookup i).isNone then 1 else 0) := by
  unfold newIdx
  rw [List.range_succ, List.filter_append, List.length_append]
  congr 1
  cases h : V.lookup i <;> simp [List.filter_cons, h]

theorem mappingLoop_eq (V : List (Nat × Bool)) : ∀ (n i : Nat),
    mappingLoop V n i (newIdx V i) = (List.range' i n).map (entry V)
  | 0, i => rfl
  | n + 1, i => by
    have ih := mappingLoop_eq V n (i + 1)
    unfold mappingLoop
    rw [List.range'_succ, List.map_cons, ← ih, newIdx_succ]
    cases h : V.lookup i <;> simp [entry, h]

theorem mapping_eq (V : List (Nat × Bool)) (n : Nat) :
    mappingLoop V n 0 0 = (List.range n).map (entry V) := by
  have := mappingLoop_eq V n 0
  rw [List.range_eq_range']
  exact this

theorem mapping_get (V : List (Nat × Bool)) {n i : Nat} (h : i < n) :
    (mappingLoop V n 0 0)[i]? = some (entry V i) := by
  rw [mapping_eq]
  simp [h]

theorem mapping_get_none (V : List (Nat × Bool)) {n i : Nat} (h : n ≤ i) :
    (mappingLoop V n 0 0)[i]? = none := by
  rw [mapping_eq]
  simp [h]

/-- Kept indices, in order. -/
def keptIdx (V : List (Nat × Bool)) (n : Nat) : List Nat :=
  (List.range n).filter fun j => (V.lookup j).isNone

/-- Affected indices, in order. -/
def goneIdx (V : List (Nat × Bool)) (n : Nat) : List Nat :=
  (List.range n).filter fun j => (V.lookup j).isSome

theorem keptIdx_get (V : List (Nat × Bool)) : ∀ {n i : Nat}, i < n → V.lookup i = none →
    (keptIdx V n)[newIdx V i]? = some i
  | 0, _, h, _ => by omega
  | n + 1, i, h, hi => by
    unfold keptIdx
    rw [List.range_succ, List.filter_append]
    by_cases hin : i < n
    · have ih := keptIdx_get V hin hi
      unfold keptIdx at ih
      rw [List.getElem?_append_left]
      · exact ih
      · exact (List.getElem?_eq_some_iff.mp ih).1
    · have : i = n := by omega
      subst this
      rw [List.getElem?_append_right (by unfold newIdx; omega)]
      simp [newIdx, hi]

theorem newIdx_lt (V : List (Nat × Bool)) {n i : Nat} (h : i < n) (hi : V.lookup i = none) :
    newIdx V i < (keptIdx V n).length :=
  (List.getElem?_eq_some_iff.mp (keptIdx_get V h hi)).1

theorem keptCount_eq (V : List (Nat × Bool)) (n : Nat) :
    keptCount (mappingLoop V n 0 0) = (keptIdx V n).length := by
  rw [mapping_eq]
  unfold keptCount keptIdx
  rw [List.filter_map, List.length_map]
  congr 1
  refine List.filter_congr fun i _ => ?_
  simp only [Function.comp, entry]
  cases V.lookup i <;> rfl

theorem kept_add_gone (V : List (Nat × Bool)) (n : Nat) (hn : (V.map Prod.fst).Nodup)
    (hl : ∀ p ∈ V, p.1 < n) : (keptIdx V n).length + V.length = n := by
  have h1 : (keptIdx V n).length + (goneIdx V n).length = n := by
    have := List.length_eq_length_filter_add (l := List.range n)
      (fun j => (V.lookup j).isNone)
    rw [List.length_range] at this
    rw [keptIdx, goneIdx]
    have h2 : (List.range n).filter (fun j => (V.lookup j).isSome) =
        (List.range n).filter (fun j => !(V.lookup j).isNone) :=
      List.filter_congr fun j _ => by cases V.lookup j <;> rfl
    rw [h2]; omega
  have h2 : (goneIdx V n).length = V.length := by
    have hp : (goneIdx V n).Perm (V.map Prod.fst) := by
      unfold goneIdx
      rw [List.perm_ext_iff_of_nodup (List.nodup_range.filter _) hn]
      intro i
      rw [List.mem_filter, List.mem_range]
      constructor
      · rintro ⟨_, h⟩
        by_contra hc
        rw [lookup_none_iff.mpr hc] at h
        simp at h
      · intro h
        refine ⟨?_, ?_⟩
        · obtain ⟨p, hp, rfl⟩ := List.mem_map.mp h
          exact hl p hp
        · rw [Option.isSome_iff_ne_none]
          intro hc
          exact lookup_none_iff.mp hc h
    rw [hp.length_eq, List.length_map]
  omega

/-! ### Copies -/

/-- A constraint after the copy. -/
def redCst (V : List (Nat × Bool)) (c : Constr) : Constr :=
  { c with
    elems := (unknown V c.elems).map fun e => ⟨e.factor, newIdx V e.var⟩
    value := c.value - knownSum V c.elems }

theorem cstElems_eq (V : List (Nat × Bool)) (n : Nat) :
    ∀ (es : List FunElem) (c : Constr), (∀ e ∈ es, e.var < n) →
      cstElems (mappingLoop V n 0 0) c es = .ok { c with
        elems := c.elems ++ (unknown V es).map fun e => ⟨e.factor, newIdx V e.var⟩
        value := c.value - knownSum V es }
  | [], c, _ => by simp [cstElems, unknown, knownSum]
  | e :: es, c, h => by
    unfold cstElems
    rw [mapping_get V (h e (by simp))]
    have ih := fun c => cstElems_eq V n es c (fun e' h' => h e' (by simp [h']))
    unfold entry
    cases hl : V.lookup e.var with
    | none =>
      simp only
      rw [ih]
      simp [unknown, knownSum, hl]
    | some b =>
      simp only
      rw [ih]
      cases b <;> simp [unknown, knownSum, hl]
      omega

theorem cstCopy_eq (V : List (Nat × Bool)) (n : Nat) (cnt : Nat → Int) :
    ∀ l : List (Constr × Nat), (∀ p ∈ l, ∀ e ∈ p.1.elems, e.var < n) →
      cstCopy (mappingLoop V n 0 0) cnt l =
        .ok ((l.filter fun p => decide (1 < cnt p.2)).map fun p => redCst V p.1)
  | [], _ => rfl
  | (c, i) :: l, h => by
    unfold cstCopy
    have ih := cstCopy_eq V n cnt l (fun p hp => h p (by simp [hp]))
    split
    · rename_i hle
      rw [ih, List.filter_cons_of_neg (by simp; omega)]
    · rename_i hgt
      rw [cstElems_eq V n c.elems _ (h (c, i) (by simp)), ih,
        List.filter_cons_of_pos (by simp; omega)]
      simp [redCst]

theorem varsCopy_eq (pb : Problem) (V : List (Nat × Bool)) (hn : pb.names.length = pb.values.length) :
    ∀ (vs : List VarValue) (i : Nat), vs = pb.values.drop i →
      ∃ r, varsCopy pb V vs i = .ok r ∧
        r.1.map some = ((List.range' i (pb.values.length - i)).filter
          fun j => (V.lookup j).isNone).map (fun j => pb.names[j]?) ∧
        r.2.1.map some = ((List.range' i (pb.values.length - i)).filter
          fun j => (V.lookup j).isNone).map (fun j => pb.values[j]?) ∧
        r.2.2.1.map some = ((List.range' i (pb.values.length - i)).filter
          fun j => (V.lookup j).isSome).map (fun j => pb.names[j]?) ∧
        r.2.2.2 = ((List.range' i (pb.values.length - i)).filter
          fun j => (V.lookup j).isSome).map
            (fun j => if V.lookup j = some true then 1 else 0)
  | [], i, h => by
    have : pb.values.length - i = 0 := by
      have := congrArg List.length h; simp at this; omega
    exact ⟨_, rfl, by simp [this]⟩
  | v :: vs, i, h => by
    have hi : i < pb.values.length := by
      have := congrArg List.length h; simp at this; omega
    rw [List.drop_eq_getElem_cons hi] at h
    injection h with hv hvs
    obtain ⟨r, hr, r1, r2, r3, r4⟩ := varsCopy_eq pb V hn vs (i + 1) hvs
    have hlen : pb.values.length - i = (pb.values.length - (i + 1)) + 1 := by omega
    have hin : i < pb.names.length := by omega
    unfold varsCopy
    rw [List.getElem?_eq_getElem hin]
    simp only [hr, ok_bind]
    rw [hlen, List.range'_succ]
    cases hl : V.lookup i with
    | none =>
      refine ⟨_, rfl, ?_, ?_, ?_, ?_⟩
      · simp only [List.map_cons]
        rw [List.filter_cons_of_pos (by simp [hl]), List.map_cons, r1,
          List.getElem?_eq_getElem hin]
      · simp only [List.map_cons]
        rw [List.filter_cons_of_pos (by simp [hl]), List.map_cons, r2,
          List.getElem?_eq_getElem hi, hv]
      · rw [List.filter_cons_of_neg (by simp [hl]), r3]
      · rw [List.filter_cons_of_neg (by simp [hl]), r4]
    | some b =>
      refine ⟨_, rfl, ?_, ?_, ?_, ?_⟩
      · rw [List.filter_cons_of_neg (by simp [hl]), r1]
      · rw [List.filter_cons_of_neg (by simp [hl]), r2]
      · simp only [List.map_cons]
        rw [List.filter_cons_of_pos (by simp [hl]), List.map_cons, r3,
          List.getElem?_eq_getElem hin]
      · rw [List.filter_cons_of_pos (by simp [hl]), List.map_cons, r4, hl]
        cases b <;> rfl

theorem objLinear_eq (V : List (Nat × Bool)) (n : Nat) :
    ∀ (es : List ObjElem) (o : Objective), (∀ e ∈ es, e.var < n) →
      objLinear (mappingLoop V n 0 0) o es = .ok { o with
        elems := o.elems ++ (es.filter fun e => (V.lookup e.var).isNone).map
          fun e => ⟨e.factor, newIdx V e.var⟩
        value := o.value + (es.map fun e =>
          if V.lookup e.var = some true then e.factor else 0).sum }
  | [], o, _ => by simp [objLinear]
  | e :: es, o, h => by
    unfold objLinear
    rw [mapping_get V (h e (by simp))]
    have ih := fun c => objLinear_eq V n es c (fun e' h' => h e' (by simp [h']))
    unfold entry
    cases hl : V.lookup e.var with
    | none =>
      simp only
      rw [ih]
      simp [hl]
    | some b =>
      simp only
      rw [ih]
      cases b <;> simp [hl]
      ring

theorem validIndex_iff (cs : List Constr) (n : Nat) :
    validIndex cs n = true ↔ ∀ c ∈ cs, ∀ e ∈ c.elems, e.var < n := by
  simp [validIndex]

theorem redCst_lt (V : List (Nat × Bool)) {n : Nat} {c : Constr}
    (h : ∀ e ∈ c.elems, e.var < n) : ∀ e ∈ (redCst V c).elems, e.var < (keptIdx V n).length := by
  intro e he
  simp only [redCst, List.mem_map] at he
  obtain ⟨e', he', rfl⟩ := he
  rw [unknown, List.mem_filter] at he'
  exact newIdx_lt V (h e' he'.1) (by simpa using he'.2)

/-- The reduced constraints of a kind. -/
def redCsts (st : St) (k : Kind) (cs : List Constr) : List Constr :=
  (cs.zipIdx.filter fun p => decide (1 < st.cnt k p.2)).map fun p => redCst st.vars p.1

theorem mem_redCsts {st : St} {k : Kind} {cs : List Constr} {c : Constr} :
    c ∈ redCsts st k cs ↔ ∃ i c', cs[i]? = some c' ∧ 1 < st.cnt k i ∧ c = redCst st.vars c' := by
  unfold redCsts
  simp only [List.mem_map, List.mem_filter, decide_eq_true_eq, Prod.exists]
  constructor
  · rintro ⟨c', i, ⟨h1, h2⟩, rfl⟩
    exact ⟨i, c', List.mk_mem_zipIdx_iff_getElem?.mp h1, h2, rfl⟩
  · rintro ⟨i, c', h1, h2, rfl⟩
    exact ⟨c', i, ⟨List.mk_mem_zipIdx_iff_getElem?.mpr h1, h2⟩, rfl⟩

theorem map_some_inj {α : Type} {l l' : List α} (h : l.map some = l'.map some) : l = l' :=
  List.map_injective_iff.mpr (Option.some_injective α) h

/-- `make_problem` in closed form: it fails only if the copy of the objective
fails. -/
theorem makeProblem_eq (pb : Problem) (st : St) (mo : MergeObj)
    (hlt : ∀ k, ∀ c ∈ csts pb k, ∀ e ∈ c.elems, e.var < pb.values.length)
    (hn : pb.names.length = pb.values.length)
    (hnd : (st.vars.map Prod.fst).Nodup) (hvl : ∀ p ∈ st.vars, p.1 < pb.values.length) :
    ∃ (ns : List String) (vs : List VarValue) (an : List String),
      ns.map some = (keptIdx st.vars pb.values.length).map (fun j => pb.names[j]?) ∧
      vs.map some = (keptIdx st.vars pb.values.length).map (fun j => pb.values[j]?) ∧
      an.map some = (goneIdx st.vars pb.values.length).map (fun j => pb.names[j]?) ∧
      makeProblem pb st mo = (do
        let obj ← objCopy pb (mappingLoop st.vars pb.values.length 0 0) mo
        .ok { type := pb.type, objective := obj,
              eqs := redCsts st .eq pb.eqs, ges := redCsts st .ge pb.ges,
              les := redCsts st .le pb.les,
              names := ns, values := vs,
              affected := { names := pb.affected.names ++ an,
                            values := pb.affected.values ++
                              (goneIdx st.vars pb.values.length).map
                                (fun j => if st.vars.lookup j = some true then 1 else 0) },
              ptype := ProblemType.whichProblemType (redCsts st .eq pb.eqs)
                (redCsts st .ge pb.ges) (redCsts st .le pb.les) }) := by
  obtain ⟨⟨ns, vs, an, av⟩, hr, r1, r2, r3, r4⟩ := varsCopy_eq pb st.vars hn pb.values 0 (by simp)
  simp only [Nat.sub_zero, ← List.range_eq_range'] at r1 r2 r3 r4
  refine ⟨ns, vs, an, r1, r2, r3, ?_⟩
  have hvs : vs.length = (keptIdx st.vars pb.values.length).length := by
    have := congrArg List.length r2
    simpa [keptIdx] using this
  unfold makeProblem
  simp only
  rw [keptCount_eq, kept_add_gone st.vars pb.values.length hnd hvl]
  simp only [beq_self_eq_true, check_true, ok_bind, hr]
  congr 1
  funext obj
  have hnk : namesKept (mappingLoop st.vars pb.values.length 0 0) pb.names ns = true := by
    unfold namesKept
    rw [List.all_eq_true]
    rintro ⟨m, nm⟩ hm
    obtain ⟨i, hi⟩ := List.mem_iff_getElem?.mp hm
    rw [List.getElem?_zip_eq_some] at hi
    obtain ⟨h1, h2⟩ := hi
    have hi' : i < pb.values.length := by
      rw [← hn]; exact (List.getElem?_eq_some_iff.mp h2).1
    rw [mapping_get _ hi'] at h1
    simp only [Option.some.injEq] at h1
    subst h1
    unfold entry
    cases hl : st.vars.lookup i with
    | some b => rfl
    | none =>
      simp only
      have hk := keptIdx_get st.vars hi' hl
      have := congrArg (fun l => l[newIdx st.vars i]?) r1
      rw [keptIdx] at hk
      simp only [List.getElem?_map, hk, Option.map_some, h2] at this
      cases hh : ns[newIdx st.vars i]? with
      | none => rw [hh] at this; simp at this
      | some w => rw [hh] at this; simp at this; simp [this]
  rw [hnk]
  have hz : ∀ cs : List Constr, (∀ c ∈ cs, ∀ e ∈ c.elems, e.var < pb.values.length) →
      ∀ p ∈ cs.zipIdx, ∀ e ∈ p.1.elems, e.var < pb.values.length := by
    intro cs h p hp
    exact h p.1 (List.mem_of_getElem? (zipIdx_get hp))
  rw [cstCopy_eq _ _ _ pb.eqs.zipIdx (hz _ (hlt .eq)),
    cstCopy_eq _ _ _ pb.ges.zipIdx (hz _ (hlt .ge)),
    cstCopy_eq _ _ _ pb.les.zipIdx (hz _ (hlt .le))]
  simp only [check_true, ok_bind]
  have hvi : ∀ k, validIndex (redCsts st k (csts pb k)) vs.length = true := by
    intro k
    rw [validIndex_iff, hvs]
    intro c hc
    obtain ⟨i, c', h1, _, rfl⟩ := mem_redCsts.mp hc
    exact redCst_lt _ (hlt k c' (List.mem_of_getElem? h1))
  have e1 := hvi .eq
  have e2 := hvi .ge
  have e3 := hvi .le
  simp only [csts] at e1 e2 e3
  rw [show (List.map (fun p => redCst st.vars p.1)
      (List.filter (fun p => decide (1 < st.cnt Kind.eq p.2)) pb.eqs.zipIdx)) =
      redCsts st .eq pb.eqs from rfl,
    show (List.map (fun p => redCst st.vars p.1)
      (List.filter (fun p => decide (1 < st.cnt Kind.ge p.2)) pb.ges.zipIdx)) =
      redCsts st .ge pb.ges from rfl,
    show (List.map (fun p => redCst st.vars p.1)
      (List.filter (fun p => decide (1 < st.cnt Kind.le p.2)) pb.les.zipIdx)) =
      redCsts st .le pb.les from rfl, e1, e2, e3]
  simp only [Bool.and_self, check_true, ok_bind]
  rw [r4]
  rfl

end Bx.Preprocess
