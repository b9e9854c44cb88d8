import Verif.Proofs.Preprocess5

/-! Helper lemmas for the preprocessor, part 6: shape of the result. -/

namespace Bx.Preprocess

open Spec

theorem addToFirst_var (i : Nat) (f : Rat) : ∀ l : List ObjElem,
    (addToFirst i f l).map ObjElem.var = l.map ObjElem.var
  | [] => rfl
  | e :: es => by
    unfold addToFirst
    split
    · rfl
    · simp [addToFirst_var i f es]

theorem objMerge_var : ∀ (l : List ObjElem) (i : Nat) (o o' : Objective),
    objMerge o l i = .ok o' →
    o'.elems.map ObjElem.var = o.elems.map ObjElem.var ∧ o'.qelems = o.qelems
  | [], i, o, o', h => by
    simp only [objMerge, Except.ok.injEq] at h
    subst h; exact ⟨rfl, rfl⟩
  | e :: es, i, o, o', h => by
    unfold objMerge at h
    split at h
    · obtain ⟨h1, h2⟩ := objMerge_var es (i + 1) _ o' h
      exact ⟨h1.trans (addToFirst_var i e.factor o.elems), h2⟩
    · cases h

theorem objQuadratic_lt (V : List (Nat × Bool)) (n : Nat) :
    ∀ (es : List QuadElem) (o o' : Objective),
      objQuadratic (mappingLoop V n 0 0) o es = .ok o' →
      (∀ e ∈ o.elems, e.var < (keptIdx V n).length) →
      (∀ e ∈ o.qelems, e.a < (keptIdx V n).length ∧ e.b < (keptIdx V n).length) →
      (∀ e ∈ o'.elems, e.var < (keptIdx V n).length) ∧
      (∀ e ∈ o'.qelems, e.a < (keptIdx V n).length ∧ e.b < (keptIdx V n).length)
  | [], o, o', h, h1, h2 => by
    simp only [objQuadratic, Except.ok.injEq] at h
    subst h; exact ⟨h1, h2⟩
  | e :: es, o, o', h, h1, h2 => by
    unfold objQuadratic at h
    have hm : ∀ (i j : Nat), (mappingLoop V n 0 0)[i]? = some (Entry.kept j) → j < (keptIdx V n).length := by
      intro i j hij
      by_cases hi : i < n
      · rw [mapping_get V hi] at hij
        unfold entry at hij
        cases hl : V.lookup i with
        | none =>
          rw [hl] at hij
          simp only [Option.some.injEq, Entry.kept.injEq] at hij
          subst hij
          exact newIdx_lt V hi hl
        | some b => rw [hl] at hij; simp at hij
      · rw [mapping_get_none V (by omega)] at hij; simp at hij
    split at h
    · exact objQuadratic_lt V n es _ o' h h1 h2
    · rename_i j _ hb
      refine objQuadratic_lt V n es _ o' h ?_ h2
      intro e' he'
      rcases List.mem_append.mp he' with he' | he'
      · exact h1 e' he'
      · simp at he'; subst he'; exact hm _ _ hb
    · rename_i j _ ha _
      refine objQuadratic_lt V n es _ o' h ?_ h2
      intro e' he'
      rcases List.mem_append.mp he' with he' | he'
      · exact h1 e' he'
      · simp at he'; subst he'; exact hm _ _ ha
    · rename_i i j ha hb
      refine objQuadratic_lt V n es _ o' h h1 ?_
      intro e' he'
      rcases List.mem_append.mp he' with he' | he'
      · exact h2 e' he'
      · simp at he'; subst he'; exact ⟨hm _ _ ha, hm _ _ hb⟩
    · cases h

theorem objCopy_lt (pb : Problem) (V : List (Nat × Bool)) (n : Nat) (mo : MergeObj) (o : Objective)
    (hl : ∀ e ∈ pb.objective.elems, e.var < n)
    (h : objCopy pb (mappingLoop V n 0 0) mo = .ok o) :
    (∀ e ∈ o.elems, e.var < (keptIdx V n).length) ∧
    (∀ e ∈ o.qelems, e.a < (keptIdx V n).length ∧ e.b < (keptIdx V n).length) := by
  unfold objCopy at h
  rw [objLinear_eq V n _ _ hl] at h
  simp only [ok_bind] at h
  obtain ⟨o1, h1, h2⟩ := bind_eq_ok.mp h
  obtain ⟨q1, q2⟩ := objQuadratic_lt V n _ _ o1 h1 (by
    intro e he
    simp only [List.nil_append, List.mem_map, List.mem_filter] at he
    obtain ⟨e', ⟨h3, h4⟩, rfl⟩ := he
    exact newIdx_lt V (hl e' h3) (by simpa using h4)) (by simp)
  obtain ⟨m1, m2⟩ := objMerge_var _ _ _ _ h2
  refine ⟨fun e he => ?_, by rw [m2]; exact q2⟩
  have : e.var ∈ o1.elems.map ObjElem.var := by
    rw [← m1]; exact List.mem_map_of_mem he
  obtain ⟨e', he', heq⟩ := List.mem_map.mp this
  rw [← heq]; exact q1 e' he'

/-- The result of `make_problem`, field by field. -/
structure Shape (pb : Problem) (st : St) (mo : MergeObj) (red : Problem) : Prop where
  type : red.type = pb.type
  eqs : red.eqs = redCsts st .eq pb.eqs
  ges : red.ges = redCsts st .ge pb.ges
  les : red.les = redCsts st .le pb.les
  names : red.names.map some =
    (keptIdx st.vars pb.values.length).map (fun j => pb.names[j]?)
  values : red.values.map some =
    (keptIdx st.vars pb.values.length).map (fun j => pb.values[j]?)
  aff : ∃ an, an.map some = (goneIdx st.vars pb.values.length).map (fun j => pb.names[j]?) ∧
    red.affected.names = pb.affected.names ++ an
  affv : red.affected.values = pb.affected.values ++ (goneIdx st.vars pb.values.length).map
    (fun j => if st.vars.lookup j = some true then 1 else 0)
  obj : objCopy pb (mappingLoop st.vars pb.values.length 0 0) mo = .ok red.objective
  ptype : red.ptype = ProblemType.whichProblemType red.eqs red.ges red.les

theorem makeProblem_shape {pb : Problem} {st : St} {mo : MergeObj} {red : Problem}
    (hlt : ∀ k, ∀ c ∈ csts pb k, ∀ e ∈ c.elems, e.var < pb.values.length)
    (hn : pb.names.length = pb.values.length)
    (hnd : (st.vars.map Prod.fst).Nodup) (hvl : ∀ p ∈ st.vars, p.1 < pb.values.length)
    (h : makeProblem pb st mo = .ok red) : Shape pb st mo red := by
  obtain ⟨ns, vs, an, h1, h2, h3, h4⟩ := makeProblem_eq pb st mo hlt hn hnd hvl
  rw [h4] at h
  obtain ⟨o, ho, h⟩ := bind_eq_ok.mp h
  simp only [Except.ok.injEq] at h
  subst h
  exact ⟨rfl, rfl, rfl, rfl, h1, h2, ⟨an, h3, rfl⟩, rfl, ho, rfl⟩

theorem Shape.redSat {pb : Problem} {st : St} {mo : MergeObj} {red : Problem}
    (h : Shape pb st mo red) (y : Assign) :
    Satisfies red.eqs red.ges red.les y ↔ RedSat pb st y := by
  rw [satisfies_iff]
  unfold RedSat
  constructor
  · intro hh k
    have := hh k
    cases k
    · simpa [csts, h.eqs] using this
    · simpa [csts, h.ges] using this
    · simpa [csts, h.les] using this
  · intro hh k
    have := hh k
    cases k
    · simpa [csts, h.eqs] using this
    · simpa [csts, h.ges] using this
    · simpa [csts, h.les] using this

/-- Names and indices say the same thing. -/
theorem Shape.rel_of_names {pb : Problem} {st : St} {mo : MergeObj} {red : Problem}
    (h : Shape pb st mo red) (hn : pb.names.length = pb.values.length) (hnd : pb.names.Nodup)
    (haff : pb.affected.names.length = pb.affected.values.length)
    (hdis : ∀ n ∈ pb.affected.names, n ∉ pb.names)
    {x y : Assign} (hx : Names pb.names (pairsOf red y) x) :
    Rel st.vars pb.values.length x y := by
  have hns := h.names
  obtain ⟨an, han, hae⟩ := h.aff
  rw [← hn] at hns han ⊢
  intro i hi
  have hin : pb.names[i]? = some pb.names[i] := List.getElem?_eq_getElem hi
  have hp := hx i _ hin
  unfold pairsOf at hp
  rcases List.mem_append.mp hp with hp | hp
  · obtain ⟨⟨n', j⟩, hm, heq⟩ := List.mem_map.mp hp
    have hj := List.mk_mem_zipIdx_iff_getElem?.mp hm
    simp only [Prod.mk.injEq] at heq
    rw [heq.1] at hj
    obtain ⟨h1, h2⟩ := name_kept hnd hns hin hj
    rw [h1]
    simp only
    rw [← h2]; exact heq.2
  · rw [hae, h.affv, List.map_append, List.zip_append (by simp [haff])] at hp
    rcases List.mem_append.mp hp with hp | hp
    · exact absurd (List.getElem_mem hi) (hdis _ (List.of_mem_zip hp).1)
    · rw [← hn] at hp
      rw [name_gone hnd han hin hp]

theorem Shape.names_of_rel {pb : Problem} {st : St} {mo : MergeObj} {red : Problem}
    (h : Shape pb st mo red) (hn : pb.names.length = pb.values.length)
    (haff : pb.affected.names.length = pb.affected.values.length)
    {x y : Assign} (hx : Rel st.vars pb.values.length x y) :
    Names pb.names (pairsOf red y) x := by
  have hns := h.names
  obtain ⟨an, han, hae⟩ := h.aff
  rw [← hn] at hns han hx
  intro i n hi
  have hlt := (List.getElem?_eq_some_iff.mp hi).1
  have hr := hx i hlt
  unfold pairsOf
  cases hl : st.vars.lookup i with
  | none =>
    rw [hl] at hr
    simp only at hr
    apply List.mem_append_left
    have hk := kept_name hns hlt hl
    rw [hi] at hk
    exact List.mem_map.mpr ⟨(n, newIdx st.vars i), List.mk_mem_zipIdx_iff_getElem?.mpr hk, by
      simp [hr]⟩
  | some b =>
    rw [hl] at hr
    simp only at hr
    apply List.mem_append_right
    rw [hae, h.affv, List.map_append, List.zip_append (by simp [haff])]
    apply List.mem_append_right
    rw [← hn, hr]
    exact gone_name han hi hl

theorem Shape.rel_override {pb : Problem} {st : St} {mo : MergeObj} {red : Problem}
    (h : Shape pb st mo red) (hn : pb.names.length = pb.values.length)
    {x y : Assign} (hr : Restricts pb.names red.names x y) :
    Rel st.vars pb.values.length (override st.vars x) y := by
  have hns := h.names
  rw [← hn] at hns ⊢
  intro i hi
  unfold override
  cases hl : st.vars.lookup i with
  | some b => simp
  | none =>
    simp only [Option.getD_none]
    have hin : pb.names[i]? = some pb.names[i] := List.getElem?_eq_getElem hi
    have hk := kept_name hns hi hl
    exact hr i _ _ hin (hk.trans hin)

theorem map_some_filterMap {α : Type} {ns : List α} {K : List Nat} {f : Nat → Option α}
    (h : ns.map some = K.map f) : ns = K.filterMap f := by
  have h1 : (ns.map some).filterMap id = ns := by
    rw [List.filterMap_map]; simp
  have h2 : (K.map f).filterMap id = K.filterMap f := by
    rw [List.filterMap_map]; rfl
  rw [← h1, h, h2]

theorem range_filterMap {α : Type} (l : List α) :
    (List.range l.length).filterMap (fun j => l[j]?) = l := by
  refine (map_some_filterMap ?_).symm
  apply List.ext_getElem?
  intro i
  simp only [List.getElem?_map]
  by_cases hi : i < l.length
  · simp [hi]
  · simp [hi, List.getElem?_eq_none (Nat.le_of_not_lt hi)]

theorem Shape.partition {pb : Problem} {st : St} {mo : MergeObj} {red : Problem}
    (h : Shape pb st mo red) (hn : pb.names.length = pb.values.length) :
    (red.affected.names ++ red.names).Perm (pb.affected.names ++ pb.names) ∧
    red.names.Sublist pb.names ∧ red.names.length = red.values.length ∧
    (pb.affected.names.length = pb.affected.values.length →
      red.affected.names.length = red.affected.values.length) := by
  have hns := h.names
  have hvs := h.values
  obtain ⟨an, han, hae⟩ := h.aff
  have hav := h.affv
  rw [← hn] at hns han hvs hav
  have e1 := map_some_filterMap hns
  have e2 := map_some_filterMap han
  refine ⟨?_, ?_, ?_, ?_⟩
  · rw [hae, List.append_assoc]
    refine List.Perm.append_left _ ?_
    rw [e1, e2, ← List.filterMap_append]
    conv_rhs => rw [← range_filterMap pb.names]
    refine List.Perm.filterMap _ ?_
    have hp := List.filter_append_perm (fun j => (st.vars.lookup j).isSome)
      (List.range pb.names.length)
    have hk : keptIdx st.vars pb.names.length =
        (List.range pb.names.length).filter (fun j => !(st.vars.lookup j).isSome) :=
      List.filter_congr fun j _ => by cases st.vars.lookup j <;> rfl
    rw [hk]
    exact hp
  · rw [e1]
    conv_rhs => rw [← range_filterMap pb.names]
    exact List.Sublist.filterMap _ List.filter_sublist
  · have l1 := congrArg List.length hns
    have l2 := congrArg List.length hvs
    simp at l1 l2
    omega
  · intro haff
    have l1 := congrArg List.length han
    simp at l1
    rw [hae, hav]
    simp [haff, l1]

theorem Shape.values_eq {pb : Problem} {st : St} {mo : MergeObj} {red : Problem}
    (h : Shape pb st mo red) (hn : pb.names.length = pb.values.length) (hnd : pb.names.Nodup)
    {i j : Nat} {n : String} (hi : pb.names[i]? = some n) (hj : red.names[j]? = some n) :
    red.values[j]? = pb.values[i]? := by
  have hns := h.names
  have hvs := h.values
  rw [← hn] at hns hvs
  obtain ⟨h1, rfl⟩ := name_kept hnd hns hi hj
  have hlt := (List.getElem?_eq_some_iff.mp hi).1
  have := congrArg (fun l => l[newIdx st.vars i]?) hvs
  simp only [List.getElem?_map, keptIdx_get st.vars hlt h1, Option.map_some] at this
  cases hh : red.values[newIdx st.vars i]? with
  | none => rw [hh] at this; simp at this
  | some w => rw [hh] at this; simpa using this

theorem redCst_nodup {V : List (Nat × Bool)} {n : Nat} {c : Constr}
    (hl : ∀ e ∈ c.elems, e.var < n) (h : (c.elems.map FunElem.var).Nodup) :
    ((redCst V c).elems.map FunElem.var).Nodup := by
  simp only [redCst, List.map_map]
  have h1 : ((unknown V c.elems).map FunElem.var).Nodup :=
    h.sublist (List.Sublist.map _ List.filter_sublist)
  have : (List.map (FunElem.var ∘ fun e => ⟨e.factor, newIdx V e.var⟩) (unknown V c.elems)) =
      ((unknown V c.elems).map FunElem.var).map (newIdx V) := by
    rw [List.map_map]; rfl
  rw [this]
  refine List.Nodup.map_on ?_ h1
  intro a ha b hb hab
  obtain ⟨ea, hea, rfl⟩ := List.mem_map.mp ha
  obtain ⟨eb, heb, rfl⟩ := List.mem_map.mp hb
  rw [unknown, List.mem_filter] at hea heb
  have k1 := keptIdx_get V (hl ea hea.1) (by simpa using hea.2)
  have k2 := keptIdx_get V (hl eb heb.1) (by simpa using heb.2)
  rw [hab, k2] at k1
  exact (Option.some.inj k1).symm

theorem Shape.csts_wf {pb : Problem} {st : St} {mo : MergeObj} {red : Problem}
    (h : Shape pb st mo red)
    (wf : WellFormed pb.objective pb.eqs pb.ges pb.les pb.values.length) :
    (∀ k, ∀ c ∈ csts red k, ∀ e ∈ c.elems, e.var < red.values.length) ∧
    (∀ k, ∀ c ∈ csts red k, (c.elems.map FunElem.var).Nodup) ∧
    (∀ e ∈ red.objective.elems, e.var < red.values.length) ∧
    (∀ e ∈ red.objective.qelems, e.a < red.values.length ∧ e.b < red.values.length) ∧
    (∀ k, ∀ c ∈ csts red k, ∃ i c', (csts pb k)[i]? = some c' ∧ 1 < st.cnt k i ∧
      c = redCst st.vars c') := by
  have hlen : red.values.length = (keptIdx st.vars pb.values.length).length := by
    have := congrArg List.length h.values
    simpa using this
  have hc : ∀ k, csts red k = redCsts st k (csts pb k) := by
    intro k; cases k
    · exact h.eqs
    · exact h.ges
    · exact h.les
  have hctx := ctx_of_wf wf (Feas := fun _ => False) (fun _ h => h.elim)
  have hmem : ∀ k, ∀ c ∈ csts red k, ∃ i c', (csts pb k)[i]? = some c' ∧ 1 < st.cnt k i ∧
      c = redCst st.vars c' := by
    intro k c hck
    rw [hc k] at hck
    exact mem_redCsts.mp hck
  refine ⟨?_, ?_, ?_, ?_, hmem⟩
  · intro k c hck
    obtain ⟨i, c', h1, _, rfl⟩ := hmem k c hck
    rw [hlen]
    exact redCst_lt _ (hctx.lt k c' (List.mem_of_getElem? h1))
  · intro k c hck
    obtain ⟨i, c', h1, _, rfl⟩ := hmem k c hck
    exact redCst_nodup (hctx.lt k c' (List.mem_of_getElem? h1))
      (hctx.nodup k c' (List.mem_of_getElem? h1))
  · rw [hlen]; exact (objCopy_lt pb _ _ _ _ wf.obj_lt h.obj).1
  · rw [hlen]; exact (objCopy_lt pb _ _ _ _ wf.obj_lt h.obj).2

/-- The only fault of the copy of the objective is undefined behaviour. -/
theorem objCopy_error (pb : Problem) (m : List Entry) (mo : MergeObj) (f : Fault)
    (h : objCopy pb m mo = .error f) : ∃ s, f = .ub s := by
  have hl : ∀ (es : List ObjElem) (o : Objective) (f : Fault),
      objLinear m o es = .error f → ∃ s, f = .ub s := by
    intro es
    induction es with
    | nil => intro o f h; simp [objLinear] at h
    | cons e es ih =>
      intro o f h
      unfold objLinear at h
      split at h
      · exact ⟨_, (Except.error.inj h).symm⟩
      · exact ih _ _ h
      · exact ih _ _ h
  have hq : ∀ (es : List QuadElem) (o : Objective) (f : Fault),
      objQuadratic m o es = .error f → ∃ s, f = .ub s := by
    intro es
    induction es with
    | nil => intro o f h; simp [objQuadratic] at h
    | cons e es ih =>
      intro o f h
      unfold objQuadratic at h
      split at h
      · exact ih _ _ h
      · exact ih _ _ h
      · exact ih _ _ h
      · exact ih _ _ h
      · exact ⟨_, (Except.error.inj h).symm⟩
  have hm : ∀ (es : List ObjElem) (i : Nat) (o : Objective) (f : Fault),
      objMerge o es i = .error f → ∃ s, f = .ub s := by
    intro es
    induction es with
    | nil => intro i o f h; simp [objMerge] at h
    | cons e es ih =>
      intro i o f h
      unfold objMerge at h
      split at h
      · exact ih _ _ _ h
      · exact ⟨_, (Except.error.inj h).symm⟩
  unfold objCopy at h
  cases h1 : objLinear m { value := pb.objective.value + mo.value } pb.objective.elems with
  | error f' =>
    rw [h1] at h
    cases h
    exact hl _ _ _ h1
  | ok o1 =>
    rw [h1, ok_bind] at h
    cases h2 : objQuadratic m o1 pb.objective.qelems with
    | error f' =>
      rw [h2] at h
      cases h
      exact hq _ _ _ h2
    | ok o2 =>
      rw [h2, ok_bind] at h
      exact hm _ _ _ _ h

theorem objCopy_not_contract (pb : Problem) (m : List Entry) (mo : MergeObj) (s : String) :
    objCopy pb m mo ≠ .error (.contract s) := fun h => by
  obtain ⟨_, h'⟩ := objCopy_error _ _ _ _ h
  cases h'

theorem objCopy_not_fuel (pb : Problem) (m : List Entry) (mo : MergeObj) :
    objCopy pb m mo ≠ .error .fuel := fun h => by
  obtain ⟨_, h'⟩ := objCopy_error _ _ _ _ h
  cases h'

end Bx.Preprocess
