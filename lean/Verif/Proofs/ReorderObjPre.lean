import Verif.Proofs.ReorderObjRun
import Verif.Proofs.Preprocess5

/-! # Lemmas for C141: the linear objective with its terms in another order, the preprocessing and the mode branch -/

namespace Bx.Reorder

open Spec Merge Dispatch Itm Preprocess Twice

variable {ρ : Type}

/-- The same problem, where the terms of the linear objective are in another order. -/
structure RelO (pb pb' : Problem) : Prop where
  rest : pb' = { pb with objective := pb'.objective }
  same : SameObjective pb.objective pb'.objective
  linear : pb.objective.qelems = []
  distinct : (pb.objective.elems.map ObjElem.var).Nodup

theorem newIdx_inj (V : List (Nat × Bool)) {i j : Nat} (hi : V.lookup i = none) (hj : V.lookup j = none)
    (h : newIdx V i = newIdx V j) : i = j := by
  rcases Nat.lt_trichotomy i j with hl | hl | hl
  · have h' : newIdx V i < newIdx V j := newIdx_lt V hl hi
    omega
  · exact hl
  · have h' : newIdx V j < newIdx V i := newIdx_lt V hl hj
    omega

theorem objLinear_outside (V : List (Nat × Bool)) (n : Nat) : ∀ (es : List ObjElem) (o : Objective),
    (∃ e ∈ es, n ≤ e.var) → objLinear (mappingLoop V n 0 0) o es = .error (.ub "mapping[variable_index]")
  | e :: es, o, h => by
    unfold objLinear
    by_cases he : n ≤ e.var
    · rw [mapping_get_none V he]
    · have h' : ∃ e ∈ es, n ≤ e.var := by
        obtain ⟨f, hf, hn⟩ := h
        rcases List.mem_cons.mp hf with rfl | hf
        · exact absurd hn he
        · exact ⟨f, hf, hn⟩
      rw [mapping_get V (Nat.lt_of_not_le he)]
      cases entry V e.var <;> exact objLinear_outside V n es _ h'

/-- What the preprocessing makes of two objectives. -/
structure RelObj (o o' : Objective) : Prop where
  same : SameObjective o o'
  linear : o.qelems = []
  distinct : (o.elems.map ObjElem.var).Nodup

theorem objCopy_perm {pb pb' : Problem} (h : RelO pb pb') (V : List (Nat × Bool)) (n : Nat) :
    Both RelObj (objCopy pb (mappingLoop V n 0 0) {}) (objCopy pb' (mappingLoop V n 0 0) {}) := by
  have hq : pb'.objective.qelems = [] := List.Perm.eq_nil (h.linear ▸ h.same.products)
  unfold objCopy
  rw [h.linear, hq, h.same.value]
  by_cases hb : ∀ e ∈ pb.objective.elems, e.var < n
  · have hb' : ∀ e ∈ pb'.objective.elems, e.var < n := fun e he => hb e (h.same.linear.mem_iff.mp he)
    rw [objLinear_eq V n _ _ hb, objLinear_eq V n _ _ hb']
    refine .inr ⟨_, _, rfl, rfl, ⟨?_, .nil, ?_⟩, rfl, ?_⟩
    · exact (List.Perm.map _ (h.same.linear.filter _))
    · exact congrArg (_ + ·) (List.Perm.sum_eq (h.same.linear.map _))
    · show ((([] : List ObjElem) ++ _).map ObjElem.var).Nodup
      rw [List.nil_append, List.map_map]
      refine List.Nodup.map_on ?_ ((List.Nodup.of_map _ h.distinct).filter _)
      intro a ha b hb' he
      obtain ⟨ha, ha'⟩ := List.mem_filter.mp ha
      obtain ⟨hb, hb'⟩ := List.mem_filter.mp hb'
      exact List.inj_on_of_nodup_map h.distinct ha hb
        (newIdx_inj V (Option.isNone_iff_eq_none.mp ha') (Option.isNone_iff_eq_none.mp hb') he)
  · simp only [not_forall, not_lt] at hb
    obtain ⟨e, he, hn⟩ := hb
    rw [objLinear_outside V n _ _ ⟨e, he, hn⟩, objLinear_outside V n _ _ ⟨e, h.same.linear.mem_iff.mpr he, hn⟩]
    exact .inl ⟨_, rfl, rfl⟩

section
variable {pb pb' : Problem} (h : RelO pb pb')
include h

theorem csts_obj : csts pb' = csts pb := by
  rw [h.rest]
  funext x
  cases x <;> rfl

theorem visit_obj : visit pb' = visit pb := by
  rw [h.rest]; rfl

theorem values_obj : pb'.values = pb.values := by rw [h.rest]

theorem step_obj : step pb' = step pb := by
  funext st p
  unfold step
  rw [csts_obj h]

theorem affects_obj : ∀ (fuel : Nat) (st : Preprocess.St), affects pb' fuel st = affects pb fuel st
  | 0, st => by unfold affects; rfl
  | fuel + 1, st => by
    unfold affects
    cases st.lifo with
    | nil => rfl
    | cons top rest => simp only [step_obj h, visit_obj h, affects_obj fuel]

theorem unusedValue_obj : unusedValue pb' = unusedValue pb := by
  funext i
  have ht : pb'.type = pb.type := by rw [h.rest]
  have hf : pb'.objective.elems.find? (fun e => i == e.var) = pb.objective.elems.find? (fun e => i == e.var) := by
    have hu : ∀ a ∈ pb.objective.elems, ∀ b ∈ pb.objective.elems, (i == a.var) = true → (i == b.var) = true → a = b := by
      intro a ha b hb h1 h2
      exact List.inj_on_of_nodup_map h.distinct ha hb ((beq_iff_eq.mp h1).symm.trans (beq_iff_eq.mp h2))
    cases h1 : pb.objective.elems.find? (fun e => i == e.var) with
    | none =>
      rw [List.find?_eq_none] at h1 ⊢
      exact fun e he => h1 e (h.same.linear.mem_iff.mp he)
    | some e =>
      cases h2 : pb'.objective.elems.find? (fun e => i == e.var) with
      | none =>
        rw [List.find?_eq_none] at h2
        exact absurd (List.find?_some h1) (h2 e (h.same.linear.mem_iff.mpr (List.mem_of_find?_eq_some h1)))
      | some f =>
        have k1 := List.find?_some h1
        have k2 := List.find?_some h2
        exact congrArg some (hu f (h.same.linear.mem_iff.mp (List.mem_of_find?_eq_some h2)) e
          (List.mem_of_find?_eq_some h1) k2 k1)
  unfold unusedValue
  rw [hf, ht]

theorem removeUnused_obj (st : Preprocess.St) : removeUnused pb' st = removeUnused pb st := by
  unfold removeUnused isUnused
  rw [unusedValue_obj h, visit_obj h, values_obj h]

theorem makeProblem_obj (st : Preprocess.St) : Both RelO (makeProblem pb st {}) (makeProblem pb' st {}) := by
  have hn : pb'.names = pb.names := by rw [h.rest]
  have h1 : pb'.eqs = pb.eqs := by rw [h.rest]
  have h2 : pb'.ges = pb.ges := by rw [h.rest]
  have h3 : pb'.les = pb.les := by rw [h.rest]
  have h4 : pb'.type = pb.type := by rw [h.rest]
  have h5 : pb'.affected = pb.affected := by rw [h.rest]
  have hv : ∀ (vs : List VarValue) (i : Nat), varsCopy pb' st.vars vs i = varsCopy pb st.vars vs i := by
    intro vs
    induction vs with
    | nil => intro i; rfl
    | cons v vs ih => intro i; simp only [varsCopy, ih, hn]
  unfold makeProblem
  simp only [hv, values_obj h, hn, h1, h2, h3, h4, h5]
  refine Both.bind (Both.refl _) ?_
  rintro _ _ rfl
  refine Both.bind (objCopy_perm h st.vars pb.values.length) ?_
  intro o o' ho
  refine Both.bind (Both.refl _) ?_
  rintro ⟨ns, vs, an, av⟩ _ rfl
  refine Both.bind (Both.refl _) ?_
  rintro _ _ rfl
  refine Both.bind (Both.refl _) ?_
  rintro eqs _ rfl
  refine Both.bind (Both.refl _) ?_
  rintro ges _ rfl
  refine Both.bind (Both.refl _) ?_
  rintro les _ rfl
  refine Both.bind (Both.refl _) ?_
  rintro _ _ rfl
  exact .inr ⟨_, _, rfl, rfl, rfl, ho.same, ho.linear, ho.distinct⟩

theorem finish_obj (st : Preprocess.St) : Both RelO (finish pb st) (finish pb' st) := by
  have hq : pb'.objective.qelems = [] := List.Perm.eq_nil (h.linear ▸ h.same.products)
  unfold finish
  simp only [bqpObjective_linear pb st h.linear, bqpObjective_linear pb' st hq, removeUnused_obj h, values_obj h,
    affects_obj h]
  refine Both.bind (Both.refl _) ?_
  rintro st' _ rfl
  exact makeProblem_obj h st'

theorem initCnt_obj : initCnt pb' = initCnt pb := by
  unfold initCnt
  rw [csts_obj h]

theorem run_obj : Both RelO (Preprocess.run pb) (Preprocess.run pb') := by
  have h1 : cacheInRange pb' = cacheInRange pb := by rw [h.rest]; rfl
  have h2 : affectBounded pb' = affectBounded pb := by rw [h.rest]; rfl
  have h3 : tryAffectVariable pb' = tryAffectVariable pb := by rw [h.rest]; rfl
  unfold Preprocess.run
  simp only [h1, h2, h3, initCnt_obj h, values_obj h, affects_obj h]
  split
  · exact .inl ⟨_, rfl, rfl⟩
  · refine Both.bind (Both.refl _) ?_
    rintro st _ rfl
    refine Both.bind (Both.refl _) ?_
    rintro st' _ rfl
    exact finish_obj h st'

theorem affect_obj (v : Nat) (b : Bool) : Both RelO (Preprocess.affect pb v b) (Preprocess.affect pb' v b) := by
  have h1 : cacheInRange pb' = cacheInRange pb := by rw [h.rest]; rfl
  unfold Preprocess.affect
  simp only [h1, initCnt_obj h, values_obj h, affects_obj h]
  refine Both.bind (Both.refl _) ?_
  rintro _ _ rfl
  split
  · exact .inl ⟨_, rfl, rfl⟩
  · refine Both.bind (Both.refl _) ?_
    rintro st' _ rfl
    exact finish_obj h st'

theorem split_obj (v : Nat) :
    Both (fun q q' => RelO q.1 q'.1 ∧ RelO q.2 q'.2) (Preprocess.split pb v) (Preprocess.split pb' v) := by
  unfold Preprocess.split
  refine Both.bind (affect_obj h v true) ?_
  intro a a' ha
  refine Both.bind (affect_obj h v false) ?_
  intro b b' hb
  exact .inr ⟨_, _, rfl, rfl, ha, hb⟩

end

theorem prepared_obj (pre : Bool) (raw : RawProblem) {o : Objective} (h : SameObjective raw.objective o)
    (hq : raw.objective.qelems = []) (hn : (raw.objective.elems.map ObjElem.var).Nodup) :
    Both RelO (prepared pre raw) (prepared pre { raw with objective := o }) := by
  cases pre
  · exact .inr ⟨_, _, rfl, rfl, rfl, h, hq, hn⟩
  · exact run_obj (pb := { ProblemType.ofRaw raw with affected := {} })
      (pb' := { ProblemType.ofRaw { raw with objective := o } with affected := {} }) ⟨rfl, h, hq, hn⟩

/-! ## The mode `branch` -/

structure NodeO (n n' : Branch.Node) : Prop where
  problem : RelO n.problem n'.problem
  solution : n'.solution = n.solution
  remaining : n'.remaining = n.remaining
  annoying : n'.annoying = n.annoying

theorem nodeLess_obj {a a' b b' : Branch.Node} (ha : NodeO a a') (hb : NodeO b b') :
    Branch.nodeLess a' b' = Branch.nodeLess a b := by
  have : a'.problem.type = a.problem.type := by rw [ha.problem.rest]
  unfold Branch.nodeLess
  rw [ha.solution, ha.remaining, hb.solution, hb.remaining, this]

theorem findIdx_obj {a a' : Branch.Node} (ha : NodeO a a') {l l' : List Branch.Node}
    (h : List.Forall₂ NodeO l l') : l'.findIdx (Branch.nodeLess a') = l.findIdx (Branch.nodeLess a) := by
  induction h with
  | nil => rfl
  | cons hb _ ih => rw [List.findIdx_cons, List.findIdx_cons, nodeLess_obj ha hb, ih]

theorem emplace_obj {a a' : Branch.Node} (ha : NodeO a a') {l l' : List Branch.Node}
    (h : List.Forall₂ NodeO l l') (pos : Nat) :
    List.Forall₂ NodeO (Branch.emplace a l pos).1 (Branch.emplace a' l' pos).1 ∧
      (Branch.emplace a' l' pos).2 = (Branch.emplace a l pos).2 := by
  unfold Branch.emplace
  rw [findIdx_obj ha h]
  exact ⟨insertIdx_rel ha _ h, rfl⟩

theorem body_obj {inner : Nat → Problem → Outcome Branch.Inner}
    (hi : ∀ k pb pb', RelO pb pb' → inner k pb' = inner k pb) (a calls : Nat) {jobs jobs' : List Branch.Node}
    (h : List.Forall₂ NodeO jobs jobs') (best : Branch.Inner) :
    Both (fun q q' => List.Forall₂ NodeO q.1 q'.1 ∧ q'.2 = q.2) (Branch.body inner a calls jobs best)
      (Branch.body inner a calls jobs' best) := by
  cases h with
  | nil => exact .inl ⟨_, rfl, rfl⟩
  | @cons it it' rest rest' hit hrest =>
    have h1 : it'.problem.names = it.problem.names := by rw [hit.problem.rest]
    have h2 : it'.problem.type = it.problem.type := by rw [hit.problem.rest]
    simp only [Branch.body, h1, h2, hit.annoying]
    split
    · exact .inl ⟨_, rfl, rfl⟩
    · refine Both.bind (split_obj hit.problem a) ?_
      rintro ⟨one, zero⟩ ⟨one', zero'⟩ ⟨ho, hz⟩
      simp only at ho hz ⊢
      rw [hi calls one one' ho, hi (calls + 1) zero zero' hz]
      refine Both.bind (Both.refl _) ?_
      rintro r0 _ rfl
      refine Both.bind (Both.refl _) ?_
      rintro r1 _ rfl
      have hn : ∀ (pb pb' : Problem) (r : Branch.Inner), RelO pb pb' → NodeO (Branch.node pb r) (Branch.node pb' r) :=
        fun pb pb' r h => ⟨h, rfl, rfl, rfl⟩
      obtain ⟨e1, e2⟩ := emplace_obj (hn one one' r0 ho) (List.Forall₂.cons hit hrest) 0
      obtain ⟨e3, e4⟩ := emplace_obj (hn zero zero' r1 hz) e1 (Branch.emplace (Branch.node one r0) (it :: rest) 0).2
      refine .inr ⟨_, _, rfl, rfl, ?_, rfl⟩
      simp only [e2, e4]
      exact eraseIdx_rel _ e3

theorem loop_obj {inner : Nat → Problem → Outcome Branch.Inner}
    (hi : ∀ k pb pb', RelO pb pb' → inner k pb' = inner k pb) (a : Nat) : ∀ (steps calls : Nat)
    {jobs jobs' : List Branch.Node}, List.Forall₂ NodeO jobs jobs' → ∀ best : Branch.Inner,
    Branch.loop inner a steps calls jobs' best = Branch.loop inner a steps calls jobs best
  | 0, _, _, _, _, _ => rfl
  | steps + 1, calls, jobs, jobs', h, best => by
    unfold Branch.loop
    rcases body_obj hi a calls h best with ⟨e, h1, h2⟩ | ⟨q, q', h1, h2, h3, h4⟩
    · rw [h1, h2]
    · rw [h1, h2]
      obtain ⟨j, b⟩ := q
      obtain ⟨j', b'⟩ := q'
      simp only at h3 h4 ⊢
      subst h4
      have he : j'.isEmpty = j.isEmpty := by cases h3 <;> rfl
      rw [he, loop_obj hi a steps (calls + 2) h3 b']

theorem branch_obj {inner : Nat → Problem → Outcome Result}
    (hi : ∀ k pb pb', RelO pb pb' → inner k pb' = inner k pb) {pb pb' : Problem} (h : RelO pb pb') :
    Dispatch.branch inner pb' = Dispatch.branch inner pb := by
  unfold Dispatch.branch Branch.optimize
  simp only [hi 0 pb pb' h, values_obj h]
  cases (inner 0 pb).map branchInner with
  | error e => rfl
  | ok best =>
    simp only
    rw [loop_obj (inner := fun k q => (inner k q).map branchInner)
      (fun k q q' hq => by rw [hi k q q' hq]) best.annoying (3 ^ pb.values.length + 1) 1
      (jobs := [Branch.node pb best]) (jobs' := [Branch.node pb' best])
      (.cons ⟨h, rfl, rfl, rfl⟩ .nil) best]

end Bx.Reorder
