import Verif.Spec.Reorder
import Verif.Proofs.CrewSame

/-! # Lemmas for C141: the order of the terms -/

namespace Bx.Reorder

open Spec Merge Twice

variable {r : List FunElem → List FunElem}

/-- The constraint with its terms in the order given by `r`. -/
def reorder (r : List FunElem → List FunElem) (c : Constr) : Constr := { c with elems := r c.elems }

/-- The same problem with the terms of its constraints in another order.  Two constraints with the same terms in the same
order stay so, and no two others become so. -/
structure ReordersRaw (r : List FunElem → List FunElem) (raw raw' : RawProblem) : Prop where
  problem : raw' = { raw with eqs := raw.eqs.map (reorder r)
                              ges := raw.ges.map (reorder r)
                              les := raw.les.map (reorder r) }
  perm : ∀ l, (r l).Perm l
  apart : ∀ c ∈ raw.eqs ++ raw.ges ++ raw.les, ∀ d ∈ raw.eqs ++ raw.ges ++ raw.les,
    r c.elems = r d.elems → c.elems = d.elems

/-- The entry with its terms in the order given by `r`. -/
def reorderM (r : List FunElem → List FunElem) (m : Merged) : Merged := { m with elems := r m.elems }

theorem update_reorder {e : List FunElem} {f f' : Merged → Outcome Merged} {new : Merged} :
    ∀ (ret : List Merged), (∀ m ∈ ret, r m.elems = r e → m.elems = e) →
    (∀ m, f' (reorderM r m) = (f m).map (reorderM r)) →
    update (r e) f' (reorderM r new) (ret.map (reorderM r)) = (update e f new ret).map (List.map (reorderM r))
  | [], _, _ => rfl
  | m :: ms, he, hf => by
    rw [List.map_cons]
    unfold update
    by_cases h : m.elems = e
    · rw [if_pos (show (reorderM r m).elems = r e from congrArg r h), if_pos h, hf]
      cases f m <;> rfl
    · rw [if_neg (show ¬ (reorderM r m).elems = r e from fun h' => h (he m List.mem_cons_self h')), if_neg h,
        update_reorder ms (fun m hm => he m (List.mem_cons_of_mem _ hm)) hf]
      cases update e f new ms <;> rfl

theorem fOf_reorder (op : Merge.Op) (v : Int) (m : Merged) :
    fOf op v (reorderM r m) = (fOf op v m).map (reorderM r) := by
  cases op
  · unfold fOf
    show (if m.min ≤ v ∧ v ≤ m.max then _ else _) = _
    simp only
    split <;> rfl
  · rfl
  · rfl

theorem update_elems {e : List FunElem} {f : Merged → Outcome Merged} {new : Merged} (hn : new.elems = e)
    (hf : ∀ m m', f m = .ok m' → m'.elems = m.elems) : ∀ {ret ret' : List Merged}, update e f new ret = .ok ret' →
    ∀ m ∈ ret', m.elems = e ∨ ∃ n ∈ ret, n.elems = m.elems
  | [], ret', h, m, hm => by
    obtain rfl : [new] = ret' := Except.ok.inj h
    obtain rfl := List.mem_singleton.mp hm
    exact .inl hn
  | a :: ret, ret', h, m, hm => by
    unfold update at h
    split at h
    · obtain ⟨a', ha, h1⟩ := bind_eq_ok.mp h
      obtain rfl : a' :: ret = ret' := Except.ok.inj h1
      rcases List.mem_cons.mp hm with rfl | hm
      · exact .inr ⟨a, List.mem_cons_self, (hf _ _ ha).symm⟩
      · exact .inr ⟨m, List.mem_cons_of_mem _ hm, rfl⟩
    · obtain ⟨l, hl, h1⟩ := bind_eq_ok.mp h
      obtain rfl : a :: l = ret' := Except.ok.inj h1
      rcases List.mem_cons.mp hm with rfl | hm
      · exact .inr ⟨m, List.mem_cons_self, rfl⟩
      · rcases update_elems hn hf hl m hm with h2 | ⟨n, hn', h2⟩
        · exact .inl h2
        · exact .inr ⟨n, List.mem_cons_of_mem _ hn', h2⟩

section
variable {T : List FunElem → Prop}

theorem fold_reorder (op : Merge.Op) (hT : ∀ a b, T a → T b → r a = r b → a = b) : ∀ (l : List Constr)
    (ret : List Merged), (∀ c ∈ l, T c.elems) → (∀ m ∈ ret, T m.elems) →
    Both (fun q q' => q' = q.map (reorderM r) ∧ ∀ m ∈ q, T m.elems) (l.foldlM (stepOf op) ret)
      ((l.map (reorder r)).foldlM (stepOf op) (ret.map (reorderM r)))
  | [], ret, _, hr => .inr ⟨ret, _, rfl, rfl, rfl, hr⟩
  | c :: l, ret, hl, hr => by
    rw [List.map_cons, List.foldlM_cons, List.foldlM_cons]
    have hc := hl c List.mem_cons_self
    have h1 : stepOf op (ret.map (reorderM r)) (reorder r c) = (stepOf op ret c).map (List.map (reorderM r)) := by
      rw [stepOf_eq, stepOf_eq]
      have hn : newOf op (reorder r c) = reorderM r (newOf op c) := by cases op <;> rfl
      rw [hn]
      exact update_reorder ret (fun m hm => hT _ _ (hr m hm) hc) (fOf_reorder op c.value)
    rw [h1]
    cases h : stepOf op ret c with
    | error e => exact .inl ⟨e, rfl, rfl⟩
    | ok ret1 =>
      refine fold_reorder op hT l ret1 (fun d hd => hl d (List.mem_cons_of_mem _ hd)) ?_
      intro m hm
      rw [stepOf_eq] at h
      rcases update_elems (by cases op <;> rfl) (fun _ _ => fOf_elems) h m hm with h2 | ⟨n, hn, h2⟩
      · rw [h2]; exact hc
      · rw [← h2]; exact hr n hn

theorem fills_reorder (hT : ∀ a b, T a → T b → r a = r b → a = b) {pb pb' : Problem}
    (hp : ∀ op, cstsOf pb' op = (cstsOf pb op).map (reorder r)) (hc : ∀ op, ∀ c ∈ cstsOf pb op, T c.elems) :
    ∀ (ops : List Merge.Op) (ret : List Merged), (∀ m ∈ ret, T m.elems) →
    Both (fun q q' => q' = q.map (reorderM r) ∧ ∀ m ∈ q, T m.elems) (ops.foldlM (fill pb) ret)
      (ops.foldlM (fill pb') (ret.map (reorderM r)))
  | [], ret, hr => .inr ⟨ret, _, rfl, rfl, rfl, hr⟩
  | op :: ops, ret, hr => by
    rw [List.foldlM_cons, List.foldlM_cons, fill_eq, fill_eq, hp]
    refine Both.bind (fold_reorder op hT _ ret (hc op) hr) ?_
    rintro q _ ⟨rfl, hq⟩
    exact fills_reorder hT hp hc ops q hq

end

theorem byId_reorder {s : Sorts} (hs : s.Ok) {q : List Merged} (hn : (q.map Merged.id).Nodup) :
    s.byId (q.map (reorderM r)) = (s.byId q).map (reorderM r) := by
  have hp : (s.byId (q.map (reorderM r))).Perm ((s.byId q).map (reorderM r)) :=
    (hs.byId_perm _).trans ((hs.byId_perm q).map _).symm
  refine hp.eq_of_pairwise (le := fun a b => a.id ≤ b.id) ?_ (hs.byId_sorted _) ?_
  · intro a b ha hb hab hba
    have hid : a.id = b.id := by omega
    have hnd : (((s.byId q).map (reorderM r)).map Merged.id).Nodup := by
      rw [List.map_map]
      exact (((hs.byId_perm q).map _).nodup_iff).mpr hn
    exact List.inj_on_of_nodup_map hnd (hp.mem_iff.mp ha) hb hid
  · rw [List.pairwise_map]
    exact hs.byId_sorted q

theorem byVar_reorder {s : Sorts} (hs : s.Ok) {l l' : List FunElem} (h : l'.Perm l)
    (hn : (l.map FunElem.var).Nodup) : s.byVar l' = s.byVar l := by
  have hp : (s.byVar l').Perm (s.byVar l) := (hs.byVar_perm l').trans (h.trans (hs.byVar_perm l).symm)
  refine hp.eq_of_pairwise (le := fun a b => a.var ≤ b.var) ?_ (hs.byVar_sorted _) (hs.byVar_sorted _)
  intro a b ha hb hab hba
  have hv : a.var = b.var := by omega
  exact List.inj_on_of_nodup_map hn ((hs.byVar_perm l).mem_iff.mp (hp.mem_iff.mp ha))
    ((hs.byVar_perm l).mem_iff.mp hb) hv

theorem improve_reorder {s : Sorts} (hs : s.Ok) (hr : ∀ l, (r l).Perm l) {q : List Merged}
    (hq : ∀ m ∈ q, (m.elems.map FunElem.var).Nodup) :
    improveMemory s (q.map (reorderM r)) = improveMemory s q := by
  unfold improveMemory
  rw [List.map_map]
  refine List.map_congr_left fun m hm => ?_
  show ({ m with elems := s.byVar (r m.elems) } : Merged) = _
  rw [byVar_reorder hs (hr _) (hq m hm)]

/-- The orders that sort the terms. -/
def Sorting (o : Merge.Order) : Prop := o ≠ .none ∧ o ≠ .p1 ∧ o ≠ .p2 ∧ o ≠ .p3 ∧ o ≠ .p4

theorem make_reorder {s : Sorts} (hs : s.Ok) {o : Merge.Order} (ho : Sorting o) (hr : ∀ l, (r l).Perm l)
    {pb pb' : Problem} (hp : ∀ op, cstsOf pb' op = (cstsOf pb op).map (reorder r))
    (hT : ∀ op op', ∀ c ∈ cstsOf pb op, ∀ d ∈ cstsOf pb op', r c.elems = r d.elems → c.elems = d.elems)
    (hv : ∀ op, ∀ c ∈ cstsOf pb op, (c.elems.map FunElem.var).Nodup)
    (hd : DistinctNumbers pb.eqs pb.ges pb.les) : make s o pb' = make s o pb := by
  let T : List FunElem → Prop := fun l => ∃ op, ∃ c ∈ cstsOf pb op, c.elems = l
  have hTT : ∀ a b, T a → T b → r a = r b → a = b := by
    rintro _ _ ⟨op, c, hc, rfl⟩ ⟨op', d, hd, rfl⟩ h
    exact hT op op' c hc d hd h
  have hf := fun ops => fills_reorder (T := T) hTT hp (fun op c hc => ⟨op, c, hc, rfl⟩) ops [] (by simp)
  have hTv : ∀ {q : List Merged}, (∀ m ∈ q, T m.elems) → ∀ m ∈ q, (m.elems.map FunElem.var).Nodup := by
    intro q hq m hm
    obtain ⟨op, c, hc, h⟩ := hq m hm
    rw [← h]
    exact hv op c hc
  have hm : (do let q ← makeUnsorted s pb'; .ok (improveMemory s q) : Outcome (List Merged)) =
      (do let q ← makeUnsorted s pb; .ok (improveMemory s q)) := by
    rw [makeUnsorted_eq, makeUnsorted_eq]
    rcases hf [Merge.Op.equal, .less, .greater] with ⟨e, h1, h2⟩ | ⟨q, _, h1, h2, rfl, hq⟩
    · rw [h1, show [Merge.Op.equal, .less, .greater].foldlM (fill pb') [] = _ from h2]
    · rw [h1, show [Merge.Op.equal, .less, .greater].foldlM (fill pb') [] = _ from h2]
      simp only [ok_bind, byId_reorder hs (fills_ids hd h1)]
      rw [improve_reorder hs hr (hTv fun m hm => hq m ((hs.byId_perm q).mem_iff.mp hm))]
  have hord : (do let q ← makeOrdered o pb'; .ok (improveMemory s q) : Outcome (List Merged)) =
      (do let q ← makeOrdered o pb; .ok (improveMemory s q)) := by
    unfold makeOrdered
    rcases hf (ops o) with ⟨e, h1, h2⟩ | ⟨q, _, h1, h2, rfl, hq⟩
    · rw [h1, show (ops o).foldlM (fill pb') [] = _ from h2]
    · rw [h1, show (ops o).foldlM (fill pb') [] = _ from h2]
      simp only [ok_bind]
      rw [improve_reorder hs hr (hTv hq)]
  obtain ⟨h0, h1, h2, h3, h4⟩ := ho
  cases o with
  | none => exact absurd rfl h0
  | memory => exact hm
  | p1 => exact absurd rfl h1
  | p2 => exact absurd rfl h2
  | p3 => exact absurd rfl h3
  | p4 => exact absurd rfl h4
  | lessGreaterEqual => exact hord
  | lessEqualGreater => exact hord
  | greaterLessEqual => exact hord
  | greaterEqualLess => exact hord
  | equalLessGreater => exact hord
  | equalGreaterLess => exact hord

/-! ## The class of the solver -/

theorem coefficientLoop_eq : ∀ (l : List FunElem) (k : Nat), ProblemType.coefficientLoop k l =
    if ∃ e ∈ l, e.factor ≤ -2 ∨ e.factor ≥ 2 then 2 else if k = 0 ∧ ∃ e ∈ l, e.factor = -1 then 1 else k
  | [], k => by simp [ProblemType.coefficientLoop]
  | e :: l, k => by
    unfold ProblemType.coefficientLoop
    split
    · rename_i h
      rw [coefficientLoop_eq l 1]
      have : ¬ (e.factor ≤ -2 ∨ e.factor ≥ 2) := by omega
      simp [h.1, h.2]
    · split
      · rename_i h
        rw [if_pos ⟨e, List.mem_cons_self, h⟩]
      · rename_i h1 h2
        rw [coefficientLoop_eq l k]
        have h3 : (∃ a ∈ e :: l, a.factor ≤ -2 ∨ a.factor ≥ 2) ↔ ∃ a ∈ l, a.factor ≤ -2 ∨ a.factor ≥ 2 := by
          simp only [List.mem_cons, exists_eq_or_imp]
          exact or_iff_right h2
        have h4 : (k = 0 ∧ ∃ a ∈ e :: l, a.factor = -1) ↔ k = 0 ∧ ∃ a ∈ l, a.factor = -1 := by
          simp only [List.mem_cons, exists_eq_or_imp]
          constructor
          · rintro ⟨hk, h | h⟩
            · exact absurd ⟨h, hk⟩ h1
            · exact ⟨hk, h⟩
          · rintro ⟨hk, h⟩
            exact ⟨hk, .inr h⟩
        simp only [h3, h4]

theorem coefficientLoop_perm {l l' : List FunElem} (h : l'.Perm l) (k : Nat) :
    ProblemType.coefficientLoop k l' = ProblemType.coefficientLoop k l := by
  rw [coefficientLoop_eq, coefficientLoop_eq]
  simp only [h.mem_iff]

theorem flatMap_perm {l l' : List Constr} (h : List.Forall₂ SameConstr l l') :
    (l'.flatMap Constr.elems).Perm (l.flatMap Constr.elems) := by
  induction h with
  | nil => exact .refl _
  | cons h _ ih =>
    rw [List.flatMap_cons, List.flatMap_cons]
    exact h.2.append ih

theorem type_same {e e' g g' l l' : List Constr} (he : List.Forall₂ SameConstr e e') (hg : List.Forall₂ SameConstr g g')
    (hl : List.Forall₂ SameConstr l l') :
    ProblemType.whichProblemType e' g' l' = ProblemType.whichProblemType e g l := by
  have h : ∀ {l l' : List Constr}, List.Forall₂ SameConstr l l' →
      ProblemType.coefficientTypeOf l' = ProblemType.coefficientTypeOf l :=
    fun h => coefficientLoop_perm (flatMap_perm h) 0
  have hn : ∀ {l l' : List Constr}, List.Forall₂ SameConstr l l' → l'.isEmpty = l.isEmpty := by
    intro l l' h
    cases h <;> rfl
  unfold ProblemType.whichProblemType ProblemType.coefficientType
  rw [h he, h hg, h hl, hn hg, hn hl]

theorem same_of_reorders (hr : ∀ l, (r l).Perm l) : ∀ l : List Constr, List.Forall₂ SameConstr l (l.map (reorder r))
  | [] => .nil
  | c :: l => .cons ⟨rfl, hr c.elems⟩ (same_of_reorders hr l)

theorem merge {s : Sorts} (hs : s.Ok) {raw raw' : RawProblem} (h : ReordersRaw r raw raw') (hv : DistinctTerms raw)
    (hd : DistinctNumbers raw.eqs raw.ges raw.les) {o : Merge.Order} (ho : Sorting o) :
    SameMerge s o (ProblemType.ofRaw raw) (ProblemType.ofRaw raw') := by
  obtain ⟨rfl, hr, ha⟩ := h
  have hm : ∀ op, ∀ c ∈ cstsOf (ProblemType.ofRaw raw) op, c ∈ raw.eqs ++ raw.ges ++ raw.les := by
    intro op c hc
    cases op
    · exact List.mem_append_left _ (List.mem_append_left _ hc)
    · exact List.mem_append_left _ (List.mem_append_right _ hc)
    · exact List.mem_append_right _ hc
  refine ⟨?_, ?_⟩
  · unfold ProblemType.ofRaw
    simp only [type_same (same_of_reorders hr raw.eqs) (same_of_reorders hr raw.ges) (same_of_reorders hr raw.les)]
  · have h := make_reorder (r := r) hs ho hr (pb := ProblemType.ofRaw raw)
      (pb' := ProblemType.ofRaw { raw with eqs := raw.eqs.map (reorder r)
                                           ges := raw.ges.map (reorder r)
                                           les := raw.les.map (reorder r) }) (by intro op; cases op <;> rfl)
      (fun op op' c hc d hd => ha c (hm op c hc) d (hm op' d hd)) (fun op c hc => hv c (hm op c hc)) hd
    rw [h]
    cases make s o (ProblemType.ofRaw raw) with
    | error e => exact .inl ⟨e, rfl, rfl⟩
    | ok q => exact .inr ⟨q, q, rfl, rfl, rfl⟩

/-! ## A function for the orders -/

theorem map_of_zip : ∀ {l l' : List Constr}, List.Forall₂ SameConstr l l' →
    (∀ p ∈ l.zip l', p.2.elems = r p.1.elems) → l' = l.map (reorder r)
  | _, _, .nil, _ => rfl
  | _, _, .cons (a := c) (b := d) h hs, hz => by
    rw [List.map_cons, ← map_of_zip hs fun p hp => hz p (List.mem_cons_of_mem _ hp)]
    congr 1
    rw [h.1, hz (c, d) List.mem_cons_self]
    rfl

theorem sameConstr_of_zip : ∀ {l l' : List Constr}, List.Forall₂ SameConstr l l' → ∀ p ∈ l.zip l', SameConstr p.1 p.2
  | _, _, .cons h hs, p, hp => by
    rcases List.mem_cons.mp hp with rfl | hp
    · exact h
    · exact sameConstr_of_zip hs p hp

theorem reorders_of_same {raw raw' : RawProblem} (h : SameConstrs raw raw') (hg : SameGroups raw raw') : ∃ r, ReordersRaw r raw raw' := by
  classical
  have hall : List.Forall₂ SameConstr (raw.eqs ++ raw.ges ++ raw.les) (raw'.eqs ++ raw'.ges ++ raw'.les) :=
    List.rel_append (List.rel_append h.eqs h.ges) h.les
  unfold SameGroups at hg
  generalize hZ : (raw.eqs ++ raw.ges ++ raw.les).zip (raw'.eqs ++ raw'.ges ++ raw'.les) = Z at *
  have hap := hg
  let r : List FunElem → List FunElem := fun l => if h : ∃ p ∈ Z, p.1.elems = l then h.choose.2.elems else l
  have hr : ∀ p ∈ Z, p.2.elems = r p.1.elems := by
    intro p hp
    have hex : ∃ q ∈ Z, q.1.elems = p.1.elems := ⟨p, hp, rfl⟩
    show _ = dite _ _ _
    rw [dif_pos hex]
    exact ((hap _ hex.choose_spec.1 p hp).mp hex.choose_spec.2).symm
  have hperm : ∀ l, (r l).Perm l := by
    intro l
    show (dite _ _ _ : List FunElem).Perm l
    split
    · rename_i hex
      have h1 := (sameConstr_of_zip hall _ (by rw [hZ]; exact hex.choose_spec.1)).2
      rw [hex.choose_spec.2] at h1
      exact h1
    · exact .refl _
  have hmap := map_of_zip (r := r) hall (by rw [hZ]; exact hr)
  rw [List.map_append, List.map_append] at hmap
  obtain ⟨h1, h2⟩ := List.append_inj hmap (by
    simp only [List.length_append, List.length_map, h.eqs.length_eq, h.ges.length_eq])
  obtain ⟨h3, h4⟩ := List.append_inj h1 (by simp only [List.length_map, h.eqs.length_eq])
  refine ⟨r, ?_, hperm, ?_⟩
  · rw [h.rest, h2, h3, h4]
  · intro c hc d hd hcd
    have hz : ∀ {l l' : List Constr}, List.Forall₂ SameConstr l l' → ∀ c ∈ l, ∃ d, (c, d) ∈ l.zip l' := by
      intro l l' hs
      induction hs with
      | nil => intro c hc; cases hc
      | @cons a b l l' _ _ ih =>
        intro c hc
        rcases List.mem_cons.mp hc with rfl | hc
        · exact ⟨b, List.mem_cons_self⟩
        · obtain ⟨d, hd⟩ := ih c hc
          exact ⟨d, List.mem_cons_of_mem _ hd⟩
    obtain ⟨c', hc'⟩ := hz hall c hc
    obtain ⟨d', hd'⟩ := hz hall d hd
    rw [hZ] at hc' hd'
    refine (hap _ hc' _ hd').mpr ?_
    rw [hr _ hc', hr _ hd']
    exact hcd

/-! ## The check -/

theorem compute_perm (vars : List Int) {l l' : List FunElem} (h : l'.Perm l) :
    Lpcore.computeFunction vars l' = Lpcore.computeFunction vars l := by
  induction h with
  | nil => rfl
  | cons e _ ih => simp only [Lpcore.computeFunction, ih]
  | swap a b l =>
    simp only [Lpcore.computeFunction]
    cases ha : vars[a.var]? with
    | none =>
      cases hb : vars[b.var]? with
      | none => rfl
      | some w => rfl
    | some v =>
      cases hb : vars[b.var]? with
      | none => rfl
      | some w =>
        cases Lpcore.computeFunction vars l with
        | error e => rfl
        | ok k =>
          simp only [ok_bind]
          congr 1
          ring
  | trans _ _ h1 h2 => rw [h1, h2]

theorem allConstraints_same (vars : List Int) (bad : Int → Int → Bool) {l l' : List Constr}
    (h : List.Forall₂ SameConstr l l') : Lpcore.allConstraints vars bad l' = Lpcore.allConstraints vars bad l := by
  induction h with
  | nil => rfl
  | @cons c d _ _ h _ ih =>
    have hv : d.value = c.value := by rw [h.1]
    unfold Lpcore.allConstraints
    rw [ih, compute_perm vars h.2, hv]

/-! ## The objective -/

theorem addLinear_perm (vars : List Int) {l l' : List ObjElem} (h : l'.Perm l) : ∀ acc : Rat,
    Lpcore.addLinear vars acc l' = Lpcore.addLinear vars acc l := by
  induction h with
  | nil => exact fun _ => rfl
  | cons e _ ih =>
    intro acc
    simp only [Lpcore.addLinear]
    cases vars[e.var]? with
    | none => rfl
    | some v => exact ih _
  | swap a b l =>
    intro acc
    simp only [Lpcore.addLinear]
    cases vars[a.var]? with
    | none => cases vars[b.var]? <;> rfl
    | some v =>
      cases vars[b.var]? with
      | none => rfl
      | some w => simp only [add_right_comm]
  | trans _ _ h1 h2 => exact fun acc => (h1 acc).trans (h2 acc)

theorem addQuadratic_perm (vars : List Int) {l l' : List QuadElem} (h : l'.Perm l) : ∀ acc : Rat,
    Lpcore.addQuadratic vars acc l' = Lpcore.addQuadratic vars acc l := by
  induction h with
  | nil => exact fun _ => rfl
  | cons e _ ih =>
    intro acc
    simp only [Lpcore.addQuadratic]
    split
    · exact ih _
    · rfl
  | swap a b l =>
    intro acc
    simp only [Lpcore.addQuadratic]
    cases vars[a.a]? <;> cases vars[a.b]? <;> cases vars[b.a]? <;> cases vars[b.b]? <;> simp only [add_right_comm]
  | trans _ _ h1 h2 => exact fun acc => (h1 acc).trans (h2 acc)

end Bx.Reorder
