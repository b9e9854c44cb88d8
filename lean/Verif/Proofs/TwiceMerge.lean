import Verif.Proofs.Twice
import Verif.Props.ConstraintOrder
import Mathlib.Data.List.InsertIdx

/-! # Lemmas for C138: constraints written several times, the merge and the solvers -/

namespace Bx.Twice

open Spec Merge

variable {φ : Int → Int}

def renumberM (φ : Int → Int) (m : Merged) : Merged := { m with id := φ m.id }

theorem update_map {e : List FunElem} {f f' : Merged → Outcome Merged} {new new' : Merged}
    (hf : ∀ m, f' (renumberM φ m) = (f m).map (renumberM φ)) (hn : new' = renumberM φ new) :
    ∀ ret : List Merged, update e f' new' (ret.map (renumberM φ)) = (update e f new ret).map (List.map (renumberM φ))
  | [] => by rw [hn]; rfl
  | m :: ms => by
    show (if m.elems = e then _ else _) = Except.map _ (if m.elems = e then _ else _)
    split
    · rw [hf]
      cases f m <;> rfl
    · rw [update_map hf hn ms]
      cases update e f new ms <;> rfl

/-- What a step does to the entry it finds. -/
def fOf : Merge.Op → Int → Merged → Outcome Merged
  | .equal, v, m => if m.min ≤ v ∧ v ≤ m.max then .ok { m with min := v, max := v }
      else .error (.exn "multiple_constraint")
  | .greater, v, m => .ok { m with min := max m.min v }
  | .less, v, m => .ok { m with max := min m.max v }

/-- The entry that a step appends. -/
def newOf : Merge.Op → Constr → Merged
  | .equal, c => ⟨c.elems, c.value, c.value, c.id⟩
  | .greater, c => ⟨c.elems, c.value, intMax, c.id⟩
  | .less, c => ⟨c.elems, intMin, c.value, c.id⟩

theorem stepOf_eq (op : Merge.Op) (ret : List Merged) (c : Constr) :
    stepOf op ret c = update c.elems (fOf op c.value) (newOf op c) ret := by
  cases op <;> rfl

/-- The first entry with the left-hand side `e` is left as it is by `f`. -/
def Fixed (e : List FunElem) (f : Merged → Outcome Merged) : List Merged → Prop
  | [] => False
  | m :: ms => if m.elems = e then f m = .ok m else Fixed e f ms

theorem fOf_map (op : Merge.Op) (v : Int) (m : Merged) :
    fOf op v (renumberM φ m) = (fOf op v m).map (renumberM φ) := by
  cases op
  · show (if m.min ≤ v ∧ v ≤ m.max then _ else _) = Except.map _ (if m.min ≤ v ∧ v ≤ m.max then _ else _)
    split <;> rfl
  · rfl
  · rfl

theorem step_map (op : Merge.Op) (ret : List Merged) (c : Constr) :
    stepOf op (ret.map (renumberM φ)) (renumber φ c) = (stepOf op ret c).map (List.map (renumberM φ)) := by
  rw [stepOf_eq, stepOf_eq]
  exact update_map (fun m => fOf_map op c.value m) (by cases op <;> rfl) ret

theorem fixed_map {op : Merge.Op} {e : List FunElem} {v : Int} : ∀ ret : List Merged, Fixed e (fOf op v) ret →
    Fixed e (fOf op v) (ret.map (renumberM φ))
  | m :: ms, h => by
    unfold Fixed at h
    rw [List.map_cons]
    unfold Fixed
    show if m.elems = e then _ else _
    split
    · rename_i he
      rw [if_pos he] at h
      rw [fOf_map, h]
      rfl
    · rename_i he
      rw [if_neg he] at h
      exact fixed_map ms h

theorem fixed_update {e : List FunElem} {f : Merged → Outcome Merged} (new : Merged) :
    ∀ ret : List Merged, Fixed e f ret → update e f new ret = .ok ret
  | m :: ms, h => by
    unfold Fixed at h
    unfold update
    split
    · rename_i he
      rw [if_pos he] at h
      rw [h]
      rfl
    · rename_i he
      rw [if_neg he] at h
      rw [fixed_update new ms h]
      rfl

theorem fOf_elems {op : Merge.Op} {v : Int} {m m' : Merged} (h : fOf op v m = .ok m') : m'.elems = m.elems := by
  cases op
  · simp only [fOf] at h
    split at h <;> cases h
    rfl
  · cases h; rfl
  · cases h; rfl

theorem fOf_fixed {op : Merge.Op} {v : Int} {m m' : Merged} (h : fOf op v m = .ok m') : fOf op v m' = .ok m' := by
  cases op
  · simp only [fOf] at h
    split at h <;> cases h
    simp only [fOf]
    rw [if_pos ⟨le_refl _, le_refl _⟩]
  · cases h
    simp [fOf]
  · cases h
    simp [fOf]

theorem fOf_keeps {op : Merge.Op} {v w : Int} {m m' : Merged} (hm : fOf op v m = .ok m) (h : fOf op w m = .ok m') :
    fOf op v m' = .ok m' := by
  cases op
  · simp only [fOf] at h hm
    split at h <;> cases h
    rename_i hw
    split at hm
    · have := Except.ok.inj hm
      have h1 := congrArg Merged.min this
      have h2 := congrArg Merged.max this
      simp only at h1 h2
      have : w = v := by omega
      subst this
      simp only [fOf]
      rw [if_pos ⟨le_refl _, le_refl _⟩]
    · cases hm
  · cases h
    have h1 := congrArg Merged.min (Except.ok.inj hm)
    simp only at h1
    simp only [fOf]
    have : max (max m.min w) v = max m.min w := by omega
    rw [this]
  · cases h
    have h1 := congrArg Merged.max (Except.ok.inj hm)
    simp only at h1
    simp only [fOf]
    have : min (min m.max w) v = min m.max w := by omega
    rw [this]

theorem step_fixed {op : Merge.Op} {c : Constr} : ∀ {ret ret' : List Merged}, stepOf op ret c = .ok ret' →
    Fixed c.elems (fOf op c.value) ret' := by
  intro ret ret' h
  rw [stepOf_eq] at h
  induction ret generalizing ret' with
  | nil =>
    cases h
    unfold Fixed
    have : (newOf op c).elems = c.elems := by cases op <;> rfl
    rw [if_pos this]
    cases op <;> simp [fOf, newOf]
  | cons m ms ih =>
    unfold update at h
    split at h
    · rename_i he
      obtain ⟨m', h1, h2⟩ := bind_eq_ok.mp h
      cases h2
      unfold Fixed
      rw [if_pos ((fOf_elems h1).trans he)]
      exact fOf_fixed h1
    · rename_i he
      obtain ⟨ms', h1, h2⟩ := bind_eq_ok.mp h
      cases h2
      unfold Fixed
      rw [if_neg he]
      exact ih h1

theorem step_keeps {op : Merge.Op} {e : List FunElem} {v : Int} {d : Constr} : ∀ {ret ret' : List Merged},
    stepOf op ret d = .ok ret' → Fixed e (fOf op v) ret → Fixed e (fOf op v) ret' := by
  intro ret ret' h hf
  rw [stepOf_eq] at h
  induction ret generalizing ret' with
  | nil => exact absurd hf id
  | cons m ms ih =>
    unfold update at h
    unfold Fixed at hf
    split at h
    · rename_i he
      obtain ⟨m', h1, h2⟩ := bind_eq_ok.mp h
      cases h2
      unfold Fixed
      rw [fOf_elems h1]
      split
      · rename_i hm
        rw [if_pos hm] at hf
        exact fOf_keeps hf h1
      · rename_i hm
        rw [if_neg hm] at hf
        exact hf
    · obtain ⟨ms', h1, h2⟩ := bind_eq_ok.mp h
      cases h2
      unfold Fixed
      split
      · rename_i hm
        rw [if_pos hm] at hf
        exact hf
      · rename_i hm
        rw [if_neg hm] at hf
        exact ih h1 hf

/-- The entries after the two lists of a type. -/
theorem fold_both (op : Merge.Op) {l l' : List Constr} (h : Repeats φ l l') (ret : List Merged) :
    Both (fun r r' => r' = r.map (renumberM φ) ∧ ∀ c ∈ l, Fixed c.elems (fOf op c.value) r)
      (l.foldlM (stepOf op) ret) (l'.foldlM (stepOf op) (ret.map (renumberM φ))) := by
  induction h with
  | nil => exact .inr ⟨ret, _, rfl, rfl, rfl, by simp⟩
  | @new l l' c h ih =>
    rw [List.foldlM_append, List.foldlM_append]
    refine Both.bind ih ?_
    rintro r _ ⟨rfl, hfix⟩
    simp only [List.foldlM_cons, List.foldlM_nil]
    rw [step_map]
    cases hs : stepOf op r c with
    | error e => exact .inl ⟨e, rfl, rfl⟩
    | ok r1 =>
      refine .inr ⟨r1, _, rfl, rfl, rfl, ?_⟩
      intro c' hc'
      rcases List.mem_append.mp hc' with hc' | hc'
      · exact step_keeps hs (hfix c' hc')
      · obtain rfl := List.mem_singleton.mp hc'
        exact step_fixed hs
  | @again l l' c t h hc he hv ih =>
    rw [List.foldlM_append]
    rcases ih with ⟨e, h1, h2⟩ | ⟨r, _, h1, h2, rfl, hfix⟩
    · rw [h1, h2]
      exact .inl ⟨e, rfl, rfl⟩
    · rw [h1, h2]
      have h3 : stepOf op (r.map (renumberM φ)) t = .ok (r.map (renumberM φ)) := by
        rw [stepOf_eq, he, hv]
        refine fixed_update _ _ ?_
        exact fixed_map r (hfix c hc)
      refine .inr ⟨r, _, rfl, ?_, rfl, hfix⟩
      rw [ok_bind]
      simp only [List.foldlM_cons, List.foldlM_nil, h3]
      rfl

theorem fills_both {pb pb' : Problem} (h : Rel φ pb pb') : ∀ (ops : List Merge.Op) (ret : List Merged),
    Both (fun r r' => r' = r.map (renumberM φ)) (ops.foldlM (fill pb) ret)
      (ops.foldlM (fill pb') (ret.map (renumberM φ)))
  | [], ret => .inr ⟨ret, _, rfl, rfl, rfl⟩
  | op :: ops, ret => by
    rw [List.foldlM_cons, List.foldlM_cons, fill_eq, fill_eq]
    have hl : Repeats φ (cstsOf pb op) (cstsOf pb' op) := by
      cases op
      · exact h.lists .eq
      · exact h.lists .ge
      · exact h.lists .le
    refine Both.bind (fold_both op hl ret) ?_
    rintro r _ ⟨rfl, -⟩
    exact fills_both h ops r

/-! ## The order of the numbers -/

theorem firstsBy_sublist {α β : Type} [DecidableEq β] (key : α → β) : ∀ l : List α, (firstsBy key l).Sublist l
  | [] => .slnil
  | a :: l => ((List.filter_sublist).trans (firstsBy_sublist key l)).cons₂ a

theorem fills_ids {pb : Problem} (hd : DistinctNumbers pb.eqs pb.ges pb.les) {r : List Merged}
    (h : [Merge.Op.equal, .less, .greater].foldlM (fill pb) [] = .ok r) : (r.map Merged.id).Nodup := by
  have h1 := Ordered.fills pb _ [] [] r rfl h
  have h2 : r.map Merged.id = (firstsBy Constr.elems ([] ++ [Merge.Op.equal, .less, .greater].flatMap (cstsOf pb))).map
      Constr.id := by
    have := congrArg (List.map Prod.snd) (show r.map Merged.key = _ from h1)
    simpa [List.map_map, Function.comp_def, Merged.key] using this
  rw [h2]
  refine ((firstsBy_sublist Constr.elems _).map Constr.id).nodup ?_
  have hp : ([] ++ [Merge.Op.equal, .less, .greater].flatMap (cstsOf pb)).Perm (pb.eqs ++ pb.ges ++ pb.les) := by
    simp only [List.flatMap_cons, List.flatMap_nil, List.append_nil, List.nil_append, cstsOf, List.append_assoc]
    exact List.Perm.append_left _ List.perm_append_comm
  exact ((hp.map Constr.id).nodup_iff).mpr hd

theorem byId_map {s : Sorts} (hs : s.Ok) (hφ : StrictMono φ) {r : List Merged} (hn : (r.map Merged.id).Nodup) :
    s.byId (r.map (renumberM φ)) = (s.byId r).map (renumberM φ) := by
  have hp : (s.byId (r.map (renumberM φ))).Perm ((s.byId r).map (renumberM φ)) :=
    (hs.byId_perm _).trans ((hs.byId_perm r).map _).symm
  refine hp.eq_of_pairwise (le := fun a b => a.id ≤ b.id) ?_ (hs.byId_sorted _) ?_
  · intro a b ha hb hab hba
    have hid : a.id = b.id := by omega
    have hnd : (((s.byId r).map (renumberM φ)).map Merged.id).Nodup := by
      have h1 : (((s.byId r).map (renumberM φ)).map Merged.id) = ((s.byId r).map Merged.id).map φ := by
        rw [List.map_map, List.map_map]; rfl
      rw [h1]
      exact List.Nodup.map hφ.injective ((((hs.byId_perm r).map _).nodup_iff).mpr hn)
    exact List.inj_on_of_nodup_map hnd (hp.mem_iff.mp ha) hb hid
  · rw [List.pairwise_map]
    exact (hs.byId_sorted r).imp fun h => hφ.monotone h

/-- A merged constraint without its number. -/
def strip (m : Merged) : Merged := { m with id := 0 }

/-- The same merged constraints, with other numbers. -/
def SameRows (a b : List Merged) : Prop := b.map strip = a.map strip

theorem sameRows_renumber (r : List Merged) : SameRows r (r.map (renumberM φ)) := by
  unfold SameRows
  rw [List.map_map]
  rfl

theorem make_of_fills {s : Sorts} (hs : s.Ok) (hφ : StrictMono φ) (o : Order) {pb pb' : Problem}
    (hrest : pb' = { pb with eqs := pb'.eqs, ges := pb'.ges, les := pb'.les })
    (hf : ∀ (ops : List Merge.Op) (ret : List Merged), Both (fun r r' => r' = r.map (renumberM φ))
      (ops.foldlM (fill pb) ret) (ops.foldlM (fill pb') (ret.map (renumberM φ))))
    (hd : DistinctNumbers pb.eqs pb.ges pb.les) : Both SameRows (make s o pb) (make s o pb') := by
  have hu : Both (fun r r' => r' = r.map (renumberM φ)) (makeUnsorted s pb) (makeUnsorted s pb') := by
    rw [makeUnsorted_eq, makeUnsorted_eq]
    rcases hf [Merge.Op.equal, .less, .greater] [] with ⟨e, h1, h2⟩ | ⟨r, _, h1, h2, rfl⟩
    · rw [h1, show [Merge.Op.equal, .less, .greater].foldlM (fill pb') [] = _ from h2]
      exact .inl ⟨e, rfl, rfl⟩
    · rw [h1, show [Merge.Op.equal, .less, .greater].foldlM (fill pb') [] = _ from h2]
      exact .inr ⟨_, _, rfl, rfl, byId_map hs hφ (fills_ids hd h1)⟩
  have ho : Both SameRows (do let r ← makeOrdered o pb; .ok (improveMemory s r))
      (do let r ← makeOrdered o pb'; .ok (improveMemory s r)) := by
    refine Both.bind (hf (ops o) []) ?_
    rintro r _ rfl
    refine .inr ⟨_, _, rfl, rfl, ?_⟩
    unfold SameRows improveMemory
    simp only [List.map_map]
    rfl
  have hsp : Both SameRows (makeSpecial s o pb) (makeSpecial s o pb') := by
    have hv : pb'.values = pb.values := by rw [hrest]
    have hob : pb'.objective = pb.objective := by rw [hrest]
    unfold makeSpecial
    refine Both.bind hu ?_
    rintro r _ rfl
    have hcost : varCost (r.map (renumberM φ)) pb.objective = varCost r pb.objective := by
      funext v
      have : degree (r.map (renumberM φ)) v = degree r v := by
        unfold degree
        rw [List.flatMap_map]
        rfl
      unfold varCost
      rw [this]
    have hall : (r.map (renumberM φ)).all (fun c => c.elems.all fun e => decide (e.var < pb.values.length)) =
        r.all fun c => c.elems.all fun e => decide (e.var < pb.values.length) := by
      rw [List.all_map]; rfl
    have hrat : (r.map (renumberM φ)).mapM (ratio (varCost r pb.objective)) = r.mapM (ratio (varCost r pb.objective)) := by
      rw [List.mapM_map]
      rfl
    simp only [hv, hob, hcost, hall, hrat, List.length_map]
    split
    · exact .inl ⟨_, rfl, rfl⟩
    · refine Both.bind (Both.refl _) ?_
      rintro rs _ rfl
      refine .inr ⟨_, _, rfl, rfl, ?_⟩
      have : ((r.map (renumberM φ)).zip (s.byRatio (decide (o = .p1)) ((List.range r.length).zip rs))).map
          (fun p => ({ p.1 with id := (p.2.1 : Int) } : Merged)) =
        (r.zip (s.byRatio (decide (o = .p1)) ((List.range r.length).zip rs))).map
          (fun p => ({ p.1 with id := (p.2.1 : Int) } : Merged)) := by
        rw [List.zip_map_left, List.map_map]
        rfl
      rw [this]
      rfl
  cases o with
  | none =>
    refine Both.mono hu ?_
    rintro r _ rfl
    exact sameRows_renumber r
  | memory =>
    refine Both.bind hu ?_
    rintro r _ rfl
    refine .inr ⟨_, _, rfl, rfl, ?_⟩
    unfold SameRows improveMemory
    simp only [List.map_map]
    rfl
  | p1 => exact hsp
  | p2 => exact hsp
  | p3 => exact hsp
  | p4 => exact hsp
  | lessGreaterEqual => exact ho
  | lessEqualGreater => exact ho
  | greaterLessEqual => exact ho
  | greaterEqualLess => exact ho
  | equalLessGreater => exact ho
  | equalGreaterLess => exact ho

theorem make_both {s : Sorts} (hs : s.Ok) (hφ : StrictMono φ) (o : Order) {pb pb' : Problem} (h : Rel φ pb pb')
    (hd : DistinctNumbers pb.eqs pb.ges pb.les) : Both SameRows (make s o pb) (make s o pb') :=
  make_of_fills hs hφ o h.rest (fills_both h) hd

end Bx.Twice
