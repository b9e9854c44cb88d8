import Verif.Proofs.CrewSame
import Verif.Props.Twice
import Verif.Spec.Looser

/-! # Lemmas for C140: looser copies of constraints -/

namespace Bx.Looser

open Spec Merge Twice Itm Dispatch

variable {φ : Int → Int}

/-- What a bound of each type implies. -/
def Implied : Merge.Op → Int → Int → Prop
  | .equal, v, w => w = v
  | .greater, v, w => w ≤ v
  | .less, v, w => v ≤ w

theorem fOf_implied {op : Merge.Op} {v w : Int} (h : Implied op v w) {m : Merged} (hm : fOf op v m = .ok m) :
    fOf op w m = .ok m := by
  cases op
  · rw [show w = v from h]
    exact hm
  · have h1 := congrArg Merged.min (Except.ok.inj hm)
    simp only at h1
    have hw : w ≤ v := h
    simp only [fOf]
    have : max m.min w = m.min := by omega
    rw [this]
  · have h1 := congrArg Merged.max (Except.ok.inj hm)
    simp only at h1
    have hw : v ≤ w := h
    simp only [fOf]
    have : min m.max w = m.max := by omega
    rw [this]

theorem fixed_implied {op : Merge.Op} {e : List FunElem} {v w : Int} (h : Implied op v w) :
    ∀ ret : List Merged, Fixed e (fOf op v) ret → Fixed e (fOf op w) ret
  | m :: ms, hf => by
    unfold Fixed at hf ⊢
    split
    · rename_i he
      rw [if_pos he] at hf
      exact fOf_implied h hf
    · rename_i he
      rw [if_neg he] at hf
      exact fixed_implied h ms hf

theorem fold_both (op : Merge.Op) {l l' : List Constr} (h : Loosens (Implied op) φ l l') (ret : List Merged) :
    Both (fun r r' => r' = r.map (renumberM φ) ∧ ∀ c ∈ l, Fixed c.elems (fOf op c.value) r)
      (l.foldlM (stepOf op) ret) (l'.foldlM (stepOf op) (ret.map (renumberM φ))) := by
  induction h with
  | nil => exact .inr ⟨ret, _, rfl, rfl, rfl, by simp⟩
  | @new l l' c h ih =>
    rw [List.foldlM_append, List.foldlM_append]
    refine Both.bind ih ?_
    rintro r _ ⟨rfl, hfix⟩
    simp only [List.foldlM_cons, List.foldlM_nil]
    rw [step_map]
    cases hs : stepOf op r c with
    | error e => exact .inl ⟨e, rfl, rfl⟩
    | ok r1 =>
      refine .inr ⟨r1, _, rfl, rfl, rfl, ?_⟩
      intro c' hc'
      rcases List.mem_append.mp hc' with hc' | hc'
      · exact step_keeps hs (hfix c' hc')
      · obtain rfl := List.mem_singleton.mp hc'
        exact step_fixed hs
  | @looser l l' c t h hc he hv ih =>
    rw [List.foldlM_append]
    rcases ih with ⟨e, h1, h2⟩ | ⟨r, _, h1, h2, rfl, hfix⟩
    · rw [h1, h2]
      exact .inl ⟨e, rfl, rfl⟩
    · rw [h1, h2]
      have h3 : stepOf op (r.map (renumberM φ)) t = .ok (r.map (renumberM φ)) := by
        rw [stepOf_eq, he]
        exact fixed_update _ _ (fixed_map r (fixed_implied hv r (hfix c hc)))
      refine .inr ⟨r, _, rfl, ?_, rfl, hfix⟩
      rw [ok_bind]
      simp only [List.foldlM_cons, List.foldlM_nil, h3]
      rfl

theorem fills_both {pb pb' : Problem} (h : ∀ op, Loosens (Implied op) φ (cstsOf pb op) (cstsOf pb' op)) :
    ∀ (ops : List Merge.Op) (ret : List Merged),
    Both (fun r r' => r' = r.map (renumberM φ)) (ops.foldlM (fill pb) ret)
      (ops.foldlM (fill pb') (ret.map (renumberM φ)))
  | [], ret => .inr ⟨ret, _, rfl, rfl, rfl⟩
  | op :: ops, ret => by
    rw [List.foldlM_cons, List.foldlM_cons, fill_eq, fill_eq]
    refine Both.bind (fold_both op (h op) ret) ?_
    rintro r _ ⟨rfl, -⟩
    exact fills_both h ops r

/-- A constraint without its bound. -/
def unbound (c : Constr) : Constr := { c with value := 0 }

theorem repeats {implied : Int → Int → Prop} {l l' : List Constr} (h : Loosens implied φ l l') :
    Repeats φ (l.map unbound) (l'.map unbound) := by
  induction h with
  | nil => exact .nil
  | new c h ih =>
    rw [List.map_append, List.map_append]
    exact .new (unbound c) ih
  | @looser l l' c t h hc he hv ih =>
    rw [List.map_append]
    exact .again (unbound c) (unbound t) ih (List.mem_map_of_mem hc) he rfl

theorem type_unbound (e g l : List Constr) : ProblemType.whichProblemType (e.map unbound) (g.map unbound)
    (l.map unbound) = ProblemType.whichProblemType e g l := by
  have h : ∀ l : List Constr, ProblemType.coefficientTypeOf (l.map unbound) = ProblemType.coefficientTypeOf l := by
    intro l
    unfold ProblemType.coefficientTypeOf
    rw [List.flatMap_map]
    rfl
  unfold ProblemType.whichProblemType ProblemType.coefficientType
  rw [h, h, h, List.isEmpty_map, List.isEmpty_map]

theorem merge {s : Sorts} (hs : s.Ok) (hφ : StrictMono φ) {raw raw' : RawProblem} (h : LoosensRaw φ raw raw')
    (hd : DistinctNumbers raw.eqs raw.ges raw.les) (o : Merge.Order) :
    SameMerge s o (ProblemType.ofRaw raw) (ProblemType.ofRaw raw') := by
  have hrest : ProblemType.ofRaw raw' = { ProblemType.ofRaw raw with eqs := (ProblemType.ofRaw raw').eqs
                                                                     ges := (ProblemType.ofRaw raw').ges
                                                                     les := (ProblemType.ofRaw raw').les } := by
    have := type_repeats (repeats h.eqs) (repeats h.ges) (repeats h.les)
    rw [type_unbound, type_unbound] at this
    unfold ProblemType.ofRaw
    simp only [h.type, h.objective, h.names, h.values, this]
  refine ⟨hrest, make_of_fills hs hφ o hrest (fills_both fun op => ?_) hd⟩
  cases op
  · exact h.eqs
  · exact h.ges
  · exact h.les

theorem allConstraints_mem (vars : List Int) (bad : Int → Int → Bool) {implied : Int → Int → Prop}
    (hb : ∀ x v w, implied v w → bad x v = false → bad x w = false) {l l' : List Constr} (h : Loosens implied φ l l') :
    Lpcore.allConstraints vars bad l' = Lpcore.allConstraints vars bad l := by
  induction h with
  | nil => rfl
  | new c _ ih =>
    rw [allConstraints_append, allConstraints_append, ih]
    rfl
  | @looser l l' c t _ hc he hv ih =>
    rw [allConstraints_append, ih]
    cases h : Lpcore.allConstraints vars bad l with
    | error e => rfl
    | ok r =>
      cases r with
      | false => rfl
      | true =>
        have h1 := Twice.allConstraints_mem vars bad l h c hc
        have h2 : Lpcore.allConstraints vars bad [t] = .ok true := by
          simp only [Lpcore.allConstraints, he] at h1 ⊢
          cases hx : Lpcore.computeFunction vars c.elems with
          | error e => rw [hx] at h1; cases h1
          | ok x =>
            rw [hx] at h1
            simp only [ok_bind] at h1 ⊢
            cases hbad : bad x c.value with
            | true => rw [hbad] at h1; cases h1
            | false => rw [hb x _ _ hv hbad]; rfl
        rw [ok_bind, h2]
        rfl

end Bx.Looser
