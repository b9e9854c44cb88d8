import Verif.Proofs.Writer3

/-!
# A written problem is the same problem
-/

namespace Bx.Parser

open Params (D)

variable {scan : Token → Option D} {num : Rat → List Char}

theorem getElem?_idxOf {l : List Token} {x : Token} (h : x ∈ l) : l[l.idxOf x]? = some x := by
  rw [List.getElem?_eq_getElem (List.idxOf_lt_length_iff.mpr h)]
  simp

theorem obj_collect {p : PProblem} (hw : Writable scan num p) :
    collect (named (scanned scan) (fileOf num p).linear) =
      (p.elems.filter fun e => e.factor ≠ .fin 0).map fun e => (p.nm e.var, ratOf e.factor) := by
  have hl : (fileOf num p).linear = (fileOf num p).obj := List.append_nil _
  rw [hl]
  have h1 : named (scanned scan) (fileOf num p).obj =
      (p.elems.filter fun e => e.factor ≠ .fin 0).map fun e => (p.nm e.var, ratOf e.factor) := by
    show named _ (objFile num p p.elems ++ constFile num p.value) = _
    have : named (scanned scan) (constFile num p.value) = [] := by
      obtain ⟨q, hq, _⟩ := hw.value
      rw [hq]
      unfold constFile
      dsimp only
      split <;> rfl
    rw [show named (scanned scan) (objFile num p p.elems ++ constFile num p.value) =
      named (scanned scan) (objFile num p p.elems) ++ named (scanned scan) (constFile num p.value) from
      List.filterMap_append, this, List.append_nil, objFile_eq hw.obj_lt (obj_finite hw)]
    refine named_map _ _ _ _ _ (fun _ _ => rfl) fun e he => ?_
    have := List.mem_filter.mp he
    exact obj_factor hw this.1 (by simpa using this.2) _
  rw [h1]
  apply collect_nodup
  rw [List.map_map]
  refine keys_nodup hw.names_nodup (fun e he => hw.obj_lt e (List.mem_filter.mp he).1) ?_
  exact ((List.filter_sublist).map _).nodup hw.obj_nodup

theorem con_collect {p : PProblem} (hw : Writable scan num p) (hd : ReadsInts scan) {c : Constr}
    (hc : c ∈ p.constraints) (op : OpWord) :
    collect (named (scannedInt scan) (constrFile p op c).terms) =
      (c.elems.filter fun e => e.factor ≠ 0).map fun e => (p.nm e.var, e.factor) := by
  have h1 : named (scannedInt scan) (constrFile p op c).terms =
      (c.elems.filter fun e => e.factor ≠ 0).map fun e => (p.nm e.var, e.factor) := by
    show named _ (conFile p c.elems) = _
    rw [conFile_eq (hw.con_lt c hc)]
    refine named_map _ _ _ _ _ (fun _ _ => rfl) fun e he => ?_
    exact con_factor hd (factor_small (hw.con_sum c hc) e (List.mem_filter.mp he).1) _
  rw [h1]
  apply collect_nodup
  rw [List.map_map]
  refine keys_nodup hw.names_nodup (fun e he => hw.con_lt c hc e (List.mem_filter.mp he).1) ?_
  exact ((List.filter_sublist).map _).nodup (hw.con_nodup c hc)

theorem const_value {p : PProblem} (hw : Writable scan num p) :
    D.fin (constant (scanned scan) (fileOf num p).linear) = p.value := by
  have hl : (fileOf num p).linear = (fileOf num p).obj := List.append_nil _
  rw [hl]
  show D.fin (constant _ (objFile num p p.elems ++ constFile num p.value)) = _
  unfold constant
  rw [List.filter_append]
  have h1 : (objFile num p p.elems).filter (fun t => t.name = none) = [] := by
    rw [objFile_eq hw.obj_lt (obj_finite hw), List.filter_eq_nil_iff]
    intro t ht
    obtain ⟨e, _, rfl⟩ := List.mem_map.mp ht
    simp
  rw [h1, List.nil_append]
  obtain ⟨q, hq, hnum⟩ := hw.value
  rw [hq]
  unfold constFile
  dsimp only
  by_cases h0 : q = 0
  · rw [if_pos h0, h0]; rfl
  · rw [if_neg h0]
    have : Term.factor (scanned scan) ⟨some (decide (q < 0)), some (num |q|), none⟩ = q := by
      unfold Term.factor
      show _ * scanned scan (num |q|) = q
      rw [(hnum h0).scanned]
      exact sign_abs
    simp [this]

/-- The constraints that the file gives for an operator. -/
theorem constrs_eq {p : PProblem} (ival : Token → Int) :
    (fileOf num p).constrs ival .equal = (p.eqs.zipIdx).map
      (fun x => (constrFile p .eq x.1).constr ival (fileOf num p).names x.2) ∧
    (fileOf num p).constrs ival .greater = (p.ges.zipIdx p.eqs.length).map
      (fun x => (constrFile p .ge x.1).constr ival (fileOf num p).names x.2) ∧
    (fileOf num p).constrs ival .less = (p.les.zipIdx (p.eqs.length + p.ges.length)).map
      (fun x => (constrFile p .le x.1).constr ival (fileOf num p).names x.2) := by
  have key : ∀ (op : OpWord) (o : Op) (l : List Constr) (k : Nat) (g : Con → Nat → Constr),
      (((l.map (constrFile p op)).zipIdx k).filter fun x => x.1.op.op = o).map
        (fun x => g x.1 x.2) =
      if op.op = o then (l.zipIdx k).map fun x => g (constrFile p op x.1) x.2 else [] := by
    intro op o l k g
    induction l generalizing k with
    | nil => simp
    | cons a l ih =>
      rw [List.map_cons, List.zipIdx_cons, List.filter_cons]
      have ih := ih (k + 1)
      by_cases h : op.op = o
      · have h' : (constrFile p op a).op.op = o := h
        rw [if_pos h] at ih ⊢
        simp only [h', decide_true, ↓reduceIte, List.map_cons, ih, List.zipIdx_cons]
      · have h' : ¬ (constrFile p op a).op.op = o := h
        rw [if_neg h] at ih ⊢
        simp only [h', decide_false, Bool.false_eq_true, ↓reduceIte, ih]
  have hc : (fileOf num p).cons.getD [] = p.eqs.map (constrFile p .eq) ++
    p.ges.map (constrFile p .ge) ++ p.les.map (constrFile p .le) := rfl
  unfold File.constrs
  rw [hc]
  simp only [List.zipIdx_append, List.filter_append, List.map_append, List.length_append,
    List.length_map, Nat.zero_add]
  simp only [key _ _ _ _ fun c i => c.constr ival (fileOf num p).names i]
  refine ⟨?_, ?_, ?_⟩ <;> simp [OpWord.op]

theorem same_constr {p : PProblem} (hw : Writable scan num p) (hd : ReadsInts scan) {q : PProblem}
    (hq : q.names = (fileOf num p).names) {c : Constr} (hc : c ∈ p.constraints) (op : OpWord)
    (i : Nat) : SameConstr p q c
      ((constrFile p op c).constr (scannedInt scan) (fileOf num p).names i) := by
  refine ⟨?_, ?_, numberFile_value hd (hw.con_value c hc)⟩
  · show String.ofList ((if c.label = "" then none else some c.label.toList).getD []) = c.label
    split
    · rename_i h; rw [h]; rfl
    · simp
  · unfold Con.constr PProblem.conTerms
    dsimp only
    rw [con_collect hw hd hc, List.map_map, List.map_map]
    apply List.map_congr_left
    intro e he
    have hlt := hw.con_lt c hc e (List.mem_filter.mp he).1
    show (e.factor, q.names[(fileOf num p).names.idxOf (p.nm e.var)]?) = (e.factor, p.names[e.var]?)
    rw [hq, getElem?_idxOf ((mem_fileNames hw).mpr (nm_mem hlt)), nm_eq hlt]

theorem forall2_zipIdx {α β : Type} {R : α → β → Prop} {g : α × Nat → β} :
    ∀ {l : List α} {k : Nat}, (∀ a ∈ l, ∀ i, R a (g (a, i))) → List.Forall₂ R l ((l.zipIdx k).map g) := by
  intro l
  induction l with
  | nil => intro k _; exact .nil
  | cons a l ih =>
    intro k h
    rw [List.zipIdx_cons, List.map_cons]
    exact .cons (h a List.mem_cons_self k) (ih fun b hb => h b (List.mem_cons_of_mem _ hb))

theorem zip_inj {xs : List Token} (hn : xs.Nodup) {vs : List VarValue} {x : Token}
    {v v' : VarValue} (h : (x, v) ∈ xs.zip vs) (h' : (x, v') ∈ xs.zip vs) : v = v' := by
  induction xs generalizing vs with
  | nil => simp at h
  | cons a xs ih =>
    cases vs with
    | nil => simp at h
    | cons b vs =>
      rw [List.nodup_cons] at hn
      rw [List.zip_cons_cons, List.mem_cons] at h h'
      rcases h with h | h <;> rcases h' with h' | h'
      · rw [Prod.mk.injEq] at h h'; rw [h.2, h'.2]
      · rw [Prod.mk.injEq] at h; exact absurd (h.1 ▸ (List.of_mem_zip h').1) hn.1
      · rw [Prod.mk.injEq] at h'; exact absurd (h'.1 ▸ (List.of_mem_zip h).1) hn.1
      · exact ih hn.2 h h'

theorem varValue_file {p : PProblem} (hw : Writable scan num p) (hd : ReadsInts scan) {x : Token}
    {v : VarValue} (h : (x, v) ∈ p.names.zip p.values) :
    (fileOf num p).varValue (scannedInt scan) x = v := by
  have hb := varValue_holds (ival := scannedInt scan) (file_ok hw hd).bounds_nodup x
  have hv := hw.bounds _ h
  have horNone : ∀ (l : List Token), (orNone l).getD [] = l := by
    intro l; cases l <;> rfl
  have ht : ∀ t, x ∈ typeFile t (p.names.zip p.values) ↔ v.type = t := by
    intro t
    constructor
    · intro hx
      obtain ⟨y, hy, e⟩ := List.mem_map.mp hx
      have hy := List.mem_filter.mp hy
      obtain ⟨y1, y2⟩ := y
      subst e
      rw [zip_inj hw.names_nodup h hy.1]
      simpa using hy.2
    · intro e
      exact List.mem_map.mpr ⟨(x, v), List.mem_filter.mpr ⟨h, by simpa using e⟩, rfl⟩
  have hbin : x ∈ (fileOf num p).binary.getD [] ↔ v.type = .binary := by
    show x ∈ (orNone (typeFile .binary (p.names.zip p.values))).getD [] ↔ _
    rw [horNone]; exact ht _
  have hgen : x ∈ (fileOf num p).general.getD [] ↔ v.type = .general := by
    show x ∈ (orNone (typeFile .general (p.names.zip p.values))).getD [] ↔ _
    rw [horNone]; exact ht _
  have hmm : ((fileOf num p).varValue (scannedInt scan) x).min = v.min ∧
      ((fileOf num p).varValue (scannedInt scan) x).max = v.max := by
    by_cases hb1 : v.type = .binary
    · have := hb.binary (hbin.mpr hb1)
      rw [this.1, this.2, hv.1, hv.2.2.2 hb1]; exact ⟨rfl, rfl⟩
    · have hnb : x ∉ (fileOf num p).binary.getD [] := fun hc => hb1 (hbin.mp hc)
      by_cases hm : v.max = intMax
      · have := hb.none hnb (by
          intro b hbm e
          have hbm : b ∈ boundsFile (p.names.zip p.values) := hbm
          obtain ⟨y, hy, hbm⟩ := List.mem_filterMap.mp hbm
          split at hbm
          · cases hbm
          · rename_i hne
            cases hbm
            obtain ⟨y1, y2⟩ := y
            have e : y1 = x := e
            subst e
            exact hne (zip_inj hw.names_nodup hy h ▸ hm))
        rw [this.1, this.2, hv.1, hm]; exact ⟨rfl, rfl⟩
      · have := hb.upper hnb .le (numberFile v.max) (by
          show _ ∈ boundsFile (p.names.zip p.values)
          refine List.mem_filterMap.mpr ⟨(x, v), h, ?_⟩
          exact if_neg hm)
        rw [this.1, this.2, hv.1, numberFile_value hd hv.2.1]; exact ⟨rfl, rfl⟩
  have htype : ((fileOf num p).varValue (scannedInt scan) x).type = v.type := by
    rw [hb.type]
    simp only [hbin, hgen]
    cases v.type <;> simp
  cases hvv : (fileOf num p).varValue (scannedInt scan) x with
  | mk a b c =>
    rw [hvv] at hmm htype
    cases v
    simp_all

theorem same_problem {p : PProblem} (hw : Writable scan num p) (hd : ReadsInts scan) :
    SameProblem p ((fileOf num p).problem (scanned scan) (scannedInt scan)) := by
  have hcs := constrs_eq (num := num) (p := p) (scannedInt scan)
  have hmem : ∀ c, (c ∈ p.eqs → c ∈ p.constraints) ∧ (c ∈ p.ges → c ∈ p.constraints) ∧
      (c ∈ p.les → c ∈ p.constraints) := by
    intro c
    unfold PProblem.constraints
    simp only [List.mem_append]
    tauto
  refine ⟨rfl, ?_, ⟨hw.quad, rfl⟩, const_value hw, ?_, ?_, ?_, fileNames_perm hw, ?_⟩
  · show PProblem.objTerms _ ((collect (named (scanned scan) (fileOf num p).linear)).map fun x =>
      ⟨.fin x.2, (fileOf num p).names.idxOf x.1⟩) = _
    unfold PProblem.objTerms
    rw [obj_collect hw, List.map_map, List.map_map]
    apply List.map_congr_left
    intro e he
    have he := (List.mem_filter.mp he).1
    have hlt := hw.obj_lt e he
    obtain ⟨q, hq⟩ := obj_finite hw e he
    show (D.fin (ratOf e.factor), (fileOf num p).names[(fileOf num p).names.idxOf (p.nm e.var)]?) =
      (e.factor, p.names[e.var]?)
    rw [getElem?_idxOf ((mem_fileNames hw).mpr (nm_mem hlt)), nm_eq hlt, hq]
    rfl
  · show List.Forall₂ _ p.eqs ((fileOf num p).constrs _ .equal)
    rw [hcs.1]
    exact forall2_zipIdx fun c hc i => same_constr hw hd rfl ((hmem c).1 hc) _ _
  · show List.Forall₂ _ p.ges ((fileOf num p).constrs _ .greater)
    rw [hcs.2.1]
    exact forall2_zipIdx fun c hc i => same_constr hw hd rfl ((hmem c).2.1 hc) _ _
  · show List.Forall₂ _ p.les ((fileOf num p).constrs _ .less)
    rw [hcs.2.2]
    exact forall2_zipIdx fun c hc i => same_constr hw hd rfl ((hmem c).2.2 hc) _ _
  · show ((fileOf num p).names.zip ((fileOf num p).names.map _)).Perm _
    rw [zip_map]
    have : p.names.zip p.values = p.names.map fun x =>
        (x, (fileOf num p).varValue (scannedInt scan) x) := by
      have h1 : p.names.zip p.values = ((p.names.zip p.values).map Prod.fst).map fun x =>
          (x, (fileOf num p).varValue (scannedInt scan) x) := by
        rw [List.map_map]
        conv_lhs => rw [← List.map_id (p.names.zip p.values)]
        apply List.map_congr_left
        intro y hy
        show y = (y.1, _)
        rw [varValue_file hw hd (v := y.2) hy]
      rw [List.map_fst_zip hw.names_len.le] at h1
      exact h1
    rw [this]
    exact (fileNames_perm hw).map _

end Bx.Parser
