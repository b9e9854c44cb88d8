import Verif.Proofs.Writer2
import Verif.Props.Grammar
import Mathlib.Data.List.Nodup

/-!
# A written problem is a correct file
-/

namespace Bx.Parser

open Params (D)

variable {scan : Token → Option D} {num : Rat → List Char}

/-- The value that `scan` gives to a number. -/
def scanned (scan : Token → Option D) (t : Token) : Rat :=
  match scan t with
  | some (.fin q) => q
  | _ => 0

/-- The value that `scan` gives to an integer. -/
def scannedInt (scan : Token → Option D) (t : Token) : Int := (scanned scan t).floor

/-- The integers are read. -/
def ReadsInts (scan : Token → Option D) : Prop :=
  ∀ n : Nat, (n : Int) ≤ intMax → scan (decimal n) = some (.fin n)

theorem NumText.scanned {w : Token} {q : Rat} (h : NumText scan w q) : scanned scan w = q := by
  unfold Bx.Parser.scanned; rw [h.value]

theorem NumText.ok {w : Token} {q : Rat} (h : NumText scan w q) :
    NumOk scan (Bx.Parser.scanned scan) w :=
  ⟨h.first, by rw [h.scanned]; exact h.value, h.short⟩

theorem scannedInt_decimal (hd : ReadsInts scan) {n : Nat} (h : (n : Int) ≤ intMax) :
    scannedInt scan (decimal n) = n := by
  unfold scannedInt scanned
  rw [hd n h]
  exact Rat.floor_intCast n

theorem decimal_ok (hd : ReadsInts scan) {n : Nat} (h : (n : Int) ≤ intMax) :
    IntOk scan (scannedInt scan) (decimal n) := by
  have hw := decimal_word h
  refine ⟨⟨hw.first, ?_, hw.short⟩, ?_⟩
  · rw [scannedInt_decimal hd h, hd n h]; rfl
  · rw [scannedInt_decimal hd h]
    unfold IsInt intMin
    unfold intMax at *
    omega

/-- The name of a variable. -/
def PProblem.nm (p : PProblem) (i : Nat) : Token := p.names[i]?.getD []

theorem nm_eq {p : PProblem} {i : Nat} (h : i < p.names.length) : p.names[i]? = some (p.nm i) := by
  unfold PProblem.nm
  rw [List.getElem?_eq_getElem h]; rfl

theorem nm_mem {p : PProblem} {i : Nat} (h : i < p.names.length) : p.nm i ∈ p.names :=
  List.mem_of_getElem? (nm_eq h)

theorem nm_inj {p : PProblem} (hn : p.names.Nodup) {i j : Nat} (hi : i < p.names.length)
    (hj : j < p.names.length) (h : p.nm i = p.nm j) : i = j := by
  have h1 := nm_eq hi
  have h2 := nm_eq hj
  rw [h] at h1
  rw [List.getElem?_eq_some_iff] at h1 h2
  obtain ⟨_, h1⟩ := h1
  obtain ⟨_, h2⟩ := h2
  exact (List.Nodup.getElem_inj_iff hn).mp (h1.trans h2.symm)

/-- The rational of a factor. -/
def ratOf : D → Rat
  | .fin q => q
  | _ => 0

theorem ratOf_fin (q : Rat) : ratOf (.fin q) = q := rfl

theorem objFile_eq {p : PProblem} : ∀ {l : List PElem}, (∀ e ∈ l, e.var < p.names.length) →
    (∀ e ∈ l, ∃ q, e.factor = .fin q) →
    objFile num p l = (l.filter fun e => e.factor ≠ .fin 0).map fun e =>
      ⟨some (decide (ratOf e.factor < 0)), some (num |ratOf e.factor|), some (p.nm e.var)⟩ := by
  intro l
  induction l with
  | nil => intros; rfl
  | cons e l ih =>
    intro h1 h2
    have ih := ih (fun x hx => h1 x (List.mem_cons_of_mem _ hx))
      fun x hx => h2 x (List.mem_cons_of_mem _ hx)
    obtain ⟨q, hq⟩ := h2 e List.mem_cons_self
    have hn := nm_eq (h1 e List.mem_cons_self)
    unfold objFile at ih ⊢
    rw [List.filterMap_cons, List.filter_cons, hq]
    by_cases h0 : q = 0
    · subst h0
      simpa using ih
    · simp only [ne_eq, D.fin.injEq, h0, not_false_eq_true, decide_true, ↓reduceIte,
        List.map_cons, hq, ratOf_fin, hn]
      rw [ih]

theorem conFile_eq {p : PProblem} : ∀ {l : List FunElem}, (∀ e ∈ l, e.var < p.names.length) →
    conFile p l = (l.filter fun e => e.factor ≠ 0).map fun e =>
      ⟨some (decide (e.factor < 0)), some (decimal e.factor.natAbs), some (p.nm e.var)⟩ := by
  intro l
  induction l with
  | nil => intros; rfl
  | cons e l ih =>
    intro h1
    have ih := ih (fun x hx => h1 x (List.mem_cons_of_mem _ hx))
    have hn := nm_eq (h1 e List.mem_cons_self)
    unfold conFile at ih ⊢
    rw [List.filterMap_cons, List.filter_cons]
    by_cases h0 : e.factor = 0
    · simpa [h0] using ih
    · simp only [ne_eq, h0, not_false_eq_true, decide_true, ↓reduceIte,
        List.map_cons, hn]
      rw [ih]

theorem sign_abs {q : Rat} : (signOf (some (decide (q < 0))) : Rat) * |q| = q := by
  by_cases h : q < 0
  · rw [abs_of_neg h]
    simp [signOf, h]
  · rw [abs_of_nonneg (not_lt.mp h)]
    simp [signOf, h]

theorem sign_natAbs {i : Int} : (signOf (some (decide (i < 0))) : Int) * (i.natAbs : Int) = i := by
  by_cases h : i < 0
  · simp only [signOf, h, decide_true]; omega
  · simp only [signOf, h, decide_false]; omega

theorem numberFile_value (hd : ReadsInts scan) {i : Int} (h : |i| ≤ intMax) :
    (numberFile i).value (scannedInt scan) = i := by
  unfold numberFile Number.value
  rw [scannedInt_decimal hd (natAbs_small h)]
  by_cases h0 : i < 0
  · simp only [if_pos h0, signOf]; omega
  · simp only [if_neg h0, signOf]; omega

theorem obj_factor {p : PProblem} (hw : Writable scan num p) {e : PElem} (he : e ∈ p.elems)
    (h0 : e.factor ≠ .fin 0) (n : Option Token) :
    Term.factor (scanned scan) ⟨some (decide (ratOf e.factor < 0)), some (num |ratOf e.factor|), n⟩ =
      ratOf e.factor := by
  obtain ⟨q, hq, hnum⟩ := hw.obj e he
  rw [hq] at h0 ⊢
  have hq0 : q ≠ 0 := by rintro rfl; exact h0 rfl
  unfold Term.factor
  show _ * scanned scan (num |q|) = q
  rw [(hnum hq0).scanned]
  exact sign_abs

theorem con_factor (hd : ReadsInts scan) {i : Int} (h : |i| ≤ intMax) (n : Option Token) :
    Term.factor (scannedInt scan) ⟨some (decide (i < 0)), some (decimal i.natAbs), n⟩ = i := by
  unfold Term.factor
  show _ * scannedInt scan (decimal i.natAbs) = i
  rw [scannedInt_decimal hd (natAbs_small h)]
  exact sign_natAbs

theorem named_map {R α : Type} [One R] [Neg R] [Mul R] (val : Token → R) (l : List α)
    (t : α → Term) (n : α → Token) (f : α → R) (h1 : ∀ a ∈ l, (t a).name = some (n a))
    (h2 : ∀ a ∈ l, (t a).factor val = f a) : named val (l.map t) = l.map fun a => (n a, f a) := by
  induction l with
  | nil => rfl
  | cons a l ih =>
    rw [List.map_cons, named_cons, List.map_cons, ih (fun b hb => h1 b (List.mem_cons_of_mem _ hb))
      (fun b hb => h2 b (List.mem_cons_of_mem _ hb)), h1 a List.mem_cons_self,
      h2 a List.mem_cons_self]
    rfl

theorem collect_nodup {R : Type} [AddMonoid R] {l : List (Token × R)} (h : (l.map Prod.fst).Nodup) :
    collect l = l := by
  unfold collect
  have hf : ∀ (N : List Token) (m : List Token), (N ++ m).Nodup → addNames N m = N ++ m := by
    intro N m
    induction m generalizing N with
    | nil => intro _; simp [addNames]
    | cons a m ih =>
      intro hn
      have ha : a ∉ N := by
        intro hc
        rw [List.nodup_append] at hn
        exact hn.2.2 a hc a List.mem_cons_self rfl
      show addNames (addName N a) m = _
      have : addName N a = N ++ [a] := if_neg ha
      rw [this, ih (N ++ [a]) (by simpa using hn)]
      simp
  rw [firsts_eq, hf [] _ (by simpa using h), List.nil_append, List.map_map]
  have key : ∀ x ∈ l, ((l.filter fun y => y.1 = x.1).map Prod.snd).sum = x.2 := by
    intro x hx
    have : l.filter (fun y => y.1 = x.1) = [x] := by
      clear hf
      induction l with
      | nil => simp at hx
      | cons a l ih =>
        rw [List.map_cons, List.nodup_cons] at h
        rw [List.filter_cons]
        rcases List.mem_cons.mp hx with rfl | hx
        · have : l.filter (fun y => y.1 = x.1) = [] := by
            rw [List.filter_eq_nil_iff]
            intro y hy hc
            exact h.1 (List.mem_map.mpr ⟨y, hy, by simpa using hc⟩)
          simp [this]
        · have : a.1 ≠ x.1 := fun hc => h.1 (hc ▸ List.mem_map_of_mem hx)
          simp [this, ih h.2 hx]
    rw [this]; simp
  conv_rhs => rw [← List.map_id l]
  apply List.map_congr_left
  intro x hx
  show (x.1, _) = x
  rw [key x hx]

/-! ## The file is correct -/

theorem keys_nodup {p : PProblem} (hn : p.names.Nodup) {α : Type} {l : List α} {v : α → Nat}
    (h1 : ∀ e ∈ l, v e < p.names.length) (h2 : (l.map v).Nodup) :
    (l.map fun e => p.nm (v e)).Nodup := by
  induction l with
  | nil => simp
  | cons a l ih =>
    rw [List.map_cons, List.nodup_cons] at h2 ⊢
    refine ⟨fun hc => ?_, ih (fun e he => h1 e (List.mem_cons_of_mem _ he)) h2.2⟩
    obtain ⟨b, hb, e⟩ := List.mem_map.mp hc
    have := nm_inj hn (h1 b (List.mem_cons_of_mem _ hb)) (h1 a List.mem_cons_self) e
    exact h2.1 (this ▸ List.mem_map_of_mem hb)

theorem obj_finite {p : PProblem} (hw : Writable scan num p) :
    ∀ e ∈ p.elems, ∃ q, e.factor = .fin q := fun e he => (hw.obj e he).imp fun _ h => h.1

theorem obj_names {p : PProblem} (hw : Writable scan num p) :
    (fileOf num p).obj.filterMap Term.name =
      (p.elems.filter fun e => e.factor ≠ .fin 0).map fun e => p.nm e.var := by
  show (objFile num p p.elems ++ constFile num p.value).filterMap Term.name = _
  rw [List.filterMap_append, objFile_eq hw.obj_lt (obj_finite hw)]
  have : (constFile num p.value).filterMap Term.name = [] := by
    obtain ⟨q, hq, _⟩ := hw.value
    rw [hq]
    unfold constFile
    dsimp only
    split <;> rfl
  rw [this, List.append_nil, List.filterMap_map, ← List.filterMap_eq_map]
  rfl

theorem con_names {p : PProblem} (hw : Writable scan num p) {c : Constr} (hc : c ∈ p.constraints)
    (op : OpWord) : (constrFile p op c).terms.filterMap Term.name =
      (c.elems.filter fun e => e.factor ≠ 0).map fun e => p.nm e.var := by
  show (conFile p c.elems).filterMap Term.name = _
  rw [conFile_eq (hw.con_lt c hc), List.filterMap_map, ← List.filterMap_eq_map]
  rfl

/-- The constraints of the file. -/
theorem mem_cons {p : PProblem} {d : Con} :
    d ∈ (fileOf num p).cons.getD [] ↔ (∃ c ∈ p.eqs, constrFile p .eq c = d) ∨
      (∃ c ∈ p.ges, constrFile p .ge c = d) ∨ ∃ c ∈ p.les, constrFile p .le c = d := by
  show d ∈ p.eqs.map _ ++ p.ges.map _ ++ p.les.map _ ↔ _
  simp only [List.mem_append, List.mem_map, or_assoc]

theorem mem_cons_of {p : PProblem} {d : Con} (h : d ∈ (fileOf num p).cons.getD []) :
    ∃ c ∈ p.constraints, ∃ op, d = constrFile p op c := by
  unfold PProblem.constraints
  simp only [List.mem_append]
  rcases mem_cons.mp h with ⟨c, hc, h⟩ | ⟨c, hc, h⟩ | ⟨c, hc, h⟩
  · exact ⟨c, .inl (.inl hc), _, h.symm⟩
  · exact ⟨c, .inl (.inr hc), _, h.symm⟩
  · exact ⟨c, .inr hc, _, h.symm⟩

theorem mem_cons_to {p : PProblem} {c : Constr} (h : c ∈ p.constraints) :
    ∃ op, constrFile p op c ∈ (fileOf num p).cons.getD [] := by
  unfold PProblem.constraints at h
  simp only [List.mem_append] at h
  rcases h with (h | h) | h
  · exact ⟨_, mem_cons.mpr (.inl ⟨c, h, rfl⟩)⟩
  · exact ⟨_, mem_cons.mpr (.inr (.inl ⟨c, h, rfl⟩))⟩
  · exact ⟨_, mem_cons.mpr (.inr (.inr ⟨c, h, rfl⟩))⟩

theorem mem_fileNames {p : PProblem} (hw : Writable scan num p) {x : Token} :
    x ∈ (fileOf num p).names ↔ x ∈ p.names := by
  unfold File.names
  have hq : (fileOf num p).objNames = (fileOf num p).obj.filterMap Term.name := List.append_nil _
  rw [mem_firsts, hq, List.mem_append, obj_names hw]
  simp only [List.mem_map, List.mem_filter, List.mem_flatMap]
  constructor
  · rintro (⟨e, ⟨he, _⟩, rfl⟩ | ⟨d, hd, hx⟩)
    · exact nm_mem (hw.obj_lt e he)
    · obtain ⟨c, hc, op, rfl⟩ := mem_cons_of hd
      rw [con_names hw hc] at hx
      obtain ⟨e, he, rfl⟩ := List.mem_map.mp hx
      exact nm_mem (hw.con_lt c hc e (List.mem_filter.mp he).1)
  · intro hx
    obtain ⟨i, hi, rfl⟩ := List.mem_iff_getElem.mp hx
    have hnm : p.nm i = p.names[i] := by
      have := nm_eq hi
      rw [List.getElem?_eq_getElem hi] at this
      exact (Option.some.inj this).symm
    rcases hw.used i hi with ⟨e, he, rfl, h0⟩ | ⟨c, hc, e, he, rfl, h0⟩
    · exact .inl ⟨e, ⟨he, by simpa using h0⟩, hnm⟩
    · obtain ⟨op, h⟩ := mem_cons_to (num := num) hc
      refine .inr ⟨_, h, ?_⟩
      rw [con_names hw hc]
      exact List.mem_map.mpr ⟨e, List.mem_filter.mpr ⟨he, by simpa using h0⟩, hnm⟩

theorem fileNames_perm {p : PProblem} (hw : Writable scan num p) :
    (fileOf num p).names.Perm p.names :=
  (List.perm_ext_iff_of_nodup (FileOk.names_nodup _) hw.names_nodup).mpr fun _ => mem_fileNames hw

theorem sum_filter (l : List FunElem) :
    ((l.filter fun e => e.factor ≠ 0).map fun e => |e.factor|).sum =
      (l.map fun e => |e.factor|).sum := by
  induction l with
  | nil => rfl
  | cons e l ih =>
    rw [List.filter_cons]
    by_cases h : e.factor = 0
    · simpa [h] using ih
    · simpa [h] using ih

theorem con_ok {p : PProblem} (hw : Writable scan num p) (hd : ReadsInts scan) {c : Constr}
    (hc : c ∈ p.constraints) (op : OpWord) :
    ConOk scan (scannedInt scan) (constrFile p op c) := by
  have hsmall := factor_small (hw.con_sum c hc)
  have ht : (constrFile p op c).terms = _ := conFile_eq (hw.con_lt c hc)
  refine ⟨?_, ?_, ?_, ?_, ?_, ?_, decimal_ok hd (natAbs_small (hw.con_value c hc))⟩
  · intro l hl
    have hl : l ∈ (if c.label = "" then none else some c.label.toList) := hl
    split at hl
    · cases hl
    · rename_i h
      cases hl
      exact (hw.labels c hc h).1
  · rw [ht]
    obtain ⟨e, he, h0⟩ := hw.con_some c hc
    intro hnil
    rw [List.map_eq_nil_iff, List.filter_eq_nil_iff] at hnil
    exact hnil e he (by simpa using h0)
  · intro t htm
    rw [ht] at htm
    obtain ⟨e, _, rfl⟩ := List.mem_map.mp (List.mem_of_mem_drop htm)
    simp
  · intro t htm
    rw [ht] at htm
    obtain ⟨e, he, rfl⟩ := List.mem_map.mp htm
    exact ⟨_, rfl, (hw.names _ (nm_mem (hw.con_lt c hc e (List.mem_filter.mp he).1))).1⟩
  · intro t htm n hn
    rw [ht] at htm
    obtain ⟨e, he, rfl⟩ := List.mem_map.mp htm
    cases hn
    exact decimal_ok hd (natAbs_small (hsmall e (List.mem_filter.mp he).1))
  · rw [ht, List.map_map]
    have : ((c.elems.filter fun e => e.factor ≠ 0).map ((fun t => |Term.factor (scannedInt scan) t|) ∘
        fun e => (⟨some (decide (e.factor < 0)), some (decimal e.factor.natAbs), some (p.nm e.var)⟩ :
          Term))) = (c.elems.filter fun e => e.factor ≠ 0).map fun e => |e.factor| := by
      apply List.map_congr_left
      intro e he
      show |Term.factor _ _| = _
      rw [con_factor hd (hsmall e (List.mem_filter.mp he).1)]
    rw [this, sum_filter]
    refine ⟨?_, hw.con_sum c hc⟩
    have hn : ∀ l : List FunElem, 0 ≤ (l.map fun e => |e.factor|).sum := by
      intro l
      induction l with
      | nil => simp
      | cons b l ih => simp only [List.map_cons, List.sum_cons]; have := abs_nonneg b.factor; omega
    have := hn c.elems
    unfold intMin; omega

theorem file_ok {p : PProblem} (hw : Writable scan num p) (hd : ReadsInts scan) :
    FileOk scan (scanned scan) (scannedInt scan) (fileOf num p) := by
  have hobj : (fileOf num p).obj = ((p.elems.filter fun e => e.factor ≠ .fin 0).map fun e =>
      (⟨some (decide (ratOf e.factor < 0)), some (num |ratOf e.factor|), some (p.nm e.var)⟩ : Term)) ++
      constFile num p.value := by
    rw [← objFile_eq hw.obj_lt (obj_finite hw)]; rfl
  have hconst : ∀ t ∈ constFile num p.value, t.sign ≠ none ∧
      TermOk scan (scanned scan) t := by
    intro t ht
    obtain ⟨q, hq, hnum⟩ := hw.value
    rw [hq] at ht
    unfold constFile at ht
    dsimp only at ht
    split at ht
    · cases ht
    · rename_i h0
      simp only [List.mem_singleton] at ht
      subst ht
      exact ⟨by simp, ⟨.inl (by simp), fun n hn => by cases hn; exact (hnum h0).ok,
        fun n hn => by cases hn⟩⟩
  have hterm : ∀ t ∈ (fileOf num p).obj, t.sign ≠ none ∧ TermOk scan (scanned scan) t := by
    intro t ht
    rw [hobj] at ht
    rcases List.mem_append.mp ht with ht | ht
    · obtain ⟨e, he, rfl⟩ := List.mem_map.mp ht
      have he := List.mem_filter.mp he
      obtain ⟨q, hq, hnum⟩ := hw.obj e he.1
      have h0 : q ≠ 0 := by
        rintro rfl
        have := he.2
        rw [hq] at this
        simp at this
      refine ⟨by simp, ⟨.inl (by simp), fun n hn => ?_, fun n hn => ?_⟩⟩
      · cases hn
        rw [hq]
        exact (hnum h0).ok
      · cases hn
        exact (hw.names _ (nm_mem (hw.obj_lt e he.1))).1
    · exact hconst t ht
  have hlen : (fileOf num p).names.length = p.names.length := (fileNames_perm hw).length_eq
  have horNone : ∀ (l : List Token), (orNone l).getD [] = l := by
    intro l; cases l <;> rfl
  have hl : (fileOf num p).linear = (fileOf num p).obj := List.append_nil _
  refine ⟨?_, fun t ht => (hterm t (hl ▸ ht)).2,
    ⟨fun t ht => (hterm t (List.mem_of_mem_drop ht)).1, fun g hg => by cases hg⟩, ?_, ?_, ?_, ?_, ?_, ?_, ?_, ?_⟩
  · intro l hl; cases hl
  · intro q hq; cases hq
  · intro c hc
    obtain ⟨c, hc', op, rfl⟩ := mem_cons_of hc
    exact con_ok hw hd hc' op
  · intro b hb
    have hb : b ∈ boundsFile (p.names.zip p.values) := hb
    obtain ⟨x, hx, hb⟩ := List.mem_filterMap.mp hb
    have h := hw.bounds x hx
    split at hb
    · cases hb
    · rename_i hm
      cases hb
      have hn := (List.of_mem_zip hx).1
      refine ⟨(mem_fileNames hw).mpr hn, (hw.names _ hn).1, ?_, rfl, ?_⟩
      · exact h.2.2.1.resolve_left hm
      · exact decimal_ok hd (natAbs_small h.2.1)
  · show ((boundsFile (p.names.zip p.values)).map BoundLine.name).Nodup
    have : ((boundsFile (p.names.zip p.values)).map BoundLine.name).Sublist p.names := by
      have h1 : (boundsFile (p.names.zip p.values)).map BoundLine.name =
          ((p.names.zip p.values).filter fun x => x.2.max ≠ intMax).map Prod.fst := by
        unfold boundsFile
        generalize p.names.zip p.values = l
        induction l with
        | nil => rfl
        | cons a l ih =>
          rw [List.filterMap_cons, List.filter_cons]
          by_cases h : a.2.max = intMax
          · simpa [h] using ih
          · simp only [h, ↓reduceIte, List.map_cons, ih, ne_eq, not_false_eq_true, decide_true]
            rfl
      rw [h1]
      have h2 : (p.names.zip p.values).map Prod.fst = p.names :=
        List.map_fst_zip hw.names_len.le
      conv_rhs => rw [← h2]
      exact (List.filter_sublist).map _
    exact this.nodup hw.names_nodup
  · intro n hn
    have hn : n ∈ (orNone (typeFile .binary (p.names.zip p.values))).getD [] := hn
    rw [horNone] at hn
    obtain ⟨x, hx, rfl⟩ := List.mem_map.mp hn
    exact (mem_fileNames hw).mpr (List.of_mem_zip (List.mem_filter.mp hx).1).1
  · intro n hn
    have hn : n ∈ (orNone (typeFile .general (p.names.zip p.values))).getD [] := hn
    rw [horNone] at hn
    obtain ⟨x, hx, rfl⟩ := List.mem_map.mp hn
    exact (mem_fileNames hw).mpr (List.of_mem_zip (List.mem_filter.mp hx).1).1
  · rw [hlen]; exact hw.names_few
  · have := hw.con_few
    show ((p.eqs.map _ ++ p.ges.map _ ++ p.les.map _).length : Int) ≤ intMax
    unfold PProblem.constraints at this
    simpa using this

end Bx.Parser
