import Verif.Proofs.Writer

/-!
# A written problem as a file
-/

namespace Bx.Parser

open Params (D)

variable {scan : Token → Option D} {num : Rat → List Char}

/-! ## The file -/

/-- The terms of the objective. -/
def objFile (num : Rat → List Char) (p : PProblem) (l : List PElem) : List Term :=
  l.filterMap fun e =>
    match e.factor with
    | .fin q => if q = 0 then none else some ⟨some (decide (q < 0)), some (num |q|), p.names[e.var]?⟩
    | _ => none

/-- The constant of the objective. -/
def constFile (num : Rat → List Char) : D → List Term
  | .fin q => if q = 0 then [] else [⟨some (decide (q < 0)), some (num |q|), none⟩]
  | _ => []

/-- The terms of a constraint. -/
def conFile (p : PProblem) (l : List FunElem) : List Term :=
  l.filterMap fun e =>
    if e.factor = 0 then none
    else some ⟨some (decide (e.factor < 0)), some (decimal e.factor.natAbs), p.names[e.var]?⟩

/-- A number. -/
def numberFile (i : Int) : Number := ⟨if i < 0 then some true else none, decimal i.natAbs⟩

/-- A constraint. -/
def constrFile (p : PProblem) (op : OpWord) (c : Constr) : Con :=
  ⟨if c.label = "" then none else some c.label.toList, conFile p c.elems, op, numberFile c.value⟩

/-- The lines of the bounds. -/
def boundsFile (l : List (Token × VarValue)) : List BoundLine :=
  l.filterMap fun x => if x.2.max = intMax then none else some (.upper x.1 .le (numberFile x.2.max))

/-- The variables of a type. -/
def typeFile (t : VarType) (l : List (Token × VarValue)) : List Token :=
  (l.filter fun x => x.2.type = t).map Prod.fst

/-- A section that is absent when it is empty. -/
def orNone {α : Type} (l : List α) : Option (List α) :=
  match l with
  | [] => none
  | _ => some l

/-- The written problem as a file. -/
def fileOf (num : Rat → List Char) (p : PProblem) : File :=
  { type := p.type
    label := none
    obj := objFile num p p.elems ++ constFile num p.value
    cons := some (p.eqs.map (constrFile p .eq) ++ p.ges.map (constrFile p .ge) ++
      p.les.map (constrFile p .le))
    bounds := some (boundsFile (p.names.zip p.values))
    binary := orNone (typeFile .binary (p.names.zip p.values))
    general := orNone (typeFile .general (p.names.zip p.values)) }

/-! ## Its tokens -/

theorem name_chars {n : Token} (h : NameOk scan n) :
    ∀ d ∈ n, d ≠ '\x00' ∧ d ≠ '\\' ∧ blank d = false :=
  fun d hd => have := name_char (h.isName d hd); ⟨this.1, this.2.1, this.2.2.1⟩

theorem spell_name {n : Token} (h : NameOk scan n) (hp : PlainFirst n) {c : Char}
    (hc : blank c = true) : Spell (n ++ [c]) [n] := by
  have h1 := Spell.word hc (name_chars h) h.nonempty (by have := h.short; omega)
  have h2 := toksOf_name h.nonempty h.isName hp [] (by simp)
  rw [List.append_nil] at h2
  rwa [h2, toksOf_nil] at h1

theorem spell_label {n : Token} (h : NameOk scan n) (hp : PlainFirst n) :
    Spell (n ++ ": ".toList) [n, [':']] := by
  have h1 : Spell ((n ++ [':']) ++ [' ']) (toksOf (n ++ [':'])) := by
    refine Spell.word (by decide) ?_ (by simp) (by have := h.short; simp; omega)
    intro d hd
    rcases List.mem_append.mp hd with hd | hd
    · exact name_chars h d hd
    · simp only [List.mem_singleton] at hd; subst hd; decide
  rw [toksOf_name h.nonempty h.isName hp [':'] (by simp; decide), toksOf_symbol (by decide),
    toksOf_nil] at h1
  rw [List.append_assoc] at h1
  exact h1

/-- A word that is a number for the lexer. -/
structure NumWord (w : Token) : Prop where
  first : ∃ c t, w = c :: t ∧ (digit c || c == '.') = true
  chars : ∀ c ∈ w, numChar c = true
  short : w.length < 320

theorem NumText.word {w : Token} {q : Rat} (h : NumText scan w q) : NumWord w :=
  ⟨h.first, h.chars, h.short⟩

theorem decimal_word {n : Nat} (h : (n : Int) ≤ intMax) : NumWord (decimal n) := by
  have hd := decimal_digits n
  have hn := decimal_ne n
  refine ⟨?_, fun c hc => digit_numChar (hd c hc), ?_⟩
  · cases hw : decimal n with
    | nil => exact absurd hw hn
    | cons c t =>
      rw [hw] at hd
      exact ⟨c, t, rfl, by rw [hd c List.mem_cons_self]; rfl⟩
  · have : n < 10 ^ (9 + 1) := by unfold intMax at h; omega
    have := decimal_length this
    omega

theorem NumWord.toks {w : Token} (h : NumWord w) : toksOf w = [w] := by
  obtain ⟨c, t, rfl, hc⟩ := h.first
  exact toksOf_num hc fun d hd => h.chars d (List.mem_cons_of_mem _ hd)

theorem NumWord.safe {w : Token} (h : NumWord w) :
    ∀ d ∈ w, d ≠ '\x00' ∧ d ≠ '\\' ∧ blank d = false :=
  fun d hd => have := name_char (numChar_name (h.chars d hd)); ⟨this.1, this.2.1, this.2.2.1⟩

theorem NumWord.ne {w : Token} (h : NumWord w) : w ≠ [] := by
  obtain ⟨c, t, rfl, _⟩ := h.first; simp

theorem spell_num {w : Token} (h : NumWord w) {c : Char} (hc : blank c = true) :
    Spell (w ++ [c]) [w] := by
  have h1 := Spell.word hc h.safe h.ne (by have := h.short; omega)
  rwa [h.toks] at h1

theorem spell_neg {w : Token} (h : NumWord w) {c : Char} (hc : blank c = true) :
    Spell ('-' :: w ++ [c]) [['-'], w] := by
  have h1 : Spell ('-' :: w ++ [c]) (toksOf ('-' :: w)) := by
    refine Spell.word hc ?_ (by simp) (by have := h.short; simp only [List.length_cons]; omega)
    intro d hd
    rcases List.mem_cons.mp hd with rfl | hd
    · decide
    · exact h.safe d hd
  rwa [toksOf_symbol (by decide), h.toks] at h1

/-- A constant text. -/
theorem spell_const {t : List Char} {ts : List Token}
    (h : (∀ c ∈ t, c ≠ '\x00' ∧ c ≠ '\\') ∧ (t.getLast?.any blank) = true ∧
      (∀ w ∈ lineAll t, w.length ≤ 511) ∧ (lineAll t).flatMap toksOf = ts) : Spell t ts := by
  refine ⟨h.1, .inr ?_, h.2.2.1, h.2.2.2⟩
  cases hl : t.getLast? with
  | none => rw [hl] at h; exact absurd h.2.1 (by simp)
  | some c =>
    rw [hl] at h
    refine ⟨t.dropLast, c, ?_, by simpa using h.2.1⟩
    exact (List.dropLast_append_getLast? c hl).symm

theorem nameAt_eq {p : PProblem} {i : Nat} {n : Token} (h : p.names[i]? = some n) :
    p.nameAt i = .ok n := by
  unfold PProblem.nameAt; rw [h]

theorem spell_element {p : PProblem} {neg : Bool} {w n : Token} {i : Nat} (hw : NumWord w)
    (hn : p.names[i]? = some n) (hok : NameOk scan n) (hp : PlainFirst n) :
    ∃ t, writeElement p neg (!neg) (if neg then '-' :: w else w) i = .ok t ∧
      Spell t (Term.tokens ⟨some neg, some w, some n⟩) := by
  unfold writeElement
  rw [nameAt_eq hn]
  cases neg with
  | true =>
    refine ⟨_, rfl, ?_⟩
    have := (Spell.blank (c := ' ') (by decide)).append
      ((spell_neg hw (c := ' ') (by decide)).append (spell_name hok hp (c := ' ') (by decide)))
    have e : [' '] ++ ('-' :: w ++ [' '] ++ (n ++ [' '])) =
        ' ' :: ('-' :: w) ++ ' ' :: n ++ [' '] := by simp
    rw [e] at this
    exact this
  | false =>
    refine ⟨_, rfl, ?_⟩
    have h0 : Spell ("+ ".toList) [['+']] := spell_const (by decide)
    have := h0.append
      ((spell_num hw (c := ' ') (by decide)).append (spell_name hok hp (c := ' ') (by decide)))
    have e : "+ ".toList ++ (w ++ [' '] ++ (n ++ [' '])) =
        '+' :: ' ' :: w ++ ' ' :: n ++ [' '] := by
      show ['+', ' '] ++ _ = _
      simp
    rw [e] at this
    exact this

theorem spell_zero (p : PProblem) (w : Token) (i : Nat) :
    ∃ t, writeElement p false false w i = .ok t ∧ Spell t [] :=
  ⟨_, rfl, Spell.blank (by decide)⟩

theorem writeObjective_spell {p : PProblem} (hw : Writable scan num p) :
    ∀ l : List PElem, (∀ e ∈ l, e ∈ p.elems) →
      ∃ t, writeObjective num p l = .ok t ∧ Spell t ((objFile num p l).flatMap Term.tokens) := by
  intro l
  induction l with
  | nil => exact fun _ => ⟨[], rfl, Spell.nil⟩
  | cons e l ih =>
    intro h
    obtain ⟨t, ht, hs⟩ := ih fun x hx => h x (List.mem_cons_of_mem _ hx)
    have he := h e List.mem_cons_self
    obtain ⟨q, hq, hnum⟩ := hw.obj e he
    obtain ⟨n, hn⟩ : ∃ n, p.names[e.var]? = some n :=
      ⟨_, List.getElem?_eq_getElem (hw.obj_lt e he)⟩
    have hname := hw.names n (List.mem_of_getElem? hn)
    have hcons : objFile num p (e :: l) = (if q = 0 then [] else
        [⟨some (decide (q < 0)), some (num |q|), some n⟩]) ++ objFile num p l := by
      unfold objFile
      rw [List.filterMap_cons, hq]
      simp only [hn]
      split <;> rename_i h0
      · by_cases hq0 : q = 0
        · rw [if_pos hq0]; rfl
        · rw [if_neg hq0] at h0; cases h0
      · by_cases hq0 : q = 0
        · rw [if_pos hq0] at h0; cases h0
        · rw [if_neg hq0] at h0 ⊢
          simp only [Option.some.injEq] at h0
          rw [h0]; rfl
    have hel : ∃ a, writeElement p (isNeg e.factor) (isPos e.factor) (doubleText num e.factor) e.var =
        .ok a ∧ Spell a ((if q = 0 then [] else
          [(⟨some (decide (q < 0)), some (num |q|), some n⟩ : Term)]).flatMap Term.tokens) := by
      rw [hq]
      by_cases h0 : q = 0
      · subst h0
        exact spell_zero p _ _
      · have h1 : isPos (.fin q) = !(decide (q < 0)) := by
          show decide (0 < q) = _
          rcases lt_or_gt_of_ne h0 with h | h
          · simp [h, not_lt_of_gt h]
          · simp [h, not_lt_of_gt h]
        have h2 : doubleText num (.fin q) = if decide (q < 0) then '-' :: num |q| else num |q| := by
          unfold doubleText
          simp only [decide_eq_true_eq]
          split
          · rename_i h; rw [abs_of_neg h]
          · rename_i h; rw [abs_of_nonneg (not_lt.mp h)]
        rw [if_neg h0, h1, h2]
        obtain ⟨a, ha, hs⟩ := spell_element (neg := decide (q < 0)) (hnum h0).word hn hname.1 hname.2
        refine ⟨a, ha, ?_⟩
        simpa using hs
    obtain ⟨a, ha, hsa⟩ := hel
    refine ⟨a ++ t, ?_, ?_⟩
    · unfold writeObjective
      rw [ha, ht]; rfl
    · rw [hcons, List.flatMap_append]
      exact hsa.append hs

theorem factor_small {l : List FunElem} (h : (l.map fun e => |e.factor|).sum ≤ intMax) :
    ∀ e ∈ l, |e.factor| ≤ intMax := by
  induction l with
  | nil => simp
  | cons a l ih =>
    simp only [List.map_cons, List.sum_cons] at h
    have hn : 0 ≤ (l.map fun e => |e.factor|).sum := by
      clear ih h
      induction l with
      | nil => simp
      | cons b l ih => simp only [List.map_cons, List.sum_cons]; have := abs_nonneg b.factor; omega
    have ha := abs_nonneg a.factor
    intro e he
    rcases List.mem_cons.mp he with rfl | he
    · omega
    · exact ih (by omega) e he

theorem intText_eq (i : Int) :
    intText i = if decide (i < 0) then '-' :: decimal i.natAbs else decimal i.natAbs := by
  unfold intText; simp

theorem natAbs_small {i : Int} (h : |i| ≤ intMax) : (i.natAbs : Int) ≤ intMax := by
  rw [Int.abs_eq_natAbs] at h; exact h

theorem writeFunction_spell {p : PProblem} (hw : Writable scan num p) :
    ∀ l : List FunElem, (∀ e ∈ l, e.var < p.names.length ∧ |e.factor| ≤ intMax) →
      ∃ t, writeFunction p l = .ok t ∧ Spell t ((conFile p l).flatMap Term.tokens) := by
  intro l
  induction l with
  | nil => exact fun _ => ⟨[], rfl, Spell.nil⟩
  | cons e l ih =>
    intro h
    obtain ⟨t, ht, hs⟩ := ih fun x hx => h x (List.mem_cons_of_mem _ hx)
    obtain ⟨hlt, hsmall⟩ := h e List.mem_cons_self
    obtain ⟨n, hn⟩ : ∃ n, p.names[e.var]? = some n := ⟨_, List.getElem?_eq_getElem hlt⟩
    have hname := hw.names n (List.mem_of_getElem? hn)
    have hcons : conFile p (e :: l) = (if e.factor = 0 then [] else
        [⟨some (decide (e.factor < 0)), some (decimal e.factor.natAbs), some n⟩]) ++ conFile p l := by
      unfold conFile
      rw [List.filterMap_cons]
      simp only [hn]
      by_cases hq0 : e.factor = 0
      · rw [if_pos hq0, if_pos hq0]; rfl
      · rw [if_neg hq0, if_neg hq0]; rfl
    have hel : ∃ a, writeElement p (e.factor < 0) (0 < e.factor) (intText e.factor) e.var =
        .ok a ∧ Spell a ((if e.factor = 0 then [] else
          [(⟨some (decide (e.factor < 0)), some (decimal e.factor.natAbs), some n⟩ :
            Term)]).flatMap Term.tokens) := by
      by_cases h0 : e.factor = 0
      · rw [if_pos h0, h0]
        exact spell_zero p _ _
      · have h1 : decide (0 < e.factor) = !(decide (e.factor < 0)) := by
          rcases lt_or_gt_of_ne h0 with h | h
          · simp [h, not_lt_of_gt h]
          · simp [h, not_lt_of_gt h]
        rw [if_neg h0, h1, intText_eq]
        obtain ⟨a, ha, hs⟩ := spell_element (neg := decide (e.factor < 0))
          (decimal_word (natAbs_small hsmall)) hn hname.1 hname.2
        refine ⟨a, ha, ?_⟩
        simpa using hs
    obtain ⟨a, ha, hsa⟩ := hel
    refine ⟨a ++ t, ?_, ?_⟩
    · unfold writeFunction
      rw [ha, ht]; rfl
    · rw [hcons, List.flatMap_append]
      exact hsa.append hs

theorem spell_int {i : Int} (h : |i| ≤ intMax) :
    Spell (intText i ++ ['\n']) (numberFile i).tokens := by
  have hw := decimal_word (natAbs_small h)
  unfold intText numberFile Number.tokens
  by_cases h0 : i < 0
  · rw [if_pos h0, if_pos h0]
    exact spell_neg hw (by decide)
  · rw [if_neg h0, if_neg h0]
    exact spell_num hw (by decide)

/-- The text of an operator. -/
theorem spell_op : ∀ x ∈ [(" = ", OpWord.eq), (" >= ", .ge), (" <= ", .le)],
    Spell x.1.toList x.2.tokens := by
  have : ∀ x ∈ [(" = ", OpWord.eq), (" >= ", .ge), (" <= ", .le)],
      (∀ c ∈ x.1.toList, c ≠ '\x00' ∧ c ≠ '\\') ∧ (x.1.toList.getLast?.any blank) = true ∧
      (∀ w ∈ lineAll x.1.toList, w.length ≤ 511) ∧
        (lineAll x.1.toList).flatMap toksOf = x.2.tokens := by decide
  exact fun x hx => spell_const (this x hx)

theorem writeConstraint_spell {p : PProblem} (hw : Writable scan num p) {c : Constr}
    (hc : c ∈ p.constraints) {sep : String} {op : OpWord}
    (ho : (sep, op) ∈ [(" = ", OpWord.eq), (" >= ", .ge), (" <= ", .le)]) :
    ∃ t, writeConstraint p sep c = .ok t ∧ Spell t (constrFile p op c).tokens := by
  obtain ⟨t, ht, hs⟩ := writeFunction_spell hw c.elems fun e he =>
    ⟨hw.con_lt c hc e he, factor_small (hw.con_sum c hc) e he⟩
  refine ⟨_, by unfold writeConstraint; rw [ht]; rfl, ?_⟩
  have h1 : Spell (if c.label = "" then [] else c.label.toList ++ ": ".toList)
      (labelTokens (if c.label = "" then none else some c.label.toList)) := by
    split
    · exact Spell.nil
    · rename_i h
      have := hw.labels c hc h
      exact spell_label this.1 this.2
  have h2 := (spell_op _ ho).append (spell_int (hw.con_value c hc))
  have := (h1.append hs).append h2
  have e : (constrFile p op c).tokens =
      labelTokens (if c.label = "" then none else some c.label.toList) ++
        (conFile p c.elems).flatMap Term.tokens ++ (op.tokens ++ (numberFile c.value).tokens) := by
    show labelTokens _ ++ _ ++ op.tokens ++ _ = _
    rw [List.append_assoc _ op.tokens]; rfl
  rw [e]
  simp only [List.append_assoc] at this ⊢
  exact this

theorem writeList_spell {p : PProblem} (hw : Writable scan num p) {sep : String} {op : OpWord}
    (ho : (sep, op) ∈ [(" = ", OpWord.eq), (" >= ", .ge), (" <= ", .le)]) :
    ∀ l : List Constr, (∀ c ∈ l, c ∈ p.constraints) →
      ∃ t, writeList p sep l = .ok t ∧ Spell t ((l.map (constrFile p op)).flatMap Con.tokens) := by
  intro l
  induction l with
  | nil => exact fun _ => ⟨[], rfl, Spell.nil⟩
  | cons c l ih =>
    intro h
    obtain ⟨t, ht, hs⟩ := ih fun x hx => h x (List.mem_cons_of_mem _ hx)
    obtain ⟨a, ha, hsa⟩ := writeConstraint_spell hw (h c List.mem_cons_self) ho
    refine ⟨a ++ t, by unfold writeList; rw [ha, ht]; rfl, ?_⟩
    rw [List.map_cons, List.flatMap_cons]
    exact hsa.append hs

theorem writeConstraints_spell {p : PProblem} (hw : Writable scan num p) :
    ∃ t, writeConstraints p = .ok t ∧
      Spell t (((fileOf num p).cons.getD []).flatMap Con.tokens) := by
  obtain ⟨a, ha, sa⟩ := writeList_spell hw (sep := " = ") (op := .eq) (by decide) p.eqs
    fun c hc => List.mem_append_left _ (List.mem_append_left _ hc)
  obtain ⟨b, hb, sb⟩ := writeList_spell hw (sep := " >= ") (op := .ge) (by decide) p.ges
    fun c hc => List.mem_append_left _ (List.mem_append_right _ hc)
  obtain ⟨c, hc, sc⟩ := writeList_spell hw (sep := " <= ") (op := .le) (by decide) p.les
    fun c hc => List.mem_append_right _ hc
  refine ⟨a ++ b ++ c, by unfold writeConstraints; rw [ha, hb, hc]; rfl, ?_⟩
  show Spell _ (List.flatMap Con.tokens (p.eqs.map (constrFile p .eq) ++
    p.ges.map (constrFile p .ge) ++ p.les.map (constrFile p .le)))
  rw [List.flatMap_append, List.flatMap_append]
  exact (sa.append sb).append sc

theorem forVars_spell {f : Token → VarValue → List Char} {g : Token × VarValue → List Token} :
    ∀ {xs : List Token} {vs : List VarValue}, xs.length = vs.length →
      (∀ x ∈ xs.zip vs, Spell (f x.1 x.2) (g x)) →
      ∃ t, forVars f xs vs = .ok t ∧ Spell t ((xs.zip vs).flatMap g) := by
  intro xs
  induction xs with
  | nil => intro vs _ _; exact ⟨[], rfl, Spell.nil⟩
  | cons x xs ih =>
    intro vs hl h
    cases vs with
    | nil => simp at hl
    | cons v vs =>
      obtain ⟨t, ht, hs⟩ := ih (by simpa using hl) fun y hy =>
        h y (by rw [List.zip_cons_cons]; exact List.mem_cons_of_mem _ hy)
      refine ⟨f x v ++ t, by unfold forVars; rw [ht]; rfl, ?_⟩
      rw [List.zip_cons_cons, List.flatMap_cons]
      exact (h (x, v) (by rw [List.zip_cons_cons]; exact List.mem_cons_self)).append hs

theorem flatMap_filterMap {α β γ : Type} (l : List α) (f : α → Option β) (g : β → List γ) :
    (l.filterMap f).flatMap g = l.flatMap fun x => ((f x).map g).getD [] := by
  induction l with
  | nil => rfl
  | cons a l ih =>
    rw [List.filterMap_cons, List.flatMap_cons, ← ih]
    cases f a <;> rfl

theorem writeBounds_spell {p : PProblem} (hw : Writable scan num p) :
    ∃ t, forVars writeBound p.names p.values = .ok t ∧
      Spell t ((boundsFile (p.names.zip p.values)).flatMap BoundLine.tokens) := by
  unfold boundsFile
  rw [flatMap_filterMap]
  refine forVars_spell hw.names_len fun x hx => ?_
  have h := hw.bounds x hx
  have hn := hw.names x.1 (List.of_mem_zip hx).1
  unfold writeBound
  rw [if_neg (not_not.mpr h.1), List.nil_append]
  by_cases hm : x.2.max = intMax
  · rw [if_neg (not_not.mpr hm), if_pos hm]; exact Spell.nil
  · rw [if_pos hm, if_neg hm]
    have h1 := (spell_name hn.1 hn.2 (c := ' ') (by decide)).append
      ((spell_const (t := "<= ".toList) (ts := [['<'], ['=']]) (by decide)).append
        (spell_int h.2.1))
    have e : x.1 ++ [' '] ++ ("<= ".toList ++ (intText x.2.max ++ ['\n'])) =
        x.1 ++ " <= ".toList ++ intText x.2.max ++ ['\n'] := by
      have : " <= ".toList = ' ' :: "<= ".toList := rfl
      rw [this]; simp
    rw [e] at h1
    exact h1

theorem haveTypes_eq (l : List VarValue) : ∀ b g, (b && g) = false → haveTypes l b g =
    (b || l.any fun v => v.type = .binary, g || l.any fun v => v.type = .general) := by
  induction l with
  | nil => intro b g _; simp [haveTypes]
  | cons v l ih =>
    intro b g h
    unfold haveTypes
    cases ht : v.type with
    | real => simp [ih b g h, ht]
    | binary =>
      cases g with
      | true => simp [ht]
      | false => simp [ih true false rfl, ht]
    | general =>
      cases b with
      | true => simp [ht]
      | false => simp [ih false true rfl, ht]

theorem any_zip {p : VarValue → Bool} : ∀ {xs : List Token} {vs : List VarValue},
    xs.length = vs.length → (xs.zip vs).any (fun x => p x.2) = vs.any p := by
  intro xs
  induction xs with
  | nil => intro vs h; cases vs with
    | nil => rfl
    | cons => simp at h
  | cons x xs ih =>
    intro vs h
    cases vs with
    | nil => simp at h
    | cons v vs => simp [ih (by simpa using h)]

theorem writeType_spell {p : PProblem} (hw : Writable scan num p) {head : String} {t : VarType}
    {hv : Bool} (hh : Spell (head.toList ++ ['\n']) [head.toList])
    (hb : hv = p.values.any fun v => v.type = t) :
    ∃ s, writeType hv head t p = .ok s ∧ Spell s (sectionTokens [head.toList] (fun n => [n])
      (orNone (typeFile t (p.names.zip p.values)))) := by
  have hany : hv = true ↔ typeFile t (p.names.zip p.values) ≠ [] := by
    rw [hb, ← any_zip (p := fun v => v.type = t) hw.names_len]
    unfold typeFile
    rw [ne_eq, List.map_eq_nil_iff, List.filter_eq_nil_iff, List.any_eq_true]
    push Not
    rfl
  unfold writeType
  cases hv with
  | false =>
    have : typeFile t (p.names.zip p.values) = [] := by
      by_contra hc; exact absurd (hany.mpr hc) (by simp)
    rw [this]
    exact ⟨[], rfl, Spell.nil⟩
  | true =>
    have hne := hany.mp rfl
    have h1 : orNone (typeFile t (p.names.zip p.values)) =
        some (typeFile t (p.names.zip p.values)) := by
      cases hl : typeFile t (p.names.zip p.values) with
      | nil => exact absurd hl hne
      | cons => rfl
    rw [h1]
    obtain ⟨r, hr, hs⟩ := forVars_spell (f := fun x v => if v.type = t then ' ' :: x ++ ['\n'] else [])
      (g := fun x => if x.2.type = t then [x.1] else []) hw.names_len (by
        intro x hx
        have hn := hw.names x.1 (List.of_mem_zip hx).1
        show Spell (if x.2.type = t then _ else _) _
        split
        · exact (Spell.blank (c := ' ') (by decide)).append (spell_name hn.1 hn.2 (by decide))
        · exact Spell.nil)
    refine ⟨head.toList ++ '\n' :: r, ?_, ?_⟩
    · show (forVars _ p.names p.values >>= _) = _
      rw [hr]; rfl
    · have e : head.toList ++ '\n' :: r = head.toList ++ ['\n'] ++ r := by simp
      rw [e]
      refine hh.append ?_
      have : (typeFile t (p.names.zip p.values)).flatMap (fun n => [n]) =
          (p.names.zip p.values).flatMap fun x => if x.2.type = t then [x.1] else [] := by
        unfold typeFile
        generalize p.names.zip p.values = l
        induction l with
        | nil => rfl
        | cons a l ih =>
          rw [List.filter_cons, List.flatMap_cons, ← ih]
          by_cases h : a.2.type = t <;> simp [h]
      rw [this]; exact hs

theorem writeValue_spell {p : PProblem} (hw : Writable scan num p) :
    Spell ((if isNeg p.value then doubleText num p.value
      else if isPos p.value then " + ".toList ++ doubleText num p.value else []) ++ ['\n'])
      ((constFile num p.value).flatMap Term.tokens) := by
  obtain ⟨q, hq, hnum⟩ := hw.value
  rw [hq]
  unfold constFile isNeg isPos doubleText
  simp only [decide_eq_true_eq]
  rcases lt_trichotomy q 0 with h | h | h
  · have hw := (hnum h.ne).word
    rw [abs_of_neg h] at hw
    rw [if_pos h, if_pos h, if_neg h.ne, abs_of_neg h]
    have := spell_neg hw (c := '\n') (by decide)
    simpa [Term.tokens, signTokens, h] using this
  · subst h
    exact Spell.blank (by decide)
  · have hw := (hnum h.ne').word
    rw [abs_of_pos h] at hw
    rw [if_neg (not_lt_of_gt h), if_pos h, if_neg h.ne', if_neg (not_lt_of_gt h), abs_of_pos h]
    have := (spell_const (t := " + ".toList) (ts := [['+']]) (by decide)).append
      (spell_num hw (c := '\n') (by decide))
    rw [List.append_assoc]
    simpa [Term.tokens, signTokens, not_lt_of_gt h] using this

theorem writeProblem_spell {p : PProblem} (hw : Writable scan num p) :
    ∃ t, writeProblem num p = .ok t ∧ Spell t (fileOf num p).tokens := by
  obtain ⟨o, ho, so⟩ := writeObjective_spell hw p.elems fun _ h => h
  have sv := writeValue_spell hw
  obtain ⟨c, hc, sc⟩ := writeConstraints_spell hw
  obtain ⟨b, hb, sb⟩ := writeBounds_spell hw
  have htake : p.values.take p.names.length = p.values := by
    rw [hw.names_len]; exact List.take_length
  have hv := haveTypes_eq p.values false false rfl
  obtain ⟨x, hx, sx⟩ := writeType_spell hw (head := "binary") (t := .binary)
    (hv := (haveTypes p.values false false).1) (spell_const (by decide)) (by rw [hv]; simp)
  obtain ⟨y, hy, sy⟩ := writeType_spell hw (head := "general") (t := .general)
    (hv := (haveTypes p.values false false).2) (spell_const (by decide)) (by rw [hv]; simp)
  have hq : writeQuadratic num p p.qelems = .ok [] := by
    rw [hw.quad]; rfl
  refine ⟨_, by unfold writeProblem; rw [if_neg hw.names_some, ho, hq, hc, hb, htake]; simp only [ok_bind]; rw [hx, hy]; rfl, ?_⟩
  have st : Spell (match p.type with
        | .maximize => "maximize\n\n".toList
        | .minimize => "minimize\n\n".toList) [typeWord p.type] := by
    cases p.type
    · exact spell_const (by decide)
    · exact spell_const (by decide)
  have ss : Spell "subject to\n".toList ["subject".toList, "to".toList] := spell_const (by decide)
  have sB : Spell "bounds\n".toList ["bounds".toList] := spell_const (by decide)
  have se : Spell "end\n".toList ["end".toList] := spell_const (by decide)
  have := st.append ((so.append sv).append ((ss.append sc).append ((sB.append sb).append
    (sx.append (sy.append se)))))
  have e : "\nsubject to\n".toList = '\n' :: "subject to\n".toList := by decide
  have e2 : (fileOf num p).tokens = [typeWord p.type] ++
      ((objFile num p p.elems ++ constFile num p.value).flatMap Term.tokens ++
      ((["subject".toList, "to".toList] ++ ((fileOf num p).cons.getD []).flatMap Con.tokens) ++
      ((["bounds".toList] ++ (boundsFile (p.names.zip p.values)).flatMap BoundLine.tokens) ++
      (sectionTokens ["binary".toList] (fun n => [n])
        (orNone (typeFile .binary (p.names.zip p.values))) ++
      (sectionTokens ["general".toList] (fun n => [n])
        (orNone (typeFile .general (p.names.zip p.values))) ++ ["end".toList]))))) := by
    simp [File.tokens, fileOf, objTokens, labelTokens, sectionTokens]
  rw [e, e2, List.flatMap_append]
  simp only [List.append_assoc, List.cons_append, List.nil_append] at this ⊢
  exact this

end Bx.Parser
