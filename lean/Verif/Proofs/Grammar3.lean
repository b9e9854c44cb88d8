import Verif.Proofs.GrammarQuad
import Mathlib.Tactic.Linarith

/-!
# The constraints of a file are read as they are written
-/

namespace Bx.Parser

open Params (D)

variable {scan : Token → Option D} {val : Token → Rat} {ival : Token → Int}

/-- The value of a number as a `double`. -/
abbrev castVal (ival : Token → Int) : Token → Rat := fun t => (ival t : Rat)

theorem toInt_cast {z : Int} (h : IsInt z) : toInt (.fin (z : Rat)) = .ok z := by
  unfold toInt
  have e : (if (0 : Rat) ≤ (z : Rat) then ((z : Rat)).floor else -((-(z : Rat)).floor)) = z := by
    split
    · exact Rat.floor_intCast z
    · rw [← Rat.intCast_neg, Rat.floor_intCast]; omega
  simp only [e]
  exact if_pos h

theorem factor_cast (t : Term) : t.factor (castVal ival) = ((t.factor ival : Int) : Rat) := by
  unfold Term.factor
  match t.sign, t.num with
  | none, none | none, some _ | some false, none | some false, some _ | some true, none
  | some true, some _ => simp [signOf]

theorem value_cast (n : Number) : n.value (castVal ival) = ((n.value ival : Int) : Rat) := by
  unfold Number.value
  match n.sign with
  | none | some false | some true => simp [signOf]

theorem isInt_of_abs {z : Int} (h : |z| ≤ intMax) : IsInt z := by
  have := abs_le.mp h
  unfold intMax at this
  unfold IsInt intMin intMax
  omega

theorem value_isInt {n : Number} (h : IntOk scan ival n.num) : IsInt (n.value ival) := by
  unfold Number.value
  match n.sign with
  | none | some false => simpa [signOf] using h.range.1
  | some true => simpa [signOf] using h.range.2

theorem addFun_map {M : List Token} {F : List (Token × Int)} {n : Token} (f : Int) (hn : n ∈ M)
    (hF : ∀ x ∈ F, x.1 ∈ M) (hr : ∀ x ∈ F, IsInt (x.2 + f)) :
    addFun f (M.idxOf n) (F.map fun x => ⟨x.2, M.idxOf x.1⟩) =
      .ok ((addPair F n f).map fun x => ⟨x.2, M.idxOf x.1⟩) := by
  induction F with
  | nil => rfl
  | cons e F ih =>
    obtain ⟨m, g⟩ := e
    have hm : m ∈ M := hF (m, g) List.mem_cons_self
    simp only [List.map_cons, addFun, addPair]
    by_cases h : m = n
    · subst h
      have : intMin ≤ g + f ∧ g + f ≤ intMax := hr (m, g) List.mem_cons_self
      simp only [↓reduceIte, addInt]
      rw [if_pos this]
      rfl
    · have : M.idxOf m ≠ M.idxOf n := fun hc => h ((List.idxOf_inj hm).mp hc)
      rw [if_neg this, if_neg h, List.map_cons]
      rw [ih (fun x hx => hF x (List.mem_cons_of_mem _ hx))
        fun x hx => hr x (List.mem_cons_of_mem _ hx)]
      rfl

theorem abs_addPair {F : List (Token × Int)} {n : Token} {f S : Int} (hS : 0 ≤ S)
    (h : ∀ x ∈ F, |x.2| ≤ S) : ∀ x ∈ addPair F n f, |x.2| ≤ S + |f| := by
  induction F with
  | nil =>
    intro x hx
    simp only [addPair, List.mem_singleton] at hx
    subst hx
    simp only
    omega
  | cons e F ih =>
    obtain ⟨m, g⟩ := e
    have hg : |g| ≤ S := h (m, g) List.mem_cons_self
    have h0 := abs_nonneg f
    intro x hx
    unfold addPair at hx
    split at hx
    · rcases List.mem_cons.mp hx with rfl | hx
      · have := abs_add_le g f
        simp only
        omega
      · have := h x (List.mem_cons_of_mem _ hx)
        omega
    · rcases List.mem_cons.mp hx with rfl | hx
      · simp only
        omega
      · exact ih (fun y hy => h y (List.mem_cons_of_mem _ hy)) x hx

theorem sum_abs_nonneg (f : Term → Int) (ts : List Term) : 0 ≤ (ts.map fun t => |f t|).sum := by
  induction ts with
  | nil => simp
  | cons t ts ih =>
    have := abs_nonneg (f t)
    rw [List.map_cons, List.sum_cons]; omega

/-- A constraint while its elements are read. -/
def elemsOf (M : List Token) (F : List (Token × Int)) : List FunElem :=
  F.map fun x => ⟨x.2, M.idxOf x.1⟩

/-- A term of a constraint. -/
structure CTermOk (scan : Token → Option D) (ival : Token → Int) (t : Term) : Prop where
  name : ∃ n ∈ t.name, NameOk scan n
  num : ∀ n ∈ t.num, IntOk scan ival n

theorem CTermOk.term {t : Term} (h : CTermOk scan ival t) : TermOk scan (castVal ival) t := by
  obtain ⟨n, hn, ok⟩ := h.name
  refine ⟨.inr ?_, fun m hm => (h.num m hm).ok, ?_⟩
  · rintro e; rw [e] at hn; cases hn
  · intro m hm
    rw [Option.mem_def] at hn hm
    rw [hn] at hm
    cases hm
    exact ok

section

variable {M : List Token} {ty : ObjType} {E : List (Token × Rat)} {v : Rat} {Q : List PQuad}
  {q g l : List Constr}

theorem constrElem_eq {N : List Token} {F : List (Token × Int)} {S : Int} {t : Term}
    (ok : CTermOk scan ival t) {rest : List Token} (hM : addNames N t.name.toList <+: M)
    (hl : (M.length : Int) ≤ intMax) (hF : ∀ x ∈ F, x.1 ∈ M) (hS : ∀ x ∈ F, |x.2| ≤ S)
    (h0 : 0 ≤ S) (hr : S + |t.factor ival| ≤ intMax) :
    constrElem listSource scan (t.tokens ++ rest) (partOf M ty N E v Q q g l) (elemsOf M F) =
      .ok (rest, partOf M ty (addNames N t.name.toList) E v Q q g l,
        elemsOf M (addPairs F (t.name.map fun n => (n, t.factor ival)).toList)) := by
  obtain ⟨n, hn, okn⟩ := ok.name
  rw [Option.mem_def] at hn
  have okt := ok.term
  unfold constrElem
  show (readElem scan ((t.tokens ++ rest).getD 0 []) ((t.tokens ++ rest).getD 1 [])
      ((t.tokens ++ rest).getD 2 []) >>= _) = _
  rw [readElem_term okt rest (by rw [hn]; intro h; cases h)]
  have hp := popFront_list t.tokens rest (term_length okt).1 (term_length okt).2
  rw [hn] at hM ⊢
  have hM' : addName N n <+: M := hM
  have hnM : n ∈ M := hM'.subset (mem_addName.mpr (.inr rfl))
  have hi : IsInt (t.factor ival) := isInt_of_abs (by omega)
  simp only [pm_ok_bind, orStop, Option.getD_some]
  rw [getOrAssign_eq (M := M) rfl hM' hl, factor_cast, toInt_cast hi]
  simp only [pm_ok_bind, elemsOf]
  rw [addFun_map _ hnM hF (fun x hx => isInt_of_abs (by
    have := abs_add_le x.2 (t.factor ival)
    have := hS x hx
    omega))]
  simp only [pm_ok_bind, hp]
  rfl

theorem elemLoop_eq (hl : (M.length : Int) ≤ intMax) {rest : List Token}
    (hrest : startsWithOperator (rest.getD 0 []) = true) : ∀ (ts : List Term) {k : Nat}
    {N : List Token} {F : List (Token × Int)} {S : Int},
    (∀ t ∈ ts, CTermOk scan ival t) → ts.length < k →
    addNames N (ts.filterMap Term.name) <+: M → (∀ x ∈ F, x.1 ∈ M) → (∀ x ∈ F, |x.2| ≤ S) →
    0 ≤ S → S + (ts.map fun t => |t.factor ival|).sum ≤ intMax →
    elemLoop listSource scan k (ts.flatMap Term.tokens ++ rest) (partOf M ty N E v Q q g l)
        (elemsOf M F) =
      .ok (rest, partOf M ty (addNames N (ts.filterMap Term.name)) E v Q q g l,
        elemsOf M (addPairs F (named ival ts))) := by
  intro ts
  induction ts with
  | nil =>
    intro k N F S _ hk _ _ _ _ _
    match k with
    | 0 => simp at hk
    | k + 1 =>
      unfold elemLoop
      rw [if_pos (.inr (show startsWithOperator (listSource.tok
        (([] : List Term).flatMap Term.tokens ++ rest) 0) = true from hrest))]
      simp [addNames, addPairs, named]
  | cons t ts ih =>
    intro k N F S hok hk hM hF hS h0 hr
    match k with
    | 0 => simp at hk
    | k + 1 =>
      have ok := hok t List.mem_cons_self
      have hh := term_head ok.term (ts.flatMap Term.tokens ++ rest)
      rw [List.flatMap_cons, List.append_assoc]
      unfold elemLoop
      rw [if_neg (by
        show ¬ ((t.tokens ++ (ts.flatMap Term.tokens ++ rest)).getD 0 [] = [] ∨
          startsWithOperator ((t.tokens ++ (ts.flatMap Term.tokens ++ rest)).getD 0 []) = true)
        rw [hh.2.2.2.1]
        rintro (h | h)
        · exact hh.2.2.1 h
        · cases h)]
      have enames : (t :: ts).filterMap Term.name = t.name.toList ++ ts.filterMap Term.name := by
        rw [List.filterMap_cons]; cases t.name <;> rfl
      rw [enames, addNames_append] at hM
      have hM1 : addNames N t.name.toList <+: M := (prefix_addNames _ _).trans hM
      simp only [List.map_cons, List.sum_cons] at hr
      have hnn : 0 ≤ (ts.map fun t => |t.factor ival|).sum :=
        sum_abs_nonneg _ _
      rw [constrElem_eq ok hM1 hl hF hS h0 (by omega)]
      simp only [pm_ok_bind]
      have h1 := abs_nonneg (t.factor ival)
      obtain ⟨n, hn, okn⟩ := ok.name
      rw [Option.mem_def] at hn
      rw [ih (S := S + |t.factor ival|) (fun u hu => hok u (List.mem_cons_of_mem _ hu))
        (by simp only [List.length_cons] at hk; omega) hM ?_ ?_ (by omega) (by omega)]
      · rw [enames, addNames_append, named_cons]
        simp only [addPairs, List.foldl_append]
      · intro x hx
        rw [hn] at hx hM1
        rcases mem_addPair (show x ∈ addPair F n (t.factor ival) from hx) with h | ⟨y, hy, h⟩
        · rw [h]; exact hM1.subset (mem_addName.mpr (.inr rfl))
        · rw [← h]; exact hF y hy
      · rw [hn]
        exact abs_addPair h0 hS

end

/-! ## Operators and values -/

theorem OpWord.tokens_length (o : OpWord) : 1 ≤ o.tokens.length ∧ o.tokens.length < 10 := by
  cases o <;> decide

theorem Number.tokens_length (n : Number) : 1 ≤ n.tokens.length ∧ n.tokens.length < 10 := by
  obtain ⟨sign, num⟩ := n
  match sign with
  | none | some false | some true => simp [Number.tokens, signTokens]

/-- The first token of a number. -/
theorem number_head {n : Number} (h : NumOk scan val n.num) (rest : List Token) :
    ∃ a r, n.tokens ++ rest = a :: r ∧ a ≠ ['='] ∧ a ≠ ['<'] ∧ a ≠ ['>'] ∧ a ≠ [':'] ∧
      isKeyword a = false ∧ startsWithOperator a = false ∧ a ≠ [] ∧ startsWithNumber a = true := by
  obtain ⟨sign, num⟩ := n
  match sign with
  | none =>
    exact ⟨num, rest, rfl, h.ne (by decide), h.ne (by decide), h.ne (by decide),
      h.ne (by decide), h.kw, h.op, h.nonempty, h.number⟩
  | some false => exact ⟨['+'], num :: rest, rfl, by decide, by decide, by decide, by decide,
      by decide, by decide, by decide, by decide⟩
  | some true => exact ⟨['-'], num :: rest, rfl, by decide, by decide, by decide, by decide,
      by decide, by decide, by decide, by decide⟩

theorem readOperator_eq (o : OpWord) {a : Token} (r : List Token) (h1 : a ≠ ['=']) (h2 : a ≠ ['<'])
    (h3 : a ≠ ['>']) :
    readOperator ((o.tokens ++ a :: r).getD 0 []) ((o.tokens ++ a :: r).getD 1 []) =
      some (o.op, o.tokens.length) := by
  cases o <;> simp [OpWord.tokens, readOperator, OpWord.op, h1, h2, h3]

theorem op_head (o : OpWord) (r : List Token) :
    startsWithOperator ((o.tokens ++ r).getD 0 []) = true := by
  cases o <;> rfl

theorem readReal2_number {n : Number} (h : NumOk scan val n.num) (rest : List Token) :
    readReal2 scan ((n.tokens ++ rest).getD 0 []) ((n.tokens ++ rest).getD 1 []) =
      .ok (.fin (n.value val), n.tokens.length) := by
  obtain ⟨sign, num⟩ := n
  match sign with
  | none => simpa [Number.tokens, signTokens, Number.value, signOf] using real2_num h (rest.getD 0 [])
  | some false => simpa [Number.tokens, signTokens, Number.value, signOf] using real2_plus_num h
  | some true => simpa [Number.tokens, signTokens, Number.value, signOf] using real2_minus_num h

theorem constrEnd_eq (o : OpWord) {n : Number} (h : IntOk scan ival n.num) (rest : List Token) :
    constrEnd listSource scan (o.tokens ++ (n.tokens ++ rest)) = .ok (rest, o.op, n.value ival) := by
  obtain ⟨a, r, e, h1, h2, h3, -⟩ := number_head h.ok rest
  unfold constrEnd
  show (orStop (readOperator ((o.tokens ++ (n.tokens ++ rest)).getD 0 [])
    ((o.tokens ++ (n.tokens ++ rest)).getD 1 [])) .badConstraint >>= _) = _
  rw [e, readOperator_eq o r h1 h2 h3, ← e]
  simp only [orStop, pm_ok_bind]
  rw [popFront_list _ _ o.tokens_length.1 o.tokens_length.2]
  simp only [pm_ok_bind]
  show (readReal2 scan ((n.tokens ++ rest).getD 0 []) ((n.tokens ++ rest).getD 1 []) >>= _) = _
  rw [readReal2_number h.ok rest]
  simp only [pm_ok_bind]
  rw [value_cast, toInt_cast (value_isInt h)]
  simp only [pm_ok_bind]
  rw [popFront_list _ _ n.tokens_length.1 n.tokens_length.2]
  rfl

/-! ## Constraints -/

theorem ConOk.cterm {c : Con} (h : ConOk scan ival c) : ∀ t ∈ c.terms, CTermOk scan ival t :=
  fun t ht => ⟨h.name t ht, h.num t ht⟩

theorem term_tokens_ne {t : Term} (h : TermOk scan val t) : ∀ a ∈ t.tokens, a ≠ [':'] := by
  intro a ha
  unfold Term.tokens at ha
  simp only [List.mem_append, Option.mem_toList] at ha
  rcases ha with (ha | ha) | ha
  · match hs : t.sign with
    | none => rw [hs] at ha; cases ha
    | some false | some true =>
      rw [hs] at ha
      simp only [signTokens, List.mem_singleton] at ha
      subst ha; decide
  · exact (h.num a ha).ne (by decide)
  · exact (h.name a ha).ne (by decide)

theorem op_tokens_ne (o : OpWord) : ∀ a ∈ o.tokens, a ≠ [':'] := by cases o <;> decide

theorem getD_one_ne {L rest : List Token} (hL : 2 ≤ L.length) (h : ∀ a ∈ L, a ≠ [':']) :
    (L ++ rest).getD 1 [] ≠ [':'] := by
  match L, hL with
  | a :: b :: L, _ =>
    exact h b (by simp)

theorem flatMap_length_le {ts : List Term} (h : ∀ t ∈ ts, TermOk scan val t) :
    ts.length ≤ (ts.flatMap Term.tokens).length := by
  induction ts with
  | nil => simp
  | cons t ts ih =>
    rw [List.flatMap_cons, List.length_append, List.length_cons]
    have := (term_length (h t List.mem_cons_self)).1
    have := ih fun u hu => h u (List.mem_cons_of_mem _ hu)
    omega

/-- The tokens of a constraint after its label. -/
def Con.body (c : Con) : List Token := c.terms.flatMap Term.tokens ++ (c.op.tokens ++ c.value.tokens)

theorem Con.tokens_eq (c : Con) : c.tokens = labelTokens c.label ++ c.body := by
  simp [Con.tokens, Con.body]

theorem body_length {c : Con} (ok : ConOk scan ival c) : c.terms.length + 2 ≤ c.body.length := by
  have := flatMap_length_le fun t ht => (ok.cterm t ht).term
  have := c.op.tokens_length
  have := c.value.tokens_length
  simp only [Con.body, List.length_append]
  omega

/-- The first token of a constraint. -/
theorem con_head {c : Con} (ok : ConOk scan ival c) (rest : List Token) :
    (c.tokens ++ rest).getD 0 [] ≠ [] ∧ isKeyword ((c.tokens ++ rest).getD 0 []) = false ∧
      (c.tokens ++ rest).getD 0 [] ≠ [':'] := by
  rw [Con.tokens_eq]
  cases hlb : c.label with
  | some lb =>
    have o := ok.label lb hlb
    exact ⟨o.nonempty, o.kw, o.ne (by decide)⟩
  | none =>
    match ht : c.terms with
    | [] => exact absurd ht ok.nonempty
    | t :: ts =>
      have := term_head (ok.cterm t (by rw [ht]; exact List.mem_cons_self)).term
        (ts.flatMap Term.tokens ++ (c.op.tokens ++ c.value.tokens) ++ rest)
      simp only [labelTokens, Con.body, ht, List.nil_append, List.flatMap_cons, List.append_assoc]
        at this ⊢
      exact ⟨this.2.2.1, this.1, this.2.2.2.2.2⟩

theorem constrLabel_eq {c : Con} (ok : ConOk scan ival c) (rest : List Token) :
    constrLabel listSource (c.tokens ++ rest) = .ok (c.body ++ rest, c.label.getD []) := by
  rw [Con.tokens_eq]
  unfold constrLabel
  cases hlb : c.label with
  | some lb =>
    have o := ok.label lb hlb
    rw [if_pos (by
      show (startsWithName lb && decide ([':'] = [':'])) = true
      rw [o.starts]; rfl)]
    rfl
  | none =>
    rw [if_neg (by
      show ¬ (startsWithName _ && decide ((c.body ++ rest).getD 1 [] = [':'])) = true
      rw [decide_eq_false (getD_one_ne (by have := body_length ok; omega) ?_)]
      · simp
      · intro a ha
        simp only [Con.body, List.mem_append, List.mem_flatMap] at ha
        rcases ha with ⟨t, ht, ha⟩ | ha | ha
        · exact term_tokens_ne (ok.cterm t ht).term a ha
        · exact op_tokens_ne _ a ha
        · have : a ∈ (⟨c.value.sign, some c.value.num, none⟩ : Term).tokens := by
            simpa [Term.tokens, Number.tokens] using ha
          refine term_tokens_ne (scan := scan) (val := castVal ival) ⟨.inl (by simp), ?_, ?_⟩ a this
          · intro n hn
            cases hn
            exact ok.value.ok
          · intro n hn; cases hn)]
    rfl

/-- The constraints with an operator. -/
def select (ival : Token → Int) (M : List Token) (op : Op) (l : List (Con × Nat)) : List Constr :=
  (l.filter fun x => x.1.op.op = op).map fun x => x.1.constr ival M x.2

theorem select_cons (M : List Token) (op : Op) (c : Con) (i : Nat) (l : List (Con × Nat)) :
    select ival M op ((c, i) :: l) =
      (if c.op.op = op then [c.constr ival M i] else []) ++ select ival M op l := by
  unfold select
  by_cases h : c.op.op = op <;> simp [h]

theorem constrLoop_eq {M : List Token} {ty : ObjType} {E : List (Token × Rat)} {v : Rat} {Q : List PQuad}
    (hl : (M.length : Int) ≤ intMax) {rest : List Token}
    (hrest : isKeyword (rest.getD 0 []) = true) : ∀ (cs : List Con) {k id : Nat} {N : List Token}
    {q g l : List Constr},
    (∀ c ∈ cs, ConOk scan ival c) → (cs.flatMap Con.tokens).length < k →
    addNames N (cs.flatMap fun c => c.terms.filterMap Term.name) <+: M →
    constrLoop listSource scan k id (cs.flatMap Con.tokens ++ rest) (partOf M ty N E v Q q g l) =
      .ok (rest, partOf M ty (addNames N (cs.flatMap fun c => c.terms.filterMap Term.name)) E v Q
        (q ++ select ival M .equal (cs.zipIdx id)) (g ++ select ival M .greater (cs.zipIdx id))
        (l ++ select ival M .less (cs.zipIdx id))) := by
  intro cs
  induction cs with
  | nil =>
    intro k id N q g l _ hk _
    match k with
    | 0 => simp at hk
    | k + 1 =>
      unfold constrLoop
      rw [if_pos (.inr (show isKeyword (listSource.tok (([] : List Con).flatMap Con.tokens ++ rest)
        0) = true from hrest))]
      simp [addNames, select]
  | cons c cs ih =>
    intro k id N q g l hok hk hM
    match k with
    | 0 => simp at hk
    | k + 1 =>
      have ok := hok c List.mem_cons_self
      have hh := con_head ok (cs.flatMap Con.tokens ++ rest)
      have hbl := body_length ok
      rw [List.flatMap_cons, List.length_append, Con.tokens_eq, List.length_append] at hk
      rw [List.flatMap_cons, addNames_append] at hM
      rw [List.flatMap_cons, List.append_assoc]
      unfold constrLoop
      rw [if_neg (by
        show ¬ ((c.tokens ++ (cs.flatMap Con.tokens ++ rest)).getD 0 [] = [] ∨
          isKeyword ((c.tokens ++ (cs.flatMap Con.tokens ++ rest)).getD 0 []) = true)
        rw [hh.2.1]
        rintro (h | h)
        · exact hh.1 h
        · cases h)]
      rw [constrLabel_eq ok]
      simp only [pm_ok_bind]
      match ht : c.terms with
      | [] => exact absurd ht ok.nonempty
      | t :: ts =>
        have okt := ok.cterm t (by rw [ht]; exact List.mem_cons_self)
        have hM0 : addNames N ((t :: ts).filterMap Term.name) <+: M :=
          ht ▸ (prefix_addNames _ _).trans hM
        have enames : (t :: ts).filterMap Term.name = t.name.toList ++ ts.filterMap Term.name := by
          rw [List.filterMap_cons]; cases t.name <;> rfl
        rw [enames, addNames_append] at hM0
        have hr := ok.range.2
        rw [ht, List.map_cons, List.sum_cons] at hr
        have hnn : 0 ≤ (ts.map fun t => |t.factor ival|).sum :=
          sum_abs_nonneg _ _
        have habs := abs_nonneg (t.factor ival)
        have ebody : c.body ++ (cs.flatMap Con.tokens ++ rest) = t.tokens ++
            (ts.flatMap Term.tokens ++ (c.op.tokens ++ (c.value.tokens ++
              (cs.flatMap Con.tokens ++ rest)))) := by
          simp [Con.body, ht]
        rw [ebody]
        have h1 := constrElem_eq (F := []) (S := 0) (E := E) (v := v) (Q := Q) (q := q) (g := g) (l := l)
          (ty := ty) (rest := ts.flatMap Term.tokens ++ (c.op.tokens ++ (c.value.tokens ++
              (cs.flatMap Con.tokens ++ rest)))) okt ((prefix_addNames _ _).trans hM0) hl
          (by simp) (by simp) (le_refl 0) (by omega)
        rw [show (elemsOf M []) = [] from rfl] at h1
        rw [h1]
        simp only [pm_ok_bind]
        obtain ⟨n, hn, okn⟩ := okt.name
        rw [Option.mem_def] at hn
        rw [elemLoop_eq (S := |t.factor ival|) hl (op_head _ _) ts
          (fun u hu => ok.cterm u (by rw [ht]; exact List.mem_cons_of_mem _ hu))
          (by rw [ht, List.length_cons] at hbl; omega) hM0
          (by
            intro x hx
            rw [hn] at hx hM0
            simp only [Option.map_some, Option.toList_some, addPairs, List.foldl_cons,
              List.foldl_nil, addPair, List.mem_singleton] at hx
            subst hx
            exact hM0.subset ((prefix_addNames _ _).subset (mem_addName.mpr (.inr rfl))))
          (by
            intro x hx
            rw [hn] at hx
            simp only [Option.map_some, Option.toList_some, addPairs, List.foldl_cons,
              List.foldl_nil, addPair, List.mem_singleton] at hx
            subst hx
            exact le_refl _)
          habs (by omega)]
        simp only [pm_ok_bind]
        rw [constrEnd_eq c.op ok.value]
        simp only [pm_ok_bind]
        have eF : elemsOf M (addPairs (addPairs []
            (t.name.map fun n => (n, t.factor ival)).toList) (named ival ts)) =
            (collect (named ival c.terms)).map fun x => ⟨x.2, M.idxOf x.1⟩ := by
          rw [collect_eq, ht, named_cons]
          simp only [elemsOf, addPairs, List.foldl_append]
        have eC : (⟨String.ofList (c.label.getD []), elemsOf M (addPairs (addPairs []
            (t.name.map fun n => (n, t.factor ival)).toList) (named ival ts)),
            c.value.value ival, id⟩ : Constr) = c.constr ival M id := by
          rw [eF]; rfl
        rw [eC, ← addNames_append, ← enames, ← ht]
        have key : ∀ {q' g' l'}, ({ partOf M ty (addNames N (c.terms.filterMap Term.name)) E v Q q g l
            with eqs := q', ges := g', les := l' } : PProblem) =
              partOf M ty (addNames N (c.terms.filterMap Term.name)) E v Q q' g' l' := rfl
        have e2 : (partOf M ty (addNames N (c.terms.filterMap Term.name)) E v Q q g l).addConstr
            c.op.op (c.constr ival M id) =
            partOf M ty (addNames N (c.terms.filterMap Term.name)) E v Q
              (q ++ if c.op.op = .equal then [c.constr ival M id] else [])
              (g ++ if c.op.op = .greater then [c.constr ival M id] else [])
              (l ++ if c.op.op = .less then [c.constr ival M id] else []) := by
          cases c.op.op <;> simp [PProblem.addConstr, partOf]
        rw [e2, ih (fun d hd => hok d (List.mem_cons_of_mem _ hd)) (by omega) hM]
        rw [List.flatMap_cons, addNames_append, List.zipIdx_cons, select_cons, select_cons,
          select_cons]
        simp only [List.append_assoc]

end Bx.Parser
