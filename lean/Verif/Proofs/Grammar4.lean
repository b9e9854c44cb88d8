import Verif.Proofs.Grammar3
import Mathlib.Tactic.IntervalCases

/-!
# The last sections of a file, and the whole file
-/

namespace Bx.Parser

open Params (D)

variable {scan : Token → Option D} {val : Token → Rat} {ival : Token → Int}

/-! ## Bounds -/

theorem readSigned_number {n : Number} (h : NumOk scan val n.num) (k : Nat) (rest : List Token) :
    readSigned scan k ((n.tokens ++ rest).getD 0 []) ((n.tokens ++ rest).getD 1 []) =
      .ok (some (.fin (n.value val), k + n.tokens.length)) := by
  obtain ⟨sign, num⟩ := n
  have h1 : num ≠ ['+'] := h.ne (by decide)
  have h2 : num ≠ ['-'] := h.ne (by decide)
  have hr := h.real
  match sign with
  | none =>
    simp [Number.tokens, signTokens, Number.value, signOf, readSigned, h1, h2, hr, pm_ok_bind]
  | some false =>
    simp [Number.tokens, signTokens, Number.value, signOf, readSigned, hr, pm_ok_bind, signed]
  | some true =>
    simp [Number.tokens, signTokens, Number.value, signOf, readSigned, hr, pm_ok_bind, signed, neg]

theorem readRight_eq (o : OpWord) {n : Number} (h : NumOk scan val n.num) (rest : List Token) :
    readRight scan ((o.tokens ++ (n.tokens ++ rest)).getD 0 [])
      ((o.tokens ++ (n.tokens ++ rest)).getD 1 []) ((o.tokens ++ (n.tokens ++ rest)).getD 2 [])
      ((o.tokens ++ (n.tokens ++ rest)).getD 3 []) =
      .ok (some (.fin (n.value val), o.tokens.length + n.tokens.length)) := by
  obtain ⟨a, r, e, h1, h2, h3, -⟩ := number_head h rest
  have h4 := fun k => readSigned_number h k rest
  unfold readRight
  rw [e] at h4 ⊢
  rw [readOperator_eq o r h1 h2 h3]
  cases o <;> simpa [OpWord.tokens] using h4 _

theorem readLeft_eq (o : OpWord) {n : Number} (h : NumOk scan val n.num) {a : Token}
    (r : List Token) (h1 : a ≠ ['=']) (h2 : a ≠ ['<']) (h3 : a ≠ ['>']) :
    readLeft scan ((n.tokens ++ (o.tokens ++ a :: r)).getD 0 [])
      ((n.tokens ++ (o.tokens ++ a :: r)).getD 1 []) ((n.tokens ++ (o.tokens ++ a :: r)).getD 2 [])
      ((n.tokens ++ (o.tokens ++ a :: r)).getD 3 []) =
      .ok (some (.fin (n.value val), n.tokens.length + o.tokens.length)) := by
  obtain ⟨sign, num⟩ := n
  have h4 : num ≠ ['+'] := h.ne (by decide)
  have h5 : num ≠ ['-'] := h.ne (by decide)
  have hr := h.real
  have ho := readOperator_eq o r h1 h2 h3
  match sign with
  | none =>
    simp only [Number.tokens, signTokens, List.nil_append, List.cons_append, List.getD_cons_zero,
      List.getD_cons_succ, readLeft]
    rw [if_neg (by rintro (h | h) <;> contradiction), hr]
    simp only [pm_ok_bind, ho]
    simp [Number.value, signOf, Nat.add_comm]
  | some false =>
    simp only [Number.tokens, signTokens, List.nil_append, List.cons_append, List.getD_cons_zero,
      List.getD_cons_succ, readLeft]
    rw [if_pos (.inl trivial), hr]
    simp only [pm_ok_bind, ho]
    simp [Number.value, signOf, Nat.add_comm, signed]
  | some true =>
    simp only [Number.tokens, signTokens, List.nil_append, List.cons_append, List.getD_cons_zero,
      List.getD_cons_succ, readLeft]
    rw [if_pos (.inr trivial), hr]
    simp only [pm_ok_bind, ho]
    simp [Number.value, signOf, Nat.add_comm, signed, neg]

/-- What a line of the bounds says. -/
def BoundLine.low (ival : Token → Int) : BoundLine → Int
  | .upper _ _ _ => 0
  | .both a _ _ _ _ => a.value ival

@[inherit_doc BoundLine.low] def BoundLine.high (ival : Token → Int) : BoundLine → Int
  | .upper _ _ b => b.value ival
  | .both _ _ _ _ b => b.value ival

theorem getD_append_add (l r : List Token) (i : Nat) :
    (l ++ r).getD (l.length + i) [] = r.getD i [] := by
  rw [List.getD_eq_getElem?_getD, List.getD_eq_getElem?_getD,
    List.getElem?_append_right (by omega)]
  congr 2
  omega

theorem readBound_eq {names : List Token} {b : BoundLine} (ok : BoundOk scan ival names b)
    (rest : List Token) :
    readBound scan (fun i => (b.tokens ++ rest).getD i []) =
      .ok (some ⟨.fin ((b.low ival : Int) : Rat), .fin ((b.high ival : Int) : Rat), b.name,
        b.tokens.length⟩) := by
  unfold readBound
  match b, ok with
  | .upper x o n, ⟨_, okx, hx, _, okn⟩ =>
    have ho := op_head o (n.tokens ++ rest)
    have hrr := readRight_eq o okn.ok rest
    rw [value_cast] at hrr
    have e : (BoundLine.upper x o n).tokens ++ rest = x :: (o.tokens ++ (n.tokens ++ rest)) := by
      simp [BoundLine.tokens]
    simp only [e, List.getD_cons_zero]
    rw [if_neg (by rw [not_likeNumber hx]; simp), if_pos okx.starts]
    unfold readBoundName
    simp only [List.getD_cons_zero, List.getD_cons_succ, okx.read]
    rw [if_pos ho, hrr]
    simp [pm_ok_bind, BoundLine.low, BoundLine.high, BoundLine.name, BoundLine.tokens]
    omega
  | .both a o x o' n, ⟨_, okx, _, _, oka, okn, hle⟩ =>
    have e : (BoundLine.both a o x o' n).tokens ++ rest =
        a.tokens ++ (o.tokens ++ x :: (o'.tokens ++ (n.tokens ++ rest))) := by
      simp [BoundLine.tokens]
    obtain ⟨h, r, eh, -, -, -, -, -, -, -, hnum⟩ := number_head oka.ok
      (o.tokens ++ x :: (o'.tokens ++ (n.tokens ++ rest)))
    have hl := readLeft_eq o oka.ok (o'.tokens ++ (n.tokens ++ rest)) (a := x)
      (okx.ne (by decide)) (okx.ne (by decide)) (okx.ne (by decide))
    rw [value_cast] at hl
    have ho := op_head o' (n.tokens ++ rest)
    have hrr := readRight_eq o' okn.ok rest
    rw [value_cast] at hrr
    simp only [e]
    rw [if_pos (by rw [eh]; exact hnum), hl]
    simp only [pm_ok_bind]
    unfold readBoundLeft
    have g0 : ∀ i, (a.tokens ++ (o.tokens ++ x :: (o'.tokens ++ (n.tokens ++ rest)))).getD
        (a.tokens.length + o.tokens.length + i) [] =
        (x :: (o'.tokens ++ (n.tokens ++ rest))).getD i [] := by
      intro i
      rw [Nat.add_assoc, getD_append_add, getD_append_add]
    have g00 := g0 0
    rw [Nat.add_zero] at g00
    simp only [g00, g0, List.getD_cons_zero, List.getD_cons_succ, okx.read, ho, hrr, pm_ok_bind]
    have hlt : D.lt (.fin ((n.value ival : Int) : Rat)) (.fin ((a.value ival : Int) : Rat)) =
        false := by
      simp only [D.lt, decide_eq_false_iff_not, not_lt]
      exact_mod_cast hle
    rw [hlt]
    simp [BoundLine.low, BoundLine.high, BoundLine.name, BoundLine.tokens]
    omega

theorem map_modify_idxOf {M : List Token} (hM : M.Nodup) {x : Token} (hx : x ∈ M)
    (V : Token → VarValue) (f : VarValue → VarValue) :
    (M.map V).modify (M.idxOf x) f = M.map fun m => if m = x then f (V m) else V m := by
  induction M with
  | nil => cases hx
  | cons a M ih =>
    rw [List.nodup_cons] at hM
    by_cases h : a = x
    · subst h
      rw [List.idxOf_cons_self]
      simp only [List.map_cons, List.modify_zero_cons, ↓reduceIte]
      congr 1
      apply List.map_congr_left
      intro m hm
      rw [if_neg (by rintro rfl; exact hM.1 hm)]
    · have hx' : x ∈ M := by
        rcases List.mem_cons.mp hx with e | hx
        · exact absurd e.symm h
        · exact hx
      rw [List.idxOf_cons_ne _ h]
      simp only [List.map_cons, List.modify_succ_cons, if_neg h]
      rw [ih hM.2 hx']

/-- The problem after the constraints: only the values change. -/
def withValues (p : PProblem) (V : Token → VarValue) : PProblem :=
  { p with values := p.names.map V }

theorem getVariable_mem {p : PProblem} {x : Token} (h : x ∈ p.names) :
    p.getVariable x = some (p.names.idxOf x) := by rw [getVariable_eq, if_pos h]

theorem setBound_eq {p : PProblem} (hp : p.names.Nodup) {x : Token} (hx : x ∈ p.names)
    (V : Token → VarValue) {lo hi : Int} (hlo : IsInt lo) (hhi : IsInt hi) :
    (withValues p V).setBound (.fin (lo : Rat)) (.fin (hi : Rat)) x =
      .ok (some (withValues p fun m => if m = x then { V m with min := lo, max := hi } else V m)) := by
  unfold PProblem.setBound
  rw [getVariable_mem (p := withValues p V) hx]
  simp only [boundMin, boundMax, reduceCtorEq, ↓reduceIte, toInt_cast hlo, toInt_cast hhi,
    pm_ok_bind]
  simp only [withValues]
  rw [map_modify_idxOf hp hx]

theorem BoundOk.lowHigh {names : List Token} {b : BoundLine} (ok : BoundOk scan ival names b) :
    IsInt (b.low ival) ∧ IsInt (b.high ival) ∧ b.name ∈ names := by
  match b, ok with
  | .upper x o n, ⟨h, _, _, _, okn⟩ =>
    exact ⟨(by decide : intMin ≤ 0 ∧ 0 ≤ intMax), value_isInt okn, h⟩
  | .both a o x o' n, ⟨h, _, _, _, oka, okn, _⟩ => exact ⟨value_isInt oka, value_isInt okn, h⟩

theorem bound_length (b : BoundLine) : 1 ≤ b.tokens.length ∧ b.tokens.length < 10 := by
  match b with
  | .upper x o n =>
    simp only [BoundLine.tokens, List.length_cons, List.length_append]
    obtain ⟨sign, num⟩ := n
    cases o <;> (match sign with
      | none | some false | some true => simp [OpWord.tokens, Number.tokens, signTokens])
  | .both a o x o' n =>
    simp only [BoundLine.tokens, List.length_cons, List.length_append]
    obtain ⟨sign, num⟩ := n
    obtain ⟨sign', num'⟩ := a
    have h1 : o.tokens.length ≤ 2 := by cases o <;> decide
    have h2 : o'.tokens.length ≤ 2 := by cases o' <;> decide
    have h3 : (signTokens sign).length ≤ 1 := by
      match sign with
      | none | some false | some true => simp [signTokens]
    have h4 : (signTokens sign').length ≤ 1 := by
      match sign' with
      | none | some false | some true => simp [signTokens]
    simp only [Number.tokens, List.length_append, List.length_cons, List.length_nil]
    omega

theorem bound_head {names : List Token} {b : BoundLine} (ok : BoundOk scan ival names b)
    (rest : List Token) : isKeyword ((b.tokens ++ rest).getD 0 []) = false ∧
      (b.tokens ++ rest).getD 0 [] ≠ [':'] := by
  match b, ok with
  | .upper x o n, ⟨_, okx, _, _, _⟩ => exact ⟨okx.kw, okx.ne (by decide)⟩
  | .both a o x o' n, ⟨_, _, _, _, oka, _, _⟩ =>
    obtain ⟨h, r, eh, _, _, _, h2, h1, -⟩ := number_head oka.ok
      (o.tokens ++ x :: (o'.tokens ++ (n.tokens ++ rest)))
    have e : (BoundLine.both a o x o' n).tokens ++ rest = h :: r := by
      rw [← eh]; simp [BoundLine.tokens]
    rw [e]
    exact ⟨h1, h2⟩

theorem bound_apply {b : BoundLine} {V : Token → VarValue} (h0 : (V b.name).min = 0) (m : Token) :
    (if m = b.name then { V m with min := b.low ival, max := b.high ival } else V m) =
      b.apply ival m (V m) := by
  cases b with
  | upper x o n =>
    change (if m = x then { V m with min := 0, max := n.value ival } else V m) =
      (if x = m then { V m with max := n.value ival } else V m)
    change (V x).min = 0 at h0
    by_cases h : m = x
    · subst h
      rw [if_pos rfl, if_pos rfl, ← h0]
    · rw [if_neg h, if_neg fun hc => h hc.symm]
  | both a o x o' n =>
    change (if m = x then { V m with min := a.value ival, max := n.value ival } else V m) =
      (if x = m then { V m with min := a.value ival, max := n.value ival } else V m)
    by_cases h : m = x
    · subst h
      rw [if_pos rfl]
    · rw [if_neg h, if_neg fun hc => h hc.symm]

theorem boundLoop_prefix {p : PProblem} (hp : p.names.Nodup) {rest : List Token} :
    ∀ (bs : List BoundLine) {k : Nat} {V : Token → VarValue},
    (∀ b ∈ bs, BoundOk scan ival p.names b) → (bs.map BoundLine.name).Nodup →
    (∀ b ∈ bs, (V b.name).min = 0) →
    boundLoop listSource scan (k + bs.length) (bs.flatMap BoundLine.tokens ++ rest)
        (withValues p V) =
      boundLoop listSource scan k rest
        (withValues p fun m => bs.foldl (fun v b => b.apply ival m v) (V m)) := by
  intro bs
  induction bs with
  | nil =>
    intro k V _ _ _
    rfl
  | cons b bs ih =>
    intro k V hok hnd hmin
    have ok := hok b List.mem_cons_self
    rw [List.map_cons, List.nodup_cons] at hnd
    rw [List.flatMap_cons, List.append_assoc, List.length_cons, ← Nat.add_assoc]
    rw [boundLoop]
    rw [if_neg (by
      show ¬ isKeyword ((b.tokens ++ (bs.flatMap BoundLine.tokens ++ rest)).getD 0 []) = true
      rw [(bound_head ok _).1]; simp)]
    rw [show listSource.tok (b.tokens ++ (bs.flatMap BoundLine.tokens ++ rest)) =
      fun i => (b.tokens ++ (bs.flatMap BoundLine.tokens ++ rest)).getD i [] from rfl,
      readBound_eq ok]
    simp only [pm_ok_bind, orStop]
    rw [setBound_eq hp ok.lowHigh.2.2 V ok.lowHigh.1 ok.lowHigh.2.1]
    simp only [pm_ok_bind]
    rw [popFront_list _ _ (bound_length b).1 (bound_length b).2]
    simp only [pm_ok_bind]
    rw [ih (fun c hc => hok c (List.mem_cons_of_mem _ hc)) hnd.2 ?_]
    · congr 2
      funext m
      rw [List.foldl_cons]
      congr 1
      exact bound_apply (hmin b List.mem_cons_self) m
    · intro c hc
      rw [if_neg (by
        intro e
        exact hnd.1 (e ▸ List.mem_map_of_mem hc))]
      exact hmin c (List.mem_cons_of_mem _ hc)

theorem boundLoop_eq {p : PProblem} (hp : p.names.Nodup) {rest : List Token}
    (hrest : isKeyword (rest.getD 0 []) = true) (bs : List BoundLine) {k : Nat}
    {V : Token → VarValue} (hok : ∀ b ∈ bs, BoundOk scan ival p.names b)
    (hnd : (bs.map BoundLine.name).Nodup) (hmin : ∀ b ∈ bs, (V b.name).min = 0)
    (hk : bs.length < k) :
    boundLoop listSource scan k (bs.flatMap BoundLine.tokens ++ rest) (withValues p V) =
      .ok (rest, withValues p fun m => bs.foldl (fun v b => b.apply ival m v) (V m)) := by
  obtain ⟨j, rfl⟩ : ∃ j, k = j + 1 + bs.length := ⟨k - 1 - bs.length, by omega⟩
  rw [boundLoop_prefix hp bs hok hnd hmin, boundLoop]
  rw [if_pos (show isKeyword (listSource.tok rest 0) = true from hrest)]

/-- A token that begins no bound is refused. -/
theorem boundLoop_bad {p : PProblem} {t : Token} {rest : List Token} {k : Nat}
    (h1 : isKeyword t = false) (h2 : startsWithNumber t = false) (h3 : startsWithName t = false) :
    boundLoop listSource scan (k + 1) (t :: rest) p = .error (.status .badBound) := by
  rw [boundLoop, if_neg (by show ¬ isKeyword t = true; rw [h1]; simp)]
  unfold readBound
  rw [if_neg (by show ¬ startsWithNumber t = true; rw [h2]; simp),
    if_neg (by show ¬ startsWithName t = true; rw [h3]; simp)]
  rfl

/-- A bound of an unknown variable is refused. -/
theorem boundLoop_unknown {p : PProblem} {b : BoundLine} {names : List Token}
    (ok : BoundOk scan ival names b) (h : b.name ∉ p.names) {rest : List Token} {k : Nat} :
    boundLoop listSource scan (k + 1) (b.tokens ++ rest) p = .error (.status .badBound) := by
  rw [boundLoop, if_neg (by
    show ¬ isKeyword ((b.tokens ++ rest).getD 0 []) = true
    rw [(bound_head ok _).1]; simp)]
  rw [show listSource.tok (b.tokens ++ rest) = fun i => (b.tokens ++ rest).getD i [] from rfl,
    readBound_eq ok]
  simp only [pm_ok_bind, orStop]
  unfold PProblem.setBound
  rw [getVariable_eq, if_neg h]
  rfl

/-! ## Types -/

theorem typeLoop_eq {p : PProblem} {set : PProblem → Token → Option PProblem} {tag : Tag}
    {f : VarValue → VarValue}
    (hset : ∀ x ∈ p.names, ∀ V, set (withValues p V) x =
      some (withValues p fun m => if m = x then f (V m) else V m))
    (hf : ∀ v, f (f v) = f v) (hkw : ∀ x ∈ p.names, isKeyword x = false) {rest : List Token}
    (hrest : isKeyword (rest.getD 0 []) = true) : ∀ (l : List Token) {k : Nat}
    {V : Token → VarValue}, (∀ x ∈ l, x ∈ p.names) → l.length < k →
    typeLoop listSource set tag k (l.flatMap (fun n => [n]) ++ rest) (withValues p V) =
      .ok (rest, withValues p fun m => if m ∈ l then f (V m) else V m) := by
  intro l
  induction l with
  | nil =>
    intro k V _ hk
    match k with
    | 0 => simp at hk
    | k + 1 =>
      unfold typeLoop
      rw [if_pos (show isKeyword (listSource.tok (([] : List Token).flatMap (fun n => [n]) ++ rest)
        0) = true from hrest)]
      simp
  | cons x l ih =>
    intro k V hl hk
    match k with
    | 0 => simp at hk
    | k + 1 =>
      have hx := hl x List.mem_cons_self
      rw [List.flatMap_cons, List.append_assoc]
      unfold typeLoop
      rw [if_neg (by
        show ¬ isKeyword x = true
        rw [hkw x hx]; simp)]
      show (orStop (set (withValues p V) x) tag >>= _) = _
      rw [hset x hx V]
      simp only [orStop, pm_ok_bind]
      rw [show (popFront listSource ([x] ++ (l.flatMap (fun n => [n]) ++ rest)) 1) =
        .ok (l.flatMap (fun n => [n]) ++ rest) from popFront_list [x] _ (by simp) (by simp)]
      simp only [pm_ok_bind]
      rw [ih (fun y hy => hl y (List.mem_cons_of_mem _ hy))
        (by simp only [List.length_cons] at hk; omega)]
      congr 3
      funext m
      by_cases h1 : m = x
      · subst h1
        by_cases h2 : m ∈ l <;> simp [h2, hf]
      · simp [h1]

theorem setBoolean_eq {p : PProblem} (hp : p.names.Nodup) : ∀ x ∈ p.names, ∀ V,
    PProblem.setBoolean (withValues p V) x = some (withValues p fun m =>
      if m = x then (fun _ : VarValue => (⟨0, 1, .binary⟩ : VarValue)) (V m) else V m) := by
  intro x hx V
  unfold PProblem.setBoolean
  rw [getVariable_mem (p := withValues p V) hx]
  simp only [withValues]
  rw [← map_modify_idxOf hp hx V (fun _ => ⟨0, 1, .binary⟩), List.modify_eq_set_getElem?]
  rw [List.getElem?_map, List.getElem?_eq_getElem (List.idxOf_lt_length_iff.mpr hx)]
  rfl

theorem setInteger_eq {p : PProblem} (hp : p.names.Nodup) : ∀ x ∈ p.names, ∀ V,
    PProblem.setInteger (withValues p V) x = some (withValues p fun m =>
      if m = x then (fun v : VarValue => { v with type := .general }) (V m) else V m) := by
  intro x hx V
  unfold PProblem.setInteger
  rw [getVariable_mem (p := withValues p V) hx]
  simp only [withValues]
  rw [map_modify_idxOf hp hx V]

/-! ## Sections -/

/-- The words that begin a section. -/
def startWords : List Token :=
  ["subject".toList, "bounds".toList, "binary".toList, "general".toList, "end".toList]

/-- The next token begins a section. -/
def AtSection (l : List Token) : Prop := ∃ w ∈ startWords, ∃ r, l = w :: r

theorem AtSection.keyword {l : List Token} (h : AtSection l) : isKeyword (l.getD 0 []) = true := by
  obtain ⟨w, hw, r, rfl⟩ := h
  have : ∀ w ∈ startWords, isKeyword w = true := by decide
  exact this w hw

theorem AtSection.colon {l : List Token} (h : AtSection l) : l.getD 0 [] ≠ [':'] := by
  obtain ⟨w, hw, r, rfl⟩ := h
  have : ∀ w ∈ startWords, w ≠ [':'] := by decide
  exact this w hw

theorem areEqual_colon {t : Token} (h : t ≠ [':']) : areEqual t [':'] = false := by
  unfold areEqual
  rw [beq_eq_false_iff_ne]
  intro hc
  match t with
  | [] => simp at hc
  | a :: b :: t => simp at hc
  | [c] =>
    simp only [List.map_cons, List.map_nil, List.cons.injEq, and_true] at hc
    apply h
    rcases toLower_cases c with h1 | ⟨h1, h2⟩
    · rw [← h1, hc]; rfl
    · exfalso
      have := toLower_induct (P := fun c d => d = ':' → c = ':') (fun _ h => h)
        (by
          intro n h1 h2
          interval_cases n <;> decide) c (by rw [hc]; rfl)
      subst this
      revert h1
      decide

theorem atSection_append {w : Token} (hw : w ∈ startWords) {α : Type} (h : List Token)
    (f : α → List Token) (o : Option (List α)) {rest : List Token} (hr : AtSection rest) :
    AtSection (sectionTokens (w :: h) f o ++ rest) := by
  cases o with
  | none => exact hr
  | some l => exact ⟨w, hw, _, rfl⟩

theorem readSection_other {ws : List Token} {w b : Token} (h : (ws.any fun x => areEqual w x) = false) :
    readSection ws w b = 0 := by
  unfold readSection
  rw [h]; simp

theorem readSection_word {ws : List Token} {w b : Token} (h : (ws.any fun x => areEqual w x) = true)
    (hb : b ≠ [':']) : readSection ws w b = 1 := by
  unfold readSection
  rw [h, areEqual_colon hb]; simp

theorem popFront_one (w : Token) (rest : List Token) :
    popFront listSource (w :: rest) 1 = .ok rest := popFront_list [w] rest (by simp) (by simp)

/-- The tokens after the objective, the constraints, the bounds and the binary variables. -/
def File.tail4 (f : File) (r : List Token) : List Token :=
  sectionTokens ["general".toList] (fun n => [n]) f.general ++ "end".toList :: r

@[inherit_doc File.tail4] def File.tail3 (f : File) (r : List Token) : List Token :=
  sectionTokens ["binary".toList] (fun n => [n]) f.binary ++ (f.tail4 r)

@[inherit_doc File.tail4] def File.tail2 (f : File) (r : List Token) : List Token :=
  sectionTokens ["bounds".toList] BoundLine.tokens f.bounds ++ (f.tail3 r)

@[inherit_doc File.tail4] def File.tail1 (f : File) (r : List Token) : List Token :=
  sectionTokens ["subject".toList, "to".toList] Con.tokens f.cons ++ (f.tail2 r)

theorem File.tokens_eq (f : File) (r : List Token) : f.tokens ++ r =
    typeWord f.type :: (labelTokens f.label ++ objTokens f.obj f.more ++ f.tail1 r) := by
  simp [File.tokens, File.tail1, File.tail2, File.tail3, File.tail4]

theorem at_end (r : List Token) : AtSection ("end".toList :: r) := ⟨_, by decide, r, rfl⟩

theorem File.at4 (f : File) (r : List Token) : AtSection (f.tail4 r) := atSection_append (by decide) _ _ _ (at_end r)

theorem File.at3 (f : File) (r : List Token) : AtSection (f.tail3 r) := atSection_append (by decide) _ _ _ (f.at4 r)

theorem File.at2 (f : File) (r : List Token) : AtSection (f.tail2 r) := atSection_append (by decide) _ _ _ (f.at3 r)

theorem File.at1 (f : File) (r : List Token) : AtSection (f.tail1 r) := atSection_append (by decide) _ _ _ (f.at2 r)

/-- The words that begin `tail4`. -/
theorem File.word4 (f : File) (r : List Token) : (f.tail4 r).getD 0 [] = "general".toList ∨
    (f.tail4 r).getD 0 [] = "end".toList := by
  unfold File.tail4
  cases f.general with
  | none => exact .inr rfl
  | some l => exact .inl rfl

theorem File.word3 (f : File) (r : List Token) : (f.tail3 r).getD 0 [] = "binary".toList ∨
    (f.tail3 r).getD 0 [] = "general".toList ∨ (f.tail3 r).getD 0 [] = "end".toList := by
  unfold File.tail3
  cases f.binary with
  | none => exact .inr (f.word4 r)
  | some l => exact .inl rfl

theorem File.word2 (f : File) (r : List Token) : (f.tail2 r).getD 0 [] = "bounds".toList ∨
    (f.tail2 r).getD 0 [] = "binary".toList ∨
    (f.tail2 r).getD 0 [] = "general".toList ∨ (f.tail2 r).getD 0 [] = "end".toList := by
  unfold File.tail2
  cases f.bounds with
  | none => exact .inr (f.word3 r)
  | some l => exact .inl rfl

theorem readSubject_other {w : Token} (h : w = "bounds".toList ∨ w = "binary".toList ∨
    w = "general".toList ∨ w = "end".toList) (b c : Token) : readSubjectTo w b c = 0 := by
  have h1 : areEqual w "st".toList = false ∧ areEqual w "st.".toList = false ∧
      areEqual w "s.t".toList = false ∧ areEqual w "s.t.".toList = false ∧
      areEqual w "subject".toList = false ∧ areEqual w "sush".toList = false := by
    rcases h with rfl | rfl | rfl | rfl <;> decide
  unfold readSubjectTo
  rw [h1.1, h1.2.1, h1.2.2.1, h1.2.2.2.1, h1.2.2.2.2.1, h1.2.2.2.2.2]
  rfl

theorem readSubject_word {c : Token} (h : c ≠ [':']) :
    readSubjectTo "subject".toList "to".toList c = 2 := by
  have h1 : (areEqual "subject".toList "st".toList || areEqual "subject".toList "st.".toList ||
    areEqual "subject".toList "s.t".toList || areEqual "subject".toList "s.t.".toList) = false := by
    decide
  have h2 : (areEqual "subject".toList "subject".toList && areEqual "to".toList "to".toList) = true := by
    decide
  unfold readSubjectTo
  rw [h1, h2, areEqual_colon h]
  rfl

theorem readGeneral_eq {p : PProblem} (hp : p.names.Nodup)
    (hkw : ∀ x ∈ p.names, isKeyword x = false ∧ x ≠ [':']) {f : File} {r : List Token}
    (hg : ∀ x ∈ f.general.getD [], x ∈ p.names) {fuel : Nat} (hf : (f.tail4 r).length < fuel)
    (V : Token → VarValue) :
    readGeneral listSource fuel (f.tail4 r) (withValues p V) = .ok ("end".toList :: r, withValues p fun m =>
      if m ∈ f.general.getD [] then { V m with type := .general } else V m) := by
  unfold readGeneral
  unfold File.tail4 at hf ⊢
  cases hb : f.general with
  | none =>
    refine (if_pos (show readSection generalWords "end".toList (r.getD 0 []) = 0 from
      readSection_other (by decide))).trans ?_
    simp [sectionTokens]
  | some l =>
    rw [hb] at hf hg
    have hcolon : (l.flatMap (fun n => [n]) ++ "end".toList :: r).getD 0 [] ≠ [':'] := by
      match l with
      | [] => exact (by decide : "end".toList ≠ [':'])
      | a :: l => exact (hkw a (hg a (by simp))).2
    have hs : readSection generalWords "general".toList
        ((l.flatMap (fun n => [n]) ++ "end".toList :: r).getD 0 []) = 1 :=
      readSection_word (by decide) hcolon
    show (if readSection generalWords "general".toList
        ((l.flatMap (fun n => [n]) ++ "end".toList :: r).getD 0 []) = 0 then _ else
      (popFront listSource ("general".toList :: (l.flatMap (fun n => [n]) ++ "end".toList :: r))
        (readSection generalWords "general".toList
        ((l.flatMap (fun n => [n]) ++ "end".toList :: r).getD 0 [])) >>= _)) = _
    rw [hs, if_neg (by decide), popFront_one]
    simp only [pm_ok_bind]
    rw [typeLoop_eq (f := fun v => { v with type := .general }) (setInteger_eq hp) (fun _ => rfl) (fun x hx => (hkw x hx).1)
      (rest := "end".toList :: r) (show isKeyword "end".toList = true by decide) l hg
      (by simp [sectionTokens] at hf; omega)]
    rfl

theorem readBinary_eq {p : PProblem} (hp : p.names.Nodup)
    (hkw : ∀ x ∈ p.names, isKeyword x = false ∧ x ≠ [':']) {f : File} {r : List Token}
    (hg : ∀ x ∈ f.binary.getD [], x ∈ p.names) {fuel : Nat} (hf : (f.tail3 r).length < fuel)
    (V : Token → VarValue) :
    readBinary listSource fuel (f.tail3 r) (withValues p V) = .ok ((f.tail4 r), withValues p fun m =>
      if m ∈ f.binary.getD [] then ⟨0, 1, .binary⟩ else V m) := by
  unfold readBinary
  unfold File.tail3 at hf ⊢
  cases hb : f.binary with
  | none =>
    refine (if_pos (show readSection binaryWords ((f.tail4 r).getD 0 []) ((f.tail4 r).getD 1 []) = 0 from
      readSection_other (by rcases (f.word4 r) with h | h <;> rw [h] <;> decide))).trans ?_
    simp [sectionTokens]
  | some l =>
    rw [hb] at hf hg
    have hcolon : (l.flatMap (fun n => [n]) ++ (f.tail4 r)).getD 0 [] ≠ [':'] := by
      match l with
      | [] => exact (f.at4 r).colon
      | a :: l => exact (hkw a (hg a (by simp))).2
    have hs : readSection binaryWords "binary".toList
        ((l.flatMap (fun n => [n]) ++ (f.tail4 r)).getD 0 []) = 1 :=
      readSection_word (by decide) hcolon
    show (if readSection binaryWords "binary".toList
        ((l.flatMap (fun n => [n]) ++ (f.tail4 r)).getD 0 []) = 0 then _ else
      (popFront listSource ("binary".toList :: (l.flatMap (fun n => [n]) ++ (f.tail4 r)))
        (readSection binaryWords "binary".toList
        ((l.flatMap (fun n => [n]) ++ (f.tail4 r)).getD 0 [])) >>= _)) = _
    rw [hs, if_neg (by decide), popFront_one]
    simp only [pm_ok_bind]
    rw [typeLoop_eq (f := fun _ => ⟨0, 1, .binary⟩) (setBoolean_eq hp) (fun _ => rfl) (fun x hx => (hkw x hx).1) (f.at4 r).keyword l hg
      (by simp [sectionTokens] at hf; omega)]
    rfl

theorem bounds_length (bs : List BoundLine) : bs.length ≤ (bs.flatMap BoundLine.tokens).length := by
  induction bs with
  | nil => simp
  | cons b bs ih =>
    have := (bound_length b).1
    rw [List.flatMap_cons, List.length_append, List.length_cons]; omega

theorem readBounds_eq {p : PProblem} (hp : p.names.Nodup) {f : File} {r : List Token}
    (hok : ∀ b ∈ f.bounds.getD [], BoundOk scan ival p.names b)
    (hnd : ((f.bounds.getD []).map BoundLine.name).Nodup) {V : Token → VarValue}
    (hV : ∀ m, (V m).min = 0) {fuel : Nat} (hf : (f.tail2 r).length < fuel) :
    readBounds listSource scan fuel (f.tail2 r) (withValues p V) = .ok ((f.tail3 r), withValues p fun m =>
      (f.bounds.getD []).foldl (fun v b => b.apply ival m v) (V m)) := by
  unfold readBounds
  unfold File.tail2 at hf ⊢
  cases hb : f.bounds with
  | none =>
    refine (if_pos (show readSection boundsWords ((f.tail3 r).getD 0 []) ((f.tail3 r).getD 1 []) = 0 from
      readSection_other (by rcases (f.word3 r) with h | h | h <;> rw [h] <;> decide))).trans ?_
    simp [sectionTokens]
  | some l =>
    rw [hb] at hf hok hnd
    have hcolon : (l.flatMap BoundLine.tokens ++ (f.tail3 r)).getD 0 [] ≠ [':'] := by
      match l with
      | [] => exact (f.at3 r).colon
      | a :: l =>
        rw [List.flatMap_cons, List.append_assoc]
        exact (bound_head (hok a (by simp)) _).2
    have hs : readSection boundsWords "bounds".toList
        ((l.flatMap BoundLine.tokens ++ (f.tail3 r)).getD 0 []) = 1 :=
      readSection_word (by decide) hcolon
    show (if readSection boundsWords "bounds".toList
        ((l.flatMap BoundLine.tokens ++ (f.tail3 r)).getD 0 []) = 0 then _ else
      (popFront listSource ("bounds".toList :: (l.flatMap BoundLine.tokens ++ (f.tail3 r)))
        (readSection boundsWords "bounds".toList
        ((l.flatMap BoundLine.tokens ++ (f.tail3 r)).getD 0 [])) >>= _)) = _
    rw [hs, if_neg (by decide), popFront_one]
    simp only [pm_ok_bind]
    have := bounds_length l
    rw [boundLoop_eq hp (f.at3 r).keyword l hok hnd (fun b _ => hV _)
      (by
        rw [List.length_append, sectionTokens, List.length_append] at hf
        omega)]
    rfl

theorem select_length (M : List Token) (l : List (Con × Nat)) :
    (select ival M .equal l).length + (select ival M .greater l).length +
      (select ival M .less l).length = l.length := by
  induction l with
  | nil => rfl
  | cons x l ih =>
    obtain ⟨c, i⟩ := x
    rw [select_cons, select_cons, select_cons]
    simp only [List.length_append, List.length_cons]
    cases c.op.op <;> simp <;> omega

theorem cons_colon {l : List Con} (hok : ∀ c ∈ l, ConOk scan ival c) {rest : List Token}
    (hr : rest.getD 0 [] ≠ [':']) : (l.flatMap Con.tokens ++ rest).getD 0 [] ≠ [':'] := by
  match l with
  | [] => exact hr
  | a :: l =>
    rw [List.flatMap_cons, List.append_assoc]
    exact (con_head (hok a (by simp)) _).2.2

theorem readConstraints_eq {M : List Token} {ty : ObjType} {E : List (Token × Rat)} {v : Rat} {Q : List PQuad}
    (hl : (M.length : Int) ≤ intMax) {f : File} {N rest : List Token} (hrest : AtSection rest)
    (hword : rest.getD 0 [] = "bounds".toList ∨ rest.getD 0 [] = "binary".toList ∨
      rest.getD 0 [] = "general".toList ∨ rest.getD 0 [] = "end".toList)
    (hok : ∀ c ∈ f.cons.getD [], ConOk scan ival c)
    (hM : addNames N ((f.cons.getD []).flatMap fun c => c.terms.filterMap Term.name) <+: M)
    (hfew : ((f.cons.getD []).length : Int) ≤ intMax) {fuel : Nat} (hf : (sectionTokens ["subject".toList, "to".toList] Con.tokens f.cons ++ rest).length < fuel) :
    readConstraints listSource scan fuel
        (sectionTokens ["subject".toList, "to".toList] Con.tokens f.cons ++ rest) (partOf M ty N E v Q [] [] []) =
      .ok (rest, partOf M ty
        (addNames N ((f.cons.getD []).flatMap fun c => c.terms.filterMap Term.name)) E v Q
        (select ival M .equal (f.cons.getD []).zipIdx)
        (select ival M .greater (f.cons.getD []).zipIdx)
        (select ival M .less (f.cons.getD []).zipIdx)) := by
  unfold readConstraints
  cases hb : f.cons with
  | none =>
    refine (if_pos (show readSubjectTo (rest.getD 0 []) (rest.getD 1 []) (rest.getD 2 []) = 0
      from readSubject_other hword _ _)).trans ?_
    simp [sectionTokens, addNames, select]
  | some l =>
    rw [hb] at hf hok hM hfew
    simp only [Option.getD_some] at hok hM hfew ⊢
    have hcolon := cons_colon hok hrest.colon
    have hs := readSubject_word hcolon
    have hpop : popFront listSource
        ("subject".toList :: "to".toList :: (l.flatMap Con.tokens ++ rest)) 2 =
          .ok (l.flatMap Con.tokens ++ rest) :=
      popFront_list ["subject".toList, "to".toList] _ (by decide) (by decide)
    rw [show sectionTokens ["subject".toList, "to".toList] Con.tokens (some l) ++ rest =
      "subject".toList :: "to".toList :: (l.flatMap Con.tokens ++ rest) from rfl] at hf ⊢
    generalize "subject".toList = w1, "to".toList = w2 at hs hpop hf ⊢
    show (if readSubjectTo w1 w2 ((l.flatMap Con.tokens ++ rest).getD 0 []) = 0 then _ else
      (popFront listSource (w1 :: w2 :: (l.flatMap Con.tokens ++ rest))
        (readSubjectTo w1 w2 ((l.flatMap Con.tokens ++ rest).getD 0 [])) >>= _)) = _
    rw [hs, if_neg (by decide), hpop]
    simp only [pm_ok_bind]
    rw [constrLoop_eq hl hrest.keyword l hok (by
      rw [List.length_cons, List.length_cons, List.length_append] at hf
      omega) hM]
    simp only [pm_ok_bind, List.nil_append]
    rw [if_neg (by
      have := select_length (ival := ival) M l.zipIdx
      rw [List.length_zipIdx] at this
      simp only [partOf, this]
      omega)]

theorem readEnd_eq : readEnd listSource ["end".toList] = .ok () := by decide

theorem readHead_eq {f : File} (hlab : ∀ l ∈ f.label, NameOk scan l) {B : List Token}
    (hB : ∀ a ∈ B, a ≠ [':']) {rest : List Token} (hrest : AtSection rest) :
    readHead listSource (typeWord f.type :: (labelTokens f.label ++ B ++ rest)) {} =
      .ok (B ++ rest, { type := f.type }) := by
  rw [readHead_cons]
  have ht : readObjectiveType (typeWord f.type) = some f.type := by
    cases f.type <;> decide
  rw [ht]
  simp only [orStop, pm_ok_bind]
  cases hl : f.label with
  | some lb =>
    have o := hlab lb hl
    have hk : readLabel lb [':'] = 2 := by
      unfold readLabel
      rw [o.kw]; rfl
    show (if readLabel lb [':'] = 0 then _ else
      (popFront listSource _ (readLabel lb [':']) >>= _)) = _
    rw [hk, if_neg (by decide)]
    rfl
  | none =>
    rw [if_pos]
    · rfl
    · show readLabel ((B ++ rest).getD 0 []) ((B ++ rest).getD 1 []) = 0
      obtain ⟨w, hw, r, hr⟩ := id hrest
      match B, hB with
      | [], _ => exact if_pos hrest.keyword
      | b :: B, hB =>
        have : (b :: B ++ rest).getD 1 [] ≠ [':'] := by
          rw [hr, show b :: B ++ w :: r = (b :: B ++ [w]) ++ r by simp]
          apply getD_one_ne
          · simp
          · intro a ha
            rcases List.mem_append.mp ha with ha | ha
            · exact hB a ha
            · rw [List.mem_singleton] at ha
              have : ∀ w ∈ startWords, w ≠ [':'] := by decide
              rw [ha]
              exact this w hw
        unfold readLabel
        rw [areEqual_colon this]
        split <;> rfl

theorem qterm_tokens_ne {t : QTerm} (h : QTermOk scan val t) : ∀ a ∈ t.tokens, a ≠ [':'] := by
  intro a ha
  rw [t.tokens_eq] at ha
  rcases List.mem_append.mp ha with ha | ha
  · exact term_tokens_ne h.first a ha
  · unfold QTerm.last at ha
    cases hs : t.second with
    | none =>
      rw [hs] at ha
      simp only [List.mem_cons, List.not_mem_nil, or_false] at ha
      rcases ha with rfl | rfl <;> decide
    | some y =>
      rw [hs] at ha
      simp only [List.mem_cons, List.not_mem_nil, or_false] at ha
      rcases ha with rfl | rfl
      · decide
      · exact (h.second a hs).ne (by decide)

theorem FileOk.group {f : File} (ok : FileOk scan val ival f) {g : Group} (hg : g ∈ f.more) :
    ∀ t ∈ g.terms, TermOk scan val t := fun t ht =>
  ok.obj t (List.mem_append_right _ (List.mem_flatMap.mpr ⟨g, hg, ht⟩))

theorem FileOk.quad_of {f : File} (ok : FileOk scan val ival f) {g : Group} (hg : g ∈ f.more) :
    ∀ t ∈ g.quad.terms, QTermOk scan val t := ok.quad g.quad (List.mem_map.mpr ⟨g, hg, rfl⟩)

theorem objTokens_ne {f : File} (ok : FileOk scan val ival f) :
    ∀ a ∈ objTokens f.obj f.more, a ≠ [':'] := by
  intro a ha
  rcases List.mem_append.mp ha with ha | ha
  · obtain ⟨u, hu, ha⟩ := List.mem_flatMap.mp ha
    exact term_tokens_ne (ok.obj u (List.mem_append_left _ hu)) a ha
  · obtain ⟨g, hg, ha⟩ := List.mem_flatMap.mp ha
    rcases List.mem_append.mp ha with ha | ha
    swap
    · obtain ⟨u, hu, ha⟩ := List.mem_flatMap.mp ha
      exact term_tokens_ne (ok.group hg u hu) a ha
    unfold Quad.tokens at ha
    simp only [List.mem_append, List.mem_cons, List.mem_flatMap] at ha
    rcases ha with ha | rfl | ⟨t, ht, ha⟩ | rfl | ha
    · revert ha
      match g.quad.sign with
      | none => simp [signTokens]
      | some false | some true => simp only [signTokens, List.mem_singleton]; rintro rfl; decide
    · decide
    · exact qterm_tokens_ne (ok.quad_of hg t ht) a ha
    · decide
    · split at ha
      · simp only [List.mem_cons, List.not_mem_nil, or_false] at ha
        rcases ha with rfl | rfl <;> decide
      · rw [List.mem_singleton] at ha
        subst ha
        decide

theorem File.names_eq (f : File) : f.names = addNames (addNames [] f.objNames)
    ((f.cons.getD []).flatMap fun c => c.terms.filterMap Term.name) := by
  unfold File.names
  rw [firsts_eq, addNames_append]

theorem FileOk.names_nodup (f : File) : f.names.Nodup := by
  rw [f.names_eq]; exact nodup_addNames (nodup_addNames List.nodup_nil)

theorem FileOk.name {f : File} (ok : FileOk scan val ival f) : ∀ x ∈ f.names, NameOk scan x := by
  intro x hx
  rw [f.names_eq, mem_addNames, mem_addNames, File.objNames, List.mem_append] at hx
  rcases hx with (hx | hx | hx) | hx
  · cases hx
  · obtain ⟨t, ht, hx⟩ := List.mem_filterMap.mp hx
    exact (ok.obj t (List.mem_append_left _ ht)).name x hx
  · obtain ⟨g, hg, hx⟩ := List.mem_flatMap.mp hx
    rcases List.mem_append.mp hx with hx | hx
    swap
    · obtain ⟨t, ht, hx⟩ := List.mem_filterMap.mp hx
      exact (ok.group hg t ht).name x hx
    obtain ⟨t, ht, hx⟩ := List.mem_flatMap.mp hx
    have okt := ok.quad_of hg t ht
    simp only [QTerm.pair, List.mem_cons, List.not_mem_nil, or_false] at hx
    rcases hx with rfl | rfl
    · exact okt.name
    · cases hs : t.second with
      | none => exact okt.name
      | some y => exact okt.second y hs
  · obtain ⟨c, hc, hx⟩ := List.mem_flatMap.mp hx
    obtain ⟨t, ht, hx⟩ := List.mem_filterMap.mp hx
    exact ((ok.cons c hc).cterm t ht).term.name x hx

/-- The parser reads the tokens of a file that is written correctly as the problem that it
denotes, then the end of the file. -/
theorem parse_after {f : File} (ok : FileOk scan val ival f) {r : List Token} {fuel : Nat}
    (hf : (f.tokens ++ r).length < fuel) :
    parse listSource scan fuel (f.tokens ++ r) =
      (readEnd listSource ("end".toList :: r) >>= fun _ => .ok (f.problem val ival)) := by
  have hnd : f.names.Nodup := FileOk.names_nodup f
  have hname : ∀ x ∈ f.names, NameOk scan x := ok.name
  have hlen1 : (f.tokens ++ r).length = 1 + (labelTokens f.label).length +
      (objTokens f.obj f.more).length + (f.tail1 r).length := by
    rw [f.tokens_eq]; simp; omega
  have h21 : (f.tail2 r).length ≤ (f.tail1 r).length := by
    unfold File.tail1; rw [List.length_append]; omega
  have h32 : (f.tail3 r).length ≤ (f.tail2 r).length := by
    unfold File.tail2; rw [List.length_append]; omega
  have h43 : (f.tail4 r).length ≤ (f.tail3 r).length := by
    unfold File.tail3; rw [List.length_append]; omega
  unfold parse
  rw [File.tokens_eq, readHead_eq ok.label (objTokens_ne ok) (f.at1 r)]
  simp only [pm_ok_bind]
  rw [objLoop_obj (M := f.names) ok.few (f.at1 r).keyword ok.obj ok.signed ok.quad (by omega)
    (by rw [f.names_eq]; exact prefix_addNames _ _)]
  simp only [pm_ok_bind]
  rw [File.tail1, readConstraints_eq ok.few (f.at2 r) (f.word2 r) ok.cons
    (by rw [← f.names_eq]; exact List.prefix_refl _) ok.few_cons
    (by have : (f.tail1 r).length < fuel := by omega
        exact this), ← f.names_eq]
  simp only [pm_ok_bind]
  generalize hp : partOf f.names f.type f.names (addPairs [] (named val f.linear))
    (constant val f.linear) (quadsOf f.names (addProds [] (f.quads.flatMap (Quad.products val))))
    (select ival f.names .equal (f.cons.getD []).zipIdx)
    (select ival f.names .greater (f.cons.getD []).zipIdx)
    (select ival f.names .less (f.cons.getD []).zipIdx) = p
  have hpn : p.names = f.names := by rw [← hp]; rfl
  have hpv : p = withValues p fun _ => ⟨0, intMax, .real⟩ := by rw [← hp]; rfl
  have hkw : ∀ x ∈ p.names, isKeyword x = false ∧ x ≠ [':'] := by
    intro x hx
    rw [hpn] at hx
    exact ⟨(hname x hx).kw, (hname x hx).ne (by decide)⟩
  rw [hpv, readBounds_eq (scan := scan) (ival := ival) (hpn ▸ hnd) (hpn ▸ ok.bounds)
    ok.bounds_nodup (fun _ => rfl) (by omega)]
  simp only [pm_ok_bind]
  rw [readBinary_eq (hpn ▸ hnd) hkw (hpn ▸ ok.binary) (by omega)]
  simp only [pm_ok_bind]
  rw [readGeneral_eq (hpn ▸ hnd) hkw (hpn ▸ ok.general) (by omega)]
  simp only [pm_ok_bind]
  congr 1
  funext _
  congr 1
  rw [← hp]
  unfold withValues File.problem partOf
  simp only [collect_eq, collectPairs_eq]
  rfl

/-- The parser reads the tokens of a file that is written correctly as the problem that it
denotes. -/
theorem parse_file {f : File} (ok : FileOk scan val ival f) {fuel : Nat}
    (hf : f.tokens.length < fuel) :
    parse listSource scan fuel f.tokens = .ok (f.problem val ival) := by
  have := parse_after (r := []) ok (by rwa [List.append_nil])
  rw [List.append_nil] at this
  rw [this, readEnd_eq]
  rfl

/-- The tokens of a file up to its bounds. -/
def File.start (f : File) (rest : List Token) : List Token :=
  typeWord f.type :: (labelTokens f.label ++ objTokens f.obj f.more ++
    (sectionTokens ["subject".toList, "to".toList] Con.tokens f.cons ++
      ("bounds".toList :: rest)))

/-- A file up to its bounds, then lines of bounds, then anything that the bounds refuse. -/
theorem parse_bad_bound {f : File} (ok : FileOk scan val ival f) {bs : List BoundLine}
    (hb : f.bounds = some bs) {bad : List Token} (hcolon : bs = [] → bad.getD 0 [] ≠ [':'])
    (hbad : ∀ k p, p.names = f.names →
      boundLoop listSource scan (k + 1) bad p = .error (.status .badBound)) {fuel : Nat}
    (hf : (f.start (bs.flatMap BoundLine.tokens ++ bad)).length < fuel) :
    parse listSource scan fuel (f.start (bs.flatMap BoundLine.tokens ++ bad)) =
      .error (.status .badBound) := by
  have hat : AtSection ("bounds".toList :: (bs.flatMap BoundLine.tokens ++ bad)) :=
    ⟨_, by decide, _, rfl⟩
  have hat1 := atSection_append (w := "subject".toList) (by decide) ["to".toList] Con.tokens f.cons hat
  have hbl := bounds_length bs
  unfold File.start at hf ⊢
  simp only [List.length_cons, List.length_append] at hf
  unfold parse
  rw [readHead_eq ok.label (objTokens_ne ok) hat1]
  simp only [pm_ok_bind]
  rw [objLoop_obj (M := f.names) ok.few hat1.keyword ok.obj ok.signed ok.quad (by omega)
    (by rw [f.names_eq]; exact prefix_addNames _ _)]
  simp only [pm_ok_bind]
  rw [readConstraints_eq ok.few hat (.inl rfl) ok.cons
    (by rw [← f.names_eq]; exact List.prefix_refl _) ok.few_cons
    (by simp only [List.length_cons, List.length_append]; omega), ← f.names_eq]
  simp only [pm_ok_bind]
  generalize hp : partOf f.names f.type f.names (addPairs [] (named val f.linear))
    (constant val f.linear) (quadsOf f.names (addProds [] (f.quads.flatMap (Quad.products val))))
    (select ival f.names .equal (f.cons.getD []).zipIdx)
    (select ival f.names .greater (f.cons.getD []).zipIdx)
    (select ival f.names .less (f.cons.getD []).zipIdx) = p
  have hpn : p.names = f.names := by rw [← hp]; rfl
  have hpv : p = withValues p fun _ => ⟨0, intMax, .real⟩ := by rw [← hp]; rfl
  have okb := ok.bounds
  have okn := ok.bounds_nodup
  rw [hb] at okb okn
  simp only [Option.getD_some] at okb okn
  have hc : (bs.flatMap BoundLine.tokens ++ bad).getD 0 [] ≠ [':'] := by
    match bs, hcolon, okb with
    | [], hcolon, _ => exact hcolon rfl
    | b :: bs, _, okb =>
      rw [List.flatMap_cons, List.append_assoc]
      exact (bound_head (okb b (by simp)) _).2
  have hs : readSection boundsWords "bounds".toList
      ((bs.flatMap BoundLine.tokens ++ bad).getD 0 []) = 1 := readSection_word (by decide) hc
  have hrb : readBounds listSource scan fuel
      ("bounds".toList :: (bs.flatMap BoundLine.tokens ++ bad)) p = .error (.status .badBound) := by
    unfold readBounds
    generalize "bounds".toList = w at hs
    show (if readSection boundsWords w ((bs.flatMap BoundLine.tokens ++ bad).getD 0 []) = 0 then _ else
      (popFront listSource (w :: (bs.flatMap BoundLine.tokens ++ bad))
        (readSection boundsWords w ((bs.flatMap BoundLine.tokens ++ bad).getD 0 [])) >>= _)) = _
    rw [hs, if_neg (by decide), popFront_one]
    simp only [pm_ok_bind]
    obtain ⟨j, hj⟩ : ∃ j, fuel = j + 1 + bs.length := ⟨fuel - 1 - bs.length, by omega⟩
    rw [hpv, hj, boundLoop_prefix (hpn ▸ FileOk.names_nodup f) bs (hpn ▸ okb) okn fun _ _ => rfl]
    exact hbad j _ hpn
  rw [hrb]
  rfl

/-! ## No quadratic term -/

theorem toLower_inv {x c : Char} (h : x.toLower = c) (hc : ¬ (97 ≤ c.toNat ∧ c.toNat ≤ 122)) :
    x = c := by
  revert h
  refine toLower_induct (P := fun x d => d = c → x = c) (fun _ h => h) ?_ x
  intro n h1 h2 h
  exfalso
  apply hc
  rw [← h]
  have : ∀ m : Fin 26, 97 ≤ (Char.ofNat (65 + m)).toLower.toNat ∧
      (Char.ofNat (65 + m)).toLower.toNat ≤ 122 := by decide
  have := this ⟨n - 65, by omega⟩
  rwa [show 65 + ((⟨n - 65, by omega⟩ : Fin 26) : Nat) = n by simp; omega] at this

theorem sameWord_open {t : Token} (h : SameWord t ['[']) : t = ['['] := by
  unfold SameWord at h
  match t with
  | [] => simp at h
  | a :: b :: t => simp at h
  | [c] =>
    simp only [List.map_cons, List.map_nil, List.cons.injEq, and_true] at h
    rw [toLower_inv h (by decide)]
    rfl

theorem reserved_length {t : Token} (h : Reserved t) : 2 ≤ t.length := by
  obtain ⟨w, hw, hs⟩ := h
  have hl : t.length = w.toList.length := by
    have := congrArg List.length hs
    simpa using this
  rw [hl]
  have : ∀ w ∈ sectionWords, 2 ≤ w.toList.length := by decide
  exact this w hw

theorem recased_open {ts us : List Token} (h : Recased ts us) (ho : ['['] ∉ ts) : ['['] ∉ us := by
  have hf : ∀ {ts us : List Token}, List.Forall₂ KeywordCase ts us → ['['] ∉ ts → ['['] ∉ us := by
    intro ts us h ho hm
    induction h with
    | nil => cases hm
    | cons h1 _ ih =>
      rcases List.mem_cons.mp hm with e | hm
      · rcases h1 with h1 | ⟨h1, h2⟩
        · exact ho (by rw [e, ← h1]; exact List.mem_cons_self)
        · rw [← e] at h2
          have := sameWord_open h2
          rw [this] at h1
          have := reserved_length h1
          simp at this
      · exact ih (fun h => ho (List.mem_cons_of_mem _ h)) hm
  intro hm
  cases h with
  | sections h1 h2 =>
    rcases List.mem_cons.mp hm with e | hm
    · rw [← e] at h1
      exact ho (by rw [sameWord_open h1]; exact List.mem_cons_self)
    · exact hf h2 (fun h => ho (List.mem_cons_of_mem _ h)) hm
  | @subject h h' s s' w w' pre ts us x h1 h2 hx h3 h4 h5 h6 h7 =>
    have hlen : ∀ x ∈ subjectWords, 2 ≤ x.1.toList.length ∧ 2 ≤ x.2.toList.length := by decide
    have hsw : ∀ {t u : Token}, SameWord t u → t.length = u.length := by
      intro t u h
      have := congrArg List.length h
      simpa using this
    simp only [List.mem_cons, List.mem_append, not_or] at hm ho
    rcases hm with e | hm | e | e | hm
    · rw [← e] at h1
      exact ho.1 (sameWord_open h1).symm
    · exact ho.2.1 hm
    · have := (hlen x hx).1
      rw [← hsw h4, ← e] at this
      simp at this
    · have := (hlen x hx).2
      rw [← hsw h6, ← e] at this
      simp at this
    · exact hf h7 ho.2.2.2.2 hm

theorem recased_same {ts us : List Token} (h : Recased ts us) : List.Forall₂ SameWord ts us := by
  have hf : ∀ {ts us : List Token}, List.Forall₂ KeywordCase ts us → List.Forall₂ SameWord ts us := by
    intro ts us h
    refine h.imp ?_
    rintro a b (rfl | ⟨-, h⟩)
    · rfl
    · exact h
  cases h with
  | sections h1 h2 => exact .cons h1 (hf h2)
  | @subject h h' s s' w w' pre ts us x h1 h2 hx h3 h4 h5 h6 h7 =>
    have hw : List.Forall₂ SameWord (s :: w :: ts) (s' :: w' :: us) :=
      .cons (Eq.trans h3 h4.symm) (.cons (Eq.trans h5 h6.symm) (hf h7))
    refine .cons h1 ?_
    clear h2
    induction pre with
    | nil => exact hw
    | cons a pre ih => exact .cons rfl ih

theorem sameWord_star {t : Token} (h : SameWord t ['*']) : t = ['*'] := by
  unfold SameWord at h
  match t with
  | [] => simp at h
  | a :: b :: t => simp at h
  | [c] =>
    simp only [List.map_cons, List.map_nil, List.cons.injEq, and_true] at h
    rw [toLower_inv h (by decide)]
    rfl

theorem same_getD {ts us : List Token} (h : List.Forall₂ SameWord ts us) (i : Nat) :
    SameWord (ts.getD i []) (us.getD i []) := by
  induction h generalizing i with
  | nil => rfl
  | cons h1 _ ih =>
    cases i with
    | zero => exact h1
    | succ i => exact ih i

theorem starsOk_iff {ts : List Token} : StarsOk ts ↔ Stars ts := by
  unfold StarsOk Stars
  simp only [reserved_iff, Bool.not_eq_true]

theorem recased_stars {ts us : List Token} (h : Recased ts us) (hs : Stars ts) : Stars us := by
  intro i hi
  have h' := recased_same h
  have h0 := same_getD h' i
  rw [hi] at h0
  have h1 := hs i (sameWord_star h0)
  rw [isKeyword_congr (sameWord_iff.mp (same_getD h' (i + 1)))] at h1
  exact h1

theorem number_tokens_open {n : Number} (h : NumOk scan val n.num) : ['['] ∉ n.tokens := by
  obtain ⟨sign, num⟩ := n
  have : ['['] ≠ num := fun e => h.ne (c := '[') (by decide) e.symm
  match sign with
  | none | some false | some true => simp [Number.tokens, signTokens, this]

theorem term_tokens_open {t : Term} (h : TermOk scan val t) : ['['] ∉ t.tokens := by
  intro ha
  unfold Term.tokens at ha
  simp only [List.mem_append, Option.mem_toList] at ha
  rcases ha with (ha | ha) | ha
  · match hs : t.sign with
    | none => rw [hs] at ha; cases ha
    | some false | some true =>
      rw [hs] at ha
      revert ha
      decide
  · exact (h.num _ ha).ne (c := '[') (by decide) rfl
  · exact (h.name _ ha).ne (c := '[') (by decide) rfl

theorem op_tokens_open (o : OpWord) : ['['] ∉ o.tokens := by cases o <;> decide

theorem label_open {l : Option Token} (h : ∀ x ∈ l, NameOk scan x) : ['['] ∉ labelTokens l := by
  cases l with
  | none => simp [labelTokens]
  | some x =>
    have : ['['] ≠ x := fun e => (h x rfl).ne (c := '[') (by decide) e.symm
    simp [labelTokens, this]

theorem section_open {α : Type} {h : List Token} {g : α → List Token} {o : Option (List α)}
    (hh : ['['] ∉ h) (hg : ∀ x ∈ o.getD [], ['['] ∉ g x) : ['['] ∉ sectionTokens h g o := by
  cases o with
  | none => simp [sectionTokens]
  | some l =>
    simp only [sectionTokens, List.mem_append, List.mem_flatMap, not_or, not_exists, not_and]
    exact ⟨hh, hg⟩

theorem con_open {c : Con} (ok : ConOk scan ival c) : ['['] ∉ c.tokens := by
  rw [Con.tokens_eq]
  simp only [Con.body, List.mem_append, List.mem_flatMap, not_or, not_exists, not_and]
  exact ⟨label_open ok.label, fun t ht => term_tokens_open (ok.cterm t ht).term,
    op_tokens_open _, number_tokens_open ok.value.ok⟩

theorem bound_open {names : List Token} {b : BoundLine} (ok : BoundOk scan ival names b) :
    ['['] ∉ b.tokens := by
  match b, ok with
  | .upper x o n, ⟨_, okx, _, _, okn⟩ =>
    have : ['['] ≠ x := fun e => okx.ne (c := '[') (by decide) e.symm
    simp [BoundLine.tokens, this, op_tokens_open, number_tokens_open okn.ok]
  | .both a o x o' n, ⟨_, okx, _, _, oka, okn, _⟩ =>
    have : ['['] ≠ x := fun e => okx.ne (c := '[') (by decide) e.symm
    simp [BoundLine.tokens, this, op_tokens_open, number_tokens_open okn.ok,
      number_tokens_open oka.ok]

theorem file_open {f : File} (ok : FileOk scan val ival f) (hq : f.more = []) :
    ['['] ∉ f.tokens := by
  have hw : ['['] ≠ typeWord f.type := by cases f.type <;> decide
  have hn : ∀ {x : Token}, x ∈ f.names → ['['] ∉ [x] := by
    intro x hx h
    rw [List.mem_singleton] at h
    exact (ok.name x hx).ne (c := '[') (by decide) h.symm
  unfold File.tokens
  simp only [List.mem_cons, List.mem_append, not_or]
  refine ⟨hw, ⟨label_open ok.label, ?_⟩, section_open (by decide) fun c hc => con_open (ok.cons c hc),
    section_open (by decide) fun b hb => bound_open (ok.bounds b hb),
    section_open (by decide) fun x hx => hn (ok.binary x hx),
    section_open (by decide) fun x hx => hn (ok.general x hx), by decide, by simp⟩
  rw [objTokens, hq, List.flatMap_nil, List.append_nil, List.mem_flatMap]
  rintro ⟨t, ht, h⟩
  exact term_tokens_open (ok.obj t (List.mem_append_left _ ht)) h

/-- A `*` is followed by a token that is not a keyword. -/
def Pairs (l : List Token) : Prop :=
  ∀ i, l.getD i [] = ['*'] → i + 1 < l.length ∧ isKeyword (l.getD (i + 1) []) = false

theorem Pairs.stars {l : List Token} (h : Pairs l) : Stars l := fun i hi => (h i hi).2

theorem Pairs.append {l m : List Token} (h : Pairs l) (h' : Pairs m) : Pairs (l ++ m) := by
  intro i hi
  by_cases hl : i < l.length
  · rw [List.getD_eq_getElem?_getD, List.getElem?_append_left hl, ← List.getD_eq_getElem?_getD] at hi
    obtain ⟨h1, h2⟩ := h i hi
    rw [List.getD_eq_getElem?_getD, List.getElem?_append_left h1, ← List.getD_eq_getElem?_getD,
      List.length_append]
    exact ⟨by omega, h2⟩
  · obtain ⟨j, rfl⟩ : ∃ j, i = l.length + j := ⟨i - l.length, by omega⟩
    rw [getD_append_add] at hi
    rw [Nat.add_assoc, getD_append_add, List.length_append]
    obtain ⟨h1, h2⟩ := h' j hi
    exact ⟨by omega, h2⟩

theorem Pairs.none {l : List Token} (h : ∀ t ∈ l, t ≠ ['*']) : Pairs l := by
  intro i hi
  by_cases hl : i < l.length
  · rw [List.getD_eq_getElem?_getD, List.getElem?_eq_getElem hl, Option.getD_some] at hi
    exact absurd hi (h _ (List.getElem_mem hl))
  · rw [List.getD_eq_getElem?_getD, List.getElem?_eq_none (by omega)] at hi
    cases hi

theorem Pairs.flatMap {α : Type} {g : α → List Token} {l : List α} (h : ∀ x ∈ l, Pairs (g x)) :
    Pairs (l.flatMap g) := by
  induction l with
  | nil => exact Pairs.none (by simp)
  | cons a l ih =>
    rw [List.flatMap_cons]
    exact (h a List.mem_cons_self).append (ih fun x hx => h x (List.mem_cons_of_mem _ hx))

theorem NumOk.star {n : Token} (h : NumOk scan val n) : n ≠ ['*'] := by
  obtain ⟨c, r, rfl, hc⟩ := h.first
  rintro ⟨⟩
  revert hc
  decide

theorem sign_star (s : Option Bool) : ∀ a ∈ signTokens s, a ≠ ['*'] := by
  match s with
  | none => simp [signTokens]
  | some false | some true => simp [signTokens]

theorem term_star {t : Term} (h : TermOk scan val t) : ∀ a ∈ t.tokens, a ≠ ['*'] := by
  intro a ha
  unfold Term.tokens at ha
  simp only [List.mem_append, Option.mem_toList] at ha
  rcases ha with (ha | ha) | ha
  · exact sign_star _ a ha
  · exact (h.num a ha).star
  · exact (h.name a ha).ne (by decide)

theorem number_star {n : Number} (h : NumOk scan val n.num) : ∀ a ∈ n.tokens, a ≠ ['*'] := by
  intro a ha
  unfold Number.tokens at ha
  rcases List.mem_append.mp ha with ha | ha
  · exact sign_star _ a ha
  · rw [List.mem_singleton] at ha
    exact ha ▸ h.star

theorem op_star (o : OpWord) : ∀ a ∈ o.tokens, a ≠ ['*'] := by cases o <;> decide

theorem label_star {l : Option Token} (h : ∀ x ∈ l, NameOk scan x) :
    ∀ a ∈ labelTokens l, a ≠ ['*'] := by
  cases l with
  | none => simp [labelTokens]
  | some x =>
    have := (h x rfl).ne (c := '*') (by decide)
    simp [labelTokens, this]

theorem section_star {α : Type} {h : List Token} {g : α → List Token} {o : Option (List α)}
    (hh : ∀ a ∈ h, a ≠ ['*']) (hg : ∀ x ∈ o.getD [], ∀ a ∈ g x, a ≠ ['*']) :
    ∀ a ∈ sectionTokens h g o, a ≠ ['*'] := by
  cases o with
  | none => simp [sectionTokens]
  | some l =>
    intro a ha
    simp only [sectionTokens, List.mem_append, List.mem_flatMap] at ha
    rcases ha with ha | ⟨x, hx, ha⟩
    · exact hh a ha
    · exact hg x hx a ha

theorem con_star {c : Con} (ok : ConOk scan ival c) : ∀ a ∈ c.tokens, a ≠ ['*'] := by
  intro a ha
  rw [Con.tokens_eq] at ha
  simp only [Con.body, List.mem_append, List.mem_flatMap] at ha
  rcases ha with ha | ⟨t, ht, ha⟩ | ha | ha
  · exact label_star ok.label a ha
  · exact term_star (ok.cterm t ht).term a ha
  · exact op_star _ a ha
  · exact number_star ok.value.ok a ha

theorem bound_star {names : List Token} {b : BoundLine} (ok : BoundOk scan ival names b) :
    ∀ a ∈ b.tokens, a ≠ ['*'] := by
  intro a ha
  match b, ok with
  | .upper x o n, ⟨_, okx, _, _, okn⟩ =>
    simp only [BoundLine.tokens, List.mem_cons, List.mem_append] at ha
    rcases ha with rfl | ha | ha
    · exact okx.ne (by decide)
    · exact op_star _ a ha
    · exact number_star okn.ok a ha
  | .both m o x o' n, ⟨_, okx, _, _, oka, okn, _⟩ =>
    simp only [BoundLine.tokens, List.mem_cons, List.mem_append] at ha
    rcases ha with (ha | ha) | rfl | ha | ha
    · exact number_star oka.ok a ha
    · exact op_star _ a ha
    · exact okx.ne (by decide)
    · exact op_star _ a ha
    · exact number_star okn.ok a ha

theorem qterm_pairs {t : QTerm} (h : QTermOk scan val t) : Pairs t.tokens := by
  rw [t.tokens_eq]
  refine (Pairs.none (term_star h.first)).append ?_
  unfold QTerm.last
  cases hs : t.second with
  | none => exact Pairs.none (by decide)
  | some y =>
    intro i hi
    match i, hi with
    | 0, _ => exact ⟨by simp, (h.second y hs).kw⟩
    | 1, hi => exact absurd hi ((h.second y hs).ne (by decide))
    | i + 2, hi => cases hi

theorem file_stars {f : File} (ok : FileOk scan val ival f) : Stars f.tokens := by
  apply Pairs.stars
  have hw : ∀ a ∈ [typeWord f.type], a ≠ ['*'] := by cases f.type <;> decide
  have hn : ∀ {x : Token}, x ∈ f.names → ∀ a ∈ [x], a ≠ ['*'] := by
    intro x hx a ha
    rw [List.mem_singleton] at ha
    subst ha
    exact (ok.name a hx).ne (by decide)
  unfold File.tokens
  refine (Pairs.none hw).append (Pairs.append (Pairs.append (Pairs.none (label_star ok.label)) ?_)
    ((Pairs.none (section_star (by decide) fun c hc => con_star (ok.cons c hc))).append
    ((Pairs.none (section_star (by decide) fun c hc => bound_star (ok.bounds c hc))).append
    ((Pairs.none (section_star (by decide) fun c hc => hn (ok.binary c hc))).append
    ((Pairs.none (section_star (by decide) fun c hc => hn (ok.general c hc))).append
      (Pairs.none (by decide)))))))
  unfold objTokens
  refine (Pairs.flatMap fun t ht => Pairs.none (term_star (ok.obj t (List.mem_append_left _ ht)))).append
    (Pairs.flatMap fun g hg => ?_)
  unfold Group.tokens
  refine Pairs.append ?_ (Pairs.flatMap fun t ht => Pairs.none (term_star (ok.group hg t ht)))
  unfold Quad.tokens
  refine (Pairs.none (sign_star _)).append (Pairs.append (l := [['[']]) (Pairs.none (by decide))
    ((Pairs.flatMap fun t ht => qterm_pairs (ok.quad_of hg t ht)).append
    (Pairs.append (l := [[']']]) (Pairs.none (by decide)) (Pairs.none ?_))))
  cases g.quad.apart <;> decide

end Bx.Parser
