import Verif.Spec.Grammar
import Verif.Proofs.Recase
import Mathlib.Tactic.Ring
import Mathlib.Tactic.NormNum
import Mathlib.Data.List.Basic
import Mathlib.Algebra.Order.Group.Abs
import Mathlib.Data.Rat.Floor

/-!
# The parser reads the tokens of a file as the problem that it denotes
-/

namespace Bx.Parser

open Params (D)

variable {scan : Token → Option D} {val : Token → Rat} {ival : Token → Int}

/-! ## Names and numbers -/

theorem nameChar_eq (c : Char) : nameChar c = isCharName c := by
  rw [Bool.eq_iff_iff]
  constructor
  · intro h
    simp only [nameChar, List.contains_eq_mem, decide_eq_true_eq] at h
    revert c
    decide
  · intro h
    simp only [isCharName, isDigitC, Bool.or_eq_true, Bool.and_eq_true, decide_eq_true_eq] at h
    have hr : ∀ (lo hi : Char), lo ≤ c → c ≤ hi → c = Char.ofNat c.toNat ∧ lo.toNat ≤ c.toNat ∧
        c.toNat ≤ hi.toNat := fun lo hi h1 h2 => ⟨(Char.ofNat_toNat c).symm, h1, h2⟩
    rcases h with ((h | h) | h) | h
    all_goals
      first
      | (obtain ⟨e, h1, h2⟩ := hr _ _ h.1 h.2
         generalize c.toNat = n at *
         subst e
         simp only [Char.reduceToNat] at h1 h2
         interval_cases n <;> decide)
      | (simp only [nameChars, List.contains_eq_mem, decide_eq_true_eq] at h
         clear hr
         revert c
         decide)

theorem likeNumber_iff (t : Token) : LikeNumber t ↔ startsWithNumber t = true := by
  cases t with
  | nil => decide
  | cons c t =>
    have hw : ∀ w : String, w ∈ ["inf", "infinity"] → areEqual (c :: t) w.toList = true →
        (c == 'i' || c == 'I') = true := by
      intro w hw h
      have h1 := sameWord_iff.mpr h
      have h2 : c.toLower = 'i' := by
        simp only [List.mem_cons, List.not_mem_nil, or_false] at hw
        rcases hw with rfl | rfl <;> exact (List.cons.inj h1).1
      rcases toLower_cases c with hc | hc
      · rw [hc] at h2; subst h2; decide
      · have e : c = Char.ofNat c.toNat := (Char.ofNat_toNat c).symm
        obtain ⟨h3, h4⟩ := hc
        generalize c.toNat = n at *
        subst e
        interval_cases n <;> revert h2 <;> decide
    simp only [LikeNumber, startsWithNumber, List.head?_cons, Option.mem_def, Option.some.injEq,
      exists_eq_left', Bool.or_eq_true, Bool.and_eq_true, isNumber, digit_eq, sameWord_iff,
      List.mem_cons, List.not_mem_nil, or_false, beq_iff_eq]
    have a1 := hw "inf" (by simp)
    have a2 := hw "infinity" (by simp)
    simp only [Bool.or_eq_true, beq_iff_eq] at a1 a2
    tauto

theorem not_likeNumber {t : Token} (h : ¬ LikeNumber t) : startsWithNumber t = false := by
  rw [likeNumber_iff] at h
  simpa using h

theorem NameOk.isName {n : Token} (h : NameOk scan n) : ∀ c ∈ n, isCharName c = true :=
  fun c hc => by rw [← nameChar_eq]; exact h.chars c hc

theorem NameOk.kw {n : Token} (h : NameOk scan n) : isKeyword n = false := by
  have := h.keyword
  rw [reserved_iff] at this
  simpa using this

theorem NameOk.starts {n : Token} (h : NameOk scan n) : startsWithName n = true := by
  cases n with
  | nil => exact absurd rfl h.nonempty
  | cons c t => exact h.isName c List.mem_cons_self

theorem NameOk.read {n : Token} (h : NameOk scan n) : readName n = some n := by
  unfold readName
  rw [if_pos (List.all_eq_true.mpr h.isName)]

theorem NameOk.real {n : Token} (h : NameOk scan n) : readReal scan n = .ok none := by
  unfold readReal
  have h2 := h.number.2
  rw [sameWord_iff] at h2
  have h3 := h.short
  rw [if_neg h2, if_neg (by omega), if_neg (by omega), h.number.1]

theorem NameOk.ne {n : Token} (h : NameOk scan n) {c : Char} (hc : isCharName c = false) :
    n ≠ [c] := by
  rintro rfl
  rw [h.isName c List.mem_cons_self] at hc
  cases hc

theorem NameOk.op {n : Token} (h : NameOk scan n) : startsWithOperator n = false := by
  cases n with
  | nil => rfl
  | cons c t =>
    have hc := h.isName c List.mem_cons_self
    show isCharOperator c = false
    cases ho : isCharOperator c with
    | false => rfl
    | true =>
      simp only [isCharOperator, Bool.or_eq_true, beq_iff_eq] at ho
      rcases ho with (rfl | rfl) | rfl <;> revert hc <;> decide

theorem digit_cases {c : Char} (h : (digit c || c == '.') = true) :
    c ∈ ['0', '1', '2', '3', '4', '5', '6', '7', '8', '9', '.'] := by
  simp only [digit, Bool.or_eq_true, List.contains_iff_mem, beq_iff_eq] at h
  rcases h with h | h
  · simp only [List.mem_cons, List.not_mem_nil, or_false] at h ⊢
    tauto
  · subst h; decide

/-- The first character of a number. -/
theorem digit_facts : ∀ c ∈ ['0', '1', '2', '3', '4', '5', '6', '7', '8', '9', '.'],
    isNumber c = true ∧ isCharOperator c = false ∧ c.toLower = c ∧ c ≠ '+' ∧ c ≠ '-' ∧ c ≠ ':' ∧
      c ≠ '[' ∧ c ≠ '<' ∧ c ≠ '=' ∧ c ≠ '>' ∧ c ≠ 'i' := by decide

theorem NumOk.facts {n : Token} (h : NumOk scan val n) : ∃ c t, n = c :: t ∧
    isNumber c = true ∧ isCharOperator c = false ∧ c.toLower = c ∧ c ≠ '+' ∧ c ≠ '-' ∧ c ≠ ':' ∧
      c ≠ '[' ∧ c ≠ '<' ∧ c ≠ '=' ∧ c ≠ '>' ∧ c ≠ 'i' := by
  obtain ⟨c, t, rfl, hc⟩ := h.first
  exact ⟨c, t, rfl, digit_facts c (digit_cases hc)⟩

theorem keyword_first : ∀ k ∈ keywords, ∃ c t, k = c :: t ∧
    (c.toLower ∉ ['0', '1', '2', '3', '4', '5', '6', '7', '8', '9', '.']) := by
  have h : ∀ k ∈ keywords, k ≠ [] ∧ (k.headD 'a').toLower ∉
      ['0', '1', '2', '3', '4', '5', '6', '7', '8', '9', '.'] := by decide
  intro k hk
  obtain ⟨h1, h2⟩ := h k hk
  cases k with
  | nil => exact absurd rfl h1
  | cons c t => exact ⟨c, t, rfl, h2⟩

theorem NumOk.kw {n : Token} (h : NumOk scan val n) : isKeyword n = false := by
  cases hk : isKeyword n with
  | false => rfl
  | true =>
    obtain ⟨k, hm, he⟩ := isKeyword_iff.mp hk
    obtain ⟨c, t, rfl, hc⟩ := h.first
    obtain ⟨d, u, rfl, hd⟩ := keyword_first k hm
    have hl := (digit_facts c (digit_cases hc)).2.2.1
    rw [areEqual_iff] at he
    simp only [List.map_cons, List.cons.injEq] at he
    rw [he.1, hl] at hd
    exact absurd (digit_cases hc) hd

theorem NumOk.real {n : Token} (h : NumOk scan val n) :
    readReal scan n = .ok (some (.fin (val n))) := by
  unfold readReal
  have h3 := h.short
  obtain ⟨c, t, rfl, hc⟩ := h.first
  have hf := digit_facts c (digit_cases hc)
  have : areEqual (c :: t) "inf".toList = false := by
    cases he : areEqual (c :: t) "inf".toList with
    | false => rfl
    | true =>
      rw [areEqual_iff] at he
      have h1 := congrArg List.head? he
      rw [List.map_cons, List.head?_cons, hf.2.2.1] at h1
      have h2 : c = 'i' := by simpa using h1
      exact absurd h2 hf.2.2.2.2.2.2.2.2.2.2
  rw [if_neg (by rw [this]; simp), if_neg (by omega), if_neg (by omega), h.value]

theorem NumOk.ne {n : Token} (h : NumOk scan val n) {c : Char}
    (hc : c ∈ ['+', '-', ':', '[', '<', '=', '>']) : n ≠ [c] := by
  rintro rfl
  obtain ⟨d, t, e, h⟩ := h.facts
  simp only [List.cons.injEq] at e
  obtain ⟨rfl, -⟩ := e
  simp only [List.mem_cons, List.not_mem_nil, or_false] at hc
  tauto

theorem NumOk.op {n : Token} (h : NumOk scan val n) : startsWithOperator n = false := by
  obtain ⟨d, t, rfl, hf⟩ := h.facts
  exact hf.2.1

theorem NumOk.number {n : Token} (h : NumOk scan val n) : startsWithNumber n = true := by
  obtain ⟨d, t, rfl, hf⟩ := h.facts
  simp [startsWithNumber, hf.1]

theorem NumOk.nonempty {n : Token} (h : NumOk scan val n) : n ≠ [] := by
  obtain ⟨d, t, rfl, h⟩ := h.facts
  simp

/-! ## Terms -/

section

variable {n x : Token}

theorem real2_minus_num (h : NumOk scan val n) : readReal2 scan ['-'] n = .ok (.fin (-val n), 2) := by
  unfold readReal2
  rw [if_pos rfl, h.real]; rfl

theorem real2_plus_num (h : NumOk scan val n) : readReal2 scan ['+'] n = .ok (.fin (val n), 2) := by
  unfold readReal2
  rw [if_neg (by decide), if_pos rfl, h.real]; rfl

theorem real2_minus_name (h : NameOk scan x) : readReal2 scan ['-'] x = .ok (.fin (-1), 1) := by
  unfold readReal2
  rw [if_pos rfl, h.real]; rfl

theorem real2_plus_name (h : NameOk scan x) : readReal2 scan ['+'] x = .ok (.fin 1, 1) := by
  unfold readReal2
  rw [if_neg (by decide), if_pos rfl, h.real]; rfl

theorem real2_num (h : NumOk scan val n) (b : Token) :
    readReal2 scan n b = .ok (.fin (val n), 1) := by
  unfold readReal2
  rw [if_neg (h.ne (by decide)), if_neg (h.ne (by decide)), h.real]; rfl

theorem real2_name (h : NameOk scan x) (b : Token) : readReal2 scan x b = .ok (.fin 1, 0) := by
  unfold readReal2
  rw [if_neg (h.ne (by decide)), if_neg (h.ne (by decide)), h.real]; rfl

end

theorem readElem_named {a b c x : Token} {v : D} {r : Nat} (h : readReal2 scan a b = .ok (v, r))
    (hx : toRead r a b c = x) (ok : NameOk scan x) :
    readElem scan a b c = .ok (some (v, x, r + 1)) := by
  unfold readElem
  rw [h]
  simp only [pm_ok_bind, hx, ok.kw, ok.starts, ok.read]
  rfl

theorem readElem_constant {a b c x : Token} {v : D} {r : Nat} (h : readReal2 scan a b = .ok (v, r))
    (hx : toRead r a b c = x) (hn : isKeyword x = true ∨ startsWithName x = false) :
    readElem scan a b c = .ok (some (v, [], r)) := by
  unfold readElem
  rw [h]
  simp only [pm_ok_bind, hx]
  rw [if_neg (by
    rcases hn with h | h
    · simp [h]
    · simp [h])]

/-- The next token does not continue a constant. -/
def Stops (rest : List Token) : Prop :=
  isKeyword (rest.getD 0 []) = true ∨ startsWithName (rest.getD 0 []) = false

theorem readElem_term {t : Term} (h : TermOk scan val t) (rest : List Token)
    (hr : t.name = none → Stops rest) :
    readElem scan ((t.tokens ++ rest).getD 0 []) ((t.tokens ++ rest).getD 1 [])
      ((t.tokens ++ rest).getD 2 []) =
        .ok (some (.fin (t.factor val), t.name.getD [], t.tokens.length)) := by
  obtain ⟨sign, num, name⟩ := t
  have hn : ∀ n ∈ num, NumOk scan val n := h.num
  have hx : ∀ n ∈ name, NameOk scan n := h.name
  cases num with
  | none =>
    cases name with
    | none => rcases h.some with h | h <;> exact absurd rfl h
    | some x =>
      have ox := hx x rfl
      match sign with
      | none =>
        simp only [Term.tokens, signTokens, Term.factor, signOf]
        simpa using readElem_named (x := x) (real2_name ox _) rfl ox
      | some false =>
        simp only [Term.tokens, signTokens, Term.factor, signOf]
        simpa using readElem_named (x := x) (real2_plus_name ox) rfl ox
      | some true =>
        simp only [Term.tokens, signTokens, Term.factor, signOf]
        simpa using readElem_named (x := x) (real2_minus_name ox) rfl ox
  | some n =>
    have on := hn n rfl
    cases name with
    | none =>
      have hs : Stops rest := hr rfl
      match sign with
      | none =>
        simp only [Term.tokens, signTokens, Term.factor, signOf]
        simpa using readElem_constant (c := rest.getD 1 []) (x := rest.getD 0 []) (real2_num on (rest.getD 0 [])) rfl hs
      | some false =>
        simp only [Term.tokens, signTokens, Term.factor, signOf]
        simpa using readElem_constant (c := rest.getD 0 []) (x := rest.getD 0 []) (real2_plus_num on) rfl hs
      | some true =>
        simp only [Term.tokens, signTokens, Term.factor, signOf]
        simpa using readElem_constant (c := rest.getD 0 []) (x := rest.getD 0 []) (real2_minus_num on) rfl hs
    | some x =>
      have ox := hx x rfl
      match sign with
      | none =>
        simp only [Term.tokens, signTokens, Term.factor, signOf]
        simpa using readElem_named (x := x) (c := rest.getD 0 []) (real2_num on x) rfl ox
      | some false =>
        simp only [Term.tokens, signTokens, Term.factor, signOf]
        simpa using readElem_named (x := x) (c := x) (real2_plus_num on) rfl ox
      | some true =>
        simp only [Term.tokens, signTokens, Term.factor, signOf]
        simpa using readElem_named (x := x) (c := x) (real2_minus_num on) rfl ox

end Bx.Parser
