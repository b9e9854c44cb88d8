import Verif.Spec.Writer
import Verif.Proofs.Grammar4
import Mathlib.Data.List.TakeWhile

/-!
# The tokens of a written text
-/

namespace Bx.Parser

open Params (D)

/-! ## Texts made of words that end with a blank -/

theorem lineAll_append {a : List Char} {c : Char} (h : blank c = true) (b : List Char) :
    lineAll (a ++ c :: b) = lineAll a ++ lineAll b := by
  have key : ∀ a : List Char, pieces blank (a ++ c :: b) = pieces blank a ++ pieces blank b := by
    intro a
    induction a with
    | nil => simp [pieces, h]
    | cons d a ih =>
      simp only [List.cons_append, pieces, ih]
      split
      · rfl
      · cases hp : pieces blank a with
        | nil => exact absurd hp (pieces_ne_nil _ _)
        | cons => rfl
  unfold lineAll
  rw [key, List.filter_append]

/-- The text `t` is made of words that end with a blank, and its tokens are `ts`. -/
structure Spell (t : List Char) (ts : List Token) : Prop where
  chars : ∀ c ∈ t, c ≠ '\x00' ∧ c ≠ '\\'
  closed : t = [] ∨ ∃ u c, t = u ++ [c] ∧ blank c = true
  short : ∀ w ∈ lineAll t, w.length ≤ 511
  tokens : (lineAll t).flatMap toksOf = ts

theorem Spell.nil : Spell [] [] := ⟨by simp, .inl rfl, by simp [lineAll_nil], by simp [lineAll_nil]⟩

theorem Spell.lineAll_append {a b : List Char} {ts us : List Token} (ha : Spell a ts)
    (_ : Spell b us) : lineAll (a ++ b) = lineAll a ++ lineAll b := by
  rcases ha.closed with rfl | ⟨u, c, rfl, hc⟩
  · simp [lineAll_nil]
  · rw [List.append_assoc, List.singleton_append, Bx.Parser.lineAll_append hc,
      Bx.Parser.lineAll_append hc]
    simp [lineAll_nil]

theorem Spell.append {a b : List Char} {ts us : List Token} (ha : Spell a ts) (hb : Spell b us) :
    Spell (a ++ b) (ts ++ us) where
  chars c hc := (List.mem_append.mp hc).elim (ha.chars c) (hb.chars c)
  closed := by
    rcases hb.closed with rfl | ⟨u, c, rfl, hc⟩
    · simpa using ha.closed
    · exact .inr ⟨a ++ u, c, by simp, hc⟩
  short := by
    rw [ha.lineAll_append hb]
    exact fun w hw => (List.mem_append.mp hw).elim (ha.short w) (hb.short w)
  tokens := by
    rw [ha.lineAll_append hb, List.flatMap_append, ha.tokens, hb.tokens]

theorem Spell.blank {c : Char} (h : blank c = true) : Spell [c] [] where
  chars d hd := by
    simp only [List.mem_singleton] at hd
    subst hd
    constructor <;> (rintro rfl; exact absurd h (by decide))
  closed := .inr ⟨[], c, rfl, h⟩
  short := by rw [lineAll_blank h, lineAll_nil]; simp
  tokens := by rw [lineAll_blank h, lineAll_nil]; rfl

theorem Spell.word {w : List Char} {c : Char} (hc : Bx.Parser.blank c = true)
    (h : ∀ d ∈ w, d ≠ '\x00' ∧ d ≠ '\\' ∧ Bx.Parser.blank d = false) (hn : w ≠ [])
    (hl : w.length ≤ 511) : Spell (w ++ [c]) (toksOf w) where
  chars d hd := by
    rcases List.mem_append.mp hd with hd | hd
    · exact ⟨(h d hd).1, (h d hd).2.1⟩
    · exact (Spell.blank hc).chars d hd
  closed := .inr ⟨w, c, rfl, hc⟩
  short := by
    rw [lineAll_word (fun d hd => (h d hd).2.2) hn (.inr ⟨c, [], rfl, hc⟩), lineAll_blank hc,
      lineAll_nil]
    simpa using hl
  tokens := by
    rw [lineAll_word (fun d hd => (h d hd).2.2) hn (.inr ⟨c, [], rfl, hc⟩), lineAll_blank hc,
      lineAll_nil]
    simp

theorem lineAll_chars {t w : List Char} (h : w ∈ lineAll t) : ∀ c ∈ w, c ∈ t := by
  have key : ∀ (t : List Char), ∀ w ∈ pieces Bx.Parser.blank t, ∀ c ∈ w, c ∈ t := by
    intro t
    induction t with
    | nil => intro w hw; simp only [pieces, List.mem_singleton] at hw; subst hw; simp
    | cons d t ih =>
      intro w hw c hc
      simp only [pieces] at hw
      split at hw
      · rcases List.mem_cons.mp hw with rfl | hw
        · simp at hc
        · exact List.mem_cons_of_mem _ (ih w hw c hc)
      · cases hp : pieces Bx.Parser.blank t with
        | nil => exact absurd hp (pieces_ne_nil _ _)
        | cons a q =>
          rw [hp] at hw ih
          rcases List.mem_cons.mp hw with rfl | hw
          · rcases List.mem_cons.mp hc with rfl | hc
            · exact List.mem_cons_self
            · exact List.mem_cons_of_mem _ (ih a List.mem_cons_self c hc)
          · exact List.mem_cons_of_mem _ (ih w (List.mem_cons_of_mem _ hw) c hc)
  exact key t w (List.mem_filter.mp h).1

theorem lineLists_flatten (t : List Char) : (lineLists t).flatten = lineAll t := by
  have key : ∀ (t : List Char), ((pieces (· == '\n') t).map fun l => pieces Bx.Parser.blank l).flatten =
      pieces Bx.Parser.blank t := by
    intro t
    induction t with
    | nil => rfl
    | cons c t ih =>
      by_cases hc : c = '\n'
      · subst hc
        simp only [pieces, beq_self_eq_true, ↓reduceIte, List.map_cons, List.flatten_cons, ih,
          newline_blank]
        rfl
      · cases hp : pieces (· == '\n') t with
        | nil => exact absurd hp (pieces_ne_nil _ _)
        | cons a q =>
          rw [hp] at ih
          simp only [List.map_cons, List.flatten_cons] at ih
          simp only [pieces, beq_iff_eq, hc, ↓reduceIte, hp, List.map_cons, List.flatten_cons]
          split
          · rw [← ih]; rfl
          · rw [← ih]
            cases hb : pieces Bx.Parser.blank a with
            | nil => exact absurd hb (pieces_ne_nil _ _)
            | cons => rfl
  unfold lineLists linesOf lineAll
  rw [← key, List.filter_flatten]
  simp [Function.comp_def]

theorem wordsOf_plain {t : List Char} (h : '\\' ∉ t) : wordsOf t = lineAll t := by
  have ho : ∀ w ∈ lineAll t, opens w = false := by
    intro w hw
    by_contra hc
    have : w.head? = some '\\' := by simpa [opens] using hc
    exact h (lineAll_chars hw '\\' (List.mem_of_head? this))
  rw [wordsOf_eq, ← lineLists_flatten, List.flatten_eq_flatMap]
  rw [← lineLists_flatten] at ho
  have : ∀ ws ∈ lineLists t, (ws.takeWhile fun w => !opens w) = ws := by
    intro ws hws
    rw [List.takeWhile_eq_self_iff]
    intro w hw
    rw [ho w (List.mem_flatten.mpr ⟨ws, hws, hw⟩)]; rfl
  rw [List.flatMap_congr this]
  rfl

theorem Spell.readable {t : List Char} {ts : List Token} (h : Spell t ts) : Readable t := by
  have hb : '\\' ∉ t := fun hc => (h.chars _ hc).2 rfl
  refine ⟨?_, fun hc => (h.chars _ hc).1 rfl, ?_⟩
  · intro ws hws w hw
    have h1 : ws ∈ lineLists t := by
      have := List.mem_of_getLast? hws
      rw [linesAll_eq] at this
      exact (List.mem_filter.mp this).1
    have h2 : w ∈ lineAll t := by
      rw [← lineLists_flatten]; exact List.mem_flatten.mpr ⟨ws, h1, hw⟩
    by_contra hc
    have : w.head? = some '\\' := by simpa [opens] using hc
    exact hb (lineAll_chars h2 '\\' (List.mem_of_head? this))
  · rw [wordsOf_plain hb]; exact h.short

theorem Spell.tokensOf {t : List Char} {ts : List Token} (h : Spell t ts) :
    Bx.Parser.tokensOf t = ts := by
  have hb : '\\' ∉ t := fun hc => (h.chars _ hc).2 rfl
  unfold Bx.Parser.tokensOf
  rw [wordsOf_plain hb]
  exact h.tokens

/-! ## Words -/

theorem name_char {c : Char} (h : isCharName c = true) :
    c ≠ '\x00' ∧ c ≠ '\\' ∧ blank c = false ∧ symbol c = false := by
  have hb : ∀ d ∈ ['\x00', '\\', ' ', '\t', '\n', '\x0b', '\x0c', '\r', '<', '=', '>', ':', '-',
      '+', '[', ']', '*', '^'], isCharName d = false := by decide
  have hne : ∀ d ∈ ['\x00', '\\', ' ', '\t', '\n', '\x0b', '\x0c', '\r', '<', '=', '>', ':', '-',
      '+', '[', ']', '*', '^'], c ≠ d := by
    rintro d hd rfl
    rw [hb c hd] at h; exact absurd h (by decide)
  refine ⟨hne _ (by decide), hne _ (by decide), ?_, ?_⟩
  · by_contra hc
    have : c ∈ [' ', '\t', '\n', '\x0b', '\x0c', '\r'] := by
      simpa only [blank, List.contains_eq_mem, Bool.not_eq_false, decide_eq_true_eq] using hc
    exact hne c ((by decide : ∀ x ∈ [' ', '\t', '\n', '\x0b', '\x0c', '\r'], x ∈ ['\x00', '\\', ' ',
      '\t', '\n', '\x0b', '\x0c', '\r', '<', '=', '>', ':', '-', '+', '[', ']', '*', '^']) c this) rfl
  · by_contra hc
    have : c ∈ ['<', '=', '>', ':', '-', '+', '[', ']', '*', '^'] := by
      simpa only [symbol, List.contains_eq_mem, Bool.not_eq_false, decide_eq_true_eq] using hc
    exact hne c ((by decide : ∀ x ∈ ['<', '=', '>', ':', '-', '+', '[', ']', '*', '^'],
      x ∈ ['\x00', '\\', ' ', '\t', '\n', '\x0b', '\x0c', '\r', '<', '=', '>', ':', '-', '+', '[', ']',
        '*', '^']) c this) rfl

theorem toksOf_name {n : Token} (h : n ≠ []) (hc : ∀ c ∈ n, isCharName c = true)
    (hp : PlainFirst n) (t : List Char) (ht : ∀ c ∈ t.head?, symbol c = true) :
    toksOf (n ++ t) = n :: toksOf t := by
  cases n with
  | nil => exact absurd rfl h
  | cons c n =>
    have h1 := hp c rfl
    have h2 : isSeparator c = false := (name_char (hc c List.mem_cons_self)).2.2.2
    rw [List.cons_append, toksOf_other h2]
    have hn : ∀ d ∈ n, continues c d = true := by
      intro d hd
      have := (name_char (hc d (List.mem_cons_of_mem _ hd))).2.2.2
      simp [continues, this, h1.1, h1.2]
    have ht' : t.takeWhile (continues c) = [] ∧ t.dropWhile (continues c) = t := by
      cases t with
      | nil => simp
      | cons d t =>
        have : continues c d = false := by simp [continues, ht d rfl]
        simp [this]
    rw [List.takeWhile_append_of_pos hn, List.dropWhile_append_of_pos hn, ht'.1, ht'.2,
      List.append_nil]

theorem numChar_name {c : Char} (h : numChar c = true) : isCharName c = true := by
  unfold numChar at h
  simp only [Bool.or_eq_true, beq_iff_eq] at h
  rcases h with ((h | rfl) | rfl) | rfl
  · rw [digit_eq] at h
    simp [isCharName, h]
  all_goals decide

theorem toksOf_num {c : Char} {t : List Char} (hf : (digit c || c == '.') = true)
    (h : ∀ d ∈ t, numChar d = true) : toksOf (c :: t) = [c :: t] := by
  have hc : isCharName c = true := numChar_name (by
    unfold numChar
    simp only [Bool.or_eq_true] at hf ⊢
    tauto)
  have h2 : isSeparator c = false := (name_char hc).2.2.2
  have hn : ∀ d ∈ t, continues c d = true := by
    intro d hd
    have h3 := (name_char (numChar_name (h d hd))).2.2.2
    have h4 := h d hd
    unfold numChar at h4
    simp [continues, h3, hf, h4]
  rw [toksOf_other h2, List.takeWhile_eq_self_iff.mpr hn, List.dropWhile_eq_nil_iff.mpr hn]
  rfl

/-! ## Numbers -/

theorem decimal_small {n : Nat} (h : n < 10) : decimal n = [digitChar n] := by
  rw [decimal, if_pos h]

theorem decimal_big {n : Nat} (h : ¬ n < 10) :
    decimal n = decimal (n / 10) ++ [digitChar (n % 10)] := by
  rw [decimal, if_neg h]

theorem digitChar_digit : ∀ {d : Nat}, d < 10 → digit (digitChar d) = true := by decide

theorem decimal_digits (n : Nat) : ∀ c ∈ decimal n, digit c = true := by
  induction n using Nat.strongRecOn with
  | ind n ih =>
    by_cases h : n < 10
    · rw [decimal_small h]
      intro c hc
      simp only [List.mem_singleton] at hc
      subst hc; exact digitChar_digit h
    · rw [decimal_big h]
      intro c hc
      rcases List.mem_append.mp hc with hc | hc
      · exact ih _ (by omega) c hc
      · simp only [List.mem_singleton] at hc
        subst hc; exact digitChar_digit (by omega)

theorem decimal_ne (n : Nat) : decimal n ≠ [] := by
  by_cases h : n < 10
  · rw [decimal_small h]; simp
  · rw [decimal_big h]; simp

theorem decimal_length {k : Nat} : ∀ {n : Nat}, n < 10 ^ (k + 1) → (decimal n).length ≤ k + 1 := by
  induction k with
  | zero => intro n h; rw [decimal_small (by simpa using h)]; simp
  | succ k ih =>
    intro n h
    by_cases h9 : n < 10
    · rw [decimal_small h9]; simp
    · rw [decimal_big h9, List.length_append]
      have : n / 10 < 10 ^ (k + 1) := by
        rw [pow_succ] at h; omega
      have := ih this
      simp only [List.length_singleton]; omega

theorem digit_numChar {c : Char} (h : digit c = true) : numChar c = true := by
  unfold numChar; rw [h]; rfl

end Bx.Parser
