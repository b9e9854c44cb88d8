import Mathlib.Tactic.IntervalCases
import Verif.Proofs.Lexer

/-! The tokens of the stream are those of the words. -/

namespace Bx.Parser

theorem digit_eq (c : Char) : digit c = isDigitC c := by
  rw [Bool.eq_iff_iff]
  simp only [digit, isDigitC, List.contains_eq_mem, decide_eq_true_eq, Bool.and_eq_true]
  constructor
  · intro h
    simp only [List.mem_cons, List.not_mem_nil, or_false] at h
    rcases h with h | h | h | h | h | h | h | h | h | h <;> subst h <;> decide
  · rintro ⟨h1, h2⟩
    have h1 : 48 ≤ c.toNat := h1
    have h2 : c.toNat ≤ 57 := h2
    have : c = Char.ofNat c.toNat := (Char.ofNat_toNat c).symm
    generalize c.toNat = n at *
    subst this
    interval_cases n <;> decide

theorem continues_eq {c : Char} (h : isSeparator c = false) (d : Char) :
    continues c d = (!isSeparator d && !(startsWithANumber c && !isNumber d)) := by
  have hm : c ≠ '-' ∧ c ≠ '+' := by
    constructor <;> rintro rfl <;> exact absurd h (by decide)
  unfold continues startsWithANumber isNumber
  rw [symbol_eq, digit_eq, digit_eq]
  by_cases hd : isSeparator d = true
  · simp [hd]
  · have hd2 : d ≠ '-' ∧ d ≠ '+' := by
      constructor <;> rintro rfl <;> exact absurd hd (by decide)
    simp only [Bool.not_eq_true] at hd
    simp only [hd, Bool.not_false, Bool.true_and]
    have e1 : (c == '-') = false := by simp [hm.1]
    have e2 : (c == '+') = false := by simp [hm.2]
    have e3 : (d == '-') = false := by simp [hd2.1]
    have e4 : (d == '+') = false := by simp [hd2.2]
    rw [e1, e2, e3, e4]
    simp only [Bool.or_false]
    cases (isDigitC c || c == '.') <;> simp

/-- A C string. -/
def cstr (l : List Char) : List Char := l.takeWhile (· ≠ '\x00')

theorem cstr_cons {c : Char} (h : c ≠ '\x00') (l : List Char) : cstr (c :: l) = c :: cstr l := by
  simp [cstr, h]

theorem cstr_overwrite (old word : List Char) : cstr (overwrite old word) = cstr word := by
  unfold cstr overwrite
  induction word with
  | nil => simp
  | cons c w ih =>
    by_cases hc : c = '\x00'
    · simp [hc]
    · simp only [ne_eq, hc, not_false_eq_true, decide_true, List.takeWhile_cons_of_pos,
        List.cons_append, List.length_cons]
      rw [← ih]
      congr 1
      cases old with
      | nil => simp
      | cons d old =>
        have : ∀ (a b : List Char), (w ++ '\x00' :: a).takeWhile (fun x => decide (x ≠ '\x00')) =
            (w ++ '\x00' :: b).takeWhile (fun x => decide (x ≠ '\x00')) := by
          intro a b
          clear ih
          induction w with
          | nil => simp
          | cons e w ih =>
            by_cases he : e = '\x00'
            · simp [he]
            · simpa [he] using ih
        exact this _ _

/-- The tokens of a C string. -/
def toksOf (w : List Char) : List Token := cutWord w.length w

theorem cutWord_fuel : ∀ (n m : Nat) (w : List Char), w.length ≤ n → w.length ≤ m →
    cutWord n w = cutWord m w := by
  intro n
  induction n with
  | zero =>
    intro m w hn hm
    have : w = [] := List.length_eq_zero_iff.mp (by omega)
    subst this
    cases m <;> rfl
  | succ n ih =>
    intro m w hn hm
    cases w with
    | nil => cases m <;> rfl
    | cons c t =>
      cases m with
      | zero => simp at hm
      | succ m =>
        simp only [List.length_cons] at hn hm
        simp only [cutWord]
        split
        · rw [ih m t (by omega) (by omega)]
        · have := (List.dropWhile_suffix (l := t) (continues c)).length_le
          rw [ih m _ (by omega) (by omega)]

theorem toksOf_nil : toksOf [] = [] := rfl

theorem toksOf_symbol {c : Char} (h : isSeparator c = true) (t : List Char) :
    toksOf (c :: t) = [c] :: toksOf t := by
  unfold toksOf
  simp only [List.length_cons, cutWord, symbol_eq, h, ↓reduceIte]

theorem toksOf_other {c : Char} (h : isSeparator c = false) (t : List Char) :
    toksOf (c :: t) = (c :: t.takeWhile (continues c)) :: toksOf (t.dropWhile (continues c)) := by
  unfold toksOf
  simp only [List.length_cons, cutWord, symbol_eq, h, Bool.false_eq_true, ↓reduceIte]
  rw [cutWord_fuel _ _ _ (List.dropWhile_suffix _).length_le (Nat.le_refl _)]

theorem tokenRest_eq {c : Char} (h : isSeparator c = false) (l : List Char) :
    tokenRest (startsWithANumber c) l = ((cstr l).takeWhile (continues c)).length := by
  induction l with
  | nil => rfl
  | cons d l ih =>
    by_cases hd : d = '\x00'
    · simp [tokenRest, cstr, hd]
    · rw [cstr_cons hd]
      simp only [tokenRest, hd, ↓reduceIte]
      have := continues_eq h d
      by_cases h1 : isSeparator d = true
      · simp [h1, this]
      · simp only [Bool.not_eq_true] at h1
        by_cases h2 : (startsWithANumber c && !isNumber d) = true
        · simp [h1, h2, this]
        · simp only [Bool.not_eq_true] at h2
          simp [h1, h2, this, ih]

theorem take_cstr (l : List Char) (n : Nat) (h : n ≤ (cstr l).length) :
    l.take n = (cstr l).take n ∧ cstr (l.drop n) = (cstr l).drop n := by
  induction l generalizing n with
  | nil => simp [cstr]
  | cons c l ih =>
    cases n with
    | zero => simp
    | succ n =>
      by_cases hc : c = '\x00'
      · simp [cstr, hc] at h
      · rw [cstr_cons hc] at h ⊢
        simp only [List.length_cons, Nat.add_le_add_iff_right] at h
        have := ih n h
        simp [this.1, this.2]

/-- The length of the token at the beginning of the characters `l`. -/
def tokenLen (l : List Char) : Nat :=
  match l with
  | [] => 0
  | c :: t =>
    if isSeparator c then 1
    else if t.getD 0 '\x00' = '\x00' then 1 else 1 + tokenRest (startsWithANumber c) t

theorem tokenLen_spec {c : Char} {l : List Char} (hc : c ≠ '\x00') :
    toksOf (cstr (c :: l)) =
      (c :: l).take (tokenLen (c :: l)) :: toksOf (cstr ((c :: l).drop (tokenLen (c :: l)))) := by
  rw [cstr_cons hc]
  by_cases hs : isSeparator c = true
  · simp [toksOf_symbol hs, tokenLen, hs]
  · simp only [Bool.not_eq_true] at hs
    have e : tokenLen (c :: l) = 1 + ((cstr l).takeWhile (continues c)).length := by
      simp only [tokenLen, hs, Bool.false_eq_true, ↓reduceIte]
      split
      · rename_i h
        have : cstr l = [] := by
          cases l with
          | nil => rfl
          | cons d l => simp at h; simp [cstr, h]
        simp [this]
      · rw [tokenRest_eq hs]
    have hle : ((cstr l).takeWhile (continues c)).length ≤ (cstr l).length :=
      (List.takeWhile_prefix _).length_le
    have ht := take_cstr l _ hle
    rw [toksOf_other hs, e, Nat.add_comm 1, List.take_succ_cons, List.drop_succ_cons, ht.1, ht.2]
    congr 2
    · rw [← List.prefix_iff_eq_take]; exact List.takeWhile_prefix _
    · have h1 := List.takeWhile_append_dropWhile (p := continues c) (l := cstr l)
      have h2 := List.prefix_iff_eq_append.mp (List.takeWhile_prefix (l := cstr l) (continues c))
      exact List.append_cancel_left (h1.trans h2.symm)

/-! ## Extraction -/

theorem head?_take_pos {α : Type} {l : List α} {n : Nat} (h : 0 < n) :
    (l.take n).head? = l.head? := by
  cases l <;> cases n <;> simp_all

theorem head?_overwrite {old word : List Char} (h : word ≠ []) :
    (overwrite old word).head? = word.head? := by
  cases word <;> simp_all [overwrite]

theorem readWord_spec : ∀ (k : Nat) (input buf last : List Char) (good : Bool),
    input.length < k → cstr buf = cstr last → (last = [] ∨ last.head? = some '\\') →
    ∀ b r g, readWord k buf input good = (b, r, g) →
      (rawWords last input good).map cstr =
          (if cstr b = [] then [] else cstr b :: (rawWords [] r g).map cstr) ∧
        (cstr b = [] → g = false) := by
  intro k
  induction k with
  | zero => intro input buf last good h; omega
  | succ k ih =>
    intro input buf last good hk hb hl b r g h
    rw [readWord] at h
    rw [rawWords]
    have hstop : ∀ x, (b = buf ∧ r = x ∧ g = false) →
        List.map cstr (if last = [] then [] else [last]) =
          (if cstr b = [] then [] else cstr b :: (rawWords [] r g).map cstr) ∧
        (cstr b = [] → g = false) := by
      rintro x ⟨rfl, rfl, rfl⟩
      refine ⟨?_, fun _ => rfl⟩
      rw [hb, rawWords]
      rcases hl with rfl | hl
      · simp [cstr]
      · cases last with
        | nil => simp at hl
        | cons c l =>
          simp only [List.head?_cons, Option.some.injEq] at hl
          subst hl
          simp [cstr]
    cases good with
    | false =>
      simp only [Bool.not_false, ↓reduceIte, Prod.mk.injEq] at h ⊢
      exact hstop input ⟨h.1.symm, h.2.1.symm, h.2.2.symm⟩
    | true =>
      simp only [Bool.not_true, Bool.false_eq_true, ↓reduceIte] at h ⊢
      by_cases hi : input.dropWhile isSpace = []
      · simp only [hi, ↓reduceIte, ↓reduceDIte, Prod.mk.injEq] at h ⊢
        exact hstop [] ⟨h.1.symm, h.2.1.symm, h.2.2.symm⟩
      · simp only [hi, ↓reduceIte, ↓reduceDIte] at h ⊢
        obtain ⟨w, u, h1, h2, h3, h4, h5⟩ := split_word hi
        rw [← h2] at h ⊢
        have hlen : (w ++ u).length ≤ input.length := by
          rw [← h1]; exact (List.dropWhile_suffix _).length_le
        have hwpos : 0 < w.length := List.length_pos_iff.mpr h3
        have htne : w.take maxWord ≠ [] := by
          intro hc
          have := congrArg List.length hc
          simp [maxWord] at this
          exact h3 this
        have htpos : 0 < (w.take maxWord).length := List.length_pos_iff.mpr htne
        have hrest : (List.drop (w.take maxWord).length (List.dropWhile isSpace input)).length < k := by
          rw [h1]
          rw [List.length_drop]
          have : (w ++ u).length = w.length + u.length := List.length_append
          omega
        rw [head?_overwrite htne] at h
        by_cases c1 : (w.take maxWord).head? = some '\\'
        · simp only [c1, ↓reduceIte] at h ⊢
          exact ih _ _ (w.take maxWord) _ (Nat.lt_of_le_of_lt (length_dropLine _) hrest)
            (cstr_overwrite _ _) (.inr c1) b r g h
        · simp only [c1, ↓reduceIte] at h ⊢
          by_cases c2 : (w.take maxWord).head? = some '\x00'
          · simp only [c2, ↓reduceIte] at h ⊢
            refine ih _ _ [] _ hrest ?_ (.inl rfl) b r g h
            rw [cstr_overwrite]
            cases hw : w.take maxWord with
            | nil => rfl
            | cons c l =>
              rw [hw] at c2
              simp only [List.head?_cons, Option.some.injEq] at c2
              simp [cstr, c2]
          · simp only [c2, ↓reduceIte, Prod.mk.injEq] at h ⊢
            obtain ⟨rfl, rfl, rfl⟩ := h
            have : cstr (overwrite buf (w.take maxWord)) ≠ [] := by
              rw [cstr_overwrite]
              cases hw : w.take maxWord with
              | nil => exact absurd hw htne
              | cons c l =>
                rw [hw] at c2
                simp only [List.head?_cons, Option.some.injEq] at c2
                simp [cstr, c2]
            rw [if_neg this, cstr_overwrite]
            exact ⟨by simp, fun hc => absurd hc (by rw [← cstr_overwrite buf]; exact this)⟩

/-! ## The stream -/

/-- The slot `j`. -/
def Stream.at (s : Stream) (j : Nat) : Slot := s.slots.getD j {}

/-- The tokens that are not yet in the buffer of tokens. -/
def Stream.pending (s : Stream) : List Token :=
  toksOf (cstr (s.slot.buffer.drop s.slot.current)) ++
    ((rawWords [] s.input s.good).map cstr).flatMap toksOf

/-- For each token that is not yet in the buffer of tokens, whether it is in the slot of the token
before it. -/
def Stream.tags (s : Stream) : List Bool :=
  (toksOf (cstr (s.slot.buffer.drop s.slot.current))).map (fun _ => true) ++
    ((rawWords [] s.input s.good).map cstr).flatMap fun w => inside (toksOf w)

/-- The slots other than the current one are used up. -/
structure Stream.Good (s : Stream) : Prop where
  len : s.slots.length = 10
  cur : s.cur < 10
  used : ∀ j, j ≠ s.cur → (s.at j).char (s.at j).current = '\x00'

theorem char_drop (t : Slot) (i : Nat) : t.char i = (t.buffer.drop i).getD 0 '\x00' := by
  simp [Slot.char, List.getD_eq_getElem?_getD]

theorem cstr_char {l : List Char} (h : l.getD 0 '\x00' = '\x00') : cstr l = [] := by
  cases l with
  | nil => rfl
  | cons c l => simp at h; simp [cstr, h]

theorem cstr_ne {l : List Char} (h : l.getD 0 '\x00' ≠ '\x00') :
    ∃ c t, l = c :: t ∧ c ≠ '\x00' := by
  cases l with
  | nil => simp at h
  | cons c l => exact ⟨c, l, rfl, by simpa using h⟩

theorem getD_set_eq {α : Type} {l : List α} {i : Nat} {a d : α} (h : i < l.length) :
    (l.set i a).getD i d = a := by
  simp [List.getD_eq_getElem?_getD, h]

theorem getD_set_ne {α : Type} {l : List α} {i j : Nat} {a d : α} (h : i ≠ j) :
    (l.set i a).getD j d = l.getD j d := by
  simp [List.getD_eq_getElem?_getD, h]

/-- What a call of `next_token` does. -/
structure Next (s s1 : Stream) (v : Option View) (t : Token) (ts : List Token) : Prop where
  good : s1.Good
  pending : s1.pending = ts
  text : s1.deref v = t
  ptr : s1.ptr = s.ptr
  cur : (s1.cur = s.cur ∧ ∀ j, (s1.at j).buffer = (s.at j).buffer) ∨
    (s1.cur = (s.cur + 1) % 10 ∧ ∀ j, j ≠ s1.cur → (s1.at j).buffer = (s.at j).buffer)
  slot : ∀ w, v = some w → w.slot = s1.cur
  tags : s1.tags = s.tags.tail
  same : s.tags.headD false = true → s1.cur = s.cur ∧ ∀ j, (s1.at j).buffer = (s.at j).buffer

theorem cut_spec {s : Stream} (hg : s.Good) (hc : s.slot.char s.slot.current ≠ '\x00') :
    ∃ t ts s1 v, s.pending = t :: ts ∧ s.cut = (s1, v) ∧ s1.Good ∧ s1.pending = ts ∧
      s1.deref v = t ∧ s1.ptr = s.ptr ∧ s1.cur = s.cur ∧
      (∀ j, (s1.at j).buffer = (s.at j).buffer) ∧ (∀ w, v = some w → w.slot = s1.cur) ∧
      s.tags = true :: s1.tags := by
  obtain ⟨c, l, h1, h2⟩ := cstr_ne (by rw [← char_drop]; exact hc)
  have hchar : s.slot.char s.slot.current = c := by rw [char_drop, h1]; rfl
  have hl : s.slot.buffer.drop (s.slot.current + 1) = l := by
    rw [← List.drop_drop, h1]; simp
  have hchar1 : s.slot.char (s.slot.current + 1) = l.getD 0 '\x00' := by rw [char_drop, hl]
  have hlen : (if isSeparator c then 1
      else if s.slot.char (s.slot.current + 1) = '\x00' then 1
      else 1 + tokenRest (startsWithANumber c) (s.slot.buffer.drop (s.slot.current + 1))) =
      tokenLen (c :: l) := by
    rw [hchar1, hl]; rfl
  have hcur : s.cur < s.slots.length := by rw [hg.len]; exact hg.cur
  let s1 : Stream := { s with
    slots := s.slots.set s.cur { s.slot with current := s.slot.current + tokenLen (c :: l) } }
  have hat : s1.at s.cur = { s.slot with current := s.slot.current + tokenLen (c :: l) } := by
    exact getD_set_eq hcur
  have hne : ∀ j, j ≠ s.cur → s1.at j = s.at j := fun j hj => getD_set_ne (Ne.symm hj)
  have hbuf : ∀ j, (s1.at j).buffer = (s.at j).buffer := by
    intro j
    by_cases hj : j = s.cur
    · subst hj; rw [hat]; rfl
    · rw [hne j hj]
  refine ⟨(c :: l).take (tokenLen (c :: l)),
    toksOf (cstr ((c :: l).drop (tokenLen (c :: l)))) ++
      ((rawWords [] s.input s.good).map cstr).flatMap toksOf,
    s1, some ⟨s.cur, s.slot.current, tokenLen (c :: l)⟩, ?_, ?_, ⟨?_, hg.cur, ?_⟩, ?_, ?_, rfl, rfl, hbuf, ?_, ?_⟩
  · unfold Stream.pending
    rw [h1, tokenLen_spec h2]
    rfl
  · unfold Stream.cut
    simp only [hchar, h2, ↓reduceIte]
    rw [hlen]
  · show (s.slots.set _ _).length = 10
    rw [List.length_set]; exact hg.len
  · intro j hj
    rw [hne j hj]
    exact hg.used j hj
  · unfold Stream.pending
    have : s1.slot = { s.slot with current := s.slot.current + tokenLen (c :: l) } := hat
    rw [this]
    simp only
    rw [← List.drop_drop, h1]
  · show ((s1.at s.cur).buffer.drop s.slot.current).take (tokenLen (c :: l)) = _
    rw [hat]
    simp only
    rw [h1]
  · intro w hw
    simp only [Option.some.injEq] at hw
    subst hw; rfl
  · unfold Stream.tags
    have : s1.slot = { s.slot with current := s.slot.current + tokenLen (c :: l) } := hat
    rw [this]
    simp only
    rw [← List.drop_drop, h1, tokenLen_spec h2]
    rfl

theorem nextToken_spec {s : Stream} (hg : s.Good) :
    ∃ s1 v, s.nextToken = (s1, v) ∧ Next s s1 v (s.pending.headD []) s.pending.tail := by
  by_cases hc : s.slot.char s.slot.current = '\x00'
  · have hslot : toksOf (cstr (s.slot.buffer.drop s.slot.current)) = [] := by
      rw [cstr_char (by rw [← char_drop]; exact hc)]; rfl
    have hcne : (s.cur + 1) % 10 ≠ s.cur := by have := hg.cur; omega
    have hcl : (s.cur + 1) % 10 < 10 := Nat.mod_lt _ (by omega)
    cases hgood : s.good with
    | false =>
      have hpend : s.pending = [] := by
        unfold Stream.pending
        rw [hslot, hgood, rawWords]; rfl
      refine ⟨{ s with cur := (s.cur + 1) % 10 }, none, ?_, ⟨⟨hg.len, hcl, ?_⟩, ?_, ?_, rfl,
        .inr ⟨rfl, fun _ _ => rfl⟩, by simp, ?_, ?_⟩⟩
      · unfold Stream.nextToken
        simp [hc, Stream.advance, hgood]
      · intro j hj
        by_cases hjc : j = s.cur
        · subst hjc; exact hc
        · exact hg.used j hjc
      · rw [hpend]
        unfold Stream.pending
        have : (s.at ((s.cur + 1) % 10)).char (s.at ((s.cur + 1) % 10)).current = '\x00' :=
          hg.used _ hcne
        show toksOf (cstr ((s.at ((s.cur + 1) % 10)).buffer.drop _)) ++ _ = _
        rw [show ({ s with cur := (s.cur + 1) % 10 } : Stream).slot = s.at ((s.cur + 1) % 10) from rfl]
        rw [cstr_char (by rw [← char_drop]; exact this)]
        show _ ++ ((rawWords [] s.input s.good).map cstr).flatMap toksOf = _
        rw [hgood, rawWords]; rfl
      · rw [hpend]; rfl
      · unfold Stream.tags
        have : (s.at ((s.cur + 1) % 10)).char (s.at ((s.cur + 1) % 10)).current = '\x00' :=
          hg.used _ hcne
        rw [show ({ s with cur := (s.cur + 1) % 10 } : Stream).slot = s.at ((s.cur + 1) % 10) from rfl]
        rw [hslot, cstr_char (by rw [← char_drop]; exact this)]
        show _ ++ ((rawWords [] s.input s.good).map cstr).flatMap _ = _
        rw [hgood, rawWords]; rfl
      · unfold Stream.tags
        rw [hslot, hgood, rawWords]
        intro h; cases h
    | true =>
      let i := (s.cur + 1) % 10
      obtain ⟨b, r, g, hrw⟩ : ∃ b r g, readWord (s.input.length + 1)
          ((s.at i).buffer.set 0 '\x00') s.input true = (b, r, g) := ⟨_, _, _, rfl⟩
      let s2 : Stream := { s with cur := i, slots := s.slots.set i ⟨b, 0⟩, input := r, good := g }
      have hlt : i < s.slots.length := by rw [hg.len]; exact hcl
      have hadv : s.advance = (s2, s2.slot.char 0 != '\x00') := by
        unfold Stream.advance
        simp only [hgood, Bool.not_true, Bool.false_eq_true, ↓reduceIte]
        rw [show ({ s with cur := (s.cur + 1) % 10, good := true } : Stream).slot = s.at i from rfl]
        rw [hrw]
      have hclear : cstr ((s.at i).buffer.set 0 '\x00') = cstr [] := by
        cases (s.at i).buffer with
        | nil => rfl
        | cons c l => simp [cstr]
      obtain ⟨e1, e2⟩ := readWord_spec _ _ _ [] true (Nat.lt_succ_self _) hclear (.inl rfl) b r g hrw
      have hs2 : s2.slot = ⟨b, 0⟩ := getD_set_eq hlt
      have hg2 : s2.Good := by
        refine ⟨by show (s.slots.set _ _).length = 10; rw [List.length_set]; exact hg.len, hcl, ?_⟩
        intro j hj
        have : s2.at j = s.at j := getD_set_ne (Ne.symm hj)
        rw [this]
        by_cases hjc : j = s.cur
        · subst hjc; exact hc
        · exact hg.used j hjc
      have hb2 : ∀ j, j ≠ i → (s2.at j).buffer = (s.at j).buffer := fun j hj => by
        have : s2.at j = s.at j := getD_set_ne (Ne.symm hj)
        rw [this]
      have hpend : s.pending = if cstr b = [] then [] else
          toksOf (cstr b) ++ ((rawWords [] r g).map cstr).flatMap toksOf := by
        unfold Stream.pending
        rw [hslot, hgood, e1]
        split <;> simp
      have hpend2 : s2.pending = toksOf (cstr b) ++ ((rawWords [] r g).map cstr).flatMap toksOf := by
        unfold Stream.pending
        rw [hs2]; rfl
      have htags : s.tags = if cstr b = [] then [] else
          inside (toksOf (cstr b)) ++
            ((rawWords [] r g).map cstr).flatMap fun w => inside (toksOf w) := by
        unfold Stream.tags
        rw [hslot, hgood, e1]
        split <;> simp
      have htags2 : s2.tags = (toksOf (cstr b)).map (fun _ => true) ++
          ((rawWords [] r g).map cstr).flatMap fun w => inside (toksOf w) := by
        unfold Stream.tags
        rw [hs2]; rfl
      by_cases hz : b.getD 0 '\x00' = '\x00'
      · have hcb : cstr b = [] := cstr_char hz
        have hp : s.pending = [] := by rw [hpend, if_pos hcb]
        have ht : s.tags = [] := by rw [htags, if_pos hcb]
        refine ⟨s2, none, ?_, ⟨hg2, ?_, ?_, rfl, .inr ⟨rfl, hb2⟩, by simp, ?_, ?_⟩⟩
        · unfold Stream.nextToken
          rw [if_pos hc, hadv, hs2]
          have : ((⟨b, 0⟩ : Slot).char 0 != '\x00') = false := by
            simp only [bne_eq_false_iff_eq]
            exact hz
          rw [this]
        · rw [hp, hpend2, hcb, e2 hcb, rawWords]; rfl
        · rw [hp]; rfl
        · rw [ht, htags2, hcb, e2 hcb, rawWords]; rfl
        · rw [ht]; intro h; cases h
      · have hcb : cstr b ≠ [] := by
          obtain ⟨c, l, rfl, h2⟩ := cstr_ne hz
          simp [cstr, h2]
        have hch : s2.slot.char s2.slot.current ≠ '\x00' := by rw [hs2]; exact hz
        obtain ⟨t, ts, s3, v, f1, f2, f3, f4, f5, f6, f7, f8, f9, f10⟩ := cut_spec hg2 hch
        have ht : s.tags = false :: s3.tags := by
          rw [htags, if_neg hcb]
          rw [htags2] at f10
          cases hk : toksOf (cstr b) with
          | nil =>
            obtain ⟨c, l, rfl, h2⟩ := cstr_ne hz
            rw [tokenLen_spec h2] at hk
            cases hk
          | cons x xs =>
            rw [hk] at f10
            simp only [List.map_cons, List.cons_append, List.cons.injEq, true_and] at f10
            rw [← f10]; rfl
        have hp : s.pending = t :: ts := by rw [hpend, if_neg hcb, ← hpend2, f1]
        refine ⟨s3, v, ?_, ⟨f3, ?_, ?_, f6, .inr ⟨f7, ?_⟩, f9, ?_, ?_⟩⟩
        · unfold Stream.nextToken
          rw [if_pos hc, hadv, hs2]
          have : ((⟨b, 0⟩ : Slot).char 0 != '\x00') = true := by
            simp only [bne_iff_ne]
            exact hz
          rw [this]
          exact f2
        · rw [f4, hp]; rfl
        · rw [f5, hp]; rfl
        · intro j hj
          rw [f8 j]
          exact hb2 j (by rw [f7] at hj; exact hj)
        · rw [ht]; rfl
        · rw [ht]; intro h; cases h
  · obtain ⟨t, ts, s1, v, h1, h2, h3, h4, h5, h6, h7, h8, h9, h10⟩ := cut_spec hg hc
    refine ⟨s1, v, ?_, ⟨h3, ?_, ?_, h6, .inl ⟨h7, h8⟩, h9, by rw [h10]; rfl, fun _ => ⟨h7, h8⟩⟩⟩
    · unfold Stream.nextToken
      rw [if_neg hc, h2]
    · rw [h4, h1]; rfl
    · rw [h5, h1]; rfl

end Bx.Parser
