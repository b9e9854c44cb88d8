import Verif.Model.Lexer
import Verif.Spec.Lexer

/-! The stream of tokens refines the list of the tokens of the text. -/

namespace Bx.Parser

/-! ## The words of a text -/

theorem blank_eq (c : Char) : blank c = isSpace c := by
  simp [blank, isSpace, Bool.beq_eq_decide_eq, Bool.or_assoc]

theorem symbol_eq (c : Char) : symbol c = isSeparator c := rfl

theorem pieces_ne_nil (p : Char → Bool) (t : List Char) : pieces p t ≠ [] := by
  cases t with
  | nil => simp [pieces]
  | cons c t =>
    simp only [pieces]
    split
    · simp
    · split <;> simp

theorem pieces_append {p : Char → Bool} {w h u : List Char} {q : List (List Char)}
    (hw : ∀ c ∈ w, p c = false) (hh : pieces p h = u :: q) : pieces p (w ++ h) = (w ++ u) :: q := by
  induction w with
  | nil => simpa using hh
  | cons c w ih =>
    have hc := hw c (by simp)
    simp [pieces, hc, ih (fun d hd => hw d (by simp [hd]))]

theorem lineAll_blank {c : Char} (h : blank c = true) (t : List Char) :
    lineAll (c :: t) = lineAll t := by
  simp [lineAll, pieces, h]

theorem lineAll_nil : lineAll [] = [] := by decide

theorem lineAll_word {w h : List Char} (hw : ∀ c ∈ w, blank c = false) (hne : w ≠ [])
    (hh : h = [] ∨ ∃ c t, h = c :: t ∧ blank c = true) : lineAll (w ++ h) = w :: lineAll h := by
  have : ∃ q, pieces blank h = [] :: q := by
    rcases hh with rfl | ⟨c, t, rfl, hc⟩
    · exact ⟨[], rfl⟩
    · exact ⟨pieces blank t, by simp [pieces, hc]⟩
  obtain ⟨q, hq⟩ := this
  simp [lineAll, pieces_append hw hq, hq, hne]

/-- The words of every line. -/
def lineLists (t : List Char) : List (List (List Char)) := (linesOf t).map lineAll

theorem wordsOf_eq (t : List Char) :
    wordsOf t = (lineLists t).flatMap fun ws => ws.takeWhile fun w => !opens w := by
  simp only [wordsOf, lineLists, List.flatMap_map]
  rfl

theorem linesAll_eq (t : List Char) : linesAll t = (lineLists t).filter (· ≠ []) := rfl

theorem lineLists_nil : lineLists [] = [[]] := by decide

theorem lineLists_newline (t : List Char) : lineLists ('\n' :: t) = [] :: lineLists t := by
  simp [lineLists, linesOf, pieces, lineAll_nil]

theorem lineLists_ne (t : List Char) : ∃ a q, lineLists t = a :: q := by
  have := pieces_ne_nil (· == '\n') t
  cases h : lineLists t with
  | nil => simp [lineLists, linesOf, this] at h
  | cons a q => exact ⟨a, q, rfl⟩

theorem lineLists_blank {c : Char} (h : blank c = true) (hn : c ≠ '\n') (t : List Char) :
    lineLists (c :: t) = lineLists t := by
  simp only [lineLists, linesOf, pieces]
  cases hp : pieces (· == '\n') t with
  | nil => exact absurd hp (pieces_ne_nil _ _)
  | cons a q => simp [hn, lineAll_blank h]

theorem newline_blank : blank '\n' = true := by decide

/-- The first line of a text and the text after it. -/
theorem linesOf_cases (t : List Char) :
    (∃ h, linesOf t = h :: linesOf (dropLine t) ∧ '\n' ∈ t ∧
        (t.head? = h.head? ∨ (h = [] ∧ t.head? = some '\n'))) ∨
      (linesOf t = [t] ∧ '\n' ∉ t ∧ dropLine t = []) := by
  induction t with
  | nil => right; decide
  | cons c t ih =>
    by_cases hc : c = '\n'
    · subst hc
      left
      exact ⟨[], by simp [linesOf, pieces, dropLine], by simp, by simp⟩
    · have hd : dropLine (c :: t) = dropLine t := by simp [dropLine, hc]
      rcases ih with ⟨h, h1, h2, h3⟩ | ⟨h1, h2, h3⟩
      · left
        refine ⟨c :: h, ?_, by simp [h2], by simp⟩
        rw [hd]
        unfold linesOf at h1 ⊢
        simp [pieces, hc, h1]
      · right
        refine ⟨?_, by simp [h2, Ne.symm hc], by rw [hd, h3]⟩
        unfold linesOf at h1 ⊢
        simp [pieces, hc, h1]

theorem linesOf_word {w t h : List Char} {q : List (List Char)} (hw : ∀ c ∈ w, blank c = false)
    (ht : linesOf t = h :: q) : linesOf (w ++ t) = (w ++ h) :: q := by
  refine pieces_append (fun c hc => ?_) ht
  have := hw c hc
  simp only [beq_eq_false_iff_ne, ne_eq]
  rintro rfl
  exact absurd this (by decide)

/-- What follows a word: nothing or white space. -/
def AfterWord (t : List Char) : Prop := t = [] ∨ ∃ c u, t = c :: u ∧ blank c = true

theorem lineLists_word {w t : List Char} (hw : ∀ c ∈ w, blank c = false) (hne : w ≠ [])
    (ht : AfterWord t) : ∃ a q, lineLists t = a :: q ∧ lineLists (w ++ t) = (w :: a) :: q ∧
      (if '\n' ∈ t then lineLists (dropLine t) = q else q = [] ∧ dropLine t = []) := by
  rcases linesOf_cases t with ⟨h, h1, h2, h3⟩ | ⟨h1, h2, h3⟩
  · refine ⟨lineAll h, (linesOf (dropLine t)).map lineAll, by simp [lineLists, h1], ?_, by
      simp [h2, lineLists]⟩
    unfold lineLists
    rw [linesOf_word hw h1, List.map_cons, lineAll_word hw hne]
    rcases ht with rfl | ⟨c, u, rfl, hc⟩
    · simp at h2
    · rcases h3 with h3 | ⟨h3, _⟩
      · cases h with
        | nil => simp at h3
        | cons d h =>
          simp only [List.head?_cons, Option.some.injEq] at h3
          exact .inr ⟨d, h, rfl, h3 ▸ hc⟩
      · exact .inl h3
  · refine ⟨lineAll t, [], by simp [lineLists, h1], ?_, by simp [h2, h3]⟩
    unfold lineLists
    rw [linesOf_word hw h1, List.map_cons, lineAll_word hw hne ht]
    rfl

/-! ## The words that the stream extracts -/

/-- The words that the successive calls extract.  `last` is the last comment when no
word followed it. -/
def rawWords (last input : List Char) (good : Bool) : List (List Char) :=
  if !good then if last = [] then [] else [last]
  else
    let inp := input.dropWhile isSpace
    if _h : inp = [] then if last = [] then [] else [last]
    else
      let word := (inp.takeWhile fun c => !isSpace c).take maxWord
      let rest := inp.drop word.length
      let good1 := !(decide (word.length < maxWord) && rest.isEmpty)
      if word.head? = some '\\' then rawWords word (dropLine rest) (good1 && rest.contains '\n')
      else if word.head? = some '\x00' then rawWords [] rest good1
      else word :: rawWords [] rest good1
  termination_by input.length
  decreasing_by
    all_goals
      have hpos : 0 < ((input.dropWhile isSpace).takeWhile fun c => !isSpace c).length := by
        cases hi : input.dropWhile isSpace with
        | nil => exact absurd hi _h
        | cons c t =>
          have : isSpace c = false := by
            have := List.head?_dropWhile_not isSpace input
            simpa [hi] using this
          simp [this]
      have hle : (input.dropWhile isSpace).length ≤ input.length :=
        (List.dropWhile_suffix _).length_le
      have hle2 : ∀ t : List Char, (dropLine t).length ≤ t.length := fun t => by
        unfold dropLine
        have := (List.dropWhile_suffix (l := t) (· != '\n')).length_le
        simp; omega
      have hp2 : 0 < (input.dropWhile isSpace).length := by
        have := (List.takeWhile_prefix (l := input.dropWhile isSpace) fun c => !isSpace c).length_le
        omega
      have h2 := hle2 (List.drop (List.take maxWord (List.takeWhile (fun c => !isSpace c) (List.dropWhile isSpace input))).length
            (List.dropWhile isSpace input))
      simp only [List.length_drop, List.length_take, maxWord] at h2 ⊢
      omega

/-- A text has a word, in a comment or not. -/
def HasWord (t : List Char) : Prop := linesAll t ≠ []

theorem noFinal_blank {c : Char} (h : blank c = true) (t : List Char) :
    linesAll (c :: t) = linesAll t ∧ wordsOf (c :: t) = wordsOf t := by
  by_cases hn : c = '\n'
  · subst hn
    simp [linesAll_eq, wordsOf_eq, lineLists_newline]
  · simp [linesAll_eq, wordsOf_eq, lineLists_blank h hn]

theorem noFinal_blanks (t : List Char) :
    linesAll (t.dropWhile isSpace) = linesAll t ∧ wordsOf (t.dropWhile isSpace) = wordsOf t := by
  induction t with
  | nil => simp
  | cons c t ih =>
    by_cases hc : isSpace c = true
    · have := noFinal_blank (by rw [blank_eq]; exact hc) t
      simpa [List.dropWhile_cons, hc, this.1, this.2] using ih
    · simp [hc]

theorem wordsOf_word {w t : List Char} (hw : ∀ c ∈ w, blank c = false) (hne : w ≠ [])
    (ht : AfterWord t) (ho : opens w = false) : wordsOf (w ++ t) = w :: wordsOf t := by
  obtain ⟨a, q, h1, h2, _⟩ := lineLists_word hw hne ht
  simp [wordsOf_eq, h1, h2, ho]

theorem wordsOf_comment {w t : List Char} (hw : ∀ c ∈ w, blank c = false) (hne : w ≠ [])
    (ht : AfterWord t) (ho : opens w = true) : wordsOf (w ++ t) = wordsOf (dropLine t) := by
  obtain ⟨a, q, h1, h2, h3⟩ := lineLists_word hw hne ht
  split at h3
  · simp [wordsOf_eq, h2, h3, ho]
  · simp [wordsOf_eq, h2, h3.1, h3.2, ho, lineLists_nil]

theorem noFinal_word {w t : List Char} (hw : ∀ c ∈ w, blank c = false) (hne : w ≠ [])
    (ht : AfterWord t) (h : NoFinalComment (w ++ t)) : NoFinalComment t := by
  obtain ⟨a, q, h1, h2, _⟩ := lineLists_word hw hne ht
  unfold NoFinalComment at h ⊢
  rw [linesAll_eq, h2] at h
  rw [linesAll_eq, h1]
  have e : ((w :: a) :: q).filter (· ≠ []) = (w :: a) :: q.filter (· ≠ []) := by simp
  rw [e] at h
  by_cases ha : a = []
  · subst ha
    have e2 : ([] :: q).filter (· ≠ []) = q.filter (· ≠ []) := by simp
    rw [e2]
    intro ws hws
    refine h ws ?_
    cases hq : q.filter (· ≠ []) with
    | nil => rw [hq] at hws; simp at hws
    | cons b r => rw [hq] at hws; simpa using hws
  · have e2 : (a :: q).filter (· ≠ []) = a :: q.filter (· ≠ []) := by simp [ha]
    rw [e2]
    intro ws hws
    cases hq : q.filter (· ≠ []) with
    | nil =>
      rw [hq] at hws h
      simp only [List.getLast?_singleton, Option.mem_def, Option.some.injEq] at hws h
      intro x hx
      exact h _ rfl x (by rw [← hws] at hx; simp [hx])
    | cons b r =>
      rw [hq] at hws h
      exact h ws (by simpa using hws)

theorem noFinal_comment {w t : List Char} (hw : ∀ c ∈ w, blank c = false) (hne : w ≠ [])
    (ht : AfterWord t) (ho : opens w = true) (h : NoFinalComment (w ++ t)) :
    '\n' ∈ t ∧ NoFinalComment (dropLine t) ∧ HasWord (dropLine t) := by
  obtain ⟨a, q, h1, h2, h3⟩ := lineLists_word hw hne ht
  unfold NoFinalComment at h ⊢
  unfold HasWord
  rw [linesAll_eq, h2] at h
  have e : ((w :: a) :: q).filter (· ≠ []) = (w :: a) :: q.filter (· ≠ []) := by simp
  rw [e] at h
  have hq : q.filter (· ≠ []) ≠ [] := by
    intro hq
    rw [hq] at h
    have := h (w :: a) (by simp) w (by simp)
    rw [ho] at this; cases this
  by_cases hn : '\n' ∈ t
  · rw [if_pos hn] at h3
    rw [linesAll_eq, h3]
    refine ⟨hn, fun ws hws => h ws ?_, hq⟩
    cases hq2 : q.filter (· ≠ []) with
    | nil => exact absurd hq2 hq
    | cons b r => rw [hq2] at hws; simpa using hws
  · rw [if_neg hn] at h3
    rw [h3.1] at hq
    simp at hq

theorem afterWord_drop (t : List Char) :
    AfterWord (t.drop (t.takeWhile fun c => !isSpace c).length) := by
  induction t with
  | nil => simp [AfterWord]
  | cons c t ih =>
    by_cases hc : isSpace c = true
    · exact .inr ⟨c, t, by simp [hc], by rw [blank_eq]; exact hc⟩
    · simpa [hc] using ih

theorem not_mem_dropLine {c : Char} {t : List Char} (h : c ∉ t) : c ∉ dropLine t := fun hc =>
  h ((List.dropWhile_suffix _).subset (List.drop_subset _ _ hc))

theorem length_dropLine (t : List Char) : (dropLine t).length ≤ t.length := by
  unfold dropLine
  have := (List.dropWhile_suffix (l := t) (· != '\n')).length_le
  simp; omega

/-- A text begins with white space and a word. -/
theorem split_word {t : List Char} (h : t.dropWhile isSpace ≠ []) :
    ∃ w r, t.dropWhile isSpace = w ++ r ∧ w = (t.dropWhile isSpace).takeWhile (fun c => !isSpace c) ∧
      w ≠ [] ∧ (∀ c ∈ w, blank c = false) ∧ AfterWord r := by
  refine ⟨_, (t.dropWhile isSpace).drop ((t.dropWhile isSpace).takeWhile fun c => !isSpace c).length,
    ?_, rfl, ?_, ?_, afterWord_drop _⟩
  · exact (List.prefix_iff_eq_append.mp (List.takeWhile_prefix _)).symm
  · cases hi : t.dropWhile isSpace with
    | nil => exact absurd hi h
    | cons c u =>
      have : isSpace c = false := by
        have := List.head?_dropWhile_not isSpace t
        simpa [hi] using this
      simp [this]
  · intro c hc
    rw [blank_eq]
    have := List.all_eq_true.mp (List.all_takeWhile (p := fun c => !isSpace c)) c hc
    simpa using this

theorem hasWord_blank {t : List Char} (h : t.dropWhile isSpace = []) : linesAll t = [] := by
  rw [← (noFinal_blanks t).1, h]
  decide

theorem wordsOf_empty {t : List Char} (h : t.dropWhile isSpace = []) : wordsOf t = [] := by
  rw [← (noFinal_blanks t).2, h]
  decide

theorem take_takeWord {w : List Char} (h : w.length ≤ 511) : w.take maxWord = w := by
  rw [List.take_of_length_le]; exact h

/-- Without a final comment the stream extracts the words of the text. -/
theorem rawWords_eq : ∀ (n : Nat) (t last : List Char), t.length ≤ n → NoFinalComment t →
    ShortWords t → (last = [] ∨ HasWord t) → ∀ good : Bool, (good = false → t = []) →
    rawWords last t good = wordsOf t := by
  intro n
  induction n with
  | zero =>
    intro t last hn hf hs hl good hg
    have : t = [] := List.length_eq_zero_iff.mp (by omega)
    subst this
    have hl : last = [] := by
      rcases hl with h | h
      · exact h
      · exact absurd (by decide : linesAll [] = []) h
    subst hl
    rw [rawWords]
    cases good <;> simp [(by decide : wordsOf [] = [])]
  | succ n ih =>
    intro t last hn hf hs hl good hg
    rw [rawWords]
    cases good with
    | false =>
      have := hg rfl
      subst this
      have hl : last = [] := by
        rcases hl with h | h
        · exact h
        · exact absurd (by decide : linesAll [] = []) h
      simp [hl, (by decide : wordsOf [] = [])]
    | true =>
      by_cases hi : t.dropWhile isSpace = []
      · have hl : last = [] := by
          rcases hl with h | h
          · exact h
          · exact absurd (hasWord_blank hi) h
        simp [hi, hl, wordsOf_empty hi]
      · obtain ⟨w, r, h1, h2, h3, h4, h5⟩ := split_word hi
        have hlen : (w ++ r).length ≤ t.length := by
          rw [← h1]; exact (List.dropWhile_suffix _).length_le
        have hwpos : 0 < w.length := List.length_pos_iff.mpr h3
        have hnul : '\x00' ∉ w ++ r := by
          rw [← h1]; exact fun hc => hs.1 ((List.dropWhile_suffix _).subset hc)
        have hf1 : NoFinalComment (w ++ r) := by
          unfold NoFinalComment at hf ⊢
          rw [← h1, (noFinal_blanks t).1]; exact hf
        have hw1 : wordsOf (w ++ r) = wordsOf t := by rw [← h1, (noFinal_blanks t).2]
        simp only [Bool.not_true, Bool.false_eq_true, ↓reduceIte, hi, ↓reduceDIte, ← h2]
        by_cases ho : opens w = true
        · -- a comment
          have hop : (w.take maxWord).head? = some '\\' := by
            cases w with
            | nil => exact absurd rfl h3
            | cons c w => simpa [opens, maxWord] using ho
          simp only [hop, ↓reduceIte]
          obtain ⟨g1, g2, g3⟩ := noFinal_comment h4 h3 h5 ho hf1
          have hd : dropLine (List.drop (w.take maxWord).length (List.dropWhile isSpace t)) =
              dropLine r := by
            rw [h1]
            have hnl : ∀ c ∈ w, (c != '\n') = true := fun c hc => by
              have := h4 c hc
              simp only [bne_iff_ne, ne_eq]
              rintro rfl
              exact absurd this (by decide)
            have : (w ++ r).drop (w.take maxWord).length = w.drop maxWord ++ r := by
              rw [List.drop_append, List.length_take]
              by_cases hle : w.length ≤ maxWord
              · simp [Nat.min_eq_right hle, List.drop_of_length_le hle]
              · have hle : maxWord ≤ w.length := by omega
                simp [Nat.min_eq_left hle, Nat.sub_eq_zero_of_le hle]
            rw [this]
            unfold dropLine
            rw [List.dropWhile_append_of_pos]
            exact fun c hc => hnl c (List.drop_subset _ _ hc)
          have hcont : (List.drop (w.take maxWord).length (List.dropWhile isSpace t)).contains '\n'
              = true := by
            rw [h1]
            simp only [List.contains_eq_mem, decide_eq_true_eq]
            have : (w ++ r).drop (w.take maxWord).length = w.drop (w.take maxWord).length ++ r := by
              rw [List.drop_append_of_le_length]
              simp; omega
            rw [this]; simp [g1]
          have hgood : (decide ((w.take maxWord).length < maxWord) &&
              (List.drop (w.take maxWord).length (List.dropWhile isSpace t)).isEmpty) = false := by
            cases he : List.drop (w.take maxWord).length (List.dropWhile isSpace t) with
            | nil => rw [he] at hcont; simp at hcont
            | cons a b => simp
          rw [hd, hcont, hgood]
          have hlr := length_dropLine r
          simp only [List.length_append] at hlen
          have hw2 : wordsOf (dropLine r) = wordsOf t := by
            rw [← hw1, wordsOf_comment h4 h3 h5 ho]
          rw [ih (dropLine r) _ (by omega) g2 ⟨?_, ?_⟩ (.inr g3) _ (by simp)]
          · exact hw2
          · exact not_mem_dropLine fun hc => hnul (by simp [hc])
          · rw [hw2]; exact hs.2
        · -- a word
          have ho : opens w = false := by simpa using ho
          have hww : wordsOf (w ++ r) = w :: wordsOf r := wordsOf_word h4 h3 h5 ho
          have hlw : w.length ≤ 511 := hs.2 w (by rw [← hw1, hww]; simp)
          rw [take_takeWord hlw]
          have hop : w.head? ≠ some '\\' := by simpa [opens] using ho
          have hz : w.head? ≠ some '\x00' := by
            intro hc
            cases w with
            | nil => simp at hc
            | cons c w => simp at hc; simp [hc] at hnul
          simp only [hop, hz, ↓reduceIte]
          have hdr : List.drop w.length (List.dropWhile isSpace t) = r := by simp [h1]
          rw [hdr, ← hw1, hww]
          simp only [List.length_append] at hlen
          rw [ih r [] (by omega) (noFinal_word h4 h3 h5 hf1) ⟨?_, ?_⟩ (.inl rfl) _ (by simp)]
          · exact fun hc => hnul (by simp [hc])
          · intro v hv; exact hs.2 v (by rw [← hw1, hww]; simp [hv])

end Bx.Parser
