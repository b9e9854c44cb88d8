import Verif.Proofs.ParserWF
import Verif.Proofs.QuadWindow

/-!
# The layout of the text and the case of its keywords
-/

namespace Bx.Parser

open Params (D)

variable {scan : Token → Option D}

/-! ## Layout -/

theorem sim_stream : Sim False scan streamSource listSource
    (fun s ts => Window s 10 ts ∧ ['['] ∉ ts) where
  tok := fun {a b i} h hi => .inl (h.1.text i hi)
  pop := fun {a b n} h h1 h2 =>
    ⟨h.1.pop h1 h2, fun hm => h.2 (List.drop_subset n b hm)⟩
  plain := .inr fun {a b i} h hi hc => by
    apply h.2
    rw [← hc]
    show b.getD i [] ∈ b
    have hne : b.getD i [] ≠ [] := by
      intro h0
      rw [show listSource.tok b i = b.getD i [] from rfl, h0] at hc
      cases hc
    rw [List.getD_eq_getElem?_getD] at hne ⊢
    cases he : b[i]? with
    | none => simp [he] at hne
    | some x => simpa using List.mem_of_getElem? he
  exact := False.elim

/-- The words of a text are short enough around its quadratic terms. -/
def Near (ts : List Token) (bs : List Bool) : Prop :=
  ∀ i, (ts.getD i [] = ['*'] → begun 10 (bs.drop i) ≤ 9) ∧
    ((ts.getD i [] = ['^'] ∨ ts.getD i [] = ['^', '2']) → begun 12 (bs.drop i) ≤ 9)

theorem getD_drop' (ts : List Token) (n i : Nat) :
    (ts.drop n).getD i [] = ts.getD (n + i) [] := by
  simp [List.getD_eq_getElem?_getD]

theorem Near.drop {ts : List Token} {bs : List Bool} (h : Near ts bs) (n : Nat) :
    Near (ts.drop n) (bs.drop n) := by
  intro i
  rw [getD_drop', List.drop_drop]
  exact h (n + i)

theorem near_of_compact {text : List Char} (h : Compact text) :
    Near (tokensOf text) (gluedOf text) := by
  intro i
  by_cases hi : i < (tokensOf text).length
  · have c10 := begun_count 10 ((gluedOf text).drop i)
    have c12 := begun_count 12 ((gluedOf text).drop i)
    refine ⟨fun ht => ?_, fun ht => ?_⟩
    · have := (h i hi).1 ht; omega
    · have := (h i hi).2 (by rcases ht with ht | ht <;> rw [ht] <;> rfl); omega
  · have e : (tokensOf text).getD i [] = [] := by
      rw [List.getD_eq_getElem?_getD, List.getElem?_eq_none (by omega)]; rfl
    rw [e]
    simp

theorem quad_words : QuadSim True streamSource listSource
    (fun s ts => ∃ bs, Words s 10 ts bs ∧ Near ts bs) where
  times := fun {a b n} ⟨bs, h, hn⟩ h1 h2 _ hc => by
    have hc : (b.drop n).getD 0 [] = ['*'] := hc
    rw [getD_drop'] at hc
    refine h.stale (i := n - 1) (by omega) ?_
    rw [show 10 + n - (n - 1 + 1) = 10 by omega, show n - 1 + 1 = n by omega]
    exact (hn n).1 hc
  power := fun {a b n m} ⟨bs, h, hn⟩ h1 h2 _ hm hc => by
    have hc : (b.drop n).getD 0 [] = ['^'] ∨ (b.drop n).getD 0 [] = ['^', '2'] := hc
    rw [getD_drop'] at hc
    refine h.stale2 (i := n - 1) (by omega) h1 h2 ?_
    rw [show 10 + n + m - (n - 1 + 1) = 10 + m by omega, show n - 1 + 1 = n by omega]
    exact le_trans (begun_mono (by omega) _) ((hn n).2 hc)
  second := .inl trivial
  keep := .inl trivial

theorem sim_words : Sim True scan streamSource listSource
    (fun s ts => ∃ bs, Words s 10 ts bs ∧ Near ts bs) where
  tok := fun {a b i} ⟨bs, h, _⟩ hi => .inl (h.win.text i hi)
  pop := fun {a b n} ⟨bs, h, hn⟩ h1 h2 => ⟨bs.drop n, h.pop h1 h2, hn.drop n⟩
  plain := .inl quad_words
  exact := fun _ {a b i} ⟨bs, h, _⟩ hi => h.win.text i hi

theorem makeProblem_tokens (fuel : Nat) {text : List Char} (h : Readable text)
    (hb : ['['] ∉ tokensOf text ∨ Compact text) :
    makeProblem scan fuel text = parse listSource scan fuel (tokensOf text) := by
  rcases hb with hb | hb
  · refine parse_rel sim_stream fuel ⟨?_, hb⟩
    rw [← streamTokens_eq h]
    exact Window.open text
  · refine parse_rel sim_words fuel ⟨gluedOf text, ?_, near_of_compact hb⟩
    rw [← streamTokens_eq h, ← streamGlued_eq h]
    exact Words.open text

/-! ## Case -/

theorem sameWord_iff {t u : Token} : SameWord t u ↔ areEqual t u = true := areEqual_iff.symm

theorem reserved_iff {t : Token} : Reserved t ↔ isKeyword t = true := by
  rw [isKeyword_iff]
  unfold Reserved
  have : keywords = sectionWords.map String.toList := by decide
  rw [this]
  simp only [List.mem_map]
  constructor
  · rintro ⟨w, hw, h⟩
    exact ⟨_, ⟨w, hw, rfl⟩, by rw [areEqual_comm]; exact sameWord_iff.mp h⟩
  · rintro ⟨_, ⟨w, hw, rfl⟩, h⟩
    exact ⟨w, hw, sameWord_iff.mpr (by rw [areEqual_comm]; exact h)⟩

theorem keywordCase_rel (hs : ∀ t, Reserved t → scan t = none) {t u : Token}
    (h : KeywordCase t u) : TokRel scan t u := by
  rcases h with rfl | ⟨h1, h2⟩
  · exact .inl rfl
  · refine .inr ⟨reserved_iff.mp h1, sameWord_iff.mp h2, hs _ h1, hs _ ?_⟩
    rw [reserved_iff, ← isKeyword_congr (sameWord_iff.mp h2)]
    exact reserved_iff.mp h1

theorem forall2_getD {ts us : List Token} (h : List.Forall₂ (TokRel scan) ts us) (i : Nat) :
    TokRel scan (ts.getD i []) (us.getD i []) := by
  induction h generalizing i with
  | nil => exact .inl (by simp)
  | cons h1 _ ih =>
    cases i with
    | zero => exact h1
    | succ i => simpa using ih i

theorem forall2_drop {ts us : List Token} (h : List.Forall₂ (TokRel scan) ts us) (n : Nat) :
    List.Forall₂ (TokRel scan) (ts.drop n) (us.drop n) := by
  induction h generalizing n with
  | nil => simp
  | cons h1 h2 ih =>
    cases n with
    | zero => exact .cons h1 h2
    | succ n => simpa using ih n

theorem getD_ne_open {b : List Token} (h : ['['] ∉ b) (i : Nat) : b.getD i [] ≠ ['['] := by
  intro hc
  apply h
  rw [← hc]
  rw [List.getD_eq_getElem?_getD] at hc ⊢
  cases he : b[i]? with
  | none => simp [he] at hc
  | some x => simpa using List.mem_of_getElem? he

/-- No keyword follows `*`. -/
def Stars (us : List Token) : Prop :=
  ∀ i, us.getD i [] = ['*'] → isKeyword (us.getD (i + 1) []) = false

theorem Stars.drop {us : List Token} (h : Stars us) (n : Nat) : Stars (us.drop n) := by
  intro i hi
  rw [getD_drop'] at hi ⊢
  exact h (n + i) hi

/-- Lists of tokens, the quadratic terms of which do not depend on the case of keywords. -/
structure Fine (P : List Token → Prop) : Prop where
  drop : ∀ us n, P us → P (us.drop n)
  ok : (∀ us, P us → Stars us) ∨ ∀ us, P us → ['['] ∉ us

theorem fine_stars : Fine Stars := ⟨fun _ n h => h.drop n, .inl fun _ h => h⟩

theorem fine_plain : Fine fun us => ['['] ∉ us :=
  ⟨fun us n h hm => h (List.drop_subset n us hm), .inr fun _ h => h⟩

variable {P : List Token → Prop}

theorem sim_case (hP : Fine P) : Sim False scan listSource listSource
    (fun ts us => List.Forall₂ (TokRel scan) ts us ∧ P us) where
  tok := fun h _ => forall2_getD h.1 _
  pop := fun {_ b n} h _ _ => ⟨forall2_drop h.1 n, hP.drop b n h.2⟩
  plain := by
    rcases hP.ok with h | h
    · refine .inl ⟨?_, ?_, .inr fun hR => h _ hR.2 0, .inr fun _ _ _ => rfl⟩
      · intro a b n hR h1 h2 hk _
        have := forall2_getD hR.1 (n - 1)
        exact this.eq_of (by rw [this.kw]; exact hk)
      · intro a b n m hR h1 h2 hk _ _
        have := forall2_getD hR.1 (n - 1)
        exact this.eq_of (by rw [this.kw]; exact hk)
    · exact .inr fun hR _ => getD_ne_open (h _ hR.2) _
  exact := False.elim

/-- `readHead` after the word of the objective. -/
theorem readHead_cons (h : Token) (ts : List Token) (p : PProblem) :
    readHead listSource (h :: ts) p = (orStop (readObjectiveType h) .badObjectiveFunctionType >>=
      fun t => if readLabel (ts.getD 0 []) (ts.getD 1 []) = 0 then .ok (ts, { p with type := t })
        else popFront listSource ts (readLabel (ts.getD 0 []) (ts.getD 1 [])) >>= fun s2 =>
          .ok (s2, { p with type := t })) := by
  unfold readHead
  rfl

theorem objectiveType_same {h h' : Token} (e : SameWord h h') :
    readObjectiveType h = readObjectiveType h' := by
  unfold readObjectiveType
  simp only [areEqual_congr (sameWord_iff.mp e)]

theorem parse_sections (fuel : Nat) {h h' : Token} {ts us : List Token} (e : SameWord h h')
    (hts : List.Forall₂ (TokRel scan) ts us) (hP : Fine P) (hb : P us) :
    parse listSource scan fuel (h :: ts) = parse listSource scan fuel (h' :: us) := by
  rw [parse_eq, parse_eq, readHead_cons, readHead_cons, objectiveType_same e]
  have sim := sim_case (scan := scan) hP
  have h0 : ResRel (fun a b p => (List.Forall₂ (TokRel scan) a b ∧ P b) ∧ NK False p)
      (orStop (readObjectiveType h') .badObjectiveFunctionType >>=
        fun t => if readLabel (ts.getD 0 []) (ts.getD 1 []) = 0 then
          .ok (ts, { ({} : PProblem) with type := t })
        else popFront listSource ts (readLabel (ts.getD 0 []) (ts.getD 1 [])) >>= fun s2 =>
          .ok (s2, { ({} : PProblem) with type := t }))
      (orStop (readObjectiveType h') .badObjectiveFunctionType >>=
        fun t => if readLabel (us.getD 0 []) (us.getD 1 []) = 0 then
          .ok (us, { ({} : PProblem) with type := t })
        else popFront listSource us (readLabel (us.getD 0 []) (us.getD 1 [])) >>= fun s2 =>
          .ok (s2, { ({} : PProblem) with type := t })) := by
    refine orStop_bind _ _ fun t ht => ?_
    have e : readLabel (ts.getD 0 []) (ts.getD 1 []) = readLabel (us.getD 0 []) (us.getD 1 []) := by
      unfold readLabel
      rw [(forall2_getD hts 0).kw, (forall2_getD hts 1).equal]
    rw [e]
    split
    · exact ⟨rfl, ⟨hts, hb⟩, .inr (by intro n hn; cases hn)⟩
    · exact popFront_bind sim ⟨hts, hb⟩ _ fun a b h => ⟨rfl, h, .inr (by intro n hn; cases hn)⟩
  refine h0.bind_eq fun a b p h => ?_
  refine (objLoop_rel sim fuel h.1 h.2).bind_eq fun a b p h => ?_
  exact parseTail_rel sim fuel h.1 h.2

/-! ## The two words before the constraints -/

theorem readReal_keyword {t : Token} (hk : isKeyword t = true) (hs : scan t = none) :
    readReal scan t = .ok none := by
  have := keyword_facts hk
  unfold readReal
  rw [if_neg (by rw [this.1]; simp), if_neg (by omega), if_neg (by omega), hs]

theorem readReal2_keyword {b1 b2 : Token} {v : D} {n : Nat} (hk : isKeyword b2 = true)
    (hs : scan b2 = none) (h : readReal2 scan b1 b2 = .ok (v, n)) : n ≤ 1 := by
  unfold readReal2 at h
  rw [readReal_keyword hk hs] at h
  split at h
  · simp only [pm_ok_bind, Except.ok.injEq, Prod.mk.injEq] at h; omega
  · split at h
    · simp only [pm_ok_bind, Except.ok.injEq, Prod.mk.injEq] at h; omega
    · rw [pm_bind_eq_ok] at h
      obtain ⟨o, -, h⟩ := h
      split at h <;> simp only [Except.ok.injEq, Prod.mk.injEq] at h <;> omega

theorem readElem_le {b1 b2 b3 name : Token} {v : D} {n : Nat}
    (h : readElem scan b1 b2 b3 = .ok (some (v, name, n))) :
    n ≤ 3 ∧ (isKeyword b3 = true → n ≤ 2) ∧
      (isKeyword b2 = true → scan b2 = none → n ≤ 1) := by
  unfold readElem at h
  rw [pm_bind_eq_ok] at h
  obtain ⟨⟨v', r⟩, h1, h⟩ := h
  have hr := readReal2_le h1
  simp only at h
  split at h
  · rename_i hc
    simp only [Bool.and_eq_true, Bool.not_eq_true'] at hc
    split at h
    · cases h
    · simp only [Except.ok.injEq, Option.some.injEq, Prod.mk.injEq] at h
      obtain ⟨-, -, rfl⟩ := h
      refine ⟨by omega, fun hk => ?_, fun hk hs => ?_⟩
      · rcases (by omega : r = 0 ∨ r = 1 ∨ r = 2) with rfl | rfl | rfl
        · omega
        · omega
        · rw [show toRead 2 b1 b2 b3 = b3 from rfl, hk] at hc; cases hc.1
      · have := readReal2_keyword hk hs h1
        rcases (by omega : r = 0 ∨ r = 1) with rfl | rfl
        · omega
        · rw [show toRead 1 b1 b2 b3 = b2 from rfl, hk] at hc; cases hc.1
  · simp only [Except.ok.injEq, Option.some.injEq, Prod.mk.injEq] at h
    obtain ⟨-, -, rfl⟩ := h
    exact ⟨by omega, fun _ => hr, fun hk hs => readReal2_keyword hk hs h1⟩

/-- After a keyword, the third token does not matter. -/
theorem readElem_third {b1 b2 b3 c2 c3 : Token} (h2 : TokRel scan b2 c2)
    (hk : isKeyword b2 = true) (hs' : scan c2 = none) :
    readElem scan b1 b2 b3 = readElem scan b1 c2 c3 := by
  have hk' : isKeyword c2 = true := by rw [← h2.kw]; exact hk
  unfold readElem
  rw [readReal2_rel (TokRel.rfl' (t := b1)) h2]
  cases hr : readReal2 scan b1 c2 with
  | error e => rfl
  | ok r =>
    obtain ⟨v, n⟩ := r
    have := readReal2_keyword hk' hs' hr
    simp only [pm_ok_bind]
    rcases (by omega : n = 0 ∨ n = 1) with rfl | rfl
    · rfl
    · simp only [toRead, hk, hk']
      simp

/-- The two states while the objective is read. -/
structure Before (P : List Token → Prop) (scan : Token → Option D) (s s' w w' : Token) (ts us : List Token)
    (a b : List Token) : Prop where
  split : ∃ pre, a = pre ++ s :: w :: ts ∧ b = pre ++ s' :: w' :: us ∧
    (∀ t ∈ pre, isKeyword t = false)
  plain : P a ∧ P b

variable {s s' w w' : Token} {ts us : List Token}

theorem objElem_before (hP : Fine P) (hk : isKeyword s = true) (hrel : TokRel scan s s')
    (hs : scan s = none) (hs' : scan s' = none) {a b : List Token} {p : PProblem}
    (h : Before P scan s s' w w' ts us a b) (hne : isKeyword (a.getD 0 []) = false) (hp : NK False p) :
    ResRel (fun a b p => Before P scan s s' w w' ts us a b ∧ NK False p)
      (objElem listSource scan a p) (objElem listSource scan b p) := by
  obtain ⟨⟨pre, rfl, rfl, hpre⟩, h1, h2⟩ := h
  have hk' : isKeyword s' = true := by rw [← hrel.kw]; exact hk
  have key : ∃ b1 b2 b3 c2 c3, (pre ++ s :: w :: ts).getD 0 [] = b1 ∧
      (pre ++ s :: w :: ts).getD 1 [] = b2 ∧ (pre ++ s :: w :: ts).getD 2 [] = b3 ∧
      (pre ++ s' :: w' :: us).getD 0 [] = b1 ∧ (pre ++ s' :: w' :: us).getD 1 [] = c2 ∧
      (pre ++ s' :: w' :: us).getD 2 [] = c3 ∧
      readElem scan b1 b2 b3 = readElem scan b1 c2 c3 ∧
      ∀ v name n, readElem scan b1 b2 b3 = .ok (some (v, name, n)) → n ≤ pre.length := by
    match pre, hpre with
    | [], _ => simp [hk] at hne
    | [x], _ =>
      exact ⟨x, s, w, s', w', rfl, rfl, rfl, rfl, rfl, rfl, readElem_third hrel hk hs',
        fun v name n h => (readElem_le h).2.2 hk hs⟩
    | [x, y], _ =>
      exact ⟨x, y, s, y, s', rfl, rfl, rfl, rfl, rfl, rfl,
        readElem_rel TokRel.rfl' TokRel.rfl' hrel, fun v name n h => (readElem_le h).2.1 hk⟩
    | x :: y :: z :: r, _ =>
      refine ⟨x, y, z, y, z, rfl, rfl, rfl, rfl, rfl, rfl, rfl, fun v name n h => ?_⟩
      have := (readElem_le h).1
      simp only [List.length_cons]; omega
  obtain ⟨b1, b2, b3, c2, c3, e1, e2, e3, e4, e5, e6, he, hn⟩ := key
  unfold objElem
  simp only [listSource, e1, e2, e3, e4, e5, e6]
  rw [← he]
  refine same_bind _ fun e hee => orStop_bind _ _ fun r hr => orStop_bind _ _ fun p1 hp1 => ?_
  subst hr
  obtain ⟨v, name, n⟩ := r
  have hn' := hn v name n hee
  unfold popFront
  simp only
  split
  · refine ⟨rfl, ⟨⟨pre.drop n, ?_, ?_, ?_⟩, ?_, ?_⟩, appendObjective_nk (readElem_name hee) hp hp1⟩
    · show List.drop n _ = _
      rw [List.drop_append_of_le_length hn']
    · show List.drop n _ = _
      rw [List.drop_append_of_le_length hn']
    · exact fun t ht => hpre t (List.drop_subset n pre ht)
    · exact hP.drop _ n h1
    · exact hP.drop _ n h2
  · exact rfl

theorem readQuad_first {b1 b2 b3 : Token} (hk : isKeyword b1 = true) (hs : scan b1 = none) :
    readQuad scan b1 b2 b3 = .ok none := by
  have e : ∀ w : Token, isKeyword w = false → b1 ≠ w := by
    rintro w hw rfl; rw [hk] at hw; cases hw
  unfold readQuad readReal2
  rw [if_neg (e ['-'] (by decide)), if_neg (e ['+'] (by decide)), readReal_keyword hk hs]
  simp only [pm_ok_bind]
  rw [show toRead 0 b1 b2 b3 = b1 from rfl, hk]
  rfl

theorem readQuad_le {b1 b2 b3 : Token} {v : D} {n : Nat}
    (h : readQuad scan b1 b2 b3 = .ok (some (v, n))) :
    1 ≤ n ∧ n ≤ 3 ∧ (isKeyword b3 = true → n ≤ 2) ∧
      (isKeyword b2 = true → scan b2 = none → n ≤ 1) := by
  unfold readQuad at h
  rw [pm_bind_eq_ok] at h
  obtain ⟨⟨v', r⟩, h1, h⟩ := h
  have hr := readReal2_le h1
  simp only at h
  split at h
  · cases h
  · rename_i hc
    simp only [Bool.or_eq_true, not_or, Bool.not_eq_true] at hc
    split at h
    · cases h
    · simp only [Except.ok.injEq, Option.some.injEq, Prod.mk.injEq] at h
      obtain ⟨-, rfl⟩ := h
      refine ⟨by omega, by omega, fun hk => ?_, fun hk hs => ?_⟩
      · rcases (by omega : r = 0 ∨ r = 1 ∨ r = 2) with rfl | rfl | rfl
        · omega
        · omega
        · rw [show toRead 2 b1 b2 b3 = b3 from rfl, hk] at hc; cases hc.1
      · have := readReal2_keyword hk hs h1
        rcases (by omega : r = 0 ∨ r = 1) with rfl | rfl
        · omega
        · rw [show toRead 1 b1 b2 b3 = b2 from rfl, hk] at hc; cases hc.1

theorem readQuad_third {b1 b2 b3 c2 c3 : Token} (h2 : TokRel scan b2 c2)
    (hk : isKeyword b2 = true) (hs' : scan c2 = none) :
    readQuad scan b1 b2 b3 = readQuad scan b1 c2 c3 := by
  have hk' : isKeyword c2 = true := by rw [← h2.kw]; exact hk
  unfold readQuad
  rw [readReal2_rel (TokRel.rfl' (t := b1)) h2]
  cases hr : readReal2 scan b1 c2 with
  | error e => rfl
  | ok r =>
    obtain ⟨v, n⟩ := r
    have := readReal2_keyword hk' hs' hr
    simp only [pm_ok_bind]
    rcases (by omega : n = 0 ∨ n = 1) with rfl | rfl
    · rfl
    · simp only [toRead, hk, hk']
      simp

/-- The first tokens of the two states. -/
theorem Before.first (hrel : TokRel scan s s') {a b : List Token}
    (h : Before P scan s s' w w' ts us a b) : TokRel scan (a.getD 0 []) (b.getD 0 []) := by
  obtain ⟨⟨pre, rfl, rfl, hpre⟩, -⟩ := h
  match pre with
  | [] => exact hrel
  | x :: r => exact TokRel.rfl'

/-- The second tokens of the two states, if the first one is not a keyword. -/
theorem Before.next (hrel : TokRel scan s s') {a b : List Token}
    (h : Before P scan s s' w w' ts us a b) (hk : isKeyword s = true)
    (hne : isKeyword (a.getD 0 []) = false) : TokRel scan (a.getD 1 []) (b.getD 1 []) := by
  obtain ⟨⟨pre, rfl, rfl, hpre⟩, -⟩ := h
  match pre with
  | [] => simp [hk] at hne
  | [x] => exact hrel
  | x :: y :: r => exact TokRel.rfl'

/-- A token that is not a keyword can be removed. -/
theorem Before.pop1 (hP : Fine P) (hk : isKeyword s = true) {a b : List Token}
    (h : Before P scan s s' w w' ts us a b) (h0 : isKeyword (a.getD 0 []) = false) :
    Before P scan s s' w w' ts us (a.drop 1) (b.drop 1) := by
  obtain ⟨⟨pre, rfl, rfl, hpre⟩, h1, h2⟩ := h
  match pre, hpre with
  | [], _ => simp [hk] at h0
  | x :: r, hpre =>
    exact ⟨⟨r, rfl, rfl, fun t ht => hpre t (List.mem_cons_of_mem _ ht)⟩, hP.drop _ 1 h1,
      hP.drop _ 1 h2⟩

theorem Before.pop2 (hP : Fine P) (hk : isKeyword s = true) {a b : List Token}
    (h : Before P scan s s' w w' ts us a b) (h0 : isKeyword (a.getD 0 []) = false)
    (h1 : isKeyword (a.getD 1 []) = false) :
    Before P scan s s' w w' ts us (a.drop 2) (b.drop 2) := by
  have := (h.pop1 hP hk h0).pop1 hP hk (by rw [getD_drop']; exact h1)
  rwa [List.drop_drop, List.drop_drop] at this

/-- What a term of a quadratic part reads. -/
theorem Before.quad (hrel : TokRel scan s s') (hk : isKeyword s = true)
    (hs : scan s = none) (hs' : scan s' = none) {a b : List Token}
    (h : Before P scan s s' w w' ts us a b) :
    readQuad scan (a.getD 0 []) (a.getD 1 []) (a.getD 2 []) =
        readQuad scan (b.getD 0 []) (b.getD 1 []) (b.getD 2 []) ∧
      ∀ v n, readQuad scan (b.getD 0 []) (b.getD 1 []) (b.getD 2 []) = .ok (some (v, n)) →
        ∃ pre, a = pre ++ s :: w :: ts ∧ b = pre ++ s' :: w' :: us ∧ 1 ≤ n ∧ n ≤ 3 ∧
          n ≤ pre.length ∧ ∀ t ∈ pre, isKeyword t = false := by
  have hk' : isKeyword s' = true := by rw [← hrel.kw]; exact hk
  obtain ⟨⟨pre, rfl, rfl, hpre⟩, -⟩ := h
  match pre, hpre with
  | [], _ =>
    have e1 : readQuad scan s w (ts.getD 0 []) = .ok none := readQuad_first hk hs
    have e2 : readQuad scan s' w' (us.getD 0 []) = .ok none := readQuad_first hk' hs'
    refine ⟨e1.trans e2.symm, fun v n h => ?_⟩
    have h : readQuad scan s' w' (us.getD 0 []) = .ok (some (v, n)) := h
    rw [e2] at h
    cases h
  | [x], hpre =>
    refine ⟨readQuad_third hrel hk hs', fun v n h => ⟨[x], rfl, rfl, ?_⟩⟩
    have := readQuad_le (b1 := x) (b2 := s') (b3 := w') h
    exact ⟨this.1, this.2.1, this.2.2.2 hk' hs', hpre⟩
  | [x, y], hpre =>
    refine ⟨readQuad_rel TokRel.rfl' TokRel.rfl' hrel, fun v n h => ⟨[x, y], rfl, rfl, ?_⟩⟩
    have := readQuad_le (b1 := x) (b2 := y) (b3 := s') h
    exact ⟨this.1, this.2.1, this.2.2.1 hk', hpre⟩
  | x :: y :: z :: r, hpre =>
    refine ⟨rfl, fun v n h => ⟨x :: y :: z :: r, rfl, rfl, ?_⟩⟩
    have := readQuad_le (b1 := x) (b2 := y) (b3 := z) h
    exact ⟨this.1, this.2.1, by simp only [List.length_cons]; omega, hpre⟩

theorem quadLoop_before (hP : Fine P) (hst : ∀ us, P us → Stars us) (hk : isKeyword s = true)
    (hrel : TokRel scan s s') (hs : scan s = none) (hs' : scan s' = none) (neg : Bool) :
    ∀ (k : Nat) {a b : List Token} {p : PProblem},
    Before P scan s s' w w' ts us a b → NK False p →
    ResRel (fun a b p => (Before P scan s s' w w' ts us a b ∧ isKeyword (a.getD 0 []) = false) ∧
        NK False p)
      (quadLoop listSource scan neg k a p) (quadLoop listSource scan neg k b p) := by
  intro k
  induction k with
  | zero => intro a b p _ _; exact rfl
  | succ k ih =>
    intro a b p h hp
    have h0 := h.first hrel
    unfold quadLoop
    simp only [show listSource.tok = fun (s : List Token) i => s.getD i [] from rfl]
    simp only [h0.nil_iff, h0.eq_iff (w := [']']) (by decide)]
    by_cases c0 : b.getD 0 [] = [] ∨ b.getD 0 [] = [']']
    · rw [if_pos c0, if_pos c0]
      refine ⟨rfl, ⟨h, ?_⟩, hp⟩
      rw [h0.kw]
      rcases c0 with c | c <;> rw [c] <;> decide
    · rw [if_neg c0, if_neg c0]
      obtain ⟨e1, e2⟩ := h.quad hrel hk hs hs'
      rw [e1]
      refine same_bind _ fun e he => orStop_bind _ _ fun r hr => ?_
      subst hr
      obtain ⟨f, n⟩ := r
      obtain ⟨pre, ea, eb, hn1, hn3, hnl, hpre⟩ := e2 f n he
      have h' : Before P scan s s' w w' ts us (a.drop n) (b.drop n) := by
        refine ⟨⟨pre.drop n, ?_, ?_, fun t ht => hpre t (List.drop_subset n pre ht)⟩,
          hP.drop _ n h.plain.1, hP.drop _ n h.plain.2⟩
        · rw [ea, List.drop_append_of_le_length hnl]
        · rw [eb, List.drop_append_of_le_length hnl]
      have ename : a.getD (n - 1) [] = b.getD (n - 1) [] ∧
          isKeyword (b.getD (n - 1) []) = false := by
        have hlt : n - 1 < pre.length := by omega
        have e : ∀ l : List Token, (pre ++ l).getD (n - 1) [] = pre[n - 1] := by
          intro l
          rw [List.getD_eq_getElem?_getD, List.getElem?_append_left hlt,
            List.getElem?_eq_getElem hlt]
          rfl
        rw [ea, eb, e, e]
        exact ⟨rfl, hpre _ (List.getElem_mem hlt)⟩
      unfold popFront
      have hn10 : 1 ≤ n ∧ n < 10 := ⟨hn1, by omega⟩
      rw [if_pos hn10, if_pos hn10]
      simp only [pm_ok_bind]
      show ResRel _
        (if (a.drop n).getD 0 [] = ['*'] then
          quadProduct listSource neg f n a (a.drop n) p >>= fun r =>
            quadLoop listSource scan neg k r.1 r.2
        else if (a.drop n).getD 0 [] = ['^'] ∨ (a.drop n).getD 0 [] = ['^', '2'] then
          quadSquare listSource neg f n a (a.drop n) p >>= fun r =>
            quadLoop listSource scan neg k r.1 r.2
        else quadLoop listSource scan neg k (a.drop n) p)
        (if (b.drop n).getD 0 [] = ['*'] then
          quadProduct listSource neg f n b (b.drop n) p >>= fun r =>
            quadLoop listSource scan neg k r.1 r.2
        else if (b.drop n).getD 0 [] = ['^'] ∨ (b.drop n).getD 0 [] = ['^', '2'] then
          quadSquare listSource neg f n b (b.drop n) p >>= fun r =>
            quadLoop listSource scan neg k r.1 r.2
        else quadLoop listSource scan neg k (b.drop n) p)
      have h0' := h'.first hrel
      simp only [h0'.eq_iff (w := ['*']) (by decide), h0'.eq_iff (w := ['^']) (by decide),
        h0'.eq_iff (w := ['^', '2']) (by decide)]
      by_cases c1 : (b.drop n).getD 0 [] = ['*']
      · rw [if_pos c1, if_pos c1]
        have k0 : isKeyword ((a.drop n).getD 0 []) = false := by rw [h0'.kw, c1]; decide
        have r1 := h'.next hrel hk k0
        have kb : isKeyword ((b.drop n).getD 1 []) = false := hst _ h'.plain.2 0 c1
        have k1 : isKeyword ((a.drop n).getD 1 []) = false := by rw [r1.kw]; exact kb
        refine ResRel.bind (Q := fun a b p => Before P scan s s' w w' ts us a b ∧ NK False p) ?_
          fun a b p h => ih h.1 h.2
        unfold quadProduct
        show ResRel _ (orStop (readName ((a.drop n).getD 1 [])) _ >>= fun name2 =>
          orStop (p.getOrAssign (a.getD (n - 1) [])) _ >>= _) (orStop (readName ((b.drop n).getD 1 [])) _ >>= fun name2 =>
          orStop (p.getOrAssign (b.getD (n - 1) [])) _ >>= _)
        rw [r1.eq_of k1, ename.1]
        refine orStop_bind _ _ fun name2 hn2 => orStop_bind _ _ fun x hx =>
          orStop_bind _ _ fun y hy => ?_
        unfold popFront
        rw [if_pos (by decide)]
        refine ⟨rfl, h'.pop2 hP hk k0 k1, ?_⟩
        have n1 : NK False x.2 := getOrAssign_nk ename.2 hp (i := x.1) hx
        exact (getOrAssign_nk (by rw [readName_eq hn2]; exact kb) n1 (i := y.1) hy :
          NK False y.2)
      · rw [if_neg c1, if_neg c1]
        by_cases c2 : (b.drop n).getD 0 [] = ['^'] ∨ (b.drop n).getD 0 [] = ['^', '2']
        · rw [if_pos c2, if_pos c2]
          have k0 : isKeyword ((a.drop n).getD 0 []) = false := by
            rw [h0'.kw]
            rcases c2 with c | c <;> rw [c] <;> decide
          have r1 := h'.next hrel hk k0
          refine ResRel.bind (Q := fun a b p => Before P scan s s' w w' ts us a b ∧ NK False p) ?_
            fun a b p h => ih h.1 h.2
          unfold quadSquare
          show ResRel _ (popFront listSource (a.drop n)
              (if (a.drop n).getD 0 [] = ['^'] ∧ (a.drop n).getD 1 [] = ['2'] then 2 else 1) >>=
              fun s2 => orStop (p.getOrAssign (a.getD (n - 1) [])) _ >>= _)
            (popFront listSource (b.drop n)
              (if (b.drop n).getD 0 [] = ['^'] ∧ (b.drop n).getD 1 [] = ['2'] then 2 else 1) >>=
              fun s2 => orStop (p.getOrAssign (b.getD (n - 1) [])) _ >>= _)
          rw [ename.1]
          simp only [h0'.eq_iff (w := ['^']) (by decide), r1.eq_iff (w := ['2']) (by decide)]
          by_cases c3 : (b.drop n).getD 0 [] = ['^'] ∧ (b.drop n).getD 1 [] = ['2']
          · rw [if_pos c3]
            unfold popFront
            rw [if_pos (by decide)]
            refine orStop_bind _ _ fun x hx => ?_
            exact ⟨rfl, h'.pop2 hP hk k0 (by rw [r1.kw, c3.2]; decide),
              (getOrAssign_nk ename.2 hp (i := x.1) hx : NK False x.2)⟩
          · rw [if_neg c3]
            unfold popFront
            rw [if_pos (by decide)]
            refine orStop_bind _ _ fun x hx => ?_
            exact ⟨rfl, h'.pop1 hP hk k0,
              (getOrAssign_nk ename.2 hp (i := x.1) hx : NK False x.2)⟩
        · rw [if_neg c2, if_neg c2]
          exact ih h' hp

theorem quadEnd_before (hP : Fine P) (hk : isKeyword s = true) (hrel : TokRel scan s s')
    {a b : List Token} {p : PProblem} (h : Before P scan s s' w w' ts us a b)
    (h0 : isKeyword (a.getD 0 []) = false) (hp : NK False p) :
    ResRel (fun a b p => Before P scan s s' w w' ts us a b ∧ NK False p)
      (quadEnd listSource a >>= fun s => .ok (s, p)) (quadEnd listSource b >>= fun s => .ok (s, p)) := by
  unfold quadEnd popFront
  simp only [bind_assoc]
  rw [if_pos (by decide)]
  simp only [pm_ok_bind]
  have h1 := h.pop1 hP hk h0
  show ResRel _ ((if (a.drop 1).getD 0 [] = ['/'] ∧ (a.drop 1).getD 1 [] = ['2'] then
      popFront listSource (a.drop 1) 2
    else if (a.drop 1).getD 0 [] = ['/', '2'] then popFront listSource (a.drop 1) 1
    else .error (.status .badObjectiveQuadratic)) >>= _)
    ((if (b.drop 1).getD 0 [] = ['/'] ∧ (b.drop 1).getD 1 [] = ['2'] then
      popFront listSource (b.drop 1) 2
    else if (b.drop 1).getD 0 [] = ['/', '2'] then popFront listSource (b.drop 1) 1
    else .error (.status .badObjectiveQuadratic)) >>= _)
  have r0 := h1.first hrel
  by_cases c : (b.drop 1).getD 0 [] = ['/']
  · have k0 : isKeyword ((a.drop 1).getD 0 []) = false := by rw [r0.kw, c]; decide
    have r1 := h1.next hrel hk k0
    simp only [r0.eq_iff (w := ['/']) (by decide), r1.eq_iff (w := ['2']) (by decide),
      r0.eq_iff (w := ['/', '2']) (by decide)]
    by_cases c2 : (b.drop 1).getD 1 [] = ['2']
    · rw [if_pos ⟨c, c2⟩, if_pos ⟨c, c2⟩]
      unfold popFront
      rw [if_pos (by decide)]
      exact ⟨rfl, h1.pop2 hP hk k0 (by rw [r1.kw, c2]; decide), hp⟩
    · have c3 : ¬ ((b.drop 1).getD 0 [] = ['/'] ∧ (b.drop 1).getD 1 [] = ['2']) := fun h => c2 h.2
      have c4 : ¬ (b.drop 1).getD 0 [] = ['/', '2'] := by rw [c]; decide
      rw [if_neg c3, if_neg c3, if_neg c4, if_neg c4]
      exact rfl
  · have ca : (a.drop 1).getD 0 [] ≠ ['/'] := fun h => c ((r0.eq_iff (by decide)).mp h)
    have c3 : ¬ ((a.drop 1).getD 0 [] = ['/'] ∧ (a.drop 1).getD 1 [] = ['2']) := fun h => ca h.1
    have c4 : ¬ ((b.drop 1).getD 0 [] = ['/'] ∧ (b.drop 1).getD 1 [] = ['2']) := fun h => c h.1
    rw [if_neg c3, if_neg c4]
    simp only [r0.eq_iff (w := ['/', '2']) (by decide)]
    by_cases c2 : (b.drop 1).getD 0 [] = ['/', '2']
    · rw [if_pos c2, if_pos c2]
      unfold popFront
      rw [if_pos (by decide)]
      exact ⟨rfl, h1.pop1 hP hk (by rw [r0.kw, c2]; decide), hp⟩
    · rw [if_neg c2, if_neg c2]
      exact rfl

theorem readQuadratic_before (hP : Fine P) (hst : ∀ us, P us → Stars us) (hk : isKeyword s = true)
    (hrel : TokRel scan s s') (hs : scan s = none) (hs' : scan s' = none) (neg : Bool) (k : Nat)
    {a b : List Token} {p : PProblem} (h : Before P scan s s' w w' ts us a b) (hp : NK False p) :
    ResRel (fun a b p => Before P scan s s' w w' ts us a b ∧ NK False p)
      (readQuadratic listSource scan k neg a p) (readQuadratic listSource scan k neg b p) := by
  have r0 := h.first hrel
  unfold readQuadratic
  simp only [show listSource.tok = fun (s : List Token) i => s.getD i [] from rfl]
  simp only [ne_eq, r0.eq_iff (w := ['[']) (by decide)]
  by_cases c : b.getD 0 [] = ['[']
  · rw [if_neg (by simpa using c), if_neg (by simpa using c)]
    unfold popFront
    rw [if_pos (by decide)]
    simp only [pm_ok_bind]
    refine (quadLoop_before hP hst hk hrel hs hs' neg k
      (h.pop1 hP hk (by rw [r0.kw, c]; decide)) hp).bind fun a b p h => ?_
    exact quadEnd_before hP hk hrel h.1.1 h.1.2 h.2
  · rw [if_pos c, if_pos c]
    exact rfl

theorem objQuadratic_before (hP : Fine P) (hst : ∀ us, P us → Stars us) (hk : isKeyword s = true)
    (hrel : TokRel scan s s') (hs : scan s = none) (hs' : scan s' = none) (k : Nat)
    {a b : List Token} {p : PProblem} (h : Before P scan s s' w w' ts us a b) (hp : NK False p) :
    ResRel (fun a b p => Before P scan s s' w w' ts us a b ∧ NK False p)
      (objQuadratic listSource scan k a p) (objQuadratic listSource scan k b p) := by
  have r0 := h.first hrel
  have key := fun neg (h : Before P scan s s' w w' ts us (a.drop 1) (b.drop 1)) =>
    readQuadratic_before hP hst hk hrel hs hs' neg k h hp
  unfold objQuadratic
  simp only [show listSource.tok = fun (s : List Token) i => s.getD i [] from rfl]
  simp only [r0.eq_iff (w := ['-']) (by decide), r0.eq_iff (w := ['+']) (by decide)]
  by_cases c1 : b.getD 0 [] = ['-']
  · rw [if_pos c1, if_pos c1]
    unfold popFront
    rw [if_pos (by decide)]
    exact key true (h.pop1 hP hk (by rw [r0.kw, c1]; decide))
  · rw [if_neg c1, if_neg c1]
    by_cases c2 : b.getD 0 [] = ['+']
    · rw [if_pos c2, if_pos c2]
      unfold popFront
      rw [if_pos (by decide)]
      exact key false (h.pop1 hP hk (by rw [r0.kw, c2]; decide))
    · rw [if_neg c2, if_neg c2]
      exact readQuadratic_before hP hst hk hrel hs hs' false k h hp

theorem objLoop_before (hP : Fine P) (hk : isKeyword s = true) (hrel : TokRel scan s s')
    (hs : scan s = none) (hs' : scan s' = none) : ∀ (k : Nat) {a b : List Token} {p : PProblem},
    Before P scan s s' w w' ts us a b → NK False p →
    ResRel (fun a b p => (a = s :: w :: ts ∧ b = s' :: w' :: us) ∧ NK False p)
      (objLoop listSource scan k a p) (objLoop listSource scan k b p) := by
  have hk' : isKeyword s' = true := by rw [← hrel.kw]; exact hk
  intro k
  induction k with
  | zero => intro a b p _ _; exact rfl
  | succ k ih =>
    intro a b p h hp
    unfold objLoop
    simp only [show listSource.tok = fun (s : List Token) i => s.getD i [] from rfl]
    obtain ⟨⟨pre, ea, eb, hpre⟩, -⟩ := id h
    by_cases hc : pre = []
    · subst hc
      rw [ea, eb]
      simp only [List.nil_append, List.getD_cons_zero, hk, hk', ↓reduceIte]
      exact ⟨rfl, ⟨rfl, rfl⟩, hp⟩
    · have ha : isKeyword (a.getD 0 []) = false := by
        rw [ea]
        match pre, hc with
        | x :: r, _ => exact hpre x List.mem_cons_self
      have hb : isKeyword (b.getD 0 []) = false := by
        rw [eb]
        match pre, hc with
        | x :: r, _ => exact hpre x List.mem_cons_self
      simp only [ha, hb, Bool.false_eq_true, ↓reduceIte]
      have r0 := h.first hrel
      have r1 := h.next hrel hk ha
      have hq : startsWithQuadratic (a.getD 0 []) (a.getD 1 []) =
          startsWithQuadratic (b.getD 0 []) (b.getD 1 []) := by
        unfold startsWithQuadratic
        simp only [r0.eq_iff (w := ['[']) (by decide), r0.eq_iff (w := ['+']) (by decide),
          r0.eq_iff (w := ['-']) (by decide), r1.eq_iff (w := ['[']) (by decide)]
      rw [hq]
      split
      · rename_i c
        rcases hP.ok with hst | hno
        · exact (objQuadratic_before hP hst hk hrel hs hs' k h hp).bind fun a b p hq =>
            ih hq.1 hq.2
        · rw [quadratic_plain (getD_ne_open (hno _ h.plain.2) 0)
            (getD_ne_open (hno _ h.plain.2) 1)] at c
          cases c
      · exact (objElem_before hP hk hrel hs hs' h ha hp).bind fun a b p hq => ih hq.1 hq.2

theorem constraints_subject {x : String × String} (hx : x ∈ subjectWords)
    (h1 : SameWord s x.1.toList) (h1' : SameWord s' x.1.toList) (h2 : SameWord w x.2.toList)
    (h2' : SameWord w' x.2.toList) (hts : List.Forall₂ (TokRel scan) ts us) (hP : Fine P) (hb : P us)
    (k : Nat) {p : PProblem} (hp : NK False p) :
    ResRel (fun a b p => (List.Forall₂ (TokRel scan) a b ∧ P b) ∧ NK False p)
      (readConstraints listSource scan k (s :: w :: ts) p)
      (readConstraints listSource scan k (s' :: w' :: us) p) := by
  have es : ∀ v, areEqual s v = areEqual s' v := fun v => by
    rw [areEqual_congr (sameWord_iff.mp h1), areEqual_congr (sameWord_iff.mp h1')]
  have ew : ∀ v, areEqual w v = areEqual w' v := fun v => by
    rw [areEqual_congr (sameWord_iff.mp h2), areEqual_congr (sameWord_iff.mp h2')]
  have e3 := forall2_getD hts 0
  have er : readSubjectTo s w (ts.getD 0 []) = readSubjectTo s' w' (us.getD 0 []) := by
    unfold readSubjectTo
    simp only [es, ew, e3.equal]
  have e : readSubjectTo s' w' (us.getD 0 []) = 2 ∨ readSubjectTo s' w' (us.getD 0 []) = 3 := by
    have c1 : ∀ v, areEqual s' v = areEqual x.1.toList v := areEqual_congr (sameWord_iff.mp h1')
    have c2 : ∀ v, areEqual w' v = areEqual x.2.toList v := areEqual_congr (sameWord_iff.mp h2')
    unfold readSubjectTo
    simp only [c1, c2]
    simp only [subjectWords, List.mem_cons, List.not_mem_nil, or_false] at hx
    rcases hx with rfl | rfl
    · cases areEqual (us.getD 0 []) [':'] <;> decide
    · cases areEqual (us.getD 0 []) [':'] <;> decide
  unfold readConstraints
  simp only [show listSource.tok = fun (s : List Token) i => s.getD i [] from rfl,
    List.getD_cons_zero, List.getD_cons_succ] at er ⊢
  rw [er]
  have hR : ∀ n, n = 2 ∨ n = 3 → List.Forall₂ (TokRel scan) ((s :: w :: ts).drop n)
      ((s' :: w' :: us).drop n) ∧ P ((s' :: w' :: us).drop n) := by
    rintro n (rfl | rfl)
    · exact ⟨hts, hb⟩
    · exact ⟨forall2_drop hts 1, hP.drop _ 1 hb⟩
  have h0 : readSubjectTo s' w' (us.getD 0 []) ≠ 0 := by omega
  rw [if_neg h0, if_neg h0]
  generalize readSubjectTo s' w' (us.getD 0 []) = n at e h0
  unfold popFront
  rw [if_pos (by omega), if_pos (by omega)]
  simp only [pm_ok_bind]
  refine (constrLoop_rel (sim_case hP) k 0 (hR n e) hp).bind fun a b c h => ?_
  simp only
  split
  · exact rfl
  · exact ⟨rfl, h⟩

theorem parse_subject (fuel : Nat) {h h' : Token} {pre : List Token} (e : SameWord h h')
    (hpre : ∀ t ∈ pre, isKeyword t = false) {x : String × String} (hx : x ∈ subjectWords)
    (h1 : SameWord s x.1.toList) (h1' : SameWord s' x.1.toList) (h2 : SameWord w x.2.toList)
    (h2' : SameWord w' x.2.toList) (hts : List.Forall₂ (TokRel scan) ts us)
    (hs : scan s = none) (hs' : scan s' = none)
    (hP : Fine P) (ha : P (pre ++ s :: w :: ts)) (hb : P (pre ++ s' :: w' :: us)) :
    parse listSource scan fuel (h :: (pre ++ s :: w :: ts)) =
      parse listSource scan fuel (h' :: (pre ++ s' :: w' :: us)) := by
  have hk : isKeyword s = true := by
    rw [isKeyword_congr (sameWord_iff.mp h1)]
    simp only [subjectWords, List.mem_cons, List.not_mem_nil, or_false] at hx
    rcases hx with rfl | rfl <;> decide
  have hk' : isKeyword s' = true := by
    rw [isKeyword_congr (sameWord_iff.mp h1')]
    simp only [subjectWords, List.mem_cons, List.not_mem_nil, or_false] at hx
    rcases hx with rfl | rfl <;> decide
  have hrel : TokRel scan s s' := .inr ⟨hk, by
    rw [areEqual_congr (sameWord_iff.mp h1), areEqual_comm]; exact sameWord_iff.mp h1', hs, hs'⟩
  have hus : P us := by
    have := hP.drop _ (pre.length + 2) hb
    rwa [show (pre ++ s' :: w' :: us).drop (pre.length + 2) = us by
      rw [← List.drop_drop, List.drop_left]; rfl] at this
  have hB : Before P scan s s' w w' ts us (pre ++ s :: w :: ts) (pre ++ s' :: w' :: us) :=
    ⟨⟨pre, rfl, rfl, hpre⟩, ha, hb⟩
  have hlab : ∀ u v : Token, SameWord v x.2.toList → areEqual v [':'] = false := by
    intro u v hv
    rw [areEqual_congr (sameWord_iff.mp hv)]
    simp only [subjectWords, List.mem_cons, List.not_mem_nil, or_false] at hx
    rcases hx with rfl | rfl <;> decide
  rw [parse_eq, parse_eq, readHead_cons, readHead_cons, objectiveType_same e]
  have key : readLabel ((pre ++ s :: w :: ts).getD 0 []) ((pre ++ s :: w :: ts).getD 1 []) =
      readLabel ((pre ++ s' :: w' :: us).getD 0 []) ((pre ++ s' :: w' :: us).getD 1 []) ∧
      (readLabel ((pre ++ s :: w :: ts).getD 0 []) ((pre ++ s :: w :: ts).getD 1 []) ≤ pre.length) := by
    match pre, hpre with
    | [], _ => simp [readLabel, hk, hk']
    | [x], _ =>
      unfold readLabel
      simp only [List.cons_append, List.nil_append, List.getD_cons_zero, List.getD_cons_succ]
      have h3 : areEqual s [':'] = areEqual s' [':'] := hrel.equal _
      have h4 : areEqual s' [':'] = false := by
        cases hh : areEqual s' [':'] with
        | false => rfl
        | true => rw [isKeyword_congr hh] at hk'; exact absurd hk' (by decide)
      rw [h3, h4]
      simp
    | x :: y :: r, _ =>
      refine ⟨rfl, ?_⟩
      unfold readLabel
      simp only [List.length_cons]
      split
      · omega
      · split <;> omega
  have h0 : ResRel (fun a b p => Before P scan s s' w w' ts us a b ∧ NK False p)
      (orStop (readObjectiveType h') .badObjectiveFunctionType >>=
        fun t => if readLabel ((pre ++ s :: w :: ts).getD 0 []) ((pre ++ s :: w :: ts).getD 1 []) = 0
          then .ok (pre ++ s :: w :: ts, { ({} : PProblem) with type := t })
        else popFront listSource (pre ++ s :: w :: ts)
          (readLabel ((pre ++ s :: w :: ts).getD 0 []) ((pre ++ s :: w :: ts).getD 1 [])) >>= fun s2 =>
          .ok (s2, { ({} : PProblem) with type := t }))
      (orStop (readObjectiveType h') .badObjectiveFunctionType >>=
        fun t => if readLabel ((pre ++ s' :: w' :: us).getD 0 []) ((pre ++ s' :: w' :: us).getD 1 []) = 0
          then .ok (pre ++ s' :: w' :: us, { ({} : PProblem) with type := t })
        else popFront listSource (pre ++ s' :: w' :: us)
          (readLabel ((pre ++ s' :: w' :: us).getD 0 []) ((pre ++ s' :: w' :: us).getD 1 [])) >>=
          fun s2 => .ok (s2, { ({} : PProblem) with type := t })) := by
    refine orStop_bind _ _ fun t ht => ?_
    rw [← key.1]
    have hn := key.2
    generalize readLabel ((pre ++ s :: w :: ts).getD 0 []) ((pre ++ s :: w :: ts).getD 1 []) = n at hn ⊢
    split
    · exact ⟨rfl, hB, .inr (by intro n hn; cases hn)⟩
    · unfold popFront
      split
      · refine ⟨rfl, ⟨⟨pre.drop n, ?_, ?_, ?_⟩, ?_, ?_⟩, .inr (by intro n hn; cases hn)⟩
        · show List.drop _ _ = _
          rw [List.drop_append_of_le_length hn]
        · show List.drop _ _ = _
          rw [List.drop_append_of_le_length hn]
        · exact fun t ht => hpre t (List.drop_subset _ pre ht)
        · exact hP.drop _ _ ha
        · exact hP.drop _ _ hb
      · exact rfl
  refine h0.bind_eq fun a b p h => ?_
  refine (objLoop_before hP hk hrel hs hs' fuel h.1 h.2).bind_eq fun a b p h => ?_
  obtain ⟨⟨rfl, rfl⟩, hp⟩ := h
  unfold parseTail
  have sim := sim_case (scan := scan) hP
  refine (constraints_subject hx h1 h1' h2 h2' hts hP hus fuel hp).bind_eq fun a b p h => ?_
  refine (readBounds_rel sim fuel h.1 h.2).bind_eq fun a b p h => ?_
  refine (readBinary_rel sim fuel h.1 h.2).bind_eq fun a b p h => ?_
  refine (readGeneral_rel sim fuel h.1 h.2).bind_eq fun a b p h => ?_
  simp only [readEnd_rel sim h.1]

theorem parse_recased (fuel : Nat) (hs : ∀ t, Reserved t → scan t = none) {a b : List Token}
    (h : Recased a b) (hP : Fine P) (ha : P a) (hb : P b) :
    parse listSource scan fuel a = parse listSource scan fuel b := by
  cases h with
  | sections e h =>
    exact parse_sections fuel e (h.imp fun _ _ => keywordCase_rel hs) hP (hP.drop _ 1 hb)
  | subject e hpre hx h1 h1' h2 h2' h =>
    rename_i x
    have hr : ∀ t, SameWord t x.1.toList → scan t = none := fun t ht => hs t (by
      rw [reserved_iff, isKeyword_congr (sameWord_iff.mp ht)]
      simp only [subjectWords, List.mem_cons, List.not_mem_nil, or_false] at hx
      rcases hx with rfl | rfl <;> decide)
    exact parse_subject fuel e (fun t ht => by
        have := hpre t ht
        rw [reserved_iff] at this
        simpa using this) hx h1 h1' h2 h2' (h.imp fun _ _ => keywordCase_rel hs)
      (hr _ h1) (hr _ h1') hP (hP.drop _ 1 ha) (hP.drop _ 1 hb)

end Bx.Parser
