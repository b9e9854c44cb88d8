import Verif.Model.Parser
import Mathlib.Tactic.IntervalCases
import Verif.Proofs.Outcome

/-! Two sources of tokens that agree up to the case of the keywords give the same problem. -/

namespace Bx.Parser

open Params (D)

@[simp] theorem pm_ok_bind {α β : Type} (a : α) (f : α → PM β) :
    ((Except.ok a : PM α) >>= f) = f a := rfl

@[simp] theorem pm_error_bind {α β : Type} (e : Stop) (f : α → PM β) :
    ((Except.error e : PM α) >>= f) = .error e := rfl

theorem pm_bind_eq_ok {α β : Type} {m : PM α} {f : α → PM β} {b : β} :
    (m >>= f) = .ok b ↔ ∃ a, m = .ok a ∧ f a = .ok b := by
  cases m <;> simp

/-! ## Case -/

theorem areEqual_iff {a b : Token} :
    areEqual a b = true ↔ a.map Char.toLower = b.map Char.toLower := by
  simp [areEqual]

theorem areEqual_congr {a b : Token} (h : areEqual a b = true) (w : Token) :
    areEqual a w = areEqual b w := by
  rw [areEqual_iff] at h
  simp [areEqual, h]

theorem areEqual_congr_right {a b : Token} (h : areEqual a b = true) (w : Token) :
    areEqual w a = areEqual w b := by
  rw [areEqual_iff] at h
  simp [areEqual, h]

theorem areEqual_comm (a b : Token) : areEqual a b = areEqual b a := by
  rw [Bool.eq_iff_iff, areEqual_iff, areEqual_iff]
  exact eq_comm

theorem areEqual_length {a b : Token} (h : areEqual a b = true) : a.length = b.length := by
  rw [areEqual_iff] at h
  simpa using congrArg List.length h

theorem isKeyword_congr {a b : Token} (h : areEqual a b = true) : isKeyword a = isKeyword b := by
  unfold isKeyword
  congr 1
  funext k
  exact areEqual_congr_right h k

/-- The keyword that a token is. -/
theorem isKeyword_iff {t : Token} : isKeyword t = true ↔ ∃ k ∈ keywords, areEqual k t = true := by
  simp [isKeyword]

theorem toLower_cases (c : Char) : c.toLower = c ∨ (65 ≤ c.toNat ∧ c.toNat ≤ 90) := by
  unfold Char.toLower
  split
  · rename_i h
    exact .inr ⟨h.1, h.2⟩
  · exact .inl rfl

/-- A property of characters that holds for the upper case letters and for the characters
without another case. -/
theorem toLower_induct {P : Char → Char → Prop} (h1 : ∀ c, P c c)
    (h2 : ∀ n, 65 ≤ n → n ≤ 90 → P (Char.ofNat n) (Char.ofNat n).toLower) (c : Char) :
    P c c.toLower := by
  rcases toLower_cases c with h | ⟨h, h'⟩
  · rw [h]; exact h1 c
  · have := h2 c.toNat h h'
    rwa [Char.ofNat_toNat] at this

theorem isNumber_toLower (c : Char) : isNumber c.toLower = isNumber c := by
  refine toLower_induct (P := fun c d => isNumber d = isNumber c) (fun _ => rfl) ?_ c
  intro n h1 h2
  interval_cases n <;> decide

theorem isCharName_toLower (c : Char) : isCharName c.toLower = isCharName c := by
  refine toLower_induct (P := fun c d => isCharName d = isCharName c) (fun _ => rfl) ?_ c
  intro n h1 h2
  interval_cases n <;> decide

theorem isCharOperator_toLower (c : Char) : isCharOperator c.toLower = isCharOperator c := by
  refine toLower_induct (P := fun c d => isCharOperator d = isCharOperator c) (fun _ => rfl) ?_ c
  intro n h1 h2
  interval_cases n <;> decide

theorem head_congr {f : Char → Bool} (hf : ∀ c, f c.toLower = f c) {c d : Char} {a b : Token}
    (h : areEqual (c :: a) (d :: b) = true) : f c = f d := by
  rw [areEqual_iff] at h
  simp only [List.map_cons, List.cons.injEq] at h
  rw [← hf c, h.1, hf d]

theorem all_congr {f : Char → Bool} (hf : ∀ c, f c.toLower = f c) {a b : Token}
    (h : areEqual a b = true) : a.all f = b.all f := by
  have e : ∀ t : Token, t.all f = (t.map Char.toLower).all f := by
    intro t
    simp [List.all_map, Function.comp_def, hf]
  rw [areEqual_iff] at h
  rw [e a, e b, h]

theorem keywords_facts : ∀ k ∈ keywords, areEqual k "inf".toList = false ∧
    areEqual k "infinity".toList = false ∧ k.length < 320 ∧ k.all isCharName = true ∧ k ≠ [] := by
  decide

/-- Keywords are short words. -/
theorem keyword_facts {t : Token} (h : isKeyword t = true) :
    areEqual t "inf".toList = false ∧ areEqual t "infinity".toList = false ∧
      t.length < 320 ∧ t.all isCharName = true ∧ t ≠ [] := by
  obtain ⟨k, hk, he⟩ := isKeyword_iff.mp h
  have hl := areEqual_length he
  have he' : areEqual t k = true := by rw [areEqual_comm]; exact he
  have h1 := areEqual_congr he' "inf".toList
  have h2 := areEqual_congr he' "infinity".toList
  have h3 := all_congr isCharName_toLower he'
  have hk' := keywords_facts k hk
  refine ⟨by rw [h1]; exact hk'.1, by rw [h2]; exact hk'.2.1, by omega, by rw [h3]; exact hk'.2.2.2.1, ?_⟩
  rintro rfl
  simp at hl
  exact hk'.2.2.2.2 hl

/-- The first character satisfies `f`. -/
def headIs (f : Char → Bool) (t : Token) : Bool := (t.head?.map f).getD false

theorem startsWithName_eq (t : Token) : startsWithName t = headIs isCharName t := by
  cases t <;> rfl

theorem startsWithOperator_eq (t : Token) : startsWithOperator t = headIs isCharOperator t := by
  cases t <;> rfl

/-- The same token, or a keyword with another case. -/
def TokRel (scan : Token → Option D) (t u : Token) : Prop :=
  t = u ∨ (isKeyword t = true ∧ areEqual t u = true ∧ scan t = none ∧ scan u = none)

variable {scan : Token → Option D} {t u : Token}

namespace TokRel

theorem rfl' : TokRel scan t t := .inl rfl

theorem kw (h : TokRel scan t u) : isKeyword t = isKeyword u := by
  rcases h with rfl | h
  · rfl
  · exact isKeyword_congr h.2.1

theorem eq_of (h : TokRel scan t u) (hk : isKeyword t = false) : t = u := by
  rcases h with rfl | h
  · rfl
  · rw [h.1] at hk; cases hk

theorem equal (h : TokRel scan t u) (w : Token) : areEqual t w = areEqual u w := by
  rcases h with rfl | h
  · rfl
  · exact areEqual_congr h.2.1 w

theorem eq_iff (h : TokRel scan t u) {w : Token} (hw : isKeyword w = false) : t = w ↔ u = w := by
  rcases h with rfl | h
  · rfl
  · have h2 : isKeyword u = true := by rw [← isKeyword_congr h.2.1]; exact h.1
    constructor
    · rintro rfl; rw [h.1] at hw; cases hw
    · rintro rfl; rw [h2] at hw; cases hw

theorem nil_iff (h : TokRel scan t u) : t = [] ↔ u = [] := h.eq_iff (by decide)

theorem head (h : TokRel scan t u) {f : Char → Bool} (hf : ∀ c, f c.toLower = f c) :
    headIs f t = headIs f u := by
  rcases h with rfl | h
  · rfl
  · cases t with
    | nil => exact absurd rfl (keyword_facts h.1).2.2.2.2
    | cons c t =>
      cases u with
      | nil => simp [areEqual] at h
      | cons d u => exact head_congr hf h.2.1

theorem name (h : TokRel scan t u) : startsWithName t = startsWithName u := by
  rw [startsWithName_eq, startsWithName_eq]
  exact h.head isCharName_toLower

theorem op (h : TokRel scan t u) : startsWithOperator t = startsWithOperator u := by
  rw [startsWithOperator_eq, startsWithOperator_eq]
  exact h.head isCharOperator_toLower

theorem number (h : TokRel scan t u) : startsWithNumber t = startsWithNumber u := by
  rcases h with rfl | h
  · rfl
  · have hu : isKeyword u = true := by rw [← isKeyword_congr h.2.1]; exact h.1
    have e : ∀ w : Token, isKeyword w = true →
        startsWithNumber w = headIs isNumber w := by
      intro w hw
      have := keyword_facts hw
      cases w with
      | nil => rfl
      | cons c w => simp only [startsWithNumber, this.1, this.2.1]; simp [headIs]
    rw [e t h.1, e u hu]
    exact (show TokRel scan t u from .inr h).head isNumber_toLower

theorem readName_isSome (h : TokRel scan t u) : t.all isCharName = u.all isCharName := by
  rcases h with rfl | h
  · rfl
  · exact all_congr isCharName_toLower h.2.1

theorem real (h : TokRel scan t u) : readReal scan t = readReal scan u := by
  rcases h with rfl | h
  · rfl
  · have hu : isKeyword u = true := by rw [← isKeyword_congr h.2.1]; exact h.1
    have e : ∀ w : Token, isKeyword w = true → scan w = none → readReal scan w = .ok none := by
      intro w hw hs
      have := keyword_facts hw
      unfold readReal
      rw [if_neg (by rw [this.1]; simp), if_neg (by omega), if_neg (by omega), hs]
    rw [e t h.1 h.2.2.1, e u hu h.2.2.2]

end TokRel

section

variable {t1 u1 t2 u2 t3 u3 t4 u4 : Token}

theorem readReal2_rel (h1 : TokRel scan t1 u1) (h2 : TokRel scan t2 u2) :
    readReal2 scan t1 t2 = readReal2 scan u1 u2 := by
  unfold readReal2
  simp only [h1.eq_iff (w := ['-']) (by decide), h1.eq_iff (w := ['+']) (by decide), h1.real, h2.real]

theorem toRead_rel (n : Nat) (h1 : TokRel scan t1 u1) (h2 : TokRel scan t2 u2)
    (h3 : TokRel scan t3 u3) : TokRel scan (toRead n t1 t2 t3) (toRead n u1 u2 u3) := by
  match n with
  | 0 => exact h1
  | 1 => exact h2
  | n + 2 => exact h3

theorem readElem_rel (h1 : TokRel scan t1 u1) (h2 : TokRel scan t2 u2)
    (h3 : TokRel scan t3 u3) : readElem scan t1 t2 t3 = readElem scan u1 u2 u3 := by
  unfold readElem
  rw [readReal2_rel h1 h2]
  cases readReal2 scan u1 u2 with
  | error e => rfl
  | ok r =>
    simp only [pm_ok_bind]
    have h := toRead_rel r.2 h1 h2 h3
    rw [h.kw, h.name]
    split
    · rename_i hc
      have hk : isKeyword (toRead r.2 t1 t2 t3) = false := by
        rw [h.kw]
        simp only [Bool.and_eq_true, Bool.not_eq_true'] at hc
        exact hc.1
      rw [h.eq_of hk]
    · rfl

theorem readOperator_rel (h1 : TokRel scan t1 u1) (h2 : TokRel scan t2 u2) :
    readOperator t1 t2 = readOperator u1 u2 := by
  unfold readOperator
  simp only [h1.eq_iff (w := ['<']) (by decide), h1.eq_iff (w := ['>']) (by decide),
    h1.eq_iff (w := ['=']) (by decide), h2.eq_iff (w := ['<']) (by decide),
    h2.eq_iff (w := ['>']) (by decide), h2.eq_iff (w := ['=']) (by decide)]

theorem readLeft_rel (h1 : TokRel scan t1 u1) (h2 : TokRel scan t2 u2) (h3 : TokRel scan t3 u3)
    (h4 : TokRel scan t4 u4) : readLeft scan t1 t2 t3 t4 = readLeft scan u1 u2 u3 u4 := by
  unfold readLeft
  simp only [h1.eq_iff (w := ['-']) (by decide), h1.eq_iff (w := ['+']) (by decide), h1.real,
    h2.real, readOperator_rel h3 h4, readOperator_rel h2 h3]

theorem readSigned_rel (n : Nat) (h1 : TokRel scan t1 u1) (h2 : TokRel scan t2 u2) :
    readSigned scan n t1 t2 = readSigned scan n u1 u2 := by
  unfold readSigned
  simp only [h1.eq_iff (w := ['-']) (by decide), h1.eq_iff (w := ['+']) (by decide), h1.real,
    h2.real]

theorem readRight_rel (h1 : TokRel scan t1 u1) (h2 : TokRel scan t2 u2) (h3 : TokRel scan t3 u3)
    (h4 : TokRel scan t4 u4) : readRight scan t1 t2 t3 t4 = readRight scan u1 u2 u3 u4 := by
  unfold readRight
  rw [readOperator_rel h1 h2]
  cases readOperator u1 u2 with
  | none => rfl
  | some r => simp only [readSigned_rel _ h2 h3, readSigned_rel _ h3 h4]

theorem readSection_rel (ws : List Token) (h1 : TokRel scan t1 u1) (h2 : TokRel scan t2 u2) :
    readSection ws t1 t2 = readSection ws u1 u2 := by
  unfold readSection
  simp only [h1.equal, h2.equal]

theorem readSubjectTo_rel (h1 : TokRel scan t1 u1) (h2 : TokRel scan t2 u2)
    (h3 : TokRel scan t3 u3) : readSubjectTo t1 t2 t3 = readSubjectTo u1 u2 u3 := by
  unfold readSubjectTo
  simp only [h1.equal, h2.equal, h3.equal]

end

theorem readOperator_le {t1 t2 : Token} {r : Op × Nat} (h : readOperator t1 t2 = some r) :
    1 ≤ r.2 ∧ r.2 ≤ 2 := by
  unfold readOperator at h
  split at h
  · simp only [Option.some.injEq] at h; subst h; simp only; split <;> omega
  split at h
  · simp only [Option.some.injEq] at h; subst h; simp only; split <;> omega
  split at h
  · split at h
    · simp only [Option.some.injEq] at h; subst h; simp
    split at h
    · simp only [Option.some.injEq] at h; subst h; simp
    split at h <;> (simp only [Option.some.injEq] at h; subst h; simp)
  · cases h

theorem readLeft_le {t1 t2 t3 t4 : Token} {r : D × Nat}
    (h : readLeft scan t1 t2 t3 t4 = .ok (some r)) : 2 ≤ r.2 ∧ r.2 ≤ 4 := by
  unfold readLeft at h
  split at h
  · rw [pm_bind_eq_ok] at h
    obtain ⟨o, -, h⟩ := h
    cases o with
    | none => simp at h
    | some v =>
      simp only at h
      cases ho : readOperator t3 t4 with
      | none => simp [ho] at h
      | some p =>
        have := readOperator_le ho
        simp only [ho, Except.ok.injEq, Option.some.injEq] at h
        subst h
        simp only; omega
  · rw [pm_bind_eq_ok] at h
    obtain ⟨o, -, h⟩ := h
    cases o with
    | none => simp at h
    | some v =>
      simp only at h
      cases ho : readOperator t2 t3 with
      | none => simp [ho] at h
      | some p =>
        have := readOperator_le ho
        simp only [ho, Except.ok.injEq, Option.some.injEq] at h
        subst h
        simp only; omega

/-- The same bound, up to a name that is a keyword. -/
def BoundRel : PM (Option Bound) → PM (Option Bound) → Prop
  | .ok (some b), .ok (some c) =>
    b.min = c.min ∧ b.max = c.max ∧ b.read = c.read ∧
      (b.name = c.name ∨ (isKeyword b.name = true ∧ isKeyword c.name = true))
  | x, y => x = y

theorem BoundRel.refl (x : PM (Option Bound)) : BoundRel x x := by
  match x with
  | .error _ => rfl
  | .ok none => rfl
  | .ok (some b) => exact ⟨rfl, rfl, rfl, .inl rfl⟩

theorem TokRel.name_or (h : TokRel scan t u) : t = u ∨ (isKeyword t = true ∧ isKeyword u = true) := by
  rcases h with h | h
  · exact .inl h
  · exact .inr ⟨h.1, by rw [← isKeyword_congr h.2.1]; exact h.1⟩

theorem readBound_rel {f g : Nat → Token} (h : ∀ i, i < 10 → TokRel scan (f i) (g i)) :
    BoundRel (readBound scan f) (readBound scan g) := by
  unfold readBound
  rw [(h 0 (by omega)).number, (h 0 (by omega)).name,
    readLeft_rel (h 0 (by omega)) (h 1 (by omega)) (h 2 (by omega)) (h 3 (by omega))]
  split
  · cases hl : readLeft scan (g 0) (g 1) (g 2) (g 3) with
    | error e => exact .refl _
    | ok o =>
      cases o with
      | none => exact .refl _
      | some r =>
        have hr := readLeft_le hl
        simp only [pm_ok_bind]
        unfold readBoundLeft readName
        have h0 := h r.2 (by omega)
        have h1 := h (r.2 + 1) (by omega)
        rw [h0.readName_isSome, h1.op,
          readRight_rel h1 (h (r.2 + 2) (by omega)) (h (r.2 + 3) (by omega)) (h (r.2 + 4) (by omega))]
        by_cases ha : (g r.2).all isCharName = true
        · simp only [ha, ↓reduceIte]
          split
          · exact ⟨rfl, rfl, rfl, h0.name_or⟩
          · cases readRight scan (g (r.2 + 1)) (g (r.2 + 2)) (g (r.2 + 3)) (g (r.2 + 4)) with
            | error e => exact .refl _
            | ok o =>
              cases o with
              | none => exact .refl _
              | some q =>
                simp only [pm_ok_bind]
                split
                · exact .refl _
                · exact ⟨rfl, rfl, rfl, h0.name_or⟩
        · simp only [ha]
          exact .refl _
  · split
    · unfold readBoundName readName
      have h0 := h 0 (by omega)
      rw [h0.readName_isSome, (h 1 (by omega)).op,
        readRight_rel (h 1 (by omega)) (h 2 (by omega)) (h 3 (by omega)) (h 4 (by omega))]
      by_cases ha : (g 0).all isCharName = true
      · simp only [ha, ↓reduceIte]
        split
        · cases readRight scan (g 1) (g 2) (g 3) (g 4) with
          | error e => exact .refl _
          | ok o =>
            cases o with
            | none => exact .refl _
            | some q => exact ⟨rfl, rfl, rfl, h0.name_or⟩
        · exact ⟨rfl, rfl, rfl, h0.name_or⟩
      · simp only [ha]
        exact .refl _
    · exact .refl _

/-- The bounds read in tokens that are the same. -/
theorem readBound_exact {f g : Nat → Token} (h : ∀ i, i < 10 → f i = g i) :
    readBound scan f = readBound scan g := by
  unfold readBound readBoundName
  rw [h 0 (by omega), h 1 (by omega), h 2 (by omega), h 3 (by omega), h 4 (by omega)]
  split
  · cases hl : readLeft scan (g 0) (g 1) (g 2) (g 3) with
    | error e => rfl
    | ok o =>
      cases o with
      | none => rfl
      | some r =>
        have hr := readLeft_le hl
        simp only [pm_ok_bind]
        unfold readBoundLeft
        rw [h r.2 (by omega), h (r.2 + 1) (by omega), h (r.2 + 2) (by omega),
          h (r.2 + 3) (by omega), h (r.2 + 4) (by omega)]
  · rfl

/-! ## Sources -/

/-- The tokens are the same, or no variable is named by a keyword. -/
def NK (E : Prop) (p : PProblem) : Prop := E ∨ ∀ n ∈ p.names, isKeyword n = false

/-- Two results that are the same error, or the same value with related states. -/
def ResRel {A B C : Type} (Q : A → B → C → Prop) : PM (A × C) → PM (B × C) → Prop
  | .ok (a, x), .ok (b, y) => x = y ∧ Q a b x
  | .error e, .error f => e = f
  | _, _ => False

theorem ResRel.bind {A B C A' B' C' : Type} {Q : A → B → C → Prop} {Q' : A' → B' → C' → Prop}
    {x : PM (A × C)} {y : PM (B × C)} (h : ResRel Q x y) {f : A × C → PM (A' × C')}
    {g : B × C → PM (B' × C')} (hf : ∀ a b c, Q a b c → ResRel Q' (f (a, c)) (g (b, c))) :
    ResRel Q' (x >>= f) (y >>= g) := by
  match x, y, h with
  | .ok (a, c), .ok (b, _), ⟨rfl, h⟩ => exact hf a b c h
  | .error e, .error _, rfl => exact (rfl : e = e)

/-- Two sources that keep the names of the quadratic terms, and either give the same tokens or
give no keyword after `*`. -/
structure QuadSim {σ τ : Type} (E : Prop) (src1 : Source σ)
    (src2 : Source τ) (R : σ → τ → Prop) : Prop where
  times : ∀ {a b n}, R a b → 1 ≤ n → n < 10 → isKeyword (src2.tok b (n - 1)) = false →
    src2.tok (src2.pop b n) 0 = ['*'] →
    src1.stale a (n - 1) (src1.pop a n) = src2.stale b (n - 1) (src2.pop b n)
  power : ∀ {a b n m}, R a b → 1 ≤ n → n < 10 → isKeyword (src2.tok b (n - 1)) = false → m ≤ 2 →
    (src2.tok (src2.pop b n) 0 = ['^'] ∨ src2.tok (src2.pop b n) 0 = ['^', '2']) →
    src1.stale a (n - 1) (src1.pop (src1.pop a n) m) =
      src2.stale b (n - 1) (src2.pop (src2.pop b n) m)
  second : E ∨ ∀ {a b}, R a b → src2.tok b 0 = ['*'] → isKeyword (src2.tok b 1) = false
  keep : E ∨ ∀ b i b', src2.stale b i b' = src2.tok b i

/-- Two sources that give the same tokens, up to the case of the keywords; if `E`, the same
tokens.  They give no `[`, or keep the names of the quadratic terms. -/
structure Sim {σ τ : Type} (E : Prop) (scan : Token → Option D) (src1 : Source σ)
    (src2 : Source τ) (R : σ → τ → Prop) : Prop where
  tok : ∀ {a b i}, R a b → i < 10 → TokRel scan (src1.tok a i) (src2.tok b i)
  pop : ∀ {a b n}, R a b → 1 ≤ n → n < 10 → R (src1.pop a n) (src2.pop b n)
  plain : QuadSim E src1 src2 R ∨ ∀ {a b i}, R a b → i < 10 → src2.tok b i ≠ ['[']
  exact : E → ∀ {a b i}, R a b → i < 10 → src1.tok a i = src2.tok b i

section

variable {E : Prop} {σ τ : Type} {scan : Token → Option D} {src1 : Source σ} {src2 : Source τ}
  {R : σ → τ → Prop} {a : σ} {b : τ} {p : PProblem}

theorem popFront_bind {A B C : Type} {Q : A → B → C → Prop} (sim : Sim E scan src1 src2 R)
    (h : R a b) (n : Nat) {f : σ → PM (A × C)} {g : τ → PM (B × C)}
    (hf : ∀ a b, R a b → ResRel Q (f a) (g b)) :
    ResRel Q (popFront src1 a n >>= f) (popFront src2 b n >>= g) := by
  unfold popFront
  by_cases hn : 1 ≤ n ∧ n < 10
  · rw [if_pos hn, if_pos hn]
    exact hf _ _ (sim.pop h hn.1 hn.2)
  · rw [if_neg hn, if_neg hn]
    exact rfl

theorem orStop_bind {A B C D : Type} {Q : A → B → C → Prop} (o : Option D) (t : Tag)
    {f : D → PM (A × C)} {g : D → PM (B × C)} (hf : ∀ x, o = some x → ResRel Q (f x) (g x)) :
    ResRel Q (orStop o t >>= f) (orStop o t >>= g) := by
  cases o with
  | none => exact rfl
  | some x => exact hf x rfl

theorem same_bind {A B C D : Type} {Q : A → B → C → Prop} (o : PM D)
    {f : D → PM (A × C)} {g : D → PM (B × C)} (hf : ∀ x, o = .ok x → ResRel Q (f x) (g x)) :
    ResRel Q (o >>= f) (o >>= g) := by
  cases o with
  | error => exact rfl
  | ok x => exact hf x rfl

theorem quadratic_rel (sim : Sim E scan src1 src2 R) (h : R a b) :
    startsWithQuadratic (src1.tok a 0) (src1.tok a 1) =
      startsWithQuadratic (src2.tok b 0) (src2.tok b 1) := by
  have h0 := sim.tok h (i := 0) (by omega)
  have h1 := sim.tok h (i := 1) (by omega)
  unfold startsWithQuadratic
  simp only [h0.eq_iff (w := ['[']) (by decide), h0.eq_iff (w := ['+']) (by decide),
    h0.eq_iff (w := ['-']) (by decide), h1.eq_iff (w := ['[']) (by decide)]

theorem quadratic_plain {t u : Token} (h0 : t ≠ ['[']) (h1 : u ≠ ['[']) :
    startsWithQuadratic t u = false := by
  simp [startsWithQuadratic, h0, h1]

theorem popFront_bind_le {A B C : Type} {Q : A → B → C → Prop} (sim : Sim E scan src1 src2 R)
    (h : R a b) (n : Nat) {f : σ → PM (A × C)} {g : τ → PM (B × C)}
    (hf : 1 ≤ n → n < 10 → R (src1.pop a n) (src2.pop b n) →
      ResRel Q (f (src1.pop a n)) (g (src2.pop b n))) :
    ResRel Q (popFront src1 a n >>= f) (popFront src2 b n >>= g) := by
  unfold popFront
  by_cases hn : 1 ≤ n ∧ n < 10
  · rw [if_pos hn, if_pos hn]
    exact hf hn.1 hn.2 (sim.pop h hn.1 hn.2)
  · rw [if_neg hn, if_neg hn]
    exact rfl

theorem readElem_name {t1 t2 t3 : Token} {r : D × Token × Nat}
    (h : readElem scan t1 t2 t3 = .ok (some r)) : isKeyword r.2.1 = false := by
  unfold readElem at h
  rw [pm_bind_eq_ok] at h
  obtain ⟨q, -, h⟩ := h
  simp only at h
  split at h
  · rename_i hc
    simp only [Bool.and_eq_true, Bool.not_eq_true'] at hc
    unfold readName at h
    split at h
    · cases h
    · rename_i n hn
      simp only [Except.ok.injEq, Option.some.injEq] at h
      subst h
      split at hn
      · simp only [Option.some.injEq] at hn
        subst hn
        exact hc.1
      · cases hn
  · simp only [Except.ok.injEq, Option.some.injEq] at h
    subst h
    show isKeyword [] = false
    decide

theorem getOrAssign_nk {name : Token} (hk : isKeyword name = false) (h : NK E p) {i : Nat}
    {p1 : PProblem} (he : p.getOrAssign name = some (i, p1)) : NK E p1 := by
  rcases h with h | h
  · exact .inl h
  right
  unfold PProblem.getOrAssign at he
  split at he
  · simp only [Option.some.injEq, Prod.mk.injEq] at he
    rw [← he.2]; exact h
  · split at he
    · cases he
    · simp only [Option.some.injEq, Prod.mk.injEq] at he
      rw [← he.2]
      intro n hn
      simp only [List.mem_append, List.mem_singleton] at hn
      rcases hn with hn | rfl
      · exact h n hn
      · exact hk

theorem appendObjective_nk {f : D} {name : Token} (hk : isKeyword name = false) (h : NK E p)
    {p1 : PProblem} (he : p.appendObjective f name = some p1) : NK E p1 := by
  unfold PProblem.appendObjective at he
  split at he
  · simp only [Option.some.injEq] at he
    subst he; exact h
  · split at he
    · cases he
    · rename_i i p2 h2
      simp only [Option.some.injEq] at he
      subst he
      exact (getOrAssign_nk hk h h2 : NK E p2)

theorem readQuad_rel {t1 u1 t2 u2 t3 u3 : Token} (h1 : TokRel scan t1 u1)
    (h2 : TokRel scan t2 u2) (h3 : TokRel scan t3 u3) :
    readQuad scan t1 t2 t3 = readQuad scan u1 u2 u3 := by
  unfold readQuad
  rw [readReal2_rel h1 h2]
  cases readReal2 scan u1 u2 with
  | error e => rfl
  | ok r =>
    obtain ⟨v, n⟩ := r
    have ht := toRead_rel n h1 h2 h3
    simp only [pm_ok_bind]
    rw [ht.kw, ht.name]
    unfold readName
    rw [ht.readName_isSome]
    split
    · rfl
    · cases (toRead n u1 u2 u3).all isCharName <;> rfl

theorem readReal2_le {b1 b2 : Token} {v : D} {n : Nat} (h : readReal2 scan b1 b2 = .ok (v, n)) :
    n ≤ 2 := by
  unfold readReal2 at h
  split at h
  · rw [pm_bind_eq_ok] at h
    obtain ⟨o, -, h⟩ := h
    split at h <;> simp only [Except.ok.injEq, Prod.mk.injEq] at h <;> omega
  · split at h
    · rw [pm_bind_eq_ok] at h
      obtain ⟨o, -, h⟩ := h
      split at h <;> simp only [Except.ok.injEq, Prod.mk.injEq] at h <;> omega
    · rw [pm_bind_eq_ok] at h
      obtain ⟨o, -, h⟩ := h
      split at h <;> simp only [Except.ok.injEq, Prod.mk.injEq] at h <;> omega

theorem readQuad_name {f : Nat → Token} {v : D} {n : Nat}
    (h : readQuad scan (f 0) (f 1) (f 2) = .ok (some (v, n))) :
    isKeyword (f (n - 1)) = false := by
  unfold readQuad at h
  rw [pm_bind_eq_ok] at h
  obtain ⟨⟨w, r⟩, h1, h⟩ := h
  have hr := readReal2_le h1
  simp only at h
  split at h
  · cases h
  · rename_i hc
    simp only [Bool.or_eq_true, not_or, Bool.not_eq_true] at hc
    split at h
    · cases h
    · simp only [Except.ok.injEq, Option.some.injEq, Prod.mk.injEq] at h
      obtain ⟨-, rfl⟩ := h
      rcases (by omega : r = 0 ∨ r = 1 ∨ r = 2) with rfl | rfl | rfl
      · exact hc.1
      · exact hc.1
      · exact hc.1

theorem readName_eq {t n : Token} (h : readName t = some n) : n = t := by
  unfold readName at h
  split at h
  · simp only [Option.some.injEq] at h; exact h.symm
  · cases h

theorem quadLoop_rel (sim : Sim E scan src1 src2 R) (q : QuadSim E src1 src2 R) (neg : Bool) :
    ∀ (k : Nat) {a : σ} {b : τ} {p : PProblem}, R a b → NK E p →
    ResRel (fun a b p => R a b ∧ NK E p) (quadLoop src1 scan neg k a p)
      (quadLoop src2 scan neg k b p) := by
  intro k
  induction k with
  | zero => intro a b p _ _; exact rfl
  | succ k ih =>
    intro a b p h hp
    have h0 := sim.tok h (i := 0) (by omega)
    simp only [quadLoop, h0.nil_iff, h0.eq_iff (w := [']']) (by decide)]
    rw [readQuad_rel h0 (sim.tok h (i := 1) (by omega)) (sim.tok h (i := 2) (by omega))]
    split
    · exact ⟨rfl, h, hp⟩
    · refine same_bind _ fun e he => orStop_bind _ _ fun r hr => ?_
      obtain ⟨f, n⟩ := r
      subst hr
      have hkn := readQuad_name (f := src2.tok b) he
      have hstale : E ∨ ∀ b', isKeyword (src2.stale b (n - 1) b') = false :=
        q.keep.imp id fun hk b' => by rw [hk]; exact hkn
      have hassign : ∀ {b' : τ} {i : Nat} {p1 : PProblem},
          p.getOrAssign (src2.stale b (n - 1) b') = some (i, p1) → NK E p1 := by
        intro b' i p1 hg
        rcases hstale with hE | hs
        · exact .inl hE
        · exact getOrAssign_nk (hs b') hp hg
      refine popFront_bind_le sim h n fun h1 h2 h' => ?_
      have h0' := sim.tok h' (i := 0) (by omega)
      have h1' := sim.tok h' (i := 1) (by omega)
      simp only [h0'.eq_iff (w := ['*']) (by decide), h0'.eq_iff (w := ['^']) (by decide),
        h0'.eq_iff (w := ['^', '2']) (by decide)]
      by_cases c1 : src2.tok (src2.pop b n) 0 = ['*']
      · rw [if_pos c1, if_pos c1]
        have hs := q.times h h1 h2 hkn c1
        refine ResRel.bind (Q := fun a b p => R a b ∧ NK E p) ?_ fun a b p h => ih h.1 h.2
        unfold quadProduct
        have et : src1.tok (src1.pop a n) 1 = src2.tok (src2.pop b n) 1 := by
          rcases q.second with hE | hs
          · exact sim.exact hE h' (by omega)
          · exact h1'.eq_of (by rw [h1'.kw]; exact hs h' c1)
        rw [et, hs]
        refine orStop_bind _ _ fun name2 hn2 => orStop_bind _ _ fun x hx =>
          orStop_bind _ _ fun y hy => ?_
        refine popFront_bind sim h' _ fun a b h => ⟨rfl, h, ?_⟩
        have k1 : NK E x.2 := hassign (i := x.1) hx
        rcases q.second with hE | hs
        · exact .inl hE
        · exact (getOrAssign_nk (by rw [readName_eq hn2]; exact hs h' c1) k1 (i := y.1) hy :
            NK E y.2)
      · rw [if_neg c1, if_neg c1]
        by_cases c2 : src2.tok (src2.pop b n) 0 = ['^'] ∨ src2.tok (src2.pop b n) 0 = ['^', '2']
        · rw [if_pos c2, if_pos c2]
          refine ResRel.bind (Q := fun a b p => R a b ∧ NK E p) ?_ fun a b p h => ih h.1 h.2
          unfold quadSquare
          simp only [h0'.eq_iff (w := ['^']) (by decide), h1'.eq_iff (w := ['2']) (by decide)]
          refine popFront_bind_le sim h' _ fun h3 h4 h'' => ?_
          rw [q.power h h1 h2 hkn (by split <;> omega) c2]
          exact orStop_bind _ _ fun x hx => ⟨rfl, h'', (hassign (i := x.1) hx : NK E x.2)⟩
        · rw [if_neg c2, if_neg c2]
          exact ih h' hp

theorem quadEnd_rel (sim : Sim E scan src1 src2 R) (h : R a b) (p : PProblem) :
    ResRel (fun a b (_ : PProblem) => R a b) (quadEnd src1 a >>= fun s => .ok (s, p))
      (quadEnd src2 b >>= fun s => .ok (s, p)) := by
  unfold quadEnd
  rw [bind_assoc, bind_assoc]
  refine popFront_bind sim h _ fun a b h => ?_
  have h0 := sim.tok h (i := 0) (by omega)
  have h1 := sim.tok h (i := 1) (by omega)
  simp only [h0.eq_iff (w := ['/']) (by decide), h1.eq_iff (w := ['2']) (by decide),
    h0.eq_iff (w := ['/', '2']) (by decide)]
  split
  · exact popFront_bind sim h _ fun a b h => ⟨rfl, h⟩
  · split
    · exact popFront_bind sim h _ fun a b h => ⟨rfl, h⟩
    · exact rfl

theorem objQuadratic_rel (sim : Sim E scan src1 src2 R) (q : QuadSim E src1 src2 R) (k : Nat)
    (h : R a b) (hp : NK E p) :
    ResRel (fun a b p => R a b ∧ NK E p) (objQuadratic src1 scan k a p)
      (objQuadratic src2 scan k b p) := by
  have key : ∀ (neg : Bool) {a : σ} {b : τ}, R a b →
      ResRel (fun a b p => R a b ∧ NK E p) (readQuadratic src1 scan k neg a p)
        (readQuadratic src2 scan k neg b p) := by
    intro neg a b h
    unfold readQuadratic
    simp only [ne_eq, (sim.tok h (i := 0) (by omega)).eq_iff (w := ['[']) (by decide)]
    split
    · exact rfl
    · refine popFront_bind sim h _ fun a b h => ?_
      refine (quadLoop_rel sim q neg k h hp).bind fun a b p h => ?_
      have hp := h.2
      have := quadEnd_rel sim h.1 p
      revert this
      show _ → ResRel _ (quadEnd src1 a >>= fun s => .ok (s, p))
        (quadEnd src2 b >>= fun s => .ok (s, p))
      generalize quadEnd src1 a = x
      generalize quadEnd src2 b = y
      intro this
      cases x <;> cases y
      · exact this
      · exact this.elim
      · exact this.elim
      · exact ⟨this.1, this.2, hp⟩
  have h0 := sim.tok h (i := 0) (by omega)
  unfold objQuadratic
  simp only [h0.eq_iff (w := ['-']) (by decide), h0.eq_iff (w := ['+']) (by decide)]
  split
  · exact popFront_bind sim h _ fun a b h => key true h
  · split
    · exact popFront_bind sim h _ fun a b h => key false h
    · exact key false h

theorem objElem_rel (sim : Sim E scan src1 src2 R) (h : R a b) (hp : NK E p) :
    ResRel (fun a b p => R a b ∧ NK E p) (objElem src1 scan a p) (objElem src2 scan b p) := by
  unfold objElem
  rw [readElem_rel (sim.tok h (i := 0) (by omega)) (sim.tok h (i := 1) (by omega))
    (sim.tok h (i := 2) (by omega))]
  refine same_bind _ fun e he => orStop_bind _ _ fun r hr => orStop_bind _ _ fun p1 hp1 => ?_
  subst hr
  refine popFront_bind sim h _ fun a' b' h' => ?_
  exact ⟨rfl, h', appendObjective_nk (readElem_name he) hp hp1⟩

theorem objLoop_rel (sim : Sim E scan src1 src2 R) : ∀ (k : Nat) {a : σ} {b : τ} {p : PProblem},
    R a b → NK E p →
    ResRel (fun a b p => R a b ∧ NK E p) (objLoop src1 scan k a p) (objLoop src2 scan k b p) := by
  intro k
  induction k with
  | zero => intro a b p _ _; exact rfl
  | succ k ih =>
    intro a b p h hp
    simp only [objLoop, quadratic_rel sim h, (sim.tok h (i := 0) (by omega)).kw]
    split
    · exact ⟨rfl, h, hp⟩
    · split
      · rename_i hq
        rcases sim.plain with q | hn
        · exact (objQuadratic_rel sim q k h hp).bind fun a b p hq => ih hq.1 hq.2
        · rw [quadratic_plain (hn h (by omega)) (hn h (by omega))] at hq
          cases hq
      · exact (objElem_rel sim h hp).bind fun a b p hq => ih hq.1 hq.2

theorem constrElem_rel (sim : Sim E scan src1 src2 R) (h : R a b) (hp : NK E p) (es : List FunElem) :
    ResRel (fun a b (c : PProblem × List FunElem) => R a b ∧ NK E c.1)
      (constrElem src1 scan a p es) (constrElem src2 scan b p es) := by
  unfold constrElem
  rw [readElem_rel (sim.tok h (i := 0) (by omega)) (sim.tok h (i := 1) (by omega))
    (sim.tok h (i := 2) (by omega))]
  refine same_bind _ fun e he => orStop_bind _ _ fun r hr => orStop_bind _ _ fun p1 hp1 => ?_
  subst hr
  refine same_bind _ fun v _ => same_bind _ fun es1 _ => ?_
  refine popFront_bind sim h _ fun a' b' h' => ?_
  exact ⟨rfl, h', getOrAssign_nk (readElem_name he) hp hp1⟩

theorem elemLoop_rel (sim : Sim E scan src1 src2 R) : ∀ (k : Nat) {a : σ} {b : τ} {p : PProblem}
    {es : List FunElem}, R a b → NK E p →
    ResRel (fun a b (c : PProblem × List FunElem) => R a b ∧ NK E c.1)
      (elemLoop src1 scan k a p es) (elemLoop src2 scan k b p es) := by
  intro k
  induction k with
  | zero => intro a b p es _ _; exact rfl
  | succ k ih =>
    intro a b p es h hp
    have h0 := sim.tok h (i := 0) (by omega)
    simp only [elemLoop, h0.nil_iff, h0.op]
    split
    · exact ⟨rfl, h, hp⟩
    · exact (constrElem_rel sim h hp es).bind fun a b c hq => ih hq.1 hq.2

theorem constrEnd_rel (sim : Sim E scan src1 src2 R) (h : R a b) :
    ResRel (fun a b (_ : Op × Int) => R a b) (constrEnd src1 scan a) (constrEnd src2 scan b) := by
  unfold constrEnd
  rw [readOperator_rel (sim.tok h (i := 0) (by omega)) (sim.tok h (i := 1) (by omega))]
  refine orStop_bind _ _ fun r hr => popFront_bind sim h _ fun a b h => ?_
  rw [readReal2_rel (sim.tok h (i := 0) (by omega)) (sim.tok h (i := 1) (by omega))]
  refine same_bind _ fun v _ => same_bind _ fun w _ => popFront_bind sim h _ fun a b h => ?_
  exact ⟨rfl, h⟩

theorem constrLabel_rel (sim : Sim E scan src1 src2 R) (h : R a b)
    (hk : isKeyword (src2.tok b 0) = false) :
    ResRel (fun a b (_ : Token) => R a b) (constrLabel src1 a) (constrLabel src2 b) := by
  unfold constrLabel
  have h0 := sim.tok h (i := 0) (by omega)
  have h1 := sim.tok h (i := 1) (by omega)
  have e : src1.tok a 0 = src2.tok b 0 := h0.eq_of (by rw [h0.kw]; exact hk)
  have e1 : decide (src1.tok a 1 = [':']) = decide (src2.tok b 1 = [':']) := by
    rw [decide_eq_decide]; exact h1.eq_iff (by decide)
  rw [e, e1]
  split
  · exact popFront_bind sim h _ fun a b h => ⟨rfl, h⟩
  · exact ⟨rfl, h⟩

theorem addConstr_names (op : Op) (c : Constr) : (p.addConstr op c).names = p.names := by
  cases op <;> rfl

theorem constrLoop_rel (sim : Sim E scan src1 src2 R) : ∀ (k id : Nat) {a : σ} {b : τ} {p : PProblem},
    R a b → NK E p →
    ResRel (fun a b p => R a b ∧ NK E p) (constrLoop src1 scan k id a p)
      (constrLoop src2 scan k id b p) := by
  intro k
  induction k with
  | zero => intro id a b p _ _; exact rfl
  | succ k ih =>
    intro id a b p h hp
    have h0 := sim.tok h (i := 0) (by omega)
    simp only [constrLoop, h0.nil_iff, h0.kw]
    split
    · exact ⟨rfl, h, hp⟩
    · rename_i hc
      simp only [not_or, Bool.not_eq_true] at hc
      refine (constrLabel_rel sim h hc.2).bind fun a b l h => ?_
      refine (constrElem_rel sim h hp []).bind fun a b c h => ?_
      refine (elemLoop_rel sim k h.1 h.2).bind fun a b c h => ?_
      refine (constrEnd_rel sim h.1).bind fun a b o h' => ?_
      exact ih _ h' (h.2.imp (·) fun h n hn => h n (by rwa [addConstr_names] at hn))

theorem readConstraints_rel (sim : Sim E scan src1 src2 R) (k : Nat) (h : R a b) (hp : NK E p) :
    ResRel (fun a b p => R a b ∧ NK E p) (readConstraints src1 scan k a p)
      (readConstraints src2 scan k b p) := by
  unfold readConstraints
  rw [readSubjectTo_rel (sim.tok h (i := 0) (by omega)) (sim.tok h (i := 1) (by omega))
    (sim.tok h (i := 2) (by omega))]
  split
  · exact ⟨rfl, h, hp⟩
  · refine popFront_bind sim h _ fun a b h => ?_
    refine (constrLoop_rel sim k 0 h hp).bind fun a b c h => ?_
    simp only
    split
    · exact rfl
    · exact ⟨rfl, h⟩

theorem getVariable_keyword {name : Token} (hp : ∀ n ∈ p.names, isKeyword n = false) (hk : isKeyword name = true) :
    p.getVariable name = none := by
  unfold PProblem.getVariable
  rw [List.findIdx?_eq_none_iff]
  intro n hn
  rw [beq_eq_false_iff_ne]
  rintro rfl
  rw [hp n hn] at hk; cases hk

theorem setBound_names {lo hi : D} {name : Token} {q : PProblem}
    (h : p.setBound lo hi name = .ok (some q)) : q.names = p.names := by
  unfold PProblem.setBound at h
  split at h
  · cases h
  · rw [pm_bind_eq_ok] at h
    obtain ⟨x, -, h⟩ := h
    rw [pm_bind_eq_ok] at h
    obtain ⟨y, -, h⟩ := h
    simp only [Except.ok.injEq, Option.some.injEq] at h
    subst h; rfl

theorem boundLoop_rel (sim : Sim E scan src1 src2 R) : ∀ (k : Nat) {a : σ} {b : τ} {p : PProblem},
    R a b → NK E p →
    ResRel (fun a b p => R a b ∧ NK E p) (boundLoop src1 scan k a p)
      (boundLoop src2 scan k b p) := by
  intro k
  induction k with
  | zero => intro a b p _ _; exact rfl
  | succ k ih =>
    intro a b p h hp
    have h0 := sim.tok h (i := 0) (by omega)
    simp only [boundLoop, h0.kw]
    split
    · exact ⟨rfl, h, hp⟩
    · have hb := readBound_rel (f := src1.tok a) (g := src2.tok b) fun i hi => sim.tok h hi
      match hx : readBound scan (src1.tok a), hy : readBound scan (src2.tok b), hb with
      | .ok (some x), .ok (some y), hb =>
        obtain ⟨h1, h2, h3, h4⟩ := hb
        simp only [pm_ok_bind, orStop]
        have e : p.setBound x.min x.max x.name = p.setBound y.min y.max y.name := by
          rcases hp with hE | hp
          · rw [readBound_exact (fun i hi => sim.exact hE h hi), hy] at hx
            simp only [Except.ok.injEq, Option.some.injEq] at hx
            rw [hx]
          rcases h4 with h4 | ⟨h4, h5⟩
          · rw [h1, h2, h4]
          · unfold PProblem.setBound
            rw [getVariable_keyword hp h4, getVariable_keyword hp h5]
        rw [e, h3]
        refine same_bind _ fun q hq => ?_
        cases q with
        | none => exact rfl
        | some q =>
          refine popFront_bind sim h _ fun a b h => ?_
          exact ih h (hp.imp id fun hp n hn => hp n (by rwa [setBound_names hq] at hn))
      | .ok (some x), .ok none, hb => cases hb
      | .ok none, .ok (some x), hb => cases hb
      | .ok none, .ok none, _ => exact rfl
      | .ok (some x), .error _, hb => cases hb
      | .ok none, .error _, hb => cases hb
      | .error _, .ok (some x), hb => cases hb
      | .error _, .ok none, hb => cases hb
      | .error e, .error f, hb =>
        simp only [BoundRel, Except.error.injEq] at hb
        subst hb; exact rfl

theorem typeLoop_rel (sim : Sim E scan src1 src2 R) {set : PProblem → Token → Option PProblem}
    (hset : ∀ p t q, set p t = some q → q.names = p.names) (tag : Tag) :
    ∀ (k : Nat) {a : σ} {b : τ} {p : PProblem}, R a b → NK E p →
    ResRel (fun a b p => R a b ∧ NK E p) (typeLoop src1 set tag k a p)
      (typeLoop src2 set tag k b p) := by
  intro k
  induction k with
  | zero => intro a b p _ _; exact rfl
  | succ k ih =>
    intro a b p h hp
    have h0 := sim.tok h (i := 0) (by omega)
    simp only [typeLoop, h0.kw]
    split
    · exact ⟨rfl, h, hp⟩
    · rename_i hc
      simp only [Bool.not_eq_true] at hc
      rw [h0.eq_of (by rw [h0.kw]; exact hc)]
      refine orStop_bind _ _ fun q hq => popFront_bind sim h _ fun a b h => ?_
      exact ih h (hp.imp id fun hp n hn => hp n (by rwa [hset _ _ _ hq] at hn))

theorem setBoolean_names (p : PProblem) (t : Token) (q : PProblem) (h : p.setBoolean t = some q) :
    q.names = p.names := by
  unfold PProblem.setBoolean at h
  split at h
  · cases h
  · simp only [Option.some.injEq] at h; subst h; rfl

theorem setInteger_names (p : PProblem) (t : Token) (q : PProblem) (h : p.setInteger t = some q) :
    q.names = p.names := by
  unfold PProblem.setInteger at h
  split at h
  · cases h
  · simp only [Option.some.injEq] at h; subst h; rfl

theorem section_rel (sim : Sim E scan src1 src2 R) (ws : List Token)
    {f : σ → PM (σ × PProblem)} {g : τ → PM (τ × PProblem)}
    (hfg : ∀ a b, R a b → ResRel (fun a b p => R a b ∧ NK E p) (f a) (g b)) (h : R a b) (hp : NK E p) :
    ResRel (fun a b p => R a b ∧ NK E p)
      (if readSection ws (src1.tok a 0) (src1.tok a 1) = 0 then .ok (a, p)
        else popFront src1 a (readSection ws (src1.tok a 0) (src1.tok a 1)) >>= f)
      (if readSection ws (src2.tok b 0) (src2.tok b 1) = 0 then .ok (b, p)
        else popFront src2 b (readSection ws (src2.tok b 0) (src2.tok b 1)) >>= g) := by
  rw [readSection_rel ws (sim.tok h (i := 0) (by omega)) (sim.tok h (i := 1) (by omega))]
  split
  · exact ⟨rfl, h, hp⟩
  · exact popFront_bind sim h _ hfg

/-- The parser after the objective. -/
def parseTail {σ : Type} (src : Source σ) (scan : Token → Option D) (fuel : Nat)
    (s : σ) (p : PProblem) : PM PProblem := do
  let (s, p) ← readConstraints src scan fuel s p
  let (s, p) ← readBounds src scan fuel s p
  let (s, p) ← readBinary src fuel s p
  let (s, p) ← readGeneral src fuel s p
  readEnd src s
  .ok p

theorem ResRel.bind_eq {A B C E : Type} {Q : A → B → C → Prop}
    {x : PM (A × C)} {y : PM (B × C)} (h : ResRel Q x y) {f : A × C → PM E}
    {g : B × C → PM E} (hf : ∀ a b c, Q a b c → f (a, c) = g (b, c)) :
    (x >>= f) = (y >>= g) := by
  match x, y, h with
  | .ok (a, c), .ok (b, _), ⟨rfl, h⟩ => exact hf a b c h
  | .error e, .error _, rfl => exact rfl

theorem readEnd_rel (sim : Sim E scan src1 src2 R) (h : R a b) : readEnd src1 a = readEnd src2 b := by
  unfold readEnd
  rw [readSection_rel endWords (sim.tok h (i := 0) (by omega)) (sim.tok h (i := 1) (by omega))]
  split
  · rfl
  · unfold popFront
    split
    · rename_i hn
      have h' := sim.pop h hn.1 hn.2
      simp only [pm_ok_bind, (sim.tok h' (i := 0) (by omega)).nil_iff]
    · rfl

theorem readBounds_rel (sim : Sim E scan src1 src2 R) (k : Nat) (h : R a b) (hp : NK E p) :
    ResRel (fun a b p => R a b ∧ NK E p) (readBounds src1 scan k a p) (readBounds src2 scan k b p) :=
  section_rel sim boundsWords (fun _ _ h => boundLoop_rel sim k h hp) h hp

theorem readBinary_rel (sim : Sim E scan src1 src2 R) (k : Nat) (h : R a b) (hp : NK E p) :
    ResRel (fun a b p => R a b ∧ NK E p) (readBinary src1 k a p) (readBinary src2 k b p) :=
  section_rel sim binaryWords
    (fun _ _ h => typeLoop_rel sim setBoolean_names .badBinary k h hp) h hp

theorem readGeneral_rel (sim : Sim E scan src1 src2 R) (k : Nat) (h : R a b) (hp : NK E p) :
    ResRel (fun a b p => R a b ∧ NK E p) (readGeneral src1 k a p) (readGeneral src2 k b p) :=
  section_rel sim generalWords
    (fun _ _ h => typeLoop_rel sim setInteger_names .badGeneral k h hp) h hp

theorem parseTail_rel (sim : Sim E scan src1 src2 R) (k : Nat) (h : R a b) (hp : NK E p) :
    parseTail src1 scan k a p = parseTail src2 scan k b p := by
  unfold parseTail
  refine (readConstraints_rel sim k h hp).bind_eq fun a b p h => ?_
  refine (readBounds_rel sim k h.1 h.2).bind_eq fun a b p h => ?_
  refine (readBinary_rel sim k h.1 h.2).bind_eq fun a b p h => ?_
  refine (readGeneral_rel sim k h.1 h.2).bind_eq fun a b p h => ?_
  simp only [readEnd_rel sim h.1]

theorem parse_eq {σ : Type} (src : Source σ) (k : Nat) (s : σ) :
    parse src scan k s = (readHead src s {} >>= fun r => objLoop src scan k r.1 r.2 >>= fun r =>
      parseTail src scan k r.1 r.2) := rfl

theorem readHead_rel (sim : Sim E scan src1 src2 R) (h : R a b) (hp : NK E p) :
    ResRel (fun a b p => R a b ∧ NK E p) (readHead src1 a p) (readHead src2 b p) := by
  unfold readHead
  have h0 := sim.tok h (i := 0) (by omega)
  have e : readObjectiveType (src1.tok a 0) = readObjectiveType (src2.tok b 0) := by
    unfold readObjectiveType
    simp only [h0.equal]
  rw [e]
  refine orStop_bind _ _ fun t ht => popFront_bind sim h _ fun a b h => ?_
  have e : readLabel (src1.tok a 0) (src1.tok a 1) = readLabel (src2.tok b 0) (src2.tok b 1) := by
    unfold readLabel
    rw [(sim.tok h (i := 0) (by omega)).kw, (sim.tok h (i := 1) (by omega)).equal]
  rw [e]
  split
  · exact ⟨rfl, h, hp⟩
  · exact popFront_bind sim h _ fun a b h => ⟨rfl, h, hp⟩

/-- Two such sources give the same result. -/
theorem parse_rel (sim : Sim E scan src1 src2 R) (k : Nat) (h : R a b) :
    parse src1 scan k a = parse src2 scan k b := by
  rw [parse_eq, parse_eq]
  refine (readHead_rel sim h (.inr (by intro n hn; cases hn))).bind_eq fun a b p h => ?_
  refine (objLoop_rel sim k h.1 h.2).bind_eq fun a b p h => ?_
  exact parseTail_rel sim k h.1 h.2

end

end Bx.Parser
