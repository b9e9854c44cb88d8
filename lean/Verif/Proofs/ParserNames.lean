import Verif.Proofs.ParserWF
import Verif.Proofs.Window

/-!
# The names of a problem without quadratic terms are tokens of names

The names of the quadratic terms are read through views that can be stale
(`C38_quadratic_layout`).
-/

namespace Bx.Parser

open Params (D)

section

variable {σ : Type} {src : Source σ} {scan : Token → Option D} {I : σ → Prop} {T : Token → Prop}

/-- What the source keeps: the tokens satisfy `T`. -/
structure Keep (src : Source σ) (I : σ → Prop) (T : Token → Prop) : Prop where
  pop : ∀ s n, I s → I (src.pop s n)
  tok : ∀ s i, I s → T (src.tok s i)
  nil : T []

/-- The state and the names read so far. -/
structure Named (I : σ → Prop) (T : Token → Prop) (s : σ) (p : PProblem) : Prop where
  state : I s
  names : p.qelems = [] → ∀ n ∈ p.names, T n ∧ ∀ c ∈ n, isCharName c = true

theorem Keep.popFront (hk : Keep src I T) {s s1 : σ} {n : Nat} (h : I s)
    (hp : popFront src s n = .ok s1) : I s1 := by
  unfold Parser.popFront at hp
  split at hp
  · rw [← Except.ok.inj hp]; exact hk.pop _ _ h
  · cases hp

theorem Named.same {s s1 : σ} {p q : PProblem} (h : Named I T s p) (hs : I s1)
    (h1 : q.names = p.names) (h2 : q.qelems = p.qelems) : Named I T s1 q :=
  ⟨hs, by rw [h1, h2]; exact h.names⟩

theorem readName_all {t n : Token} (h : readName t = some n) :
    n = t ∧ ∀ c ∈ n, isCharName c = true := by
  unfold readName at h
  split at h
  · rename_i hc
    obtain rfl := Option.some.inj h
    exact ⟨rfl, List.all_eq_true.mp hc⟩
  · cases h

theorem readElem_token (hk : Keep src I T) {s : σ} (h : I s) {r : D × Token × Nat}
    (he : readElem scan (src.tok s 0) (src.tok s 1) (src.tok s 2) = .ok (some r)) :
    T r.2.1 ∧ ∀ c ∈ r.2.1, isCharName c = true := by
  unfold readElem at he
  rw [pm_bind_eq_ok] at he
  obtain ⟨⟨v, n⟩, -, he⟩ := he
  simp only at he
  split at he
  · split at he
    · cases he
    · rename_i m hm
      simp only [Except.ok.injEq, Option.some.injEq] at he
      subst he
      obtain ⟨e, hc⟩ := readName_all hm
      refine ⟨?_, hc⟩
      show T m
      rw [e]
      unfold toRead
      split <;> exact hk.tok _ _ h
  · simp only [Except.ok.injEq, Option.some.injEq] at he
    subst he
    exact ⟨hk.nil, by simp⟩

theorem getOrAssign_names {p q : PProblem} {name : Token} {i : Nat}
    (h : p.getOrAssign name = some (i, q)) :
    q.qelems = p.qelems ∧ ∀ n ∈ q.names, n ∈ p.names ∨ n = name := by
  unfold PProblem.getOrAssign at h
  split at h
  · simp only [Option.some.injEq, Prod.mk.injEq] at h
    rw [← h.2]
    exact ⟨rfl, fun n hn => .inl hn⟩
  · split at h
    · cases h
    · simp only [Option.some.injEq, Prod.mk.injEq] at h
      rw [← h.2]
      exact ⟨rfl, fun n hn => by simpa using hn⟩

theorem Named.getOrAssign {s : σ} {p q : PProblem} {name : Token} {i : Nat} (h : Named I T s p)
    (hn : T name ∧ ∀ c ∈ name, isCharName c = true) (hg : p.getOrAssign name = some (i, q)) :
    Named I T s q := by
  obtain ⟨h1, h2⟩ := getOrAssign_names hg
  refine ⟨h.state, fun hq n hm => ?_⟩
  rcases h2 n hm with h3 | rfl
  · exact h.names (h1 ▸ hq) n h3
  · exact hn

theorem addQuad_ne {f : D} {a b : Nat} {l : List PQuad} : addQuad f a b l ≠ [] := by
  cases l with
  | nil => simp [addQuad]
  | cons e es => unfold addQuad; split <;> simp

theorem quadProduct_named (hk : Keep src I T) {neg : Bool} {f : D} {n : Nat} {s s1 s2 : σ}
    {p q : PProblem} (hs : I s1) (h : quadProduct src neg f n s s1 p = .ok (s2, q)) :
    Named I T s2 q := by
  unfold quadProduct at h
  simp only [pm_bind_eq_ok, orStop_eq_ok] at h
  obtain ⟨name, -, ⟨i, p1⟩, -, ⟨j, p2⟩, -, s3, hp, h⟩ := h
  simp only [Except.ok.injEq, Prod.mk.injEq] at h
  obtain ⟨rfl, rfl⟩ := h
  exact ⟨hk.popFront hs hp, fun hq => absurd hq addQuad_ne⟩

theorem quadSquare_named (hk : Keep src I T) {neg : Bool} {f : D} {n : Nat} {s s1 s2 : σ}
    {p q : PProblem} (hs : I s1) (h : quadSquare src neg f n s s1 p = .ok (s2, q)) :
    Named I T s2 q := by
  unfold quadSquare at h
  simp only [pm_bind_eq_ok, orStop_eq_ok] at h
  obtain ⟨s3, hp, ⟨i, p1⟩, -, h⟩ := h
  simp only [Except.ok.injEq, Prod.mk.injEq] at h
  obtain ⟨rfl, rfl⟩ := h
  exact ⟨hk.popFront hs hp, fun hq => absurd hq addQuad_ne⟩

theorem quadLoop_named (hk : Keep src I T) {neg : Bool} : ∀ {k : Nat} {s s2 : σ} {p q : PProblem},
    Named I T s p → quadLoop src scan neg k s p = .ok (s2, q) → Named I T s2 q := by
  intro k
  induction k with
  | zero => intro s s2 p q hp h; cases h
  | succ k ih =>
    intro s s2 p q hp h
    unfold quadLoop at h
    split at h
    · simp only [Except.ok.injEq, Prod.mk.injEq] at h
      obtain ⟨rfl, rfl⟩ := h
      exact hp
    · simp only [pm_bind_eq_ok] at h
      obtain ⟨e, -, ⟨f, n⟩, -, s1, hs1, h⟩ := h
      have hs := hk.popFront hp.state hs1
      split at h
      · rw [pm_bind_eq_ok] at h
        obtain ⟨⟨s3, p1⟩, h1, h⟩ := h
        exact ih (quadProduct_named hk hs h1) h
      · split at h
        · rw [pm_bind_eq_ok] at h
          obtain ⟨⟨s3, p1⟩, h1, h⟩ := h
          exact ih (quadSquare_named hk hs h1) h
        · exact ih (hp.same hs rfl rfl) h

theorem quadEnd_state (hk : Keep src I T) {s s1 : σ} (h : I s) (he : quadEnd src s = .ok s1) :
    I s1 := by
  unfold quadEnd at he
  rw [pm_bind_eq_ok] at he
  obtain ⟨s2, h2, he⟩ := he
  have hs := hk.popFront h h2
  split at he
  · exact hk.popFront hs he
  · split at he
    · exact hk.popFront hs he
    · cases he

theorem readQuadratic_named (hk : Keep src I T) {neg : Bool} {k : Nat} {s s2 : σ} {p q : PProblem}
    (hp : Named I T s p) (h : readQuadratic src scan k neg s p = .ok (s2, q)) :
    Named I T s2 q := by
  unfold readQuadratic at h
  split at h
  · cases h
  · simp only [pm_bind_eq_ok] at h
    obtain ⟨s1, h0, ⟨s3, p1⟩, h1, s4, h4, h⟩ := h
    simp only [Except.ok.injEq, Prod.mk.injEq] at h
    obtain ⟨rfl, rfl⟩ := h
    have g := quadLoop_named hk (hp.same (hk.popFront hp.state h0) rfl rfl) h1
    exact g.same (quadEnd_state hk g.state h4) rfl rfl

theorem objQuadratic_named (hk : Keep src I T) {k : Nat} {s s2 : σ} {p q : PProblem}
    (hp : Named I T s p) (h : objQuadratic src scan k s p = .ok (s2, q)) : Named I T s2 q := by
  unfold objQuadratic at h
  split at h
  · rw [pm_bind_eq_ok] at h
    obtain ⟨s1, h0, h⟩ := h
    exact readQuadratic_named hk (hp.same (hk.popFront hp.state h0) rfl rfl) h
  · split at h
    · rw [pm_bind_eq_ok] at h
      obtain ⟨s1, h0, h⟩ := h
      exact readQuadratic_named hk (hp.same (hk.popFront hp.state h0) rfl rfl) h
    · exact readQuadratic_named hk hp h

theorem objElem_named (hk : Keep src I T) {s s2 : σ} {p q : PProblem} (hp : Named I T s p)
    (h : objElem src scan s p = .ok (s2, q)) : Named I T s2 q := by
  unfold objElem at h
  simp only [pm_bind_eq_ok, orStop_eq_ok] at h
  obtain ⟨e, he, ⟨f, name, n⟩, rfl, p1, h1, s1, hs, h⟩ := h
  simp only [Except.ok.injEq, Prod.mk.injEq] at h
  obtain ⟨rfl, rfl⟩ := h
  have hn := readElem_token hk hp.state he
  have hs1 := hk.popFront hp.state hs
  unfold PProblem.appendObjective at h1
  split at h1
  · simp only [Option.some.injEq] at h1
    subst h1
    exact hp.same hs1 rfl rfl
  · split at h1
    · cases h1
    · rename_i i p2 h2
      simp only [Option.some.injEq] at h1
      subst h1
      exact (hp.getOrAssign hn h2).same hs1 rfl rfl

theorem objLoop_named (hk : Keep src I T) : ∀ {k : Nat} {s s2 : σ} {p q : PProblem},
    Named I T s p → objLoop src scan k s p = .ok (s2, q) → Named I T s2 q := by
  intro k
  induction k with
  | zero => intro s s2 p q hp h; cases h
  | succ k ih =>
    intro s s2 p q hp h
    unfold objLoop at h
    split at h
    · simp only [Except.ok.injEq, Prod.mk.injEq] at h
      obtain ⟨rfl, rfl⟩ := h
      exact hp
    · split at h
      · rw [pm_bind_eq_ok] at h
        obtain ⟨⟨s3, p1⟩, h1, h⟩ := h
        exact ih (objQuadratic_named hk hp h1) h
      · rw [pm_bind_eq_ok] at h
        obtain ⟨⟨s3, p1⟩, h1, h⟩ := h
        exact ih (objElem_named hk hp h1) h

theorem constrElem_named (hk : Keep src I T) {s s2 : σ} {p q : PProblem} {es r : List FunElem}
    (hp : Named I T s p) (h : constrElem src scan s p es = .ok (s2, q, r)) : Named I T s2 q := by
  unfold constrElem at h
  simp only [pm_bind_eq_ok, orStop_eq_ok] at h
  obtain ⟨e, he, ⟨f, name, n⟩, rfl, ⟨id, p1⟩, h1, v, -, es1, -, s1, hs, h⟩ := h
  simp only [Except.ok.injEq, Prod.mk.injEq] at h
  obtain ⟨rfl, rfl, rfl⟩ := h
  exact (hp.getOrAssign (readElem_token hk hp.state he) h1).same
    (hk.popFront hp.state hs) rfl rfl

theorem elemLoop_named (hk : Keep src I T) : ∀ {k : Nat} {s s2 : σ} {p q : PProblem}
    {es r : List FunElem}, Named I T s p → elemLoop src scan k s p es = .ok (s2, q, r) →
    Named I T s2 q := by
  intro k
  induction k with
  | zero => intro s s2 p q es r hp h; cases h
  | succ k ih =>
    intro s s2 p q es r hp h
    unfold elemLoop at h
    split at h
    · simp only [Except.ok.injEq, Prod.mk.injEq] at h
      obtain ⟨rfl, rfl, rfl⟩ := h
      exact hp
    · rw [pm_bind_eq_ok] at h
      obtain ⟨⟨s3, p1, e1⟩, h1, h⟩ := h
      exact ih (constrElem_named hk hp h1) h

theorem constrLabel_state (hk : Keep src I T) {s s1 : σ} {l : Token} (h : I s)
    (he : constrLabel src s = .ok (s1, l)) : I s1 := by
  unfold constrLabel at he
  split at he
  · rw [pm_bind_eq_ok] at he
    obtain ⟨s2, h2, he⟩ := he
    simp only [Except.ok.injEq, Prod.mk.injEq] at he
    obtain ⟨rfl, rfl⟩ := he
    exact hk.popFront h h2
  · simp only [Except.ok.injEq, Prod.mk.injEq] at he
    obtain ⟨rfl, rfl⟩ := he
    exact h

theorem constrEnd_state (hk : Keep src I T) {s s1 : σ} {r : Op × Int} (h : I s)
    (he : constrEnd src scan s = .ok (s1, r)) : I s1 := by
  unfold constrEnd at he
  simp only [pm_bind_eq_ok] at he
  obtain ⟨⟨op, n⟩, -, s2, h2, ⟨v, m⟩, -, w, -, s3, h3, he⟩ := he
  simp only [Except.ok.injEq, Prod.mk.injEq] at he
  obtain ⟨rfl, -⟩ := he
  exact hk.popFront (hk.popFront h h2) h3

theorem constrLoop_named (hk : Keep src I T) : ∀ {k id : Nat} {s s2 : σ} {p q : PProblem},
    Named I T s p → constrLoop src scan k id s p = .ok (s2, q) → Named I T s2 q := by
  intro k
  induction k with
  | zero => intro id s s2 p q hp h; cases h
  | succ k ih =>
    intro id s s2 p q hp h
    unfold constrLoop at h
    split at h
    · simp only [Except.ok.injEq, Prod.mk.injEq] at h
      obtain ⟨rfl, rfl⟩ := h
      exact hp
    · simp only [pm_bind_eq_ok] at h
      obtain ⟨⟨s1, label⟩, h0, ⟨s3, p1, e1⟩, h1, ⟨s4, p2, e2⟩, h2, ⟨s5, op, v⟩, h5, h⟩ := h
      have g1 := constrElem_named hk (hp.same (constrLabel_state hk hp.state h0) rfl rfl) h1
      have g2 := elemLoop_named hk g1 h2
      refine ih (g2.same (constrEnd_state hk g2.state h5) ?_ ?_) h
      · cases op <;> rfl
      · cases op <;> rfl

theorem readConstraints_named (hk : Keep src I T) {k : Nat} {s s2 : σ} {p q : PProblem}
    (hp : Named I T s p) (h : readConstraints src scan k s p = .ok (s2, q)) : Named I T s2 q := by
  unfold readConstraints at h
  split at h
  · simp only [Except.ok.injEq, Prod.mk.injEq] at h
    obtain ⟨rfl, rfl⟩ := h
    exact hp
  · simp only [pm_bind_eq_ok] at h
    obtain ⟨s1, h0, ⟨s3, p1⟩, h1, h⟩ := h
    split at h
    · cases h
    · simp only [Except.ok.injEq, Prod.mk.injEq] at h
      obtain ⟨rfl, rfl⟩ := h
      exact constrLoop_named hk (hp.same (hk.popFront hp.state h0) rfl rfl) h1

theorem boundLoop_named (hk : Keep src I T) : ∀ {k : Nat} {s s2 : σ} {p q : PProblem},
    Named I T s p → boundLoop src scan k s p = .ok (s2, q) → Named I T s2 q := by
  intro k
  induction k with
  | zero => intro s s2 p q hp h; cases h
  | succ k ih =>
    intro s s2 p q hp h
    unfold boundLoop at h
    split at h
    · simp only [Except.ok.injEq, Prod.mk.injEq] at h
      obtain ⟨rfl, rfl⟩ := h
      exact hp
    · simp only [pm_bind_eq_ok, orStop_eq_ok] at h
      obtain ⟨b, -, b1, -, p1, h1, p2, rfl, s1, hs, h⟩ := h
      refine ih (hp.same (hk.popFront hp.state hs) (setBound_names h1) ?_) h
      unfold PProblem.setBound at h1
      split at h1
      · cases h1
      · simp only [pm_bind_eq_ok] at h1
        obtain ⟨x, -, y, -, h1⟩ := h1
        simp only [Except.ok.injEq, Option.some.injEq] at h1
        subst h1
        rfl

theorem typeLoop_named (hk : Keep src I T) {set : PProblem → Token → Option PProblem}
    (hset : ∀ p t q, set p t = some q → q.names = p.names ∧ q.qelems = p.qelems) {tag : Tag} :
    ∀ {k : Nat} {s s2 : σ} {p q : PProblem}, Named I T s p →
    typeLoop src set tag k s p = .ok (s2, q) → Named I T s2 q := by
  intro k
  induction k with
  | zero => intro s s2 p q hp h; cases h
  | succ k ih =>
    intro s s2 p q hp h
    unfold typeLoop at h
    split at h
    · simp only [Except.ok.injEq, Prod.mk.injEq] at h
      obtain ⟨rfl, rfl⟩ := h
      exact hp
    · simp only [pm_bind_eq_ok, orStop_eq_ok] at h
      obtain ⟨p1, h1, s1, hs, h⟩ := h
      obtain ⟨e1, e2⟩ := hset _ _ _ h1
      exact ih (hp.same (hk.popFront hp.state hs) e1 e2) h

theorem section_named (hk : Keep src I T) {ws : List Token} {f : σ → PM (σ × PProblem)} {s s2 : σ}
    {p q : PProblem} (hp : Named I T s p)
    (hf : ∀ s, Named I T s p → ∀ s2 q, f s = .ok (s2, q) → Named I T s2 q)
    (h : (if readSection ws (src.tok s 0) (src.tok s 1) = 0 then .ok (s, p)
        else popFront src s (readSection ws (src.tok s 0) (src.tok s 1)) >>= f) = .ok (s2, q)) :
    Named I T s2 q := by
  split at h
  · simp only [Except.ok.injEq, Prod.mk.injEq] at h
    obtain ⟨rfl, rfl⟩ := h
    exact hp
  · rw [pm_bind_eq_ok] at h
    obtain ⟨s1, hs, h⟩ := h
    exact hf _ (hp.same (hk.popFront hp.state hs) rfl rfl) _ _ h

theorem readHead_named (hk : Keep src I T) {s s2 : σ} {q : PProblem} (hs : I s)
    (h : readHead src s {} = .ok (s2, q)) : Named I T s2 q := by
  have h0 : ∀ (s : σ) (t : ObjType), I s → Named I T s { ({} : PProblem) with type := t } :=
    fun s t hs => ⟨hs, fun _ n hn => by simp at hn⟩
  unfold readHead at h
  simp only [pm_bind_eq_ok] at h
  obtain ⟨t, -, s1, h1, h⟩ := h
  have hs1 := hk.popFront hs h1
  split at h
  · simp only [Except.ok.injEq, Prod.mk.injEq] at h
    obtain ⟨rfl, rfl⟩ := h
    exact h0 _ t hs1
  · rw [pm_bind_eq_ok] at h
    obtain ⟨s3, h3, h⟩ := h
    simp only [Except.ok.injEq, Prod.mk.injEq] at h
    obtain ⟨rfl, rfl⟩ := h
    exact h0 _ t (hk.popFront hs1 h3)

theorem setBoolean_quad (p : PProblem) (t : Token) (q : PProblem) (h : p.setBoolean t = some q) :
    q.names = p.names ∧ q.qelems = p.qelems := by
  refine ⟨setBoolean_names p t q h, ?_⟩
  unfold PProblem.setBoolean at h
  split at h
  · cases h
  · simp only [Option.some.injEq] at h; subst h; rfl

theorem setInteger_quad (p : PProblem) (t : Token) (q : PProblem) (h : p.setInteger t = some q) :
    q.names = p.names ∧ q.qelems = p.qelems := by
  refine ⟨setInteger_names p t q h, ?_⟩
  unfold PProblem.setInteger at h
  split at h
  · cases h
  · simp only [Option.some.injEq] at h; subst h; rfl

theorem parse_names (hk : Keep src I T) {k : Nat} {s : σ} {q : PProblem} (hs : I s)
    (h : parse src scan k s = .ok q) (hq : q.qelems = []) :
    ∀ n ∈ q.names, T n ∧ ∀ c ∈ n, isCharName c = true := by
  unfold parse at h
  simp only [pm_bind_eq_ok] at h
  obtain ⟨⟨s1, p1⟩, h1, ⟨s2, p2⟩, h2, ⟨s3, p3⟩, h3, ⟨s4, p4⟩, h4, ⟨s5, p5⟩, h5, ⟨s6, p6⟩, h6,
    u, -, h⟩ := h
  simp only [Except.ok.injEq] at h
  subst h
  have k1 := readHead_named hk hs h1
  have k2 := objLoop_named hk k1 h2
  have k3 := readConstraints_named hk k2 h3
  have k4 := section_named hk k3 (fun _ g _ _ h => boundLoop_named hk g h) h4
  have k5 := section_named hk k4 (fun _ g _ _ h => typeLoop_named hk setBoolean_quad g h) h5
  have k6 := section_named hk k5 (fun _ g _ _ h => typeLoop_named hk setInteger_quad g h) h6
  exact k6.names hq

end

/-! ## The tokens of a stream are short -/

/-- The arrays of the slots hold at most 512 characters. -/
def Stream.Fits (s : Stream) : Prop := ∀ t ∈ s.slots, t.buffer.length ≤ 512

theorem overwrite_length {old word : List Char} (h1 : old.length ≤ 512) (h2 : word.length ≤ 511) :
    (overwrite old word).length ≤ 512 := by
  unfold overwrite
  simp only [List.length_append, List.length_cons, List.length_drop]
  omega

theorem readWord_length : ∀ (k : Nat) (buf input : List Char) (good : Bool), buf.length ≤ 512 →
    (readWord k buf input good).1.length ≤ 512
  | 0, buf, input, good, h => h
  | k + 1, buf, input, good, h => by
    unfold readWord
    split
    · exact h
    · dsimp only
      split
      · exact h
      · have hw : (overwrite buf (((input.dropWhile isSpace).takeWhile
            fun c => !isSpace c).take maxWord)).length ≤ 512 :=
          overwrite_length h (by rw [List.length_take]; unfold maxWord; omega)
        split
        · exact readWord_length k _ _ _ hw
        · split
          · exact readWord_length k _ _ _ hw
          · exact hw

theorem Stream.Fits.slot {s : Stream} (h : s.Fits) : s.slot.buffer.length ≤ 512 := by
  unfold Stream.slot
  rw [List.getD_eq_getElem?_getD]
  cases e : s.slots[s.cur]? with
  | none => simp
  | some t => exact h t (List.mem_of_getElem? e)

theorem Stream.Fits.set {s : Stream} (h : s.Fits) {i : Nat} {t : Slot}
    (ht : t.buffer.length ≤ 512) : ∀ u ∈ s.slots.set i t, u.buffer.length ≤ 512 := by
  intro u hu
  rcases List.mem_or_eq_of_mem_set hu with hu | rfl
  · exact h u hu
  · exact ht

theorem Stream.Fits.cut {s : Stream} (h : s.Fits) : s.cut.1.Fits := by
  unfold Stream.cut
  dsimp only
  split
  · exact h
  · exact h.set h.slot

theorem Stream.Fits.advance {s : Stream} (h : s.Fits) : s.advance.1.Fits := by
  have h1 : ({ s with cur := (s.cur + 1) % 10 } : Stream).Fits := h
  unfold Stream.advance
  dsimp only
  split
  · exact h1
  · refine h1.set (readWord_length _ _ _ _ ?_)
    rw [List.length_set]
    exact h1.slot

theorem Stream.Fits.nextToken {s : Stream} (h : s.Fits) : s.nextToken.1.Fits := by
  unfold Stream.nextToken
  split
  · have ha := h.advance
    split
    · rename_i s1 e
      rw [e] at ha
      exact ha
    · rename_i s1 e
      rw [e] at ha
      exact ha.cut
  · exact h.cut

theorem Stream.Fits.pushBack : ∀ (is : List Nat) {s : Stream}, s.Fits → (s.pushBack is).Fits
  | [], _, h => h
  | i :: is, s, h => by
    unfold Stream.pushBack
    exact Stream.Fits.pushBack is (s := { s.nextToken.1 with
      ptr := s.nextToken.1.ptr.set i s.nextToken.2 }) h.nextToken

theorem Stream.Fits.tok {s : Stream} (h : s.Fits) (i : Nat) : (s.tok i).length ≤ 512 := by
  unfold Stream.tok Stream.deref
  split
  · simp
  · rename_i v _
    have : (s.slots.getD v.slot {}).buffer.length ≤ 512 := by
      rw [List.getD_eq_getElem?_getD]
      cases e : s.slots[v.slot]? with
      | none => simp
      | some t => exact h t (List.mem_of_getElem? e)
    simp only [List.length_take, List.length_drop]
    omega

theorem stream_keep : Keep streamSource Stream.Fits fun t => t.length ≤ 512 where
  pop _ n h := Stream.Fits.pushBack (lastPositions n) h
  tok _ i h := h.tok i
  nil := by simp

/-- The names of a problem without quadratic terms are short and made of the characters of the
names. -/
theorem makeProblem_names {scan : Token → Option D} {fuel : Nat} {text : List Char} {p : PProblem}
    (h : makeProblem scan fuel text = .ok p) (hq : p.qelems = []) :
    ∀ n ∈ p.names, n.length ≤ 512 ∧ ∀ c ∈ n, isCharName c = true := by
  refine parse_names stream_keep ?_ h hq
  refine Stream.Fits.pushBack (lastPositions 10) (s := { input := text }) ?_
  intro t ht
  have := List.eq_of_mem_replicate ht
  subst this
  simp

end Bx.Parser
