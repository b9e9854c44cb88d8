import Verif.Proofs.Window

/-! The names that the parser keeps while it reads on. -/

namespace Bx.Parser

/-- The number of the first `n` tokens that begin a word. -/
def begun : Nat → List Bool → Nat
  | 0, _ => 0
  | n + 1, l => (if l.headD false then 0 else 1) + begun n l.tail

theorem begun_nil (n : Nat) : begun n [] = n := by
  induction n with
  | zero => rfl
  | succ n ih => simp only [begun, List.headD_nil, List.tail_nil, ih]; simp; omega

theorem begun_count (n : Nat) (l : List Bool) : begun n l + (l.take n).count true = n := by
  induction n generalizing l with
  | zero => simp [begun]
  | succ n ih =>
    cases l with
    | nil => simp [begun_nil]
    | cons b l =>
      have := ih l
      cases b <;> simp [begun] <;> omega

theorem begun_add (m n : Nat) (l : List Bool) : begun (m + n) l = begun m l + begun n (l.drop m) := by
  induction m generalizing l with
  | zero => simp [begun]
  | succ m ih =>
    rw [Nat.succ_add]
    simp only [begun]
    rw [ih, ← List.drop_one, List.drop_drop, Nat.add_comm 1 m]
    omega

theorem begun_mono {m n : Nat} (h : m ≤ n) (l : List Bool) : begun m l ≤ begun n l := by
  obtain ⟨k, rfl⟩ := Nat.exists_eq_add_of_le h
  rw [begun_add]; omega

/-- The view `v` denotes `w`, and is on a slot filled at most `a` words ago. -/
def Held (s : Stream) (v : View) (w : Token) (a : Nat) : Prop :=
  s.deref (some v) = w ∧ ∃ b ≤ a, v.slot = (s.cur + 10 - b) % 10

theorem Held.step {s s1 : Stream} {v : View} {w t : Token} {u : Option View} {ts : List Token}
    {a : Nat} (hg : s.Good) (n : Next s s1 u t ts) (h : Held s v w a)
    (ha : a + begun 1 s.tags ≤ 9) : Held s1 v w (a + begun 1 s.tags) := by
  obtain ⟨h1, b, hb, hs⟩ := h
  have hcur := hg.cur
  cases ht : s.tags.headD false with
  | true =>
    obtain ⟨e1, e2⟩ := n.same ht
    exact ⟨by rw [deref_eq (e2 _)]; exact h1, b, by omega, by rw [e1]; exact hs⟩
  | false =>
    have e : begun 1 s.tags = 1 := by simp only [begun, ht]; rfl
    rw [e] at ha ⊢
    rcases n.cur with ⟨e1, e2⟩ | ⟨e1, e2⟩
    · exact ⟨by rw [deref_eq (e2 _)]; exact h1, b, by omega, by rw [e1]; exact hs⟩
    · refine ⟨?_, b + 1, by omega, ?_⟩
      · rw [deref_eq (e2 _ (by rw [hs, e1]; omega))]; exact h1
      · rw [hs, e1]; omega

theorem Held.ptr {s : Stream} {v : View} {w : Token} {a : Nat} (h : Held s v w a)
    (p : List (Option View)) : Held { s with ptr := p } v w a := h

theorem Held.pushBack {v : View} {w : Token} : ∀ (is : List Nat) {s : Stream} {a : Nat},
    s.Good → Held s v w a → a + begun is.length s.tags ≤ 9 →
    Held (s.pushBack is) v w (a + begun is.length s.tags) := by
  intro is
  induction is with
  | nil => intro s a _ h _; simpa [Stream.pushBack, begun] using h
  | cons i is ih =>
    intro s a hg h ha
    obtain ⟨s1, u, e, n⟩ := nextToken_spec hg
    simp only [Stream.pushBack, e]
    have eb : begun (i :: is).length s.tags = begun 1 s.tags + begun is.length s1.tags := by
      rw [List.length_cons, Nat.add_comm, begun_add, n.tags, List.drop_one]
    rw [eb] at ha ⊢
    have h1 := h.step hg n (by omega)
    rw [← Nat.add_assoc]
    exact ih (s := { s1 with ptr := s1.ptr.set i u }) ⟨n.good.len, n.good.cur, n.good.used⟩
      (h1.ptr _) (by show _ + begun _ s1.tags ≤ 9; omega)

theorem Held.pop {s : Stream} {v : View} {w : Token} {a size : Nat} (hg : s.Good)
    (h : Held s v w a) (ha : a + begun size s.tags ≤ 9) :
    Held (s.pop size) v w (a + begun size s.tags) := by
  have hl : ((List.range size).map fun i => 10 - size + i).length = size := by simp
  have hs : begun size s.tags = begun ((List.range size).map fun i => 10 - size + i).length
      ({ s with ptr := shift s.ptr size } : Stream).tags := by rw [hl]; rfl
  rw [hs] at ha ⊢
  exact Held.pushBack _ ⟨hg.len, hg.cur, hg.used⟩ (h.ptr _) ha

/-- A window, with the words in which the tokens are. -/
structure Words (s : Stream) (m : Nat) (ts : List Token) (bs : List Bool) : Prop where
  win : Window s m ts
  tags : s.tags = bs.drop m
  held : ∀ i v, i < m → s.ptr.getD i none = some v →
    Held s v (ts.getD i []) (begun (m - (i + 1)) (bs.drop (i + 1)))

theorem Words.step {s : Stream} {m : Nat} {ts : List Token} {bs : List Bool} (h : Words s m ts bs)
    (hm : m < 10) {s1 : Stream} {v : Option View} (hn : s.nextToken = (s1, v)) :
    Words { s1 with ptr := s1.ptr.set m v } (m + 1) ts bs := by
  have hw := h.win.step hm hn
  obtain ⟨s2, v2, e, n⟩ := nextToken_spec h.win.good
  rw [hn] at e
  simp only [Prod.mk.injEq] at e
  obtain ⟨rfl, rfl⟩ := e
  refine ⟨hw, ?_, ?_⟩
  · show s1.tags = _
    rw [n.tags, h.tags, List.tail_drop]
  · intro i w hi hv
    have hv : (s1.ptr.set m v).getD i none = some w := hv
    by_cases him : i = m
    · subst him
      have hgm : (s1.ptr.set i v).getD i none = v :=
        getD_set_eq (by rw [n.ptr, h.win.len]; exact hm)
      have ht := hw.text i (by omega)
      have ht : s1.deref ((s1.ptr.set i v).getD i none) = ts.getD i [] := ht
      rw [hv] at ht
      refine ⟨ht, 0, by omega, ?_⟩
      rw [hgm] at hv
      rw [n.slot w hv]
      have := n.good.cur
      show s1.cur = (s1.cur + 10 - 0) % 10
      omega
    · have hi : i < m := by omega
      rw [getD_set_ne (by omega), n.ptr] at hv
      have hh := h.held i w hi hv
      have e : begun (m + 1 - (i + 1)) (bs.drop (i + 1)) =
          begun (m - (i + 1)) (bs.drop (i + 1)) + begun 1 s.tags := by
        rw [h.tags, show m + 1 - (i + 1) = m - (i + 1) + 1 by omega, begun_add, List.drop_drop,
          show i + 1 + (m - (i + 1)) = m by omega]
      rw [e]
      have hle : begun (m - (i + 1)) (bs.drop (i + 1)) ≤ m - (i + 1) := by
        have := begun_count (m - (i + 1)) (bs.drop (i + 1)); omega
      have h1 : begun 1 s.tags ≤ 1 := by have := begun_count 1 s.tags; omega
      exact (hh.step h.win.good n (by omega)).ptr _

theorem Words.pushBack {ts : List Token} {bs : List Bool} : ∀ (n : Nat) {s : Stream} {m : Nat},
    Words s m ts bs → m + n = 10 →
    Words (s.pushBack ((List.range n).map fun i => m + i)) 10 ts bs := by
  intro n
  induction n with
  | zero =>
    intro s m h hm
    have : m = 10 := by omega
    subst this
    exact h
  | succ n ih =>
    intro s m h hm
    rw [List.range_succ_eq_map, List.map_cons, List.map_map]
    obtain ⟨s1, v, e, -⟩ := nextToken_spec h.win.good
    have h1 := h.step (by omega) e
    have h2 := ih h1 (by omega)
    simp only [Stream.pushBack, Nat.add_zero, e]
    have : ((fun i => m + i) ∘ Nat.succ) = fun i => m + 1 + i := by
      funext i; simp only [Function.comp]; omega
    rw [this]
    exact h2

theorem Words.pop {s : Stream} {ts : List Token} {bs : List Bool} (h : Words s 10 ts bs)
    {size : Nat} (h1 : 1 ≤ size) (h2 : size < 10) :
    Words (s.pop size) 10 (ts.drop size) (bs.drop size) := by
  have hw : Words { s with ptr := shift s.ptr size } (10 - size) (ts.drop size) (bs.drop size) := by
    refine ⟨?_, ?_, ?_⟩
    · refine ⟨⟨h.win.good.len, h.win.good.cur, h.win.good.used⟩,
        (shift_get h.win.len h1 h2 (i := 0) (by omega)).2, by omega, ?_, ?_, ?_⟩
      · show s.pending = _
        rw [h.win.pending, List.drop_drop]
        congr 1
        omega
      · intro i hi
        show s.deref ((shift s.ptr size).getD i none) = _
        rw [(shift_get h.win.len h1 h2 hi).1, h.win.text _ (by omega)]
        simp [List.getD_eq_getElem?_getD, Nat.add_comm]
      · intro i v hi hv
        have hv : (shift s.ptr size).getD i none = some v := hv
        rw [(shift_get h.win.len h1 h2 hi).1] at hv
        obtain ⟨a, ha, hs⟩ := h.win.age _ v (by omega) hv
        exact ⟨a, by omega, hs⟩
    · show s.tags = _
      rw [h.tags, List.drop_drop]
      congr 1
      omega
    · intro i v hi hv
      have hv : (shift s.ptr size).getD i none = some v := hv
      rw [(shift_get h.win.len h1 h2 hi).1] at hv
      have hh := (h.held _ v (by omega) hv).ptr (shift s.ptr size)
      rw [show (ts.drop size).getD i [] = ts.getD (i + size) [] by
        simp [List.getD_eq_getElem?_getD, Nat.add_comm], List.drop_drop,
        show size + (i + 1) = i + size + 1 by omega,
        show 10 - size - (i + 1) = 10 - (i + size + 1) by omega]
      exact hh
  exact Words.pushBack size hw (by omega)

theorem Words.stale {s : Stream} {ts : List Token} {bs : List Bool} (h : Words s 10 ts bs)
    {i n : Nat} (hi : i < 10) (hk : begun (10 + n - (i + 1)) (bs.drop (i + 1)) ≤ 9) :
    s.stale i (s.pop n) = ts.getD i [] := by
  unfold Stream.stale
  rw [← h.win.text i hi]
  cases hv : s.ptr.getD i none with
  | none => rfl
  | some v =>
    have hh := h.held i v hi hv
    have e : begun (10 + n - (i + 1)) (bs.drop (i + 1)) =
        begun (10 - (i + 1)) (bs.drop (i + 1)) + begun n s.tags := by
      rw [h.tags, show 10 + n - (i + 1) = 10 - (i + 1) + n by omega, begun_add, List.drop_drop,
        show i + 1 + (10 - (i + 1)) = 10 by omega]
    rw [e] at hk
    rw [(hh.pop h.win.good hk).1, ← h.win.text i hi, hv]

theorem Words.stale2 {s : Stream} {ts : List Token} {bs : List Bool} (h : Words s 10 ts bs)
    {i n m : Nat} (hi : i < 10) (h1 : 1 ≤ n) (h2 : n < 10)
    (hk : begun (10 + n + m - (i + 1)) (bs.drop (i + 1)) ≤ 9) :
    s.stale i ((s.pop n).pop m) = ts.getD i [] := by
  unfold Stream.stale
  rw [← h.win.text i hi]
  cases hv : s.ptr.getD i none with
  | none => rfl
  | some v =>
    have hh := h.held i v hi hv
    have hp := h.pop h1 h2
    have e : begun (10 + n + m - (i + 1)) (bs.drop (i + 1)) =
        begun (10 - (i + 1)) (bs.drop (i + 1)) + begun n s.tags + begun m (s.pop n).tags := by
      rw [h.tags, hp.tags, show 10 + n + m - (i + 1) = 10 - (i + 1) + n + m by omega, begun_add,
        begun_add, List.drop_drop, List.drop_drop, List.drop_drop,
        show i + 1 + (10 - (i + 1)) = 10 by omega,
        show i + 1 + (10 - (i + 1) + n) = n + 10 by omega]
    rw [e] at hk
    have h3 := hh.pop (size := n) h.win.good (by omega)
    rw [(h3.pop hp.win.good hk).1, ← h.win.text i hi, hv]

theorem Words.open (text : List Char) : Words (Stream.open text) 10 (streamTokens text)
    (((rawWords [] text true).map cstr).flatMap fun w => inside (toksOf w)) := by
  have hat : ∀ j, ({ input := text } : Stream).at j = {} := by
    intro j
    show (List.replicate 10 ({} : Slot)).getD j {} = {}
    rw [List.getD_eq_getElem?_getD, List.getElem?_replicate]
    split <;> rfl
  have hw : Words ({ input := text } : Stream) 0 (streamTokens text)
      (((rawWords [] text true).map cstr).flatMap fun w => inside (toksOf w)) := by
    refine ⟨⟨⟨rfl, by simp, fun j _ => ?_⟩, rfl, by omega, ?_, by simp, by simp⟩, rfl, by simp⟩
    · rw [hat]; rfl
    · rfl
  exact Words.pushBack 10 hw rfl

theorem streamGlued_eq {text : List Char} (h : Readable text) :
    (((rawWords [] text true).map cstr).flatMap fun w => inside (toksOf w)) = gluedOf text := by
  unfold gluedOf
  rw [rawWords_eq _ text [] (Nat.le_refl _) h.1 h.2 (.inl rfl) true (by simp)]
  rw [List.flatMap_map]
  have : ∀ w ∈ wordsOf text, inside (toksOf (cstr w)) = inside (cutWord w.length w) :=
    fun w hw => by
      rw [takeWhile_eq_self fun hc => h.2.1 (mem_wordsOf hw hc)]
      rfl
  revert this
  generalize wordsOf text = ws
  intro this
  induction ws with
  | nil => rfl
  | cons w ws ih =>
    rw [List.flatMap_cons, List.flatMap_cons, this w (by simp), ih fun v hv => this v (by simp [hv])]

end Bx.Parser
