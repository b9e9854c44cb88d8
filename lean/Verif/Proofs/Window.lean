import Verif.Proofs.Tokens

/-! The buffer of tokens is a window on the list of the tokens of the text. -/

namespace Bx.Parser

/-- The first `m` positions of the buffer hold the first `m` tokens of `ts`, the others of which
are pending.  A view of the position `i` is on a slot filled less than `m - i` words
ago. -/
structure Window (s : Stream) (m : Nat) (ts : List Token) : Prop where
  good : s.Good
  len : s.ptr.length = 10
  le : m ≤ 10
  pending : s.pending = ts.drop m
  text : ∀ i, i < m → s.deref (s.ptr.getD i none) = ts.getD i []
  age : ∀ i v, i < m → s.ptr.getD i none = some v →
    ∃ a, a + i + 1 ≤ m ∧ v.slot = (s.cur + 10 - a) % 10

theorem headD_drop (ts : List Token) (m : Nat) : (ts.drop m).headD [] = ts.getD m [] := by
  simp [List.getD_eq_getElem?_getD, List.headD_eq_head?_getD]

theorem deref_eq {s s1 : Stream} {v : View} (h : (s1.at v.slot).buffer = (s.at v.slot).buffer) :
    s1.deref (some v) = s.deref (some v) := by
  show ((s1.at v.slot).buffer.drop v.start).take v.size =
    ((s.at v.slot).buffer.drop v.start).take v.size
  rw [h]

theorem Window.step {s : Stream} {m : Nat} {ts : List Token} (h : Window s m ts) (hm : m < 10)
    {s1 : Stream} {v : Option View} (hn : s.nextToken = (s1, v)) :
    Window { s1 with ptr := s1.ptr.set m v } (m + 1) ts := by
  obtain ⟨s2, v2, e, n⟩ := nextToken_spec h.good
  rw [hn] at e
  simp only [Prod.mk.injEq] at e
  obtain ⟨rfl, rfl⟩ := e
  have hcur := h.good.cur
  have hget : ∀ i, i < m → (s1.ptr.set m v).getD i none = s.ptr.getD i none := fun i hi => by
    rw [getD_set_ne (by omega), n.ptr]
  have hgm : (s1.ptr.set m v).getD m none = v := getD_set_eq (by rw [n.ptr, h.len]; exact hm)
  -- the slots of the views already there are kept
  have hkeep : ∀ i w, i < m → s.ptr.getD i none = some w →
      (s1.at w.slot).buffer = (s.at w.slot).buffer ∧
        ∃ a, a + i + 1 ≤ m + 1 ∧ w.slot = (s1.cur + 10 - a) % 10 := by
    intro i w hi hw
    obtain ⟨a, ha, hs⟩ := h.age i w hi hw
    rcases n.cur with ⟨h1, h2⟩ | ⟨h1, h2⟩
    · exact ⟨h2 _, a, by omega, by rw [h1]; exact hs⟩
    · refine ⟨h2 _ ?_, a + 1, by omega, ?_⟩
      · rw [hs, h1]; omega
      · rw [hs, h1]; omega
  refine ⟨⟨n.good.len, n.good.cur, n.good.used⟩, by simp [n.ptr, h.len], by omega, ?_, ?_, ?_⟩
  · show s1.pending = _
    rw [n.pending, h.pending, List.tail_drop]
  · intro i hi
    show s1.deref ((s1.ptr.set m v).getD i none) = _
    by_cases him : i = m
    · subst him
      rw [hgm, n.text, h.pending, headD_drop]
    · have hi : i < m := by omega
      rw [hget i hi, ← h.text i hi]
      cases hw : s.ptr.getD i none with
      | none => rfl
      | some w => exact deref_eq (hkeep i w hi hw).1
  · intro i w hi hw
    have hw : (s1.ptr.set m v).getD i none = some w := hw
    by_cases him : i = m
    · subst him
      rw [hgm] at hw
      refine ⟨0, by omega, ?_⟩
      rw [n.slot w hw]
      have := n.good.cur
      show s1.cur = (s1.cur + 10 - 0) % 10
      omega
    · have hi : i < m := by omega
      rw [hget i hi] at hw
      exact (hkeep i w hi hw).2

theorem Window.pushBack {ts : List Token} : ∀ (n : Nat) {s : Stream} {m : Nat}, Window s m ts →
    m + n = 10 → Window (s.pushBack ((List.range n).map fun i => m + i)) 10 ts := by
  intro n
  induction n with
  | zero =>
    intro s m h hm
    have : m = 10 := by omega
    subst this
    exact h
  | succ n ih =>
    intro s m h hm
    rw [List.range_succ_eq_map, List.map_cons, List.map_map]
    obtain ⟨s1, v, e, -⟩ := nextToken_spec h.good
    have h1 := h.step (by omega) e
    have h2 := ih h1 (by omega)
    simp only [Stream.pushBack, Nat.add_zero, e]
    have : ((fun i => m + i) ∘ Nat.succ) = fun i => m + 1 + i := by
      funext i; simp only [Function.comp]; omega
    rw [this]
    exact h2

theorem shift_get {ptr : List (Option View)} (h : ptr.length = 10) {size i : Nat} (h1 : 1 ≤ size)
    (h2 : size < 10) (hi : i < 10 - size) :
    (shift ptr size).getD i none = ptr.getD (i + size) none ∧ (shift ptr size).length = 10 := by
  match ptr, h with
  | [a0, a1, a2, a3, a4, a5, a6, a7, a8, a9], _ =>
    interval_cases size <;>
      simp only [shift, List.range_succ_eq_map, List.range_zero, List.map_nil, List.map_cons,
        List.foldl_cons, List.foldl_nil] <;>
      interval_cases i <;> simp

theorem Window.pop {s : Stream} {ts : List Token} (h : Window s 10 ts) {size : Nat}
    (h1 : 1 ≤ size) (h2 : size < 10) : Window (s.pop size) 10 (ts.drop size) := by
  have hw : Window { s with ptr := shift s.ptr size } (10 - size) (ts.drop size) := by
    refine ⟨⟨h.good.len, h.good.cur, h.good.used⟩, (shift_get h.len h1 h2 (i := 0) (by omega)).2,
      by omega, ?_, ?_, ?_⟩
    · show s.pending = _
      rw [h.pending, List.drop_drop]
      congr 1
      omega
    · intro i hi
      show s.deref ((shift s.ptr size).getD i none) = _
      rw [(shift_get h.len h1 h2 hi).1, h.text _ (by omega)]
      simp [List.getD_eq_getElem?_getD, Nat.add_comm]
    · intro i v hi hv
      have hv : (shift s.ptr size).getD i none = some v := hv
      rw [(shift_get h.len h1 h2 hi).1] at hv
      obtain ⟨a, ha, hs⟩ := h.age _ v (by omega) hv
      exact ⟨a, by omega, hs⟩
  exact Window.pushBack size hw (by omega)

/-- The tokens that the stream gives for a text. -/
def streamTokens (text : List Char) : List Token :=
  ((rawWords [] text true).map cstr).flatMap toksOf

theorem Window.open (text : List Char) : Window (Stream.open text) 10 (streamTokens text) := by
  have hat : ∀ j, ({ input := text } : Stream).at j = {} := by
    intro j
    show (List.replicate 10 ({} : Slot)).getD j {} = {}
    rw [List.getD_eq_getElem?_getD, List.getElem?_replicate]
    split <;> rfl
  have hw : Window ({ input := text } : Stream) 0 (streamTokens text) := by
    refine ⟨⟨rfl, by simp, fun j _ => ?_⟩, rfl, by omega, ?_, by simp, by simp⟩
    · rw [hat]; rfl
    · rfl
  exact Window.pushBack 10 hw rfl

theorem takeWhile_eq_self {l : List Char} (h : '\x00' ∉ l) : cstr l = l := by
  induction l with
  | nil => rfl
  | cons c l ih =>
    simp only [List.mem_cons, not_or] at h
    rw [cstr_cons (Ne.symm h.1), ih h.2]

theorem mem_pieces {p : Char → Bool} {t w : List Char} {c : Char} (hw : w ∈ pieces p t)
    (hc : c ∈ w) : c ∈ t := by
  induction t generalizing w with
  | nil => simp only [pieces, List.mem_singleton] at hw; subst hw; exact hc
  | cons d t ih =>
    simp only [pieces] at hw
    split at hw
    · simp only [List.mem_cons] at hw
      rcases hw with rfl | hw
      · simp at hc
      · exact List.mem_cons_of_mem _ (ih hw hc)
    · split at hw
      · rename_i h; exact absurd h (pieces_ne_nil _ _)
      · rename_i u q h
        simp only [List.mem_cons] at hw
        rcases hw with rfl | hw
        · simp only [List.mem_cons] at hc
          rcases hc with rfl | hc
          · simp
          · exact List.mem_cons_of_mem _ (ih (by rw [h]; simp) hc)
        · exact List.mem_cons_of_mem _ (ih (by rw [h]; simp [hw]) hc)

theorem mem_wordsOf {t w : List Char} {c : Char} (hw : w ∈ wordsOf t) (hc : c ∈ w) : c ∈ t := by
  simp only [wordsOf, List.mem_flatMap] at hw
  obtain ⟨l, hl, hw⟩ := hw
  have : w ∈ lineAll l := (List.takeWhile_prefix _).subset hw
  simp only [lineAll, List.mem_filter] at this
  exact mem_pieces hl (mem_pieces this.1 hc)

/-- The tokens of a readable text. -/
theorem streamTokens_eq {text : List Char} (h : Readable text) :
    streamTokens text = tokensOf text := by
  unfold streamTokens tokensOf
  rw [rawWords_eq _ text [] (Nat.le_refl _) h.1 h.2 (.inl rfl) true (by simp)]
  rw [List.flatMap_map]
  have : ∀ w ∈ wordsOf text, toksOf (cstr w) = cutWord w.length w := fun w hw => by
    rw [takeWhile_eq_self fun hc => h.2.1 (mem_wordsOf hw hc)]
    rfl
  revert this
  generalize wordsOf text = ws
  intro this
  induction ws with
  | nil => rfl
  | cons w ws ih =>
    rw [List.flatMap_cons, List.flatMap_cons, this w (by simp), ih fun v hv => this v (by simp [hv])]

end Bx.Parser
