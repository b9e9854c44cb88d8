import Verif.Spec.Blocks
import Verif.Proofs.Outcome
import Mathlib.Tactic.Ring

/-! Lemmas on the sub-vector allocator. -/

namespace Bx.Subvector

open Spec

theorem splice_ok {mem : List Nat} {p : Nat} {bs : List Nat} (h : p + bs.length ≤ mem.length) :
    ∃ m, splice mem p bs = .ok m ∧ m.length = mem.length ∧
      ∀ i : Nat, m[i]? = if p ≤ i ∧ i < p + bs.length then bs[i - p]? else mem[i]? := by
  refine ⟨_, if_pos h, by simp; omega, fun i => ?_⟩
  by_cases h1 : i < p
  · rw [if_neg (by omega), List.append_assoc, List.getElem?_append_left (by simp; omega),
      List.getElem?_take_of_lt h1]
  · by_cases h2 : i < p + bs.length
    · rw [if_pos (by omega), List.append_assoc, List.getElem?_append_right (by simp; omega),
        List.getElem?_append_left (by simp; omega)]
      congr 1
      simp; omega
    · rw [if_neg (by omega), List.getElem?_append_right (by simp; omega), List.getElem?_drop]
      congr 1
      simp; omega

theorem splice_inv {mem m : List Nat} {p : Nat} {bs : List Nat} (h : splice mem p bs = .ok m) :
    p + bs.length ≤ mem.length := by
  unfold splice at h
  split at h
  · assumption
  · exact absurd h (by simp)

/-- The bytes `[p, p + n)`. -/
def blk (mem : List Nat) (p n : Nat) : List Nat := (mem.drop p).take n

theorem blk_get (mem : List Nat) (p n i : Nat) :
    (blk mem p n)[i]? = if i < n then mem[p + i]? else none := by
  unfold blk
  rw [List.getElem?_take]
  split
  · rw [List.getElem?_drop]
  · rfl

theorem blk_length {mem : List Nat} {p n : Nat} (h : p + n ≤ mem.length) :
    (blk mem p n).length = n := by
  unfold blk; simp; omega

/-- Two different multiples of `n` are at least `n` apart. -/
theorem apart {n j k : Nat} (h : n * j ≠ n * k) : n * j + n ≤ n * k ∨ n * k + n ≤ n * j := by
  rcases Nat.lt_trichotomy j k with h1 | h1 | h1
  · left
    have := Nat.mul_le_mul_left n (show j + 1 ≤ k by omega)
    rw [Nat.mul_add, Nat.mul_one] at this
    omega
  · subst h1; exact absurd rfl h
  · right
    have := Nat.mul_le_mul_left n (show k + 1 ≤ j by omega)
    rw [Nat.mul_add, Nat.mul_one] at this
    omega

theorem mul_bound {n j m : Nat} (h : j < m) : n * j + n ≤ n * m := by
  have := Nat.mul_le_mul_left n (show j + 1 ≤ m by omega)
  rw [Nat.mul_add, Nat.mul_one] at this
  omega

/-- A write inside a block leaves the others. -/
theorem blk_other {mem m : List Nat} {p o n q : Nat} {bs : List Nat}
    (h : splice mem (p + o) bs = .ok m) (ho : o + bs.length ≤ n)
    (hd : p + n ≤ q ∨ q + n ≤ p) : blk m q n = blk mem q n := by
  obtain ⟨m', h1, _, h3⟩ := splice_ok (splice_inv h)
  have : m' = m := Except.ok.inj (h1.symm.trans h)
  subst this
  apply List.ext_getElem?
  intro i
  rw [blk_get, blk_get]
  split
  · rw [h3, if_neg (by omega)]
  · rfl

theorem splice_length {mem m : List Nat} {p : Nat} {bs : List Nat} (h : splice mem p bs = .ok m) :
    m.length = mem.length := by
  obtain ⟨m', h1, h2, _⟩ := splice_ok (splice_inv h)
  have : m' = m := Except.ok.inj (h1.symm.trans h)
  subst this
  exact h2

/-- The block after a write inside it. -/
theorem blk_self {mem m : List Nat} {p o n : Nat} {bs : List Nat}
    (h : splice mem (p + o) bs = .ok m) (i : Nat) :
    (blk m p n)[i]? = if i < n then (if o ≤ i ∧ i < o + bs.length then bs[i - o]? else mem[p + i]?)
      else none := by
  obtain ⟨m', h1, _, h3⟩ := splice_ok (splice_inv h)
  have : m' = m := Except.ok.inj (h1.symm.trans h)
  subst this
  rw [blk_get]
  split
  · rw [h3]
    by_cases hc : o ≤ i ∧ i < o + bs.length
    · rw [if_pos (by omega), if_pos hc]; congr 1; omega
    · rw [if_neg (by omega), if_neg hc]
  · rfl

theorem read32_blk {mem : List Nat} {p n : Nat} (h : 4 ≤ n) :
    read32 mem p = read32 (blk mem p n) 0 := by
  unfold read32 blk
  rw [List.drop_zero]
  rcases mem.drop p with _ | ⟨a, _ | ⟨b, _ | ⟨c, _ | ⟨d, r⟩⟩⟩⟩
  · simp
  · obtain ⟨k, rfl⟩ := Nat.exists_eq_add_of_le h
    simp [Nat.add_comm 4 k, List.take_succ_cons]
  · obtain ⟨k, rfl⟩ := Nat.exists_eq_add_of_le h
    simp [Nat.add_comm 4 k, List.take_succ_cons]
  · obtain ⟨k, rfl⟩ := Nat.exists_eq_add_of_le h
    simp [Nat.add_comm 4 k, List.take_succ_cons]
  · obtain ⟨k, rfl⟩ := Nat.exists_eq_add_of_le h
    simp [Nat.add_comm 4 k, List.take_succ_cons]

theorem read_write {mem m : List Nat} {p v : Nat} (hv : v < 2 ^ 32)
    (h : splice mem p (bytes32 v) = .ok m) : read32 m p = .ok v := by
  have hl := splice_inv h
  unfold splice at h
  rw [if_pos hl] at h
  have := Except.ok.inj h
  subst this
  unfold read32
  simp only [bytes32, List.length_cons, List.length_nil] at hl ⊢
  rw [List.append_assoc, List.drop_append_of_le_length (by simp; omega),
    List.drop_of_length_le (by simp)]
  simp only [List.nil_append, List.cons_append, Except.ok.injEq]
  omega

/-- The list of the free blocks from `h`. -/
def Chain (mem : List Nat) : Nat → List Nat → Prop
  | h, [] => h = npos
  | h, p :: ps => h = p ∧ ∃ next, read32 mem p = .ok next ∧ Chain mem next ps

theorem Chain.congr {mem m : List Nat} : ∀ {fr : List Nat} {h : Nat}, Chain mem h fr →
    (∀ p ∈ fr, read32 m p = read32 mem p) → Chain m h fr
  | [], _, hc, _ => hc
  | p :: ps, h, hc, hr => by
    obtain ⟨h1, next, h2, h3⟩ := hc
    exact ⟨h1, next, by rw [hr p (by simp)]; exact h2,
      Chain.congr h3 fun q hq => hr q (List.mem_cons_of_mem _ hq)⟩

structure Inv (n : Nat) (s : Sub) (l : Live) (m : Nat) (fr : List Nat) : Prop where
  esize : s.esize = n
  four : 4 ≤ n
  len : s.mem.length = n * m
  small : n * m < 2 ^ 32
  chain : Chain s.mem s.head fr
  nodup : fr.Nodup
  free : ∀ p ∈ fr, (∃ k, k < m ∧ p = n * k) ∧ l p = none
  live : ∀ p c, l p = some c → (∃ k, k < m ∧ p = n * k) ∧ blk s.mem p n = c
  count : ∀ k, k < m → n * k ∈ fr ∨ ∃ c, l (n * k) = some c

variable {n m : Nat} {s : Sub} {l : Live} {fr : List Nat}

theorem Inv.head_lt (h : Inv n s l m fr) : s.head < 2 ^ 32 := by
  have hc := h.chain
  cases fr with
  | nil => have : s.head = npos := hc; rw [this]; unfold npos; omega
  | cons p ps =>
    obtain ⟨h1, _⟩ := hc
    obtain ⟨⟨k, hk, hp⟩, _⟩ := h.free p (by simp)
    have := mul_bound (n := n) hk
    have := h.small
    omega

/-- A write inside a live block. -/
theorem Inv.write (h : Inv n s l m fr) {p o : Nat} {c bs mem' c' : List Nat} (hp : l p = some c)
    (ho : o + bs.length ≤ n) (hw : splice s.mem (p + o) bs = .ok mem') (hc : blk mem' p n = c') :
    Inv n { s with mem := mem' } (l.put p (some c')) m fr := by
  obtain ⟨⟨k, hk, hpk⟩, _⟩ := h.live p c hp
  have oth : ∀ q j, q = n * j → q ≠ p → blk mem' q n = blk s.mem q n := by
    intro q j hq hne
    subst hq; subst hpk
    exact blk_other hw ho (apart (fun e => hne e.symm))
  have frne : ∀ q ∈ fr, q ≠ p := by
    rintro q hq rfl
    rw [(h.free q hq).2] at hp; simp at hp
  refine ⟨h.esize, h.four, by rw [splice_length hw, h.len], h.small, ?_, h.nodup, ?_, ?_, ?_⟩
  · refine h.chain.congr fun q hq => ?_
    obtain ⟨⟨j, _, hqj⟩, _⟩ := h.free q hq
    rw [read32_blk h.four, oth q j hqj (frne q hq), ← read32_blk h.four]
  · intro q hq
    obtain ⟨h1, h2⟩ := h.free q hq
    refine ⟨h1, ?_⟩
    simp only [Live.put]
    rw [if_neg (frne q hq), h2]
  · intro q d hd
    simp only [Live.put] at hd
    split at hd
    · rename_i hq
      subst hq
      exact ⟨⟨k, hk, hpk⟩, by rw [← Option.some.inj hd]; exact hc⟩
    · rename_i hq
      obtain ⟨⟨j, hj, hqj⟩, hb⟩ := h.live q d hd
      exact ⟨⟨j, hj, hqj⟩, by rw [← hb]; exact oth q j hqj hq⟩
  · intro j hj
    rcases h.count j hj with h1 | ⟨d, hd⟩
    · exact Or.inl h1
    · right
      by_cases hq : n * j = p
      · exact ⟨c', by simp [Live.put, hq]⟩
      · exact ⟨d, by simp [Live.put, hq, hd]⟩

theorem Inv.checkIndex (h : Inv n s l m fr) {p k : Nat} (hk : k < m) (hp : p = n * k) :
    checkIndex s p = .ok () := by
  unfold Subvector.checkIndex
  have := mul_bound (n := n) hk
  have := h.small
  have := h.len
  have := h.esize
  rw [check_of (by rw [h.esize, Nat.mod_eq_of_lt (by omega)]; simp; omega),
    check_of (by rw [h.esize, hp]; simp)]
  rfl

theorem Inv.remove (h : Inv n s l m fr) {p : Nat} {c : List Nat} (hp : l p = some c) :
    ∃ s', Subvector.remove s p = .ok s' ∧ Inv n s' (l.put p none) m (p :: fr) := by
  obtain ⟨⟨k, hk, hpk⟩, _⟩ := h.live p c hp
  have hb := mul_bound (n := n) hk
  have hl := h.len
  have h4 := h.four
  obtain ⟨mem', hw, hlen, _⟩ := splice_ok (mem := s.mem) (p := p) (bs := bytes32 s.head)
    (by simp [bytes32]; omega)
  have oth : ∀ q j, q = n * j → q ≠ p → blk mem' q n = blk s.mem q n := by
    intro q j hq hne
    subst hq; subst hpk
    exact blk_other (o := 0) hw (by simp [bytes32]; omega) (apart (fun e => hne e.symm))
  have frne : ∀ q ∈ fr, q ≠ p := by
    rintro q hq rfl
    rw [(h.free q hq).2] at hp; simp at hp
  refine ⟨{ s with mem := mem', head := p }, ?_, h.esize, h.four, by rw [hlen, h.len], h.small,
    ⟨rfl, s.head, read_write h.head_lt hw, ?_⟩, ?_, ?_, ?_, ?_⟩
  · unfold Subvector.remove
    rw [h.checkIndex hk hpk, ok_bind, hw, ok_bind]
  · refine h.chain.congr fun q hq => ?_
    obtain ⟨⟨j, _, hqj⟩, _⟩ := h.free q hq
    rw [read32_blk h.four, oth q j hqj (frne q hq), ← read32_blk h.four]
  · rw [List.nodup_cons]
    exact ⟨fun hm => frne p hm rfl, h.nodup⟩
  · intro q hq
    rcases List.mem_cons.mp hq with rfl | hq
    · exact ⟨⟨k, hk, hpk⟩, by simp [Live.put]⟩
    · obtain ⟨h1, h2⟩ := h.free q hq
      refine ⟨h1, ?_⟩
      simp only [Live.put]
      rw [if_neg (frne q hq), h2]
  · intro q d hd
    simp only [Live.put] at hd
    split at hd
    · simp at hd
    · rename_i hq
      obtain ⟨⟨j, hj, hqj⟩, hb⟩ := h.live q d hd
      exact ⟨⟨j, hj, hqj⟩, by rw [← hb]; exact oth q j hqj hq⟩
  · intro j hj
    rcases h.count j hj with h1 | ⟨d, hd⟩
    · exact Or.inl (List.mem_cons_of_mem _ h1)
    · by_cases hq : n * j = p
      · left; rw [hq]; simp
      · right; exact ⟨d, by simp [Live.put, hq, hd]⟩

theorem Inv.emplace (h : Inv n s l m fr) (hs : s.mem.length + n < 2 ^ 32) :
    ∃ s' p m' fr', Subvector.emplace s = .ok (s', p) ∧ l p = none ∧
      (fr = [] → s'.mem.length = s.mem.length + n ∧ p = s.mem.length) ∧
      (fr ≠ [] → s'.mem = s.mem) ∧
      Inv n s' (l.put p (some (blk s'.mem p n))) m' fr' := by
  have h4 := h.four
  have hl := h.len
  cases fr with
  | cons p ps =>
    obtain ⟨hc, next, hr, hch⟩ := h.chain
    obtain ⟨⟨k, hk, hpk⟩, hnone⟩ := h.free p (by simp)
    have hb := mul_bound (n := n) hk
    have hsm := h.small
    have hne : s.head ≠ npos := by rw [hc]; unfold npos; omega
    have hnd := List.nodup_cons.mp h.nodup
    have inv' : Inv n { s with head := next } (l.put p (some (blk s.mem p n))) m ps := by
      refine ⟨h.esize, h.four, h.len, h.small, hch, hnd.2, ?_, ?_, ?_⟩
      · intro q hq
        obtain ⟨h1, h2⟩ := h.free q (List.mem_cons_of_mem _ hq)
        refine ⟨h1, ?_⟩
        simp only [Live.put]
        rw [if_neg (by rintro rfl; exact hnd.1 hq), h2]
      · intro q d hd
        simp only [Live.put] at hd
        split at hd
        · rename_i hq
          subst hq
          exact ⟨⟨k, hk, hpk⟩, Option.some.inj hd⟩
        · exact h.live q d hd
      · intro j hj
        rcases h.count j hj with h1 | ⟨d, hd⟩
        · rcases List.mem_cons.mp h1 with h1 | h1
          · right; exact ⟨_, by rw [Live.put, if_pos h1]⟩
          · exact Or.inl h1
        · right
          by_cases hq : n * j = p
          · exact ⟨_, by rw [Live.put, if_pos hq]⟩
          · exact ⟨d, by simp [Live.put, hq, hd]⟩
    refine ⟨{ s with head := next }, p, m, ps, ?_, hnone, by simp, fun _ => rfl, inv'⟩
    unfold Subvector.emplace emplaceRaw
    rw [if_pos hne, hc, hr]
    simp only [ok_bind]
    have := inv'.checkIndex hk hpk
    rw [this, ok_bind]
  | nil =>
    have hc : s.head = npos := h.chain
    have hmod : s.mem.length % 2 ^ 32 = s.mem.length := Nat.mod_eq_of_lt (by omega)
    have hnone : l s.mem.length = none := by
      cases hq : l s.mem.length with
      | none => rfl
      | some c =>
        obtain ⟨⟨k, hk, hpk⟩, _⟩ := h.live _ c hq
        have := mul_bound (n := n) hk
        omega
    have hlive : ∀ q d, l q = some d → (∃ k, k < m ∧ q = n * k) ∧
        blk (s.mem ++ List.replicate n 0) q n = d := by
      intro q d hd
      obtain ⟨⟨k, hk, hqk⟩, hb⟩ := h.live q d hd
      refine ⟨⟨k, hk, hqk⟩, ?_⟩
      have := mul_bound (n := n) hk
      rw [← hb]
      apply List.ext_getElem?
      intro i
      rw [blk_get, blk_get]
      split
      · rw [List.getElem?_append_left (by omega)]
      · rfl
    have hm1 : n * (m + 1) = s.mem.length + n := by rw [Nat.mul_add, Nat.mul_one, hl]
    have inv' : Inv n { s with mem := s.mem ++ List.replicate n 0 }
        (l.put s.mem.length (some (blk (s.mem ++ List.replicate n 0) s.mem.length n))) (m + 1) [] := by
      refine ⟨h.esize, h.four, by simp [hm1], by omega, hc, by simp, by simp, ?_, ?_⟩
      · intro q d hd
        simp only [Live.put] at hd
        split at hd
        · rename_i hq
          subst hq
          exact ⟨⟨m, by omega, hl⟩, Option.some.inj hd⟩
        · obtain ⟨⟨k, hk, hqk⟩, hb⟩ := hlive q d hd
          exact ⟨⟨k, by omega, hqk⟩, hb⟩
      · intro j hj
        right
        by_cases hq : n * j = s.mem.length
        · exact ⟨_, by simp only [Live.put, hq, if_true]; rfl⟩
        · have hjm : j < m := by
            by_contra hn
            have : j = m := by omega
            subst this
            exact hq hl.symm
          rcases h.count j hjm with h1 | ⟨d, hd⟩
          · simp at h1
          · exact ⟨d, by simp [Live.put, hq, hd]⟩
    refine ⟨{ s with mem := s.mem ++ List.replicate n 0 }, s.mem.length, m + 1, [], ?_, hnone,
      fun _ => ⟨by simp, rfl⟩, by simp, inv'⟩
    unfold Subvector.emplace emplaceRaw
    rw [if_neg (by rw [hc]; simp), hmod]
    simp only [ok_bind]
    have hck := inv'.checkIndex (k := m) (by omega) hl
    have he := h.esize
    obtain ⟨mem, es, hd⟩ := s
    simp only at he hck ⊢
    subst he
    rw [hck, ok_bind]

theorem init_inv (h4 : 4 ≤ n) : Inv n ⟨[], n, npos⟩ (fun _ => none) 0 [] :=
  ⟨rfl, h4, rfl, by simp, rfl, by simp, by simp, by simp, by omega⟩

/-- Each write of a client succeeds. -/
theorem Inv.fill (h : Inv n s l m fr) {p v : Nat} {c : List Nat} (hp : l p = some c) :
    ∃ s', Subvector.fill s p v = .ok s' ∧ Inv n s' (l.put p (some (List.replicate n v))) m fr := by
  obtain ⟨⟨k, hk, hpk⟩, _⟩ := h.live p c hp
  have hb := mul_bound (n := n) hk
  have hl := h.len
  obtain ⟨mem', hw, hlen, _⟩ := splice_ok (mem := s.mem) (p := p + 0) (bs := List.replicate n v)
    (by simp; omega)
  refine ⟨_, ?_, h.write hp (by simp) hw ?_⟩
  · unfold Subvector.fill
    rw [h.esize]
    rw [Nat.add_zero] at hw
    rw [hw, ok_bind]
  · apply List.ext_getElem?
    intro i
    rw [blk_self hw]
    by_cases hi : i < n
    · simp [hi]
    · simp [hi]

theorem Inv.copy (h : Inv n s l m fr) {p q : Nat} {c d : List Nat} (hp : l p = some c)
    (hq : l q = some d) :
    ∃ s', Subvector.copy s p q = .ok s' ∧ Inv n s' (l.put q (some c)) m fr := by
  obtain ⟨⟨k, hk, hpk⟩, hc⟩ := h.live p c hp
  obtain ⟨⟨j, hj, hqj⟩, hd⟩ := h.live q d hq
  have hb := mul_bound (n := n) hk
  have hb2 := mul_bound (n := n) hj
  have hl := h.len
  have hcl : c.length = n := by rw [← hc]; exact blk_length (by omega)
  obtain ⟨mem', hw, hlen, _⟩ := splice_ok (mem := s.mem) (p := q + 0) (bs := c) (by omega)
  refine ⟨_, ?_, h.write hq (by omega) hw ?_⟩
  · unfold Subvector.copy
    rw [h.esize, if_pos (by omega), show (s.mem.drop p).take n = c from hc]
    rw [Nat.add_zero] at hw
    rw [hw, ok_bind]
  · apply List.ext_getElem?
    intro i
    rw [blk_self hw]
    by_cases hi : i < n
    · simp [hi, hcl]
    · rw [if_neg hi, List.getElem?_eq_none (by omega)]

theorem set_blk {mem mem' c : List Nat} {p i v : Nat} (hc : blk mem p n = c)
    (hl : p + n ≤ mem.length) (hi : i < n) (hw : splice mem (p + i) [v] = .ok mem') :
    blk mem' p n = c.set i v := by
  have hcl : c.length = n := by rw [← hc]; exact blk_length hl
  apply List.ext_getElem?
  intro j
  rw [blk_self hw, List.getElem?_set]
  by_cases hj : j < n
  · rw [if_pos hj]
    by_cases hij : i = j
    · subst hij
      simp [hi, hcl]
    · rw [if_neg (by simp; omega), if_neg hij, ← hc, blk_get, if_pos hj]
  · rw [if_neg hj, if_neg (by omega), List.getElem?_eq_none (by omega)]

theorem Inv.put (h : Inv n s l m fr) {p i v : Nat} {c : List Nat} (hp : l p = some c) (hi : i < n) :
    ∃ s', Subvector.put s (p + i) v = .ok s' ∧ Inv n s' (l.put p (some (c.set i v))) m fr := by
  obtain ⟨⟨k, hk, hpk⟩, hc⟩ := h.live p c hp
  have hb := mul_bound (n := n) hk
  have hl := h.len
  obtain ⟨mem', hw, _, _⟩ := splice_ok (mem := s.mem) (p := p + i) (bs := [v]) (by simp; omega)
  refine ⟨_, ?_, h.write hp (by simp; omega) hw (set_blk hc (by omega) hi hw)⟩
  unfold Subvector.put
  rw [check_of (by simp; omega), ok_bind, hw, ok_bind]

theorem Inv.invert (h : Inv n s l m fr) {p i b : Nat} {c : List Nat} (hp : l p = some c)
    (hi : c[i]? = some b) :
    ∃ s', Subvector.invert s p i = .ok s' ∧
      Inv n s' (l.put p (some (c.set i (if b = 0 then 1 else 0)))) m fr := by
  obtain ⟨⟨k, hk, hpk⟩, hc⟩ := h.live p c hp
  have hb := mul_bound (n := n) hk
  have hl := h.len
  rw [← hc, blk_get] at hi
  by_cases hin : i < n
  · rw [if_pos hin] at hi
    obtain ⟨mem', hw, _, _⟩ := splice_ok (mem := s.mem) (p := p + i)
      (bs := [if b = 0 then 1 else 0]) (by simp; omega)
    refine ⟨_, ?_, h.write hp (by simp; omega) hw (set_blk hc (by omega) hin hw)⟩
    unfold Subvector.invert
    rw [hi]
    simp only
    rw [show (if b ≠ 0 then 0 else 1) = (if b = 0 then 1 else 0) by split <;> simp_all, hw, ok_bind]
  · rw [if_neg hin] at hi; simp at hi

theorem history_inv (h : History n s l) : ∃ m fr, Inv n s l m fr := by
  induction h with
  | init h =>
    unfold Subvector.init at h
    obtain ⟨_, _, h⟩ := bind_eq_ok.mp h
    have h := Except.ok.inj h
    simp only [Prod.mk.injEq, decide_eq_true_eq] at h
    rw [← h.1]
    exact ⟨0, [], init_inv h.2⟩
  | emplace _ hs he ih =>
    obtain ⟨m, fr, ih⟩ := ih
    obtain ⟨s', p, m', fr', h1, _, _, _, h5⟩ := ih.emplace hs
    have := Except.ok.inj (h1.symm.trans he)
    simp only [Prod.mk.injEq] at this
    rw [← this.1, ← this.2]
    exact ⟨m', fr', h5⟩
  | remove _ hp he ih =>
    obtain ⟨m, fr, ih⟩ := ih
    obtain ⟨s', h1, h2⟩ := ih.remove hp
    rw [← Except.ok.inj (h1.symm.trans he)]
    exact ⟨_, _, h2⟩
  | fill _ hp he ih =>
    obtain ⟨m, fr, ih⟩ := ih
    obtain ⟨s', h1, h2⟩ := ih.fill hp
    rw [← Except.ok.inj (h1.symm.trans he)]
    exact ⟨_, _, h2⟩
  | copy _ hp hq he ih =>
    obtain ⟨m, fr, ih⟩ := ih
    obtain ⟨s', h1, h2⟩ := ih.copy hp hq
    rw [← Except.ok.inj (h1.symm.trans he)]
    exact ⟨_, _, h2⟩
  | set _ hp hi he ih =>
    obtain ⟨m, fr, ih⟩ := ih
    obtain ⟨s', h1, h2⟩ := ih.put hp hi
    rw [← Except.ok.inj (h1.symm.trans he)]
    exact ⟨_, _, h2⟩
  | invert _ hp hi he ih =>
    obtain ⟨m, fr, ih⟩ := ih
    obtain ⟨s', h1, h2⟩ := ih.invert hp hi
    rw [← Except.ok.inj (h1.symm.trans he)]
    exact ⟨_, _, h2⟩

end Bx.Subvector
