import Verif.Spec.Optimizer
import Verif.Props.Solve
import Mathlib.Data.List.Nodup

/-! # Lemmas on the population of the optimizer -/

namespace Bx.Optimizer

open Itm Merge SolverCtor Spec Bx.Spec.Optimizer

/-! ## The order -/

theorem asGood_refl (t : ObjType) (a : Rat) : AtLeastAsGood t a a := by
  cases t <;> exact le_refl a

theorem asGood_trans {t : ObjType} {a b c : Rat} (h1 : AtLeastAsGood t a b)
    (h2 : AtLeastAsGood t b c) : AtLeastAsGood t a c := by
  cases t
  · exact le_trans (show c ≤ b from h2) h1
  · exact le_trans (show a ≤ b from h1) h2

theorem asGood_total (t : ObjType) (a b : Rat) : AtLeastAsGood t a b ∨ AtLeastAsGood t b a := by
  cases t
  · exact le_total b a
  · exact le_total a b

theorem isBetter_iff {t : ObjType} {a b : Rat} :
    isBetter t a (some b) = false ↔ AtLeastAsGood t b a := by
  cases t <;> simp [isBetter, AtLeastAsGood]

theorem better_iff {t : ObjType} {a b : Entry} : better t a b = false ↔ Good t b a := by
  unfold better Good
  rcases Nat.lt_trichotomy a.remaining b.remaining with h | h | h
  · rw [if_pos h]
    simp only [Bool.true_eq_false, false_iff]
    omega
  · rw [if_neg (by omega), if_pos h, isBetter_iff]
    constructor
    · exact fun g => Or.inr ⟨h.symm, g⟩
    · rintro (g | g)
      · omega
      · exact g.2
  · rw [if_neg (by omega), if_neg (by omega)]
    simp [h]

theorem good_refl (t : ObjType) (a : Entry) : Good t a a := Or.inr ⟨rfl, asGood_refl t _⟩

theorem good_trans {t : ObjType} {a b c : Entry} (h1 : Good t a b) (h2 : Good t b c) :
    Good t a c := by
  unfold Good at *
  rcases h1 with h1 | ⟨h1, g1⟩ <;> rcases h2 with h2 | ⟨h2, g2⟩
  · exact Or.inl (by omega)
  · exact Or.inl (by omega)
  · exact Or.inl (by omega)
  · exact Or.inr ⟨by omega, asGood_trans g1 g2⟩

theorem good_total (t : ObjType) (a b : Entry) : Good t a b ∨ Good t b a := by
  unfold Good
  rcases Nat.lt_trichotomy a.remaining b.remaining with h | h | h
  · exact Or.inl (Or.inl h)
  · rcases asGood_total t a.value b.value with g | g
    · exact Or.inl (Or.inr ⟨h, g⟩)
    · exact Or.inr (Or.inr ⟨h.symm, g⟩)
  · exact Or.inr (Or.inl h)

theorem less_false {t : ObjType} {data : List Entry} {i j : Nat} {a b : Entry}
    (hi : data[i]? = some a) (hj : data[j]? = some b) :
    less t data i j = false ↔ Good t b a := by
  unfold less
  rw [hi, hj]
  exact better_iff

theorem less_strictWeak (t : ObjType) {data : List Entry} {l : List Nat}
    (h : ∀ i ∈ l, i < data.length) : StrictWeak (less t data) l := by
  have hs : ∀ i ∈ l, ∃ a, data[i]? = some a := fun i hi => ⟨_, List.getElem?_eq_getElem (h i hi)⟩
  constructor
  · intro i hi
    obtain ⟨a, ha⟩ := hs i hi
    exact (less_false ha ha).2 (good_refl t a)
  · intro i hi j hj k hk h1 h2
    obtain ⟨a, ha⟩ := hs i hi
    obtain ⟨b, hb⟩ := hs j hj
    obtain ⟨c, hc⟩ := hs k hk
    by_contra h3
    rw [Bool.not_eq_true, less_false ha hc] at h3
    rcases good_total t a b with g | g
    · have := (less_false hb hc).2 (good_trans h3 g)
      rw [this] at h2; cases h2
    · have := (less_false ha hb).2 g
      rw [this] at h1; cases h1
  · intro i hi j hj k hk h1 h2
    obtain ⟨a, ha⟩ := hs i hi
    obtain ⟨b, hb⟩ := hs j hj
    obtain ⟨c, hc⟩ := hs k hk
    rw [less_false ha hb] at h1
    rw [less_false hb hc] at h2
    exact (less_false ha hc).2 (good_trans h2 h1)

/-! ## The storage -/

/-- The population has `n` entries, each index once, from the best to the worst. -/
structure Ranked (t : ObjType) (n : Nat) (s : Storage) : Prop where
  len : s.data.length = n
  perm : s.indices.Perm (List.range n)
  sorted : s.indices.Pairwise fun i j => less t s.data j i = false

theorem Ranked.lt {t : ObjType} {n : Nat} {s : Storage} (h : Ranked t n s) {i : Nat}
    (hi : i ∈ s.indices) : i < n := List.mem_range.1 (h.perm.mem_iff.1 hi)

theorem Ranked.ilen {t : ObjType} {n : Nat} {s : Storage} (h : Ranked t n s) :
    s.indices.length = n := by rw [h.perm.length_eq, List.length_range]

/-- A position of the ranking. -/
theorem Ranked.best {t : ObjType} {n : Nat} {s : Storage} (h : Ranked t n s) {i : Nat}
    (hi : i < n) : ∃ id e, s.indices[i]? = some id ∧ s.data[id]? = some e ∧ s.best i = .ok e := by
  have hi' : i < s.indices.length := by rw [h.ilen]; exact hi
  have hm := h.lt (List.getElem_mem hi')
  have hd : s.indices[i] < s.data.length := by rw [h.len]; exact hm
  refine ⟨s.indices[i], s.data[s.indices[i]], List.getElem?_eq_getElem hi',
    List.getElem?_eq_getElem hd, ?_⟩
  simp [Storage.best, Storage.index, Storage.entry, List.getElem?_eq_getElem hi',
    List.getElem?_eq_getElem hd, bind, Except.bind]

theorem best_ok {s : Storage} {i : Nat} {e : Entry} (h : s.best i = .ok e) :
    ∃ id, s.indices[i]? = some id ∧ s.data[id]? = some e := by
  unfold Storage.best Storage.index Storage.entry at h
  cases h1 : s.indices[i]? with
  | none => rw [h1] at h; cases h
  | some id =>
    rw [h1] at h
    cases h2 : s.data[id]? with
    | none => simp only [bind, Except.bind, h2] at h; cases h
    | some e' =>
      simp only [bind, Except.bind, h2] at h
      exact ⟨id, rfl, by rw [h2]; rw [Except.ok.inj h]⟩

/-- The first is as good as any entry. -/
theorem Ranked.front_good {t : ObjType} {n : Nat} {s : Storage} (h : Ranked t n s) {f : Entry}
    (hf : s.best 0 = .ok f) {a : Entry} (ha : a ∈ s.data) : Good t f a := by
  obtain ⟨id, h1, h2⟩ := best_ok hf
  obtain ⟨j, hj⟩ := List.getElem?_of_mem ha
  have hjn : j < n := by rw [← h.len]; exact (List.getElem?_eq_some_iff.1 hj).1
  have hmem : j ∈ s.indices := h.perm.mem_iff.2 (List.mem_range.2 hjn)
  cases hl : s.indices with
  | nil => rw [hl] at hmem; cases hmem
  | cons i is =>
    rw [hl] at h1 hmem
    simp only [List.getElem?_cons_zero, Option.some.injEq] at h1
    subst h1
    rcases List.mem_cons.1 hmem with rfl | hm
    · rw [h2] at hj
      cases hj
      exact good_refl t _
    · have := h.sorted
      rw [hl] at this
      exact (less_false hj h2).1 ((List.pairwise_cons.1 this).1 j hm)

/-- Sorting. -/
theorem sort_spec {t : ObjType} {n : Nat} {s : Storage} {srt : Sorter} (hs : SortOk srt)
    (hl : s.data.length = n) (hp : s.indices.Perm (List.range n)) :
    ∃ s', s.sort t srt = .ok s' ∧ Ranked t n s' ∧ s'.data = s.data := by
  have hlt : ∀ i ∈ s.indices, i < s.data.length := fun i hi => by
    rw [hl]; exact List.mem_range.1 (hp.mem_iff.1 hi)
  obtain ⟨h1, h2⟩ := hs (less t s.data) s.indices (less_strictWeak t hlt)
  refine ⟨{ s with indices := srt (less t s.data) s.indices }, ?_, ⟨hl, h1.trans hp, h2⟩, rfl⟩
  unfold Storage.sort
  rw [if_pos]
  rw [List.all_eq_true]
  exact fun i hi => by simpa using hlt i hi

/-- The initial population. -/
theorem make_spec {g : Setting} {srt : Sorter} (hs : SortOk srt) (init : List Assign) :
    ∃ s, Storage.make g srt init = .ok s ∧ Ranked g.t init.length s ∧
      s.data = init.map fun x => ⟨x, results g.o x, g.hash x, countViolated x g.csts⟩ :=
  sort_spec hs (by simp) (List.Perm.refl _)

/-- An insertion keeps the best entry. -/
theorem insert_spec {t : ObjType} {n : Nat} {s : Storage} {c : Evict} (h : Ranked t n s)
    (hn : 5 ≤ n) (hc : EvictOk n c) (e : Entry) :
    ∃ s' f f' id, s.insert t c e = .ok s' ∧ Ranked t n s' ∧ s.best 0 = .ok f ∧ s'.best 0 = .ok f' ∧
      Good t f' f ∧ Good t f' e ∧ s'.data = s.data.set id e ∧ id < n := by
  obtain ⟨hp1, hp2, hs⟩ := hc
  obtain ⟨i0, f, g1, g2, g3⟩ := h.best (i := 0) (by omega)
  obtain ⟨id, d, k1, k2, _⟩ := h.best hp2
  have hid : id < n := h.lt (List.mem_of_getElem? k1)
  have hnd : s.indices.Nodup := h.perm.nodup_iff.2 List.nodup_range
  have hne : id ≠ i0 := by
    intro he
    subst he
    have e1 := List.getElem?_eq_some_iff.1 g1
    have e2 := List.getElem?_eq_some_iff.1 k1
    obtain ⟨b1, e1⟩ := e1
    obtain ⟨b2, e2⟩ := e2
    have := (hnd.getElem_inj_iff (hi := b1) (hj := b2)).1 (e1.trans e2.symm)
    omega
  obtain ⟨s', r1, r2, r3⟩ := sort_spec (t := t) (s := { s with data := s.data.set id e }) hs
    (by simpa using h.len) h.perm
  have hi : s.insert t c e = .ok s' := by
    unfold Storage.insert Storage.index Storage.replace
    rw [k1]
    show (do let s ← (if id < s.data.length then _ else _); Storage.sort t c.srt s) = _
    rw [if_pos (by rw [h.len]; exact hid)]
    exact r1
  obtain ⟨j0, f', q1, q2, q3⟩ := r2.best (i := 0) (by omega)
  refine ⟨s', f, f', id, hi, r2, g3, q3, ?_, ?_, r3, hid⟩
  · refine r2.front_good q3 ?_
    rw [r3]
    refine List.mem_of_getElem? (i := i0) ?_
    show (s.data.set id e)[i0]? = some f
    rw [List.getElem?_set_ne hne, g2]
  · refine r2.front_good q3 ?_
    rw [r3]
    refine List.mem_of_getElem? (i := id) ?_
    show (s.data.set id e)[id]? = some e
    rw [List.getElem?_set_self (by rw [h.len]; exact hid)]

/-- Writing a vector in an entry keeps the ranking. -/
theorem Ranked.put {t : ObjType} {n : Nat} {s : Storage} (h : Ranked t n s) {id : Nat} {a : Entry}
    (ha : s.data[id]? = some a) (y : Assign) :
    Ranked t n { s with data := s.data.set id { a with x := y } } := by
  refine ⟨by simpa using h.len, h.perm, ?_⟩
  refine h.sorted.imp_of_mem ?_
  intro i j hi hj hij
  have hb : ∀ k : Nat, (∃ e e' : Entry, s.data[k]? = some e ∧ (s.data.set id { a with x := y })[k]? = some e' ∧
      e'.value = e.value ∧ e'.remaining = e.remaining) ∨
      (s.data[k]? = none ∧ (s.data.set id { a with x := y })[k]? = none) := by
    intro k
    by_cases hk : k = id
    · subst hk
      have hlt := (List.getElem?_eq_some_iff.1 ha).1
      exact Or.inl ⟨a, _, ha, List.getElem?_set_self hlt, rfl, rfl⟩
    · rw [List.getElem?_set_ne (Ne.symm hk)]
      cases s.data[k]? with
      | none => exact Or.inr ⟨rfl, rfl⟩
      | some e => exact Or.inl ⟨e, e, rfl, rfl, rfl, rfl⟩
  have e : less t (s.data.set id { a with x := y }) j i = less t s.data j i := by
    unfold less
    rcases hb j with ⟨e1, e2, q1, q2, q3, q4⟩ | ⟨q1, q2⟩ <;>
    rcases hb i with ⟨e3, e4, p1, p2, p3, p4⟩ | ⟨p1, p2⟩ <;> rw [q1, q2, p1, p2]
    show better t e2 e4 = better t e1 e3
    unfold better
    rw [q3, q4, p3, p4]
  rw [← e] at hij
  exact hij

end Bx.Optimizer
