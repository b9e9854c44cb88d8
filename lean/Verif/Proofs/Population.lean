import Verif.Spec.Population
import Verif.Props.Optimizer

/-! # Lemmas on the shared population -/

namespace Bx.Population

open Itm Merge SolverCtor Spec Bx.Optimizer Bx.Spec.Optimizer Bx.Spec.Population

/-- The worker has changed an entry since the last sort. -/
def Pc.dirty : Pc → Bool
  | .writing _ _ (_ + 1) => true
  | .replaced => true
  | .sorting => true
  | _ => false

/-- The index the worker will write. -/
def Pc.target : Pc → Option Nat
  | .picked _ id => some id
  | .writing _ id _ => some id
  | _ => none

/-- What holds between two steps. -/
structure Inv (t : ObjType) (n : Nat) (s : State) : Prop where
  len : s.storage.data.length = n
  perm : s.storage.indices.Perm (List.range n)
  excl : ∀ (i j : Nat) (p q : Pc), i ≠ j → s.workers[i]? = some p → s.workers[j]? = some q →
    p.exclusive = true → q.exclusive = false ∧ q.shared = false
  target : ∀ p ∈ s.workers, ∀ id, p.target = some id → id < n
  sorted : (∀ p ∈ s.workers, p.dirty = false) →
    s.storage.indices.Pairwise fun i j => less t s.storage.data j i = false

theorem Inv.ranked {t : ObjType} {n : Nat} {s : State} (h : Inv t n s)
    (hd : ∀ p ∈ s.workers, p.dirty = false) : Ranked t n s.storage := ⟨h.len, h.perm, h.sorted hd⟩

variable {g : Setting} {n : Nat} {s : State} {t : Nat}

/-- A step that changes the place of a worker only. -/
theorem Inv.move (h : Inv g.t n s) {p q : Pc} (hp : s.workers[t]? = some p)
    (hx : q.exclusive = true → (∀ r ∈ s.workers, r.exclusive = false) ∧
      ∀ r ∈ s.workers, r.shared = false)
    (hs : q.shared = true → p.shared = true ∨ ∀ r ∈ s.workers, r.exclusive = false)
    (ht : ∀ id, q.target = some id → id < n) (hd : q.dirty = false → p.dirty = false) :
    Inv g.t n ⟨s.storage, s.workers.set t q⟩ := by
  have hlt := (List.getElem?_eq_some_iff.1 hp).1
  have hget : ∀ (i : Nat) (r : Pc), (s.workers.set t q)[i]? = some r →
      (i = t ∧ r = q) ∨ (i ≠ t ∧ s.workers[i]? = some r) := by
    intro i r hr
    by_cases hi : i = t
    · subst hi
      rw [List.getElem?_set_self hlt] at hr
      exact Or.inl ⟨rfl, (Option.some.inj hr).symm⟩
    · rw [List.getElem?_set_ne (Ne.symm hi)] at hr
      exact Or.inr ⟨hi, hr⟩
  refine ⟨h.len, h.perm, ?_, ?_, ?_⟩
  · intro i j a b hij ha hb hex
    rcases hget i a ha with ⟨rfl, rfl⟩ | ⟨hi, ha'⟩
    · rcases hget j b hb with ⟨rfl, rfl⟩ | ⟨hj, hb'⟩
      · exact absurd rfl hij
      · exact ⟨(hx hex).1 b (List.mem_of_getElem? hb'), (hx hex).2 b (List.mem_of_getElem? hb')⟩
    · rcases hget j b hb with ⟨rfl, rfl⟩ | ⟨hj, hb'⟩
      · constructor
        · by_contra hq
          have := (hx (by simpa using hq)).1 a (List.mem_of_getElem? ha')
          rw [hex] at this
          cases this
        · by_contra hq
          rcases hs (by simpa using hq) with hq | hq
          · have := (h.excl i j a p hij ha' hp hex).2
            rw [hq] at this
            cases this
          · have := hq a (List.mem_of_getElem? ha')
            rw [hex] at this
            cases this
      · exact h.excl i j a b hij ha' hb' hex
  · intro p' hp' id hid
    rcases List.mem_or_eq_of_mem_set hp' with hp' | rfl
    · exact h.target p' hp' id hid
    · exact ht id hid
  · intro hall
    apply h.sorted
    intro r hr
    obtain ⟨i, hi⟩ := List.getElem?_of_mem hr
    by_cases hit : i = t
    · subst hit
      rw [hi] at hp
      cases hp
      exact hd (hall q (List.mem_of_getElem? (List.getElem?_set_self hlt)))
    · exact hall r (List.mem_of_getElem? (i := i) (by rw [List.getElem?_set_ne (Ne.symm hit)]; exact hi))

theorem none_exclusive {ws : List Pc} (h : (!(ws.any Pc.exclusive)) = true) :
    ∀ r ∈ ws, r.exclusive = false := by
  intro r hr
  by_contra hq
  have : ws.any Pc.exclusive = true := List.any_eq_true.2 ⟨r, hr, by simpa using hq⟩
  rw [this] at h
  cases h

theorem none_shared {ws : List Pc} (h : (!(ws.any Pc.shared)) = true) :
    ∀ r ∈ ws, r.shared = false := by
  intro r hr
  by_contra hq
  have : ws.any Pc.shared = true := List.any_eq_true.2 ⟨r, hr, by simpa using hq⟩
  rw [this] at h
  cases h

/-- An entry is written: the place of the worker becomes dirty. -/
theorem Inv.write (h : Inv g.t n s) {q : Pc} (hlt : t < s.workers.length)
    (hm : Inv g.t n ⟨s.storage, s.workers.set t q⟩) (hd : q.dirty = true) (id : Nat) (a : Entry) :
    Inv g.t n ⟨{ s.storage with data := s.storage.data.set id a }, s.workers.set t q⟩ := by
  refine ⟨by simpa using h.len, h.perm, hm.excl, hm.target, fun hall => ?_⟩
  have := hall q (List.mem_of_getElem? (List.getElem?_set_self hlt))
  rw [hd] at this
  cases this

/-- A crossover on a population that may not be sorted. -/
theorem crossover_spec {st : Storage} (hl : st.data.length = n) (hp : st.indices.Perm (List.range n))
    {c : Cross} (hc : CrossOk n c) (x : Assign) :
    ∃ x' st', crossover g c x st = .ok (x', st') ∧
      (st' = st ∨ ∃ id a y, st.data[id]? = some a ∧
        st' = { st with data := st.data.set id { a with x := y } } ∧
        ((∃ i, c = .putBastert i ∧ y = g.bastert) ∨ ∃ i, c = .putRandom i y)) := by
  have hget : ∀ i, i < n → ∃ id a, st.index i = .ok id ∧ st.entry id = .ok a ∧
      st.data[id]? = some a ∧ id < st.data.length := by
    intro i hi
    have hi' : i < st.indices.length := by rw [hp.length_eq, List.length_range]; exact hi
    have hm : st.indices[i] < n := List.mem_range.1 (hp.mem_iff.1 (List.getElem_mem hi'))
    have hd : st.indices[i] < st.data.length := by rw [hl]; exact hm
    refine ⟨st.indices[i], st.data[st.indices[i]], ?_, ?_, List.getElem?_eq_getElem hd, hd⟩
    · unfold Storage.index; rw [List.getElem?_eq_getElem hi']
    · unfold Storage.entry; rw [List.getElem?_eq_getElem hd]
  have hput : ∀ first y, first < n →
      ∃ id a, st.data[id]? = some a ∧
        (do let id ← st.index first
            let a ← st.entry id
            let s ← st.replace id { a with x := y }
            Except.ok (x, s) : Outcome (Assign × Storage)) =
          .ok (x, { st with data := st.data.set id { a with x := y } }) := by
    intro first y hi
    obtain ⟨id, a, h1, h2, h3, h4⟩ := hget first hi
    refine ⟨id, a, h3, ?_⟩
    rw [h1, ok_bind, h2, ok_bind, Storage.replace, if_pos h4, ok_bind]
  cases c with
  | mix first second mask =>
    obtain ⟨id1, a1, p1, p2, _⟩ := hget first hc.1
    obtain ⟨id2, a2, q1, q2, _⟩ := hget second hc.2
    exact ⟨mixture mask a1.x a2.x, st, by simp only [crossover, p1, p2, q1, q2, ok_bind], Or.inl rfl⟩
  | mixBastert first mask =>
    obtain ⟨id1, a1, p1, p2, _⟩ := hget first hc
    exact ⟨mixture mask a1.x g.bastert, st, by simp only [crossover, p1, p2, ok_bind], Or.inl rfl⟩
  | mixRandom first random mask =>
    obtain ⟨id1, a1, p1, p2, _⟩ := hget first hc
    exact ⟨mixture mask a1.x random, st, by simp only [crossover, p1, p2, ok_bind], Or.inl rfl⟩
  | putBastert first =>
    obtain ⟨id, a, h1, h2⟩ := hput first g.bastert hc
    exact ⟨x, _, h2, Or.inr ⟨id, a, _, h1, rfl, Or.inl ⟨first, rfl, rfl⟩⟩⟩
  | putRandom first random =>
    obtain ⟨id, a, h1, h2⟩ := hput first random hc
    exact ⟨x, _, h2, Or.inr ⟨id, a, _, h1, rfl, Or.inr ⟨first, rfl⟩⟩⟩

/-- The fields of the entries, in the population and in the hands of the workers. -/
structure Fields (X : Assign → Prop) (V : Rat → Prop) (R : Nat → Prop) (s : State) : Prop where
  data : ∀ e ∈ s.storage.data, X e.x ∧ V e.value ∧ R e.remaining
  held : ∀ p ∈ s.workers, ∀ e, (p = .checked e ∨ (∃ id, p = .picked e id) ∨
    ∃ id k, p = .writing e id k) → X e.x ∧ V e.value ∧ R e.remaining

/-- What a step offers. -/
def Offers (g : Setting) (X : Assign → Prop) (V : Rat → Prop) (R : Nat → Prop) : Act → Prop
  | .update x v => X x ∧ V v ∧ R 0
  | .advance x k => X x ∧ V (objective g.o x) ∧ R k
  | .cross (.putBastert _) _ => X g.bastert
  | .cross (.putRandom _ x) _ => X x
  | _ => True

variable {X : Assign → Prop} {V : Rat → Prop} {R : Nat → Prop}

theorem Fields.move (h : Fields X V R s) {q : Pc}
    (hq : ∀ e, (q = .checked e ∨ (∃ id, q = .picked e id) ∨ ∃ id k, q = .writing e id k) →
      X e.x ∧ V e.value ∧ R e.remaining) :
    Fields X V R ⟨s.storage, s.workers.set t q⟩ := by
  refine ⟨h.data, fun p hp e he => ?_⟩
  rcases List.mem_or_eq_of_mem_set hp with hp | rfl
  · exact h.held p hp e he
  · exact hq e he

theorem Fields.write (h : Fields X V R s) {id : Nat} {a : Entry}
    (ha : X a.x ∧ V a.value ∧ R a.remaining) (is : List Nat) :
    Fields X V R ⟨⟨is, s.storage.data.set id a⟩, s.workers⟩ := by
  refine ⟨fun e he => ?_, h.held⟩
  rcases List.mem_or_eq_of_mem_set he with he | rfl
  · exact h.data e he
  · exact ha

/-- One step. -/
theorem act_inv (h : Inv g.t n s) (hf : Fields X V R s) {a : Act} (ha : ActOk n a)
    (ho : Offers g X V R a) :
    ∃ r, act g t a s = .ok r ∧ ∀ s', r = some s' →
      Inv g.t n s' ∧ Fields X V R s' ∧ s'.workers.length = s.workers.length := by
  have hblocked : ∃ r : Option State, (Except.ok none : Outcome (Option State)) = .ok r ∧
      ∀ s', r = some s' → Inv g.t n s' ∧ Fields X V R s' ∧ s'.workers.length = s.workers.length :=
    ⟨none, rfl, fun s' e => by cases e⟩
  have hmove : ∀ (p q : Pc), s.workers[t]? = some p →
      (q.exclusive = true → (∀ r ∈ s.workers, r.exclusive = false) ∧
        ∀ r ∈ s.workers, r.shared = false) →
      (q.shared = true → p.shared = true ∨ ∀ r ∈ s.workers, r.exclusive = false) →
      (∀ id, q.target = some id → id < n) → (q.dirty = false → p.dirty = false) →
      (∀ e, (q = .checked e ∨ (∃ id, q = .picked e id) ∨ ∃ id k, q = .writing e id k) →
        X e.x ∧ V e.value ∧ R e.remaining) →
      ∃ r, (Except.ok (some ⟨s.storage, s.workers.set t q⟩) : Outcome (Option State)) = .ok r ∧
        ∀ s', r = some s' → Inv g.t n s' ∧ Fields X V R s' ∧
          s'.workers.length = s.workers.length := by
    intro p q h1 h2 h3 h4 h5 h6
    refine ⟨_, rfl, fun s' e => ?_⟩
    rw [← Option.some.inj e]
    exact ⟨h.move h1 h2 h3 h4 h5, hf.move h6, by simp⟩
  unfold act
  simp only
  split
  · rename_i x v hw
    split
    · split
      · refine hmove _ _ hw (by intro e; cases e) (by intro e; cases e) (by intro id e; cases e)
          (fun _ => rfl) ?_
        rintro e (e' | ⟨id, e'⟩ | ⟨id, k, e'⟩)
        · cases e'; exact ho
        · cases e'
        · cases e'
      · refine hmove _ _ hw (by intro e; cases e) (by intro e; cases e) (by intro id e; cases e)
          (fun _ => rfl) ?_
        rintro e (e' | ⟨id, e'⟩ | ⟨id, k, e'⟩) <;> cases e'
    · exact hblocked
  · rename_i x k hw
    split
    · split
      · refine hmove _ _ hw (by intro e; cases e) (by intro e; cases e) (by intro id e; cases e)
          (fun _ => rfl) ?_
        rintro e (e' | ⟨id, e'⟩ | ⟨id, k, e'⟩)
        · cases e'
          refine ⟨ho.1, ?_, ho.2.2⟩
          show V (results g.o x)
          rw [results_eq]
          exact ho.2.1
        · cases e'
        · cases e'
      · refine hmove _ _ hw (by intro e; cases e) (by intro e; cases e) (by intro id e; cases e)
          (fun _ => rfl) ?_
        rintro e (e' | ⟨id, e'⟩ | ⟨id, k, e'⟩) <;> cases e'
    · exact hblocked
  · rename_i e position seen hw
    have hheld := hf.held _ (List.mem_of_getElem? hw) e (Or.inl rfl)
    have hpick : ∀ id, id < n → ∃ r, (Except.ok (some ⟨s.storage, s.workers.set t (.picked e id)⟩) :
        Outcome (Option State)) = .ok r ∧ ∀ s', r = some s' → Inv g.t n s' ∧ Fields X V R s' ∧
          s'.workers.length = s.workers.length := by
      intro id hid
      refine hmove _ _ hw (by intro e; cases e) (by intro e; cases e)
        (by intro id' e'; cases e'; exact hid) (fun _ => rfl) ?_
      rintro e'' (e' | ⟨id, e'⟩ | ⟨id, k, e'⟩)
      · cases e'
      · cases e'; exact hheld
      · cases e'
    split
    · have hi' : position < s.storage.indices.length := by
        rw [h.perm.length_eq, List.length_range]; exact ha.2.1
      have hix : s.storage.index position = .ok s.storage.indices[position] := by
        unfold Storage.index; rw [List.getElem?_eq_getElem hi']
      rw [hix, ok_bind]
      exact hpick _ (List.mem_range.1 (h.perm.mem_iff.1 (List.getElem_mem hi')))
    · exact hpick _ ha.2.2
  · rename_i e id hw
    have hheld := hf.held _ (List.mem_of_getElem? hw) e (Or.inr (Or.inl ⟨id, rfl⟩))
    have htg := h.target _ (List.mem_of_getElem? hw) id rfl
    split
    · rename_i hfree
      refine hmove _ _ hw (by intro e; cases e) (fun _ => Or.inr (none_exclusive hfree))
        (by intro id' e'; cases e'; exact htg) (fun _ => rfl) ?_
      rintro e'' (e' | ⟨id, e'⟩ | ⟨id, k, e'⟩)
      · cases e'
      · cases e'
      · cases e'; exact hheld
    · exact hblocked
  · rename_i e id k hw
    have hheld := hf.held _ (List.mem_of_getElem? hw) e (Or.inr (Or.inr ⟨id, k, rfl⟩))
    have htg := h.target _ (List.mem_of_getElem? hw) id rfl
    have hlt := (List.getElem?_eq_some_iff.1 hw).1
    have hid : id < s.storage.data.length := by rw [h.len]; exact htg
    have hent : s.storage.entry id = .ok s.storage.data[id] := by
      unfold Storage.entry; rw [List.getElem?_eq_getElem hid]
    have hold := hf.data _ (List.getElem_mem hid)
    have hnew : X (writeField e k s.storage.data[id]).x ∧ V (writeField e k s.storage.data[id]).value ∧
        R (writeField e k s.storage.data[id]).remaining := by
      unfold writeField
      split
      · exact ⟨hheld.1, hold.2⟩
      · exact ⟨hold.1, hheld.2.1, hold.2.2⟩
      · exact hold
      · exact ⟨hold.1, hold.2.1, hheld.2.2⟩
    rw [hent, ok_bind, Storage.replace, if_pos hid, ok_bind]
    refine ⟨_, rfl, fun s' es => ?_⟩
    rw [← Option.some.inj es]
    have hq : Inv g.t n ⟨s.storage, s.workers.set t (if k < 3 then .writing e id (k + 1) else .replaced)⟩ := by
      refine h.move hw ?_ ?_ ?_ ?_
      · intro hx; split at hx <;> cases hx
      · exact fun _ => Or.inl rfl
      · intro id' hid'; split at hid'
        · cases hid'; exact htg
        · cases hid'
      · intro hd; split at hd <;> cases hd
    refine ⟨h.write hlt hq (by split <;> rfl) id _, ?_, by simp⟩
    refine Fields.move (s := ⟨⟨s.storage.indices, s.storage.data.set id _⟩, s.workers⟩)
      (hf.write hnew _) ?_
    rintro e'' (e' | ⟨id', e'⟩ | ⟨id', k', e'⟩)
    · split at e' <;> cases e'
    · split at e' <;> cases e'
    · split at e'
      · cases e'; exact hheld
      · cases e'
  · rename_i hw
    split
    · rename_i hfree
      rw [Bool.and_eq_true] at hfree
      refine hmove _ _ hw (fun _ => ⟨none_exclusive hfree.1, none_shared hfree.2⟩)
        (by intro e; cases e) (by intro id e; cases e) (by intro e; cases e) ?_
      rintro e (e' | ⟨id, e'⟩ | ⟨id, k, e'⟩) <;> cases e'
    · exact hblocked
  · rename_i srt hw
    have hlt := (List.getElem?_eq_some_iff.1 hw).1
    obtain ⟨st, h1, h2, h3⟩ := sort_spec (t := g.t) (s := s.storage) ha h.len h.perm
    rw [h1, ok_bind]
    refine ⟨_, rfl, fun s' es => ?_⟩
    rw [← Option.some.inj es]
    have hget : ∀ (i : Nat) (r : Pc), (s.workers.set t .idle)[i]? = some r →
        (i = t ∧ r = .idle) ∨ (i ≠ t ∧ s.workers[i]? = some r) := by
      intro i r hr
      by_cases hi : i = t
      · subst hi
        rw [List.getElem?_set_self hlt] at hr
        exact Or.inl ⟨rfl, (Option.some.inj hr).symm⟩
      · rw [List.getElem?_set_ne (Ne.symm hi)] at hr
        exact Or.inr ⟨hi, hr⟩
    refine ⟨⟨h2.len, h2.perm, ?_, ?_, fun _ => h2.sorted⟩, ⟨?_, ?_⟩, by simp⟩
    · intro i j a b hij hai hbj hex
      rcases hget i a hai with ⟨rfl, rfl⟩ | ⟨hi, hai⟩
      · cases hex
      · rcases hget j b hbj with ⟨rfl, rfl⟩ | ⟨hj, hbj⟩
        · exact ⟨rfl, rfl⟩
        · exact h.excl i j a b hij hai hbj hex
    · intro p hp id hid
      rcases List.mem_or_eq_of_mem_set hp with hp | rfl
      · exact h.target p hp id hid
      · cases hid
    · intro e he
      rw [h3] at he
      exact hf.data e he
    · intro p hp e he
      rcases List.mem_or_eq_of_mem_set hp with hp | rfl
      · exact hf.held p hp e he
      · rcases he with e' | ⟨id, e'⟩ | ⟨id, k, e'⟩ <;> cases e'
  · rename_i c x hw
    split
    · obtain ⟨x', st, h1, h2⟩ := crossover_spec (g := g) h.len h.perm (show CrossOk n c from ha) x
      rw [h1, ok_bind]
      have hm := hmove _ .idle hw (by intro e; cases e) (by intro e; cases e)
        (by intro id e; cases e) (fun _ => rfl)
        (by rintro e (e' | ⟨id, e'⟩ | ⟨id, k, e'⟩) <;> cases e')
      rcases h2 with rfl | ⟨id, a, y, q1, q2, q3⟩
      · exact hm
      · obtain ⟨r, hr1, hr2⟩ := hm
        obtain ⟨m1, m2, m3⟩ := hr2 _ (Except.ok.inj hr1).symm
        refine ⟨_, rfl, fun s' es => ?_⟩
        rw [← Option.some.inj es, q2]
        have hX : X y := by
          rcases q3 with ⟨i, rfl, rfl⟩ | ⟨i, rfl⟩
          · exact ho
          · exact ho
        have hav := hf.data a (List.mem_of_getElem? q1)
        refine ⟨⟨by simpa using h.len, h.perm, m1.excl, m1.target, fun hall => ?_⟩, ?_, by simp⟩
        · exact (Ranked.put (t := g.t) (n := n) (s := s.storage) ⟨h.len, h.perm, m1.sorted hall⟩
            q1 y).sorted
        · exact Fields.write (s := ⟨s.storage, s.workers.set t .idle⟩) (a := { a with x := y }) m2
            ⟨hX, hav.2⟩ _
    · exact hblocked
  · exact hblocked

theorem schedule_inv : ∀ (acts : List (Nat × Act)) (s : State), Inv g.t n s → Fields X V R s →
    (∀ a ∈ acts, ActOk n a.2 ∧ Offers g X V R a.2) →
    ∃ r, schedule g acts s = .ok r ∧ ∀ s', r = some s' →
      Inv g.t n s' ∧ Fields X V R s' ∧ s'.workers.length = s.workers.length
  | [], s, h, hf, _ => ⟨_, rfl, fun s' e => by rw [← Option.some.inj e]; exact ⟨h, hf, rfl⟩⟩
  | (t, a) :: as, s, h, hf, ha => by
    obtain ⟨h1, h2⟩ := ha (t, a) (List.mem_cons_self ..)
    obtain ⟨r, k1, k2⟩ := act_inv (t := t) h hf h1 h2
    unfold schedule
    rw [k1, ok_bind]
    cases r with
    | none => exact ⟨none, rfl, fun s' e => by cases e⟩
    | some s1 =>
      obtain ⟨q1, q2, q3⟩ := k2 s1 rfl
      obtain ⟨r, m1, m2⟩ := schedule_inv as s1 q1 q2 fun b hb => ha b (List.mem_cons_of_mem _ hb)
      exact ⟨r, m1, fun s' e => by
        obtain ⟨p1, p2, p3⟩ := m2 s' e
        exact ⟨p1, p2, p3.trans q3⟩⟩

end Bx.Population
