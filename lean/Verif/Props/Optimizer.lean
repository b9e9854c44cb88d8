import Verif.Proofs.Optimizer2
import Verif.Props.Preprocess

/-!
# C45, C47, C48: the optimizer

C45 is about the population, for any sequence of calls made one at a time.  C47 and C48 are about
`optimize` with one worker.
-/

namespace Bx.Optimizer

open Itm Merge SolverCtor Spec Bx.Spec.Optimizer

/-! ## C45 -/

theorem best_set {s : Storage} {f : Entry} (hf : s.best 0 = .ok f) {id : Nat} {a : Entry}
    (ha : s.data[id]? = some a) (y : Assign) :
    ∃ f', Storage.best { s with data := s.data.set id { a with x := y } } 0 = .ok f' ∧
      f'.remaining = f.remaining ∧ f'.value = f.value := by
  obtain ⟨i0, q1, q2⟩ := best_ok hf
  by_cases hi : id = i0
  · subst hi
    obtain rfl : a = f := Option.some.inj (ha.symm.trans q2)
    refine ⟨{ a with x := y }, ?_, rfl, rfl⟩
    unfold Storage.best Storage.index Storage.entry
    simp only [q1, bind, Except.bind, List.getElem?_set_self (List.getElem?_eq_some_iff.1 ha).1]
  · refine ⟨f, ?_, rfl, rfl⟩
    unfold Storage.best Storage.index Storage.entry
    simp only [q1, bind, Except.bind, List.getElem?_set_ne hi, q2]

/-- One call: the population stays ranked and its first entry is as good as before. -/
theorem step_spec {g : Setting} {n : Nat} {s : Storage} (h : Ranked g.t n s) (hn : 5 ≤ n)
    {o : Op} (ho : OpOk n o) {f : Entry} (hf : s.best 0 = .ok f) :
    ∃ s' f', step g s o = .ok s' ∧ Ranked g.t n s' ∧ s'.best 0 = .ok f' ∧ Good g.t f' f ∧
      AsGoodAs g.t f' o := by
  cases o with
  | update c x v =>
    show ∃ s' f', tryUpdate g c x v s = .ok s' ∧ _
    unfold tryUpdate
    by_cases hi : canUpdate s (g.hash x) v = true
    · rw [if_pos hi]
      obtain ⟨s', f1, f', id, h1, h2, h3, h4, h5, h6, _⟩ := insert_spec h hn ho
        ⟨x, v, g.hash x, 0⟩
      rw [hf] at h3
      cases h3
      refine ⟨s', f', h1, h2, h4, h5, ?_⟩
      rcases h6 with h6 | h6
      · exact absurd h6 (Nat.not_lt_zero _)
      · exact h6
    · rw [if_neg hi]
      refine ⟨s, f, rfl, h, hf, good_refl _ _, ?_⟩
      unfold canUpdate at hi
      rw [List.all_eq_true] at hi
      push Not at hi
      obtain ⟨e, he, hq⟩ := hi
      simp only [ne_eq, Bool.not_eq_true', Bool.not_eq_false, Bool.and_eq_true,
        decide_eq_true_eq] at hq
      rcases h.front_good hf he with hg | ⟨hg, hv⟩
      · omega
      · rw [hq.1.2] at hv
        exact ⟨by omega, hv⟩
  | advance c x k =>
    show ∃ s' f', tryAdvance g c x k s = .ok s' ∧ _
    unfold tryAdvance
    by_cases hi : canAdvance s (g.hash x) k = true
    · rw [if_pos hi]
      obtain ⟨s', f1, f', id, h1, h2, h3, h4, h5, h6, _⟩ := insert_spec h hn ho
        ⟨x, results g.o x, g.hash x, k⟩
      rw [hf] at h3
      cases h3
      refine ⟨s', f', h1, h2, h4, h5, ?_⟩
      rcases h6 with h6 | h6
      · exact Nat.le_of_lt h6
      · exact Nat.le_of_eq h6.1
    · rw [if_neg hi]
      refine ⟨s, f, rfl, h, hf, good_refl _ _, ?_⟩
      unfold canAdvance at hi
      rw [List.all_eq_true] at hi
      push Not at hi
      obtain ⟨e, he, hq⟩ := hi
      simp only [ne_eq, Bool.not_eq_true', Bool.not_eq_false, Bool.and_eq_true,
        decide_eq_true_eq] at hq
      rcases h.front_good hf he with hg | ⟨hg, _⟩
      · show f.remaining ≤ k; omega
      · show f.remaining ≤ k; omega
  | cross c x =>
    have hget : ∀ i, i < n → ∃ id a, s.index i = .ok id ∧ s.entry id = .ok a ∧
        s.data[id]? = some a ∧ id < s.data.length := by
      intro i hi
      obtain ⟨id, a, h1, h2, _⟩ := h.best hi
      refine ⟨id, a, ?_, ?_, h2, (List.getElem?_eq_some_iff.1 h2).1⟩
      · unfold Storage.index; rw [h1]
      · unfold Storage.entry; rw [h2]
    have hput : ∀ first y, first < n →
        ∃ s' f', (do let id ← s.index first
                     let a ← s.entry id
                     let s ← s.replace id { a with x := y }
                     Except.ok (x, s) : Outcome (Assign × Storage)) = .ok (x, s') ∧
          Ranked g.t n s' ∧ s'.best 0 = .ok f' ∧ Good g.t f' f := by
      intro first y hi
      obtain ⟨id, a, h1, h2, h3, h4⟩ := hget first hi
      obtain ⟨f', q1, q2, q3⟩ := best_set hf h3 y
      refine ⟨_, f', ?_, h.put h3 y, q1, Or.inr ⟨q2, by rw [q3]; exact asGood_refl _ _⟩⟩
      rw [h1, ok_bind, h2, ok_bind, Storage.replace, if_pos h4, ok_bind]
    cases c with
    | mix first second mask =>
      obtain ⟨id1, a1, p1, p2, _⟩ := hget first ho.1
      obtain ⟨id2, a2, q1, q2, _⟩ := hget second ho.2
      refine ⟨s, f, ?_, h, hf, good_refl _ _, trivial⟩
      simp only [step, crossover, p1, p2, q1, q2, ok_bind]
    | mixBastert first mask =>
      obtain ⟨id1, a1, p1, p2, _⟩ := hget first ho
      refine ⟨s, f, ?_, h, hf, good_refl _ _, trivial⟩
      simp only [step, crossover, p1, p2, ok_bind]
    | mixRandom first random mask =>
      obtain ⟨id1, a1, p1, p2, _⟩ := hget first ho
      refine ⟨s, f, ?_, h, hf, good_refl _ _, trivial⟩
      simp only [step, crossover, p1, p2, ok_bind]
    | putBastert first =>
      obtain ⟨s', f', h1, h2, h3, h4⟩ := hput first g.bastert ho
      refine ⟨s', f', ?_, h2, h3, h4, trivial⟩
      show (do let (_, s) ← crossover g (.putBastert first) x s; Except.ok s : Outcome Storage) = _
      rw [show crossover g (.putBastert first) x s = .ok (x, s') from h1]
      rfl
    | putRandom first random =>
      obtain ⟨s', f', h1, h2, h3, h4⟩ := hput first random ho
      refine ⟨s', f', ?_, h2, h3, h4, trivial⟩
      show (do let (_, s) ← crossover g (.putRandom first random) x s; Except.ok s :
        Outcome Storage) = _
      rw [show crossover g (.putRandom first random) x s = .ok (x, s') from h1]
      rfl

/-- The entries after a call that does not overwrite. -/
theorem step_entries {g : Setting} {s s' : Storage} {o : Op} (hp : ∀ c x, o = .cross c x → ¬ Puts c)
    (h : step g s o = .ok s') {e : Entry} (he : e ∈ s'.data) :
    e ∈ s.data ∨ (∃ c, o = .update c e.x e.value ∧ e.remaining = 0) ∨
      (∃ c, o = .advance c e.x e.remaining ∧ e.value = objective g.o e.x) := by
  have hins : ∀ c a, s.insert g.t c a = .ok s' → e ∈ s.data ∨ e = a := by
    intro c a hi
    obtain ⟨id, _, hi⟩ := bind_eq_ok.1 hi
    obtain ⟨s1, h1, hi⟩ := bind_eq_ok.1 hi
    unfold Storage.replace at h1
    unfold Storage.sort at hi
    split at h1
    · split at hi
      · rw [← Except.ok.inj hi, ← Except.ok.inj h1] at he
        exact List.mem_or_eq_of_mem_set he
      · cases hi
    · cases h1
  cases o with
  | update c x v =>
    change tryUpdate g c x v s = .ok s' at h
    unfold tryUpdate at h
    split at h
    · rcases hins _ _ h with h | h
      · exact Or.inl h
      · subst h
        exact Or.inr (Or.inl ⟨c, rfl, rfl⟩)
    · exact Or.inl (Except.ok.inj h ▸ he)
  | advance c x k =>
    change tryAdvance g c x k s = .ok s' at h
    unfold tryAdvance at h
    split at h
    · rcases hins _ _ h with h | h
      · exact Or.inl h
      · subst h
        exact Or.inr (Or.inr ⟨c, rfl, results_eq ..⟩)
    · exact Or.inl (Except.ok.inj h ▸ he)
  | cross c x =>
    obtain ⟨⟨x', s1⟩, h1, h⟩ := bind_eq_ok.1 h
    have e1 : s1 = s' := Except.ok.inj h
    subst e1
    refine Or.inl ?_
    have hc := hp c x rfl
    cases c with
    | mix first second mask =>
      obtain ⟨_, _, h1⟩ := bind_eq_ok.1 h1
      obtain ⟨_, _, h1⟩ := bind_eq_ok.1 h1
      obtain ⟨_, _, h1⟩ := bind_eq_ok.1 h1
      obtain ⟨_, _, h1⟩ := bind_eq_ok.1 h1
      rw [(Prod.mk.inj (Except.ok.inj h1)).2]
      exact he
    | mixBastert first mask =>
      obtain ⟨_, _, h1⟩ := bind_eq_ok.1 h1
      obtain ⟨_, _, h1⟩ := bind_eq_ok.1 h1
      rw [(Prod.mk.inj (Except.ok.inj h1)).2]
      exact he
    | mixRandom first random mask =>
      obtain ⟨_, _, h1⟩ := bind_eq_ok.1 h1
      obtain ⟨_, _, h1⟩ := bind_eq_ok.1 h1
      rw [(Prod.mk.inj (Except.ok.inj h1)).2]
      exact he
    | putBastert first => exact absurd trivial hc
    | putRandom first random => exact absurd trivial hc

theorem history_entries {g : Setting} : ∀ (ops : List Op) (s s' : Storage),
    (∀ c x, Op.cross c x ∈ ops → ¬ Puts c) → history g ops s = .ok s' → ∀ e ∈ s'.data,
    e ∈ s.data ∨ (∃ c, Op.update c e.x e.value ∈ ops ∧ e.remaining = 0) ∨
      (∃ c, Op.advance c e.x e.remaining ∈ ops ∧ e.value = objective g.o e.x)
  | [], s, s', _, h, e, he => Or.inl (Except.ok.inj h ▸ he)
  | o :: os, s, s', hp, h, e, he => by
    obtain ⟨s1, h1, h⟩ := bind_eq_ok.1 h
    rcases history_entries os s1 s' (fun c x hx => hp c x (List.mem_cons_of_mem _ hx)) h e he with
      h2 | ⟨c, h2, h3⟩ | ⟨c, h2, h3⟩
    · rcases step_entries (fun c x hx => hp c x (hx ▸ List.mem_cons_self ..)) h1 h2 with
        h2 | ⟨c, h2, h3⟩ | ⟨c, h2, h3⟩
      · exact Or.inl h2
      · exact Or.inr (Or.inl ⟨c, h2 ▸ List.mem_cons_self .., h3⟩)
      · exact Or.inr (Or.inr ⟨c, h2 ▸ List.mem_cons_self .., h3⟩)
    · exact Or.inr (Or.inl ⟨c, List.mem_cons_of_mem _ h2, h3⟩)
    · exact Or.inr (Or.inr ⟨c, List.mem_cons_of_mem _ h2, h3⟩)

theorem asGoodAs_of_good {t : ObjType} {a b : Entry} (h : Good t a b) {o : Op}
    (hb : AsGoodAs t b o) : AsGoodAs t a o := by
  cases o with
  | update c x v =>
    rcases h with h | ⟨h, hv⟩
    · have := hb.1; omega
    · exact ⟨h.trans hb.1, asGood_trans hv hb.2⟩
  | advance c x k =>
    have hb' : b.remaining ≤ k := hb
    show a.remaining ≤ k
    rcases h with h | ⟨h, _⟩ <;> omega
  | cross c x => trivial

theorem history_spec {g : Setting} {n : Nat} (hn : 5 ≤ n) : ∀ (ops : List Op) (s : Storage)
    (f : Entry), Ranked g.t n s → (∀ o ∈ ops, OpOk n o) → s.best 0 = .ok f →
    ∃ s' f', history g ops s = .ok s' ∧ Ranked g.t n s' ∧ s'.best 0 = .ok f' ∧ Good g.t f' f ∧
      ∀ o ∈ ops, AsGoodAs g.t f' o
  | [], s, f, h, _, hf => ⟨s, f, rfl, h, hf, good_refl _ _, by simp⟩
  | o :: os, s, f, h, ho, hf => by
    obtain ⟨s1, f1, h1, h2, h3, h4, h5⟩ := step_spec h hn (ho o (List.mem_cons_self ..)) hf
    obtain ⟨s2, f2, k1, k2, k3, k4, k5⟩ := history_spec hn os s1 f1 h2
      (fun o' ho' => ho o' (List.mem_cons_of_mem _ ho')) h3
    refine ⟨s2, f2, ?_, k2, k3, good_trans k4 h4, ?_⟩
    · rw [history, h1, ok_bind, k1]
    · intro o' ho'
      rcases List.mem_cons.1 ho' with rfl | ho'
      · exact asGoodAs_of_good k4 h5
      · exact k5 o' ho'

theorem ranking_spec {t : ObjType} {n : Nat} {s : Storage} (h : Ranked t n s) :
    (ranking s).Perm (s.data.map some) ∧
    (ranking s).Pairwise fun a b => ∃ a' b', a = some a' ∧ b = some b' ∧ Good t a' b' := by
  constructor
  · have e : (List.range n).map (fun i => s.data[i]?) = s.data.map some := by
      apply List.ext_getElem
      · simp [h.len]
      · intro i h1 h2
        simp only [List.getElem_map, List.getElem_range]
        rw [List.getElem?_eq_getElem]
    rw [← e]
    exact h.perm.map _
  · unfold ranking
    rw [List.pairwise_map]
    refine h.sorted.imp_of_mem fun {i j} hi hj hij => ?_
    have hi' : i < s.data.length := by rw [h.len]; exact h.lt hi
    have hj' : j < s.data.length := by rw [h.len]; exact h.lt hj
    refine ⟨_, _, List.getElem?_eq_getElem hi', List.getElem?_eq_getElem hj', ?_⟩
    exact (less_false (List.getElem?_eq_getElem hj') (List.getElem?_eq_getElem hi')).1 hij

theorem ranking_of_best {s : Storage} {i id : Nat} {e : Entry} (h1 : s.index i = .ok id)
    (h2 : s.entry id = .ok e) : (ranking s)[i]? = some (some e) := by
  unfold Storage.index at h1
  unfold Storage.entry at h2
  cases h : s.indices[i]? with
  | none => simp [h] at h1
  | some k =>
    simp only [h, Except.ok.injEq] at h1
    subst h1
    cases h' : s.data[k]? with
    | none => simp [h'] at h2
    | some f =>
      simp only [h', Except.ok.injEq] at h2
      subst h2
      simp [ranking, h, h']

/-- C22: the crossover of the population either leaves the population as it is and returns a vector
each variable of which is that of the first parent or of the second one, or returns the vector it was
given and writes the second one in the entry of the first parent, and nowhere else. -/
theorem C22_crossover_of_the_population (g : Setting) (c : Cross) (x y : Assign) (s s' : Storage)
    (h : crossover g c x s = .ok (y, s')) :
    ∃ a b, (ranking s)[firstOf c]? = some (some a) ∧ Mate g s b c ∧
      (¬ Puts c → s' = s ∧ ∀ i, y i = a.x i ∨ y i = b i) ∧
      (Puts c → y = x ∧ s'.indices = s.indices ∧
        ∃ id, s.indices[firstOf c]? = some id ∧ s'.data = s.data.set id { a with x := b }) := by
  have mixed : ∀ (m : Nat → Bool) (u v : Assign) (i : Nat),
      mixture m u v i = u i ∨ mixture m u v i = v i := by
    intro m u v i
    unfold mixture
    cases m i <;> simp
  have put : ∀ {first id : Nat} {a : Entry} {b : Assign} {t : Storage},
      s.index first = .ok id → s.replace id { a with x := b } = .ok t →
      t.indices = s.indices ∧ ∃ id, s.indices[first]? = some id ∧
        t.data = s.data.set id { a with x := b } := by
    intro first id a b t h1 h2
    unfold Storage.index at h1
    unfold Storage.replace at h2
    cases h : s.indices[first]? with
    | none => simp [h] at h1
    | some k =>
      simp only [h, Except.ok.injEq] at h1
      subst h1
      split at h2
      · cases h2
        exact ⟨rfl, k, rfl, rfl⟩
      · cases h2
  cases c with
  | mix first second mask =>
    obtain ⟨i1, h1, h⟩ := bind_eq_ok.1 h
    obtain ⟨i2, h2, h⟩ := bind_eq_ok.1 h
    obtain ⟨a, h3, h⟩ := bind_eq_ok.1 h
    obtain ⟨b, h4, h⟩ := bind_eq_ok.1 h
    cases h
    exact ⟨a, b.x, ranking_of_best h1 h3, ⟨b, ranking_of_best h2 h4, rfl⟩,
      fun _ => ⟨rfl, mixed _ _ _⟩, fun hp => hp.elim⟩
  | mixBastert first mask =>
    obtain ⟨i1, h1, h⟩ := bind_eq_ok.1 h
    obtain ⟨a, h3, h⟩ := bind_eq_ok.1 h
    cases h
    exact ⟨a, _, ranking_of_best h1 h3, rfl, fun _ => ⟨rfl, mixed _ _ _⟩, fun hp => hp.elim⟩
  | putBastert first =>
    obtain ⟨i1, h1, h⟩ := bind_eq_ok.1 h
    obtain ⟨a, h3, h⟩ := bind_eq_ok.1 h
    obtain ⟨t, h4, h⟩ := bind_eq_ok.1 h
    cases h
    exact ⟨a, _, ranking_of_best h1 h3, rfl, fun hp => (hp trivial).elim,
      fun _ => ⟨rfl, put h1 h4⟩⟩
  | mixRandom first r mask =>
    obtain ⟨i1, h1, h⟩ := bind_eq_ok.1 h
    obtain ⟨a, h3, h⟩ := bind_eq_ok.1 h
    cases h
    exact ⟨a, _, ranking_of_best h1 h3, rfl, fun _ => ⟨rfl, mixed _ _ _⟩, fun hp => hp.elim⟩
  | putRandom first r =>
    obtain ⟨i1, h1, h⟩ := bind_eq_ok.1 h
    obtain ⟨a, h3, h⟩ := bind_eq_ok.1 h
    obtain ⟨t, h4, h⟩ := bind_eq_ok.1 h
    cases h
    exact ⟨a, _, ranking_of_best h1 h3, rfl, fun hp => (hp trivial).elim,
      fun _ => ⟨rfl, put h1 h4⟩⟩

/-- A crossover of two entries that differ: the child takes a variable of each. -/
example (g : Setting) (x : Assign) : ∃ y s', crossover g (.mix 1 0 fun i => i == 0) x
      ⟨[0, 1], [⟨fun _ => true, 0, 0, 0⟩, ⟨fun _ => false, 1, 1, 0⟩]⟩ = .ok (y, s') ∧
    y 0 = true ∧ y 1 = false :=
  ⟨_, _, rfl, rfl, rfl⟩

/-- C45.  From any initial population of at least five vectors, after any sequence of calls made
one at a time, whatever the evicted positions and the sorts: no call fails, the ranking has each
entry once, from the best to the worst, and the first entry is at least as good as each initial
vector and as everything that was offered.  If no crossover overwrites an entry, every entry is
an initial one or was offered. -/
theorem C45_best_is_kept (g : Setting) (srt : Sorter) (hs : SortOk srt) (init : List Assign)
    (hn : 5 ≤ init.length) (ops : List Op) (ho : ∀ o ∈ ops, OpOk init.length o) :
    ∃ s f, (Storage.make g srt init >>= history g ops) = .ok s ∧ s.best 0 = .ok f ∧
      s.data.length = init.length ∧
      (ranking s).Perm (s.data.map some) ∧
      (ranking s).Pairwise (fun a b => ∃ a' b', a = some a' ∧ b = some b' ∧ Good g.t a' b') ∧
      (∀ x ∈ init, Within x g.csts →
        f.remaining = 0 ∧ AtLeastAsGood g.t f.value (objective g.o x)) ∧
      (∀ o ∈ ops, AsGoodAs g.t f o) ∧
      ((∀ c x, Op.cross c x ∈ ops → ¬ Puts c) → ∀ e ∈ s.data, Offered g init ops e) := by
  obtain ⟨s0, h1, h2, h3⟩ := make_spec (g := g) hs init
  obtain ⟨_, f0, _, _, hf0⟩ := h2.best (i := 0) (by omega)
  obtain ⟨s, f, k1, k2, k3, k4, k5⟩ := history_spec hn ops s0 f0 h2 ho hf0
  obtain ⟨r1, r2⟩ := ranking_spec k2
  refine ⟨s, f, by rw [h1, ok_bind, k1], k3, k2.len, r1, r2, fun x hx hw => ?_, k5,
    fun hp e he => ?_⟩
  swap
  · rcases history_entries ops s0 s hp k1 e he with h | h
    · rw [h3] at h
      obtain ⟨x, hx, rfl⟩ := List.mem_map.1 h
      exact Or.inl ⟨hx, results_eq .., countViolated_eq ..⟩
    · exact Or.inr h
  have hm : (⟨x, results g.o x, g.hash x, countViolated x g.csts⟩ : Entry) ∈ s0.data := by
    rw [h3]; exact List.mem_map_of_mem hx
  have hg := good_trans k4 (h2.front_good hf0 hm)
  have hz : countViolated x g.csts = 0 := countViolated_zero.2 hw
  rw [← results_eq]
  rcases hg with hg | ⟨hg, hv⟩
  · simp only [hz] at hg; omega
  · exact ⟨hg.trans hz, hv⟩

/-! ## C47 -/

variable {ρ : Type} {kind : SolverType} {upd : Slv → ρ → Nat → Assign → Outcome Assign}

theorem report_spec {st : StorageType} {pb : Problem} {m : Nat} {s : Storage} {r : Result}
    (h : report st pb m s = .ok r) : ∃ f, s.best 0 = .ok f ∧
    (r.status = .success ↔ f.remaining = 0) ∧ r.variableName = pb.names ∧
    r.affected = pb.affected ∧ r.solutions.head? = some (convert pb.values.length f) ∧
    (st = .one → r.solutions = [convert pb.values.length f]) ∧ r.remaining = f.remaining ∧
    r.variableCount = pb.values.length ∧ r.constraintCount = m := by
  obtain ⟨f, hf, h⟩ := bind_eq_ok.1 h
  have hst : ∀ sols : List Solution,
      ({ status := if f.isSolution then .success else .timeLimitReached
         variableName := pb.names
         affected := pb.affected
         solutions := sols
         remaining := f.remaining
         variableCount := pb.values.length
         constraintCount := m } : Result).status = .success ↔ f.remaining = 0 := by
    intro sols
    unfold Entry.isSolution
    by_cases hz : f.remaining = 0 <;> simp [hz]
  refine ⟨f, hf, ?_⟩
  cases st with
  | one =>
    rw [← Except.ok.inj h]
    exact ⟨hst _, rfl, rfl, rfl, fun _ => rfl, rfl, rfl, rfl⟩
  | bound =>
    obtain ⟨sols, h1, h⟩ := bind_eq_ok.1 h
    rw [← Except.ok.inj h]
    exact ⟨hst _, rfl, rfl, rfl, (fun e => by cases e), rfl, rfl, rfl⟩
  | five =>
    obtain ⟨b0, h0, h⟩ := bind_eq_ok.1 h
    obtain ⟨b1, _, h⟩ := bind_eq_ok.1 h
    obtain ⟨b2, _, h⟩ := bind_eq_ok.1 h
    obtain ⟨b3, _, h⟩ := bind_eq_ok.1 h
    obtain ⟨b4, _, h⟩ := bind_eq_ok.1 h
    have e : f = b0 := Except.ok.inj (hf.symm.trans h0)
    subst e
    rw [← Except.ok.inj h]
    exact ⟨hst _, rfl, rfl, rfl, (fun e => by cases e), rfl, rfl, rfl⟩

theorem optimizeMerged_kept {ch : Choices ρ} (hch : ChoicesOk ch) {p : Params} {st : StorageType}
    {pb : Problem} {csts : List Merged} {r : Result} {w : Worker}
    (h : optimizeMerged kind upd ch p st pb csts = .ok (r, w)) :
    Kept ⟨pb.type, pb.objective, csts, ch.bastert, ch.hash⟩ ch.init.length (Clean ch)
      (ch.init ++ w.trace) w.storage ∧ report st pb csts.length w.storage = .ok r := by
  obtain ⟨_, _, h⟩ := bind_eq_ok.1 h
  obtain ⟨s0, h0, h⟩ := bind_eq_ok.1 h
  obtain ⟨slv, hs, h⟩ := bind_eq_ok.1 h
  obtain ⟨w', hw, h⟩ := bind_eq_ok.1 h
  obtain ⟨r', hr, h⟩ := bind_eq_ok.1 h
  have e := Except.ok.inj h
  simp only [Prod.mk.injEq] at e
  obtain ⟨rfl, rfl⟩ := e
  refine ⟨?_, hr⟩
  obtain ⟨s1, h1, h2⟩ := Kept.make
    (g := ⟨pb.type, pb.objective, csts, ch.bastert, ch.hash⟩) hch.srt
    (init := ch.init) (Nat.lt_of_lt_of_le (by decide) hch.size) (Clean ch)
  have e : s1 = s0 := Except.ok.inj (h1.symm.trans h0)
  subst e
  refine calls_kept (g := ⟨pb.type, pb.objective, csts, ch.bastert, ch.hash⟩) hs hch.size
    ch.calls hch.calls id _ _ hw ?_
  show Kept _ ch.init.length (Clean ch) (ch.init ++ []) s1
  rw [List.append_nil]
  exact h2

/-- C47 and C48, part.  With one worker, whatever the storage: `optimize` succeeds exactly when
one of the vectors of the run, initial or at the end of a pass, respects every constraint.  The
value of the first solution is then the objective of one of these vectors, and it is at least as
good as the objective of all of them. -/
theorem C48_best_value_partial (ch : Choices ρ) (hch : ChoicesOk ch) (p : Params)
    (st : StorageType) (pb : Problem) (csts : List Merged) (r : Result) (w : Worker)
    (h : optimizeMerged kind upd ch p st pb csts = .ok (r, w)) :
    (r.status = .success ↔ ∃ y ∈ ch.init ++ w.trace, Within y csts) ∧
    (r.status = .success → ∃ sol x, r.solutions.head? = some sol ∧ x ∈ ch.init ++ w.trace ∧
      Within x csts ∧ sol.value = objective pb.objective x ∧
      ∀ y ∈ ch.init ++ w.trace, Within y csts →
        AtLeastAsGood pb.type sol.value (objective pb.objective y)) := by
  obtain ⟨hk, hr⟩ := optimizeMerged_kept hch h
  obtain ⟨f, h1, h2, _, _, h5, _, _⟩ := report_spec hr
  obtain ⟨id, q1, q2⟩ := best_ok h1
  have hmem := List.mem_of_getElem? q2
  constructor
  · rw [h2]
    constructor
    · intro hz
      obtain ⟨y, hy, hw, _⟩ := hk.found f hmem hz
      exact ⟨y, hy, hw⟩
    · rintro ⟨y, hy, hw⟩
      obtain ⟨f', g1, g2, _⟩ := hk.covers y hy hw
      rw [h1] at g1
      cases g1
      exact g2
  · intro hs
    obtain ⟨x, hx, hw, hv, _⟩ := hk.found f hmem (h2.1 hs)
    refine ⟨_, x, h5, hx, hw, ?_, fun y hy hwy => ?_⟩
    · show f.value = _
      rw [hv, results_eq]
    · obtain ⟨f', g1, _, g3⟩ := hk.covers y hy hwy
      rw [h1] at g1
      cases g1
      rw [results_eq] at g3
      exact g3

/-- C48, part.  With one worker, the storage `one` and `init_crossover_bastert_insertion = 0`, the
only solution is a vector of the run that respects every constraint, with its objective, and no
vector of the run that respects every constraint is better. -/
theorem C48_reported_is_best_partial (ch : Choices ρ) (hch : ChoicesOk ch) (hcl : Clean ch)
    (p : Params) (pb : Problem) (csts : List Merged) (r : Result) (w : Worker)
    (h : optimizeMerged kind upd ch p .one pb csts = .ok (r, w)) (hs : r.status = .success) :
    ∃ x ∈ ch.init ++ w.trace, Within x csts ∧
      r.solutions = [⟨(List.range pb.values.length).map fun i => if x i then 1 else 0,
        objective pb.objective x⟩] ∧
      ∀ y ∈ ch.init ++ w.trace, Within y csts →
        AtLeastAsGood pb.type (objective pb.objective x) (objective pb.objective y) := by
  obtain ⟨hk, hr⟩ := optimizeMerged_kept hch h
  obtain ⟨f, h1, h2, _, _, _, h6, _⟩ := report_spec hr
  obtain ⟨id, q1, q2⟩ := best_ok h1
  obtain ⟨x, hx, hw, hv, he⟩ := hk.found f (List.mem_of_getElem? q2) (h2.1 hs)
  refine ⟨x, hx, hw, ?_, fun y hy hwy => ?_⟩
  · rw [h6 rfl, convert, he hcl, hv, results_eq]
  · obtain ⟨f', g1, _, g3⟩ := hk.covers y hy hwy
    rw [h1] at g1
    cases g1
    rw [← results_eq, ← results_eq, ← hv]
    exact g3

/-- The shape of a successful result, with one worker, the storage `one` and nothing overwritten. -/
theorem optimizeProblem_shape {sorts : Sorts} {po : Order} {ch : Choices ρ} (hch : ChoicesOk ch)
    (hcl : Clean ch) {p : Params} {pb : Problem} {res : Result}
    (h : optimizeProblem kind upd sorts po ch p .one pb = .ok res) (hok : res.status = .success) :
    Shape sorts po pb res := by
  obtain ⟨csts, hm, h⟩ := bind_eq_ok.1 h
  split at h
  · rename_i hnil
    rw [← Except.ok.inj h]
    exact ⟨rfl, rfl, csts, hm, Or.inr ⟨hnil, rfl⟩⟩
  · rename_i hne
    rw [not_or] at hne
    obtain ⟨⟨r, w⟩, h1, h⟩ := bind_eq_ok.1 h
    have e : r = res := Except.ok.inj h
    subst e
    obtain ⟨x, _, hw, hsol, _⟩ := C48_reported_is_best_partial ch hch hcl p pb csts r w h1 hok
    obtain ⟨f, _, _, h3, h4, _⟩ := report_spec (optimizeMerged_kept hch h1).2
    exact ⟨h3, h4, csts, hm, Or.inl ⟨hne.1, hne.2, x, hw, hsol⟩⟩

/-- C47, part.  With one worker, the storage `one` and `init_crossover_bastert_insertion = 0`:
when `optimize` reports success for a problem with at least a variable and a constraint, there is
exactly one solution; it satisfies every constraint and its value is its objective. -/
theorem C47_success_is_feasible_partial (sorts : Sorts) (hs : sorts.Ok) (po : Order)
    (ch : Choices ρ) (hch : ChoicesOk ch) (hcl : Clean ch) (p : Params) (pb : Problem)
    (hi : IntSums pb) (hv : pb.values ≠ []) (hc : pb.eqs ++ pb.ges ++ pb.les ≠ []) (res : Result)
    (h : optimizeProblem kind upd sorts po ch p .one pb = .ok res) (hok : res.status = .success) :
    ∃ x : Assign, Satisfies pb.eqs pb.ges pb.les x ∧
      res.solutions = [⟨(List.range pb.values.length).map fun i => if x i then 1 else 0,
        objective pb.objective x⟩] :=
  (optimizeProblem_shape hch hcl h hok).feasible hs hi hv hc

/-- C47, part, from the raw problem: as C32, `is_valid_solution` accepts the result of `optimize`, and
the named assignment is a solution of the raw problem.  When the objective is linear,
`compute_solution` returns the reported value. -/
theorem C47_success_solves_the_raw_problem_partial (sorts : Sorts) (hs : sorts.Ok) (po : Order)
    (ch : Choices ρ) (hch : ChoicesOk ch) (hcl : Clean ch) (p : Params) (raw : RawProblem)
    (wf : WellFormedRaw raw) (h0 : raw.names ≠ [])
    (hi : ∀ c ∈ raw.eqs ++ raw.ges ++ raw.les, ∀ x,
      -2147483648 ≤ lhs x c.elems ∧ lhs x c.elems ≤ 2147483647)
    (hF : ∃ x, IsSolution raw x) (res : Result)
    (h : optimize upd sorts po true ch p .one raw = .ok res) (hok : res.status = .success) :
    ∃ s x, res.solutions = [s] ∧ Lpcore.isValidSolution raw res = .ok true ∧
      (raw.objective.qelems = [] → Lpcore.computeSolution raw res = .ok s.value) ∧
      Names raw.names (Props.pairs res s) x ∧ IsSolution raw x := by
  obtain ⟨red, hred, h⟩ := bind_eq_ok.1 h
  exact (optimizeProblem_shape hch hcl h hok).solves hs wf h0 hi hF hred hok

/-! ## Examples -/

/-- An insertion sort. -/
def insertBy (lt : Nat → Nat → Bool) (a : Nat) : List Nat → List Nat
  | [] => [a]
  | b :: l => if lt b a then b :: insertBy lt a l else a :: b :: l

/-- An insertion sort. -/
def stdSorter : Sorter := fun lt l => l.foldr (insertBy lt) []

theorem insertBy_perm (lt : Nat → Nat → Bool) (a : Nat) : ∀ l, (insertBy lt a l).Perm (a :: l)
  | [] => List.Perm.refl _
  | b :: l => by
    unfold insertBy
    split
    · exact ((insertBy_perm lt a l).cons b).trans (List.Perm.swap a b l)
    · exact List.Perm.refl _

theorem insertBy_sorted (lt : Nat → Nat → Bool) (a : Nat) : ∀ l, StrictWeak lt (a :: l) →
    l.Pairwise (fun x y => lt y x = false) →
    (insertBy lt a l).Pairwise fun x y => lt y x = false
  | [], _, _ => List.pairwise_singleton _ _
  | b :: l, hw, hl => by
    rw [List.pairwise_cons] at hl
    unfold insertBy
    split
    · rename_i hba
      rw [List.pairwise_cons]
      refine ⟨fun c hc => ?_, insertBy_sorted lt a l ⟨fun x hx => hw.irrefl x ?_,
        fun x hx y hy z hz => hw.trans x ?_ y ?_ z ?_,
        fun x hx y hy z hz => hw.incomp x ?_ y ?_ z ?_⟩ hl.2⟩
      · rcases List.mem_cons.1 ((insertBy_perm lt a l).mem_iff.1 hc) with rfl | hc
        · by_contra hab
          have := hw.trans b (by simp) c (by simp) b (by simp) hba (by simpa using hab)
          rw [hw.irrefl b (by simp)] at this
          cases this
        · exact hl.1 c hc
      all_goals
        simp only [List.mem_cons] at *
        tauto
    · rename_i hba
      have hba : lt b a = false := by simpa using hba
      rw [List.pairwise_cons, List.pairwise_cons]
      refine ⟨fun c hc => ?_, hl⟩
      rcases List.mem_cons.1 hc with rfl | hc
      · exact hba
      · exact hw.incomp c (by simp [hc]) b (by simp) a (by simp) (hl.1 c hc) hba

theorem stdSorter_ok : SortOk stdSorter := by
  intro lt l
  induction l with
  | nil => exact fun _ => ⟨List.Perm.refl _, List.Pairwise.nil⟩
  | cons a l ih =>
    intro hw
    obtain ⟨h1, h2⟩ := ih ⟨fun x hx => hw.irrefl x (List.mem_cons_of_mem _ hx),
      fun x hx y hy z hz => hw.trans x (List.mem_cons_of_mem _ hx) y (List.mem_cons_of_mem _ hy) z
        (List.mem_cons_of_mem _ hz),
      fun x hx y hy z hz => hw.incomp x (List.mem_cons_of_mem _ hx) y (List.mem_cons_of_mem _ hy) z
        (List.mem_cons_of_mem _ hz)⟩
    have e : stdSorter lt (a :: l) = insertBy lt a (stdSorter lt l) := rfl
    rw [e]
    have hp := (insertBy_perm lt a (stdSorter lt l)).trans (h1.cons a)
    have hmem : ∀ x ∈ a :: stdSorter lt l, x ∈ a :: l := fun x hx => (h1.cons a).mem_iff.1 hx
    exact ⟨hp, insertBy_sorted lt a _ ⟨fun x hx => hw.irrefl x (hmem x hx),
      fun x hx y hy z hz => hw.trans x (hmem x hx) y (hmem y hy) z (hmem z hz),
      fun x hx y hy z hz => hw.incomp x (hmem x hx) y (hmem y hy) z (hmem z hz)⟩ h2⟩

/-- A vector from its bits. -/
def vec (l : List Bool) : Assign := fun i => l.getD i false

/-- A hash of four bits. -/
def exHash (x : Assign) : Nat :=
  (if x 0 then 1 else 0) + (if x 1 then 2 else 0) + (if x 2 then 4 else 0) + if x 3 then 8 else 0

/-- A turn of the worker that evicts the position `pick`. -/
def exCall (cross : Option Cross) (pick : Nat) : Call Row where
  cross := cross
  mutate := fun x i => if i = 3 then true else x i
  pass := exRun.pass
  stopMain := fun _ => false
  stopPush := fun _ => false
  stopInner := fun _ => false
  kappaOver := fun _ => false
  evict := fun _ => ⟨pick, stdSorter⟩

/-- Five vectors that violate a constraint. -/
def exInit : List Assign :=
  [vec [], vec [true, true], vec [true, true, true], vec [false, true, true], vec []]

def exChoices (calls : List (Call Row)) : Choices Row := ⟨exInit, stdSorter, vec [], exHash, calls⟩

theorem exChoices_ok {cs : List (Option Cross × Nat)} (h : ∀ c ∈ cs, 1 ≤ c.2 ∧ c.2 < 5) :
    ChoicesOk (exChoices (cs.map fun c => exCall c.1 c.2)) := by
  refine ⟨show 5 ≤ exInit.length by decide, stdSorter_ok, ?_⟩
  intro c hc k
  obtain ⟨d, hd, rfl⟩ := List.mem_map.1 hc
  have e : (exChoices (cs.map fun c => exCall c.1 c.2)).init.length = 5 := rfl
  rw [e]
  exact ⟨(h d hd).1, (h d hd).2, stdSorter_ok⟩

/-- Two turns: a mixture of two entries, then an improvement of kappa. -/
def exTurns : List (Option Cross × Nat) := [(some (.mix 0 2 fun i => i == 1), 4), (none, 2)]

def exResult (solutions : List Solution) : Result :=
  { affected := { names := ["d", "f"], values := [0, 1] }, variableName := ["a", "b", "c", "e"],
    solutions := solutions, status := .success, remaining := 0, variableCount := 4, constraintCount := 2 }

theorem exTurns_clean : Clean (exChoices (exTurns.map fun c => exCall c.1 c.2)) := by
  intro c hc ⟨k, h1, h2⟩
  simp only [exChoices, exTurns, List.map_cons, List.map_nil, List.mem_cons, List.not_mem_nil,
    or_false] at hc
  rcases hc with rfl | rfl
  · cases h1; exact h2
  · cases h1

theorem exTurns_runs : optimize updateRow stdSorts .none true
    (exChoices (exTurns.map fun c => exCall c.1 c.2)) exParams .one Preprocess.exRaw =
    .ok (exResult [⟨[0, 0, 1, 1], 7⟩]) := by decide +kernel

/-- The hypotheses of C47 and of C48 are met: the run finds a solution although all its initial
vectors violate a constraint. -/
example : ∃ x, IsSolution Preprocess.exRaw x ∧ Lpcore.isValidSolution Preprocess.exRaw
    (exResult [⟨[0, 0, 1, 1], 7⟩]) = .ok true := by
  obtain ⟨s, x, _, h2, _, _, h5⟩ := C47_success_solves_the_raw_problem_partial (upd := updateRow)
    stdSorts stdSorts_ok .none (exChoices (exTurns.map fun c => exCall c.1 c.2)) (exChoices_ok (by decide))
    exTurns_clean exParams Preprocess.exRaw Preprocess.exRaw_wf (by decide)
    (ints_of_sums (by decide +kernel)) ⟨_, Preprocess.exRaw_solution⟩
    (exResult [⟨[0, 0, 1, 1], 7⟩]) (by exact exTurns_runs) rfl
  exact ⟨x, h5, h2⟩

/-- C47 does not hold when an entry is overwritten, which happens with the default
`init_crossover_bastert_insertion` of `0.01`: `crossover` writes the bastert vector in the best
entry without changing its value nor its number of remaining constraints.  `optimize` reports
success with a vector that violates a constraint, and with the value of another vector. -/
theorem C47_overwritten_success_is_infeasible :
    ∃ ch : Choices Row, ChoicesOk ch ∧ ∃ res,
      optimize updateRow stdSorts .none true ch exParams .one Preprocess.exRaw = .ok res ∧
      res.status = .success ∧ res.solutions = [⟨[0, 0, 0, 0], 7⟩] ∧
      Lpcore.isValidSolution Preprocess.exRaw res = .ok false ∧
      Lpcore.computeSolution Preprocess.exRaw res = .ok 8 :=
  ⟨exChoices ([(some (.mix 0 2 fun i => i == 1), 4), (some (.putBastert 0), 2)].map
      fun c => exCall c.1 c.2), exChoices_ok (by decide), exResult [⟨[0, 0, 0, 0], 7⟩],
    by decide +kernel, rfl, rfl, by decide +kernel, by decide +kernel⟩

/-- C48 does not hold with the storage `bound`: the last solution, the one that
`is_valid_solution`, `compute_solution` and the files of results use, is not a solution. -/
theorem C48_bound_uses_an_infeasible_vector :
    ∃ ch : Choices Row, ChoicesOk ch ∧ Clean ch ∧ ∃ res,
      optimize updateRow stdSorts .none true ch exParams .bound Preprocess.exRaw = .ok res ∧
      res.status = .success ∧ res.solutions = [⟨[0, 0, 1, 1], 7⟩, ⟨[1, 1, 0, 0], 13⟩] ∧
      Lpcore.isValidSolution Preprocess.exRaw res = .ok false ∧
      Lpcore.computeSolution Preprocess.exRaw res = .ok 13 :=
  ⟨exChoices (exTurns.map fun c => exCall c.1 c.2), exChoices_ok (by decide),
    exTurns_clean, exResult [⟨[0, 0, 1, 1], 7⟩, ⟨[1, 1, 0, 0], 13⟩],
    by decide +kernel, rfl, rfl, by decide +kernel, by decide +kernel⟩

theorem best_of_ranking {s : Storage} {es : List Entry} (h : ranking s = es.map some) {i : Nat}
    {e : Entry} (he : es[i]? = some e) : s.best i = .ok e := by
  have hi : (ranking s)[i]? = some (some e) := by rw [h]; simp [he]
  unfold ranking at hi
  rw [List.getElem?_map] at hi
  cases hid : s.indices[i]? with
  | none => rw [hid] at hi; simp at hi
  | some id =>
    rw [hid] at hi
    simp only [Option.map_some, Option.some.injEq] at hi
    simp [Storage.best, Storage.index, Storage.entry, hid, hi, bind, Except.bind]

theorem worstFrom_of_ranking {s : Storage} : ∀ (ids : List Nat) (es : List Entry) (last : Nat)
    (before_ : Entry), ids.map (fun i => s.data[i]?) = es.map some →
    s.best (last - 1) = .ok before_ → (∀ k e, es[k]? = some e → s.best (last + k) = .ok e) →
    (worstFrom s ids last >>= s.entry) =
      .ok ((es.find? fun e => !e.isSolution).getD (es.getLast?.getD before_))
  | [], [], last, b, _, hb, _ => by
    rw [worstFrom]; exact hb
  | [], _ :: _, _, _, h, _, _ => by simp at h
  | _ :: _, [], _, _, h, _, _ => by simp at h
  | id :: ids, e :: es, last, b, h, hb, hk => by
    simp only [List.map_cons, List.cons.injEq] at h
    have he : s.entry id = .ok e := by simp [Storage.entry, h.1]
    rw [worstFrom, he, ok_bind]
    cases hs : e.isSolution with
    | false => simp [he, hs, bind, Except.bind]
    | true =>
      have := worstFrom_of_ranking ids es (last + 1) e h.2 (hk 0 e rfl) fun k e' h' => by
        rw [show last + 1 + k = last + (k + 1) by omega]
        exact hk (k + 1) e' h'
      simp only [if_true, this, List.find?_cons, hs, Bool.not_true]
      cases es with
      | nil => rfl
      | cons a as =>
        rw [List.getLast?_cons_cons]
        cases hl : (a :: as).getLast? with
        | none => simp at hl
        | some z => rfl

/-- C48: what is reported of a population `f`, `es`..., from the best to the worst.  The storage
`one` reports the first entry.  The storage `bound` reports the first entry, then the first of the
others which is not a solution, or the last one when all of them are solutions.  The storage `five`
reports the first five. -/
theorem C48_reported_entries (pb : Problem) (m : Nat) (s : Storage) (f : Entry) (es : List Entry)
    (h : ranking s = (f :: es).map some) :
    (∀ res, report .one pb m s = .ok res → res.solutions = [convert pb.values.length f]) ∧
    (∀ res, report .bound pb m s = .ok res →
      ∃ w ∈ f :: es, res.solutions = [convert pb.values.length f, convert pb.values.length w] ∧
        ((∀ e ∈ es, e.remaining = 0) → some w = (f :: es).getLast?) ∧
        ∀ before_ e after, es = before_ ++ e :: after → (∀ a ∈ before_, a.remaining = 0) →
          e.remaining ≠ 0 → w = e) ∧
    (∀ res, report .five pb m s = .ok res → 5 ≤ (f :: es).length →
      res.solutions = ((f :: es).take 5).map (convert pb.values.length)) := by
  have hf : s.best 0 = .ok f := best_of_ranking h rfl
  refine ⟨?_, ?_, ?_⟩
  · intro res hr
    unfold report at hr
    rw [hf] at hr
    rw [← Except.ok.inj hr]
  · intro res hr
    have hw : s.worst = .ok ((es.find? fun e => !e.isSolution).getD (es.getLast?.getD f)) := by
      unfold Storage.worst
      refine worstFrom_of_ranking _ es 1 f ?_ hf ?_
      · unfold ranking at h
        cases hi : s.indices with
        | nil => rw [hi] at h; simp at h
        | cons i is => rw [hi] at h; exact (List.cons.inj h).2
      · intro k e hk
        exact best_of_ranking h (by rw [Nat.add_comm]; exact hk)
    unfold report at hr
    rw [hf, hw] at hr
    refine ⟨_, ?_, by rw [← Except.ok.inj hr], ?_, ?_⟩
    · cases hfi : es.find? fun e => !e.isSolution with
      | some e => exact List.mem_cons_of_mem _ (List.mem_of_find?_eq_some hfi)
      | none =>
        cases hl : es.getLast? with
        | none => exact List.mem_cons_self
        | some e => exact List.mem_cons_of_mem _ (List.mem_of_getLast? hl)
    · intro hall
      have hfi : (es.find? fun e => !e.isSolution) = none := by
        rw [List.find?_eq_none]
        intro e he
        simp [Entry.isSolution, hall e he]
      rw [hfi]
      cases es with
      | nil => rfl
      | cons a as =>
        rw [List.getLast?_cons_cons]
        cases hl : (a :: as).getLast? with
        | none => simp at hl
        | some z => rfl
    · intro before_ e after he hb hne
      have hfi : (es.find? fun e => !e.isSolution) = some e := by
        rw [he, List.find?_append, List.find?_eq_none.2 (by
          intro a ha; simp [Entry.isSolution, hb a ha])]
        simp [Entry.isSolution, hne]
      rw [hfi]
      rfl
  · intro res hr hlen
    match es, hlen with
    | e1 :: e2 :: e3 :: e4 :: es, _ =>
      unfold report at hr
      rw [hf, best_of_ranking h (i := 1) rfl, best_of_ranking h (i := 2) rfl,
        best_of_ranking h (i := 3) rfl, best_of_ranking h (i := 4) rfl] at hr
      rw [← Except.ok.inj hr]
      rfl

/-- Two solutions and a vector that is none: the second reported entry is the third one. -/
example : ∃ w : Entry, w.remaining = 2 ∧ ∃ res,
    report .bound { names := [], values := [] } 1 ⟨[2, 0, 1], [⟨vec [], 4, 0, 0⟩, ⟨vec [true], 5, 1, 2⟩,
      ⟨vec [false, true], 6, 2, 0⟩]⟩ = .ok res ∧ res.solutions.map (·.value) = [6, 5] :=
  ⟨⟨vec [true], 5, 1, 2⟩, rfl, _, rfl, by decide +kernel⟩

/-- Five solutions. -/
def exFive : List Assign :=
  [vec [false, true], vec [true], vec [false, false, true], vec [true, false, false, true],
   vec [false, false, true, true]]

/-- C48 does not hold with the storage `five`, even when every entry is a solution: the problem is
a maximization, the best value is `11` and the value of the last solution is `7`. -/
theorem C48_five_uses_the_worst :
    ∃ ch : Choices Row, ChoicesOk ch ∧ Clean ch ∧ ∃ res,
      optimize updateRow stdSorts .none true ch exParams .five Preprocess.exRaw = .ok res ∧
      res.status = .success ∧ res.solutions.map (·.value) = [11, 11, 10, 7, 7] ∧
      Lpcore.isValidSolution Preprocess.exRaw res = .ok true ∧
      Lpcore.computeSolution Preprocess.exRaw res = .ok 7 :=
  ⟨⟨exFive, stdSorter, vec [], exHash, []⟩,
    ⟨by decide, stdSorter_ok, fun c hc => absurd hc (List.not_mem_nil)⟩,
    fun c hc => absurd hc (List.not_mem_nil), exResult [⟨[1, 0, 0, 0], 11⟩, ⟨[1, 0, 0, 1], 11⟩,
      ⟨[0, 1, 0, 0], 10⟩, ⟨[0, 0, 1, 0], 7⟩, ⟨[0, 0, 1, 1], 7⟩],
    by decide +kernel, rfl, by decide +kernel, by decide +kernel, by decide +kernel⟩

/-- The setting of the examples of C45. -/
def exSetting : Setting := ⟨.maximize, Preprocess.exRed.objective, [], vec [], exHash⟩

/-- The hypotheses of C45 are met by a sequence of four calls; the second solution is worse than
the first and evicts another entry. -/
example : ∃ s f, (Storage.make exSetting stdSorter exInit >>= history exSetting
    [.update ⟨1, stdSorter⟩ (vec [true]) 30, .advance ⟨4, stdSorter⟩ (vec [true, true]) 1,
     .update ⟨1, stdSorter⟩ (vec [false, true]) 10, .cross (.putRandom 2 (vec [])) (vec [])]) =
    .ok s ∧ s.best 0 = .ok f ∧ f.remaining = 0 ∧ 30 ≤ f.value := by
  obtain ⟨s, f, h1, h2, _, _, _, _, h3, _⟩ := C45_best_is_kept exSetting stdSorter stdSorter_ok
    exInit (by decide)
    [.update ⟨1, stdSorter⟩ (vec [true]) 30, .advance ⟨4, stdSorter⟩ (vec [true, true]) 1,
     .update ⟨1, stdSorter⟩ (vec [false, true]) 10, .cross (.putRandom 2 (vec [])) (vec [])]
    (by
      intro o ho
      simp only [List.mem_cons, List.not_mem_nil, or_false] at ho
      rcases ho with rfl | rfl | rfl | rfl
      · exact ⟨by decide, by decide, stdSorter_ok⟩
      · exact ⟨by decide, by decide, stdSorter_ok⟩
      · exact ⟨by decide, by decide, stdSorter_ok⟩
      · exact (by decide : 2 < 5))
  have := h3 (.update ⟨1, stdSorter⟩ (vec [true]) 30) (List.mem_cons_self ..)
  exact ⟨s, f, h1, h2, this.1, this.2⟩

/-- C45 needs the five entries: in a population of four, `uniform_int_distribution(4 / 5, 3)` can
evict the best solution. -/
theorem C45_four_entries_lose_the_best :
    EvictOk 4 ⟨0, stdSorter⟩ ∧
    ((Storage.make { exSetting with t := .minimize } stdSorter (exInit.take 4) >>=
      history { exSetting with t := .minimize }
      [.update ⟨3, stdSorter⟩ (vec [true]) 1, .update ⟨0, stdSorter⟩ (vec [false, true]) 30]) >>=
      fun s => do
        let f ← s.best 0
        Except.ok (f.remaining, f.value)) = .ok (0, 8) :=
  ⟨⟨by decide, by decide, stdSorter_ok⟩, by decide +kernel⟩

end Bx.Optimizer
