import Verif.Props.Workers

/-!
# C105: the stored solutions are all different
-/

namespace Bx.Optimizer

open Itm Merge SolverCtor Spec Spec.Optimizer

/-- Two entries that differ by what the code compares: the hash, the number of remaining constraints
or, for two solutions, the value. -/
def Differ (a b : Entry) : Prop :=
  a.hash ≠ b.hash ∨ a.remaining ≠ b.remaining ∨ (a.remaining = 0 ∧ a.value ≠ b.value)

theorem Differ.symm {a b : Entry} (h : Differ a b) : Differ b a := by
  rcases h with h | h | ⟨h1, h2⟩
  · exact Or.inl (Ne.symm h)
  · exact Or.inr (Or.inl (Ne.symm h))
  · by_cases h3 : b.remaining = 0
    · exact Or.inr (Or.inr ⟨h3, Ne.symm h2⟩)
    · exact Or.inr (Or.inl (by omega))

theorem pairwise_set {α : Type} {R : α → α → Prop} (hs : ∀ a b, R a b → R b a) {e : α} :
    ∀ (l : List α) (i : Nat), l.Pairwise R → (∀ a ∈ l, R e a) → (l.set i e).Pairwise R
  | [], _, _, _ => by simp
  | b :: l, 0, h, he => by
    rw [List.pairwise_cons] at h
    rw [List.set_cons_zero, List.pairwise_cons]
    exact ⟨fun a ha => he a (List.mem_cons_of_mem _ ha), h.2⟩
  | b :: l, i + 1, h, he => by
    rw [List.pairwise_cons] at h
    rw [List.set_cons_succ, List.pairwise_cons]
    refine ⟨fun a ha => ?_, pairwise_set hs l i h.2 fun a ha => he a (List.mem_cons_of_mem _ ha)⟩
    rcases List.mem_or_eq_of_mem_set ha with ha | rfl
    · exact h.1 a ha
    · exact hs _ _ (he b (List.mem_cons_self ..))

/-- An entry is replaced by one that is compared in the same way. -/
theorem pairwise_put {l : List Entry} {i : Nat} {a : Entry} (h : l.Pairwise Differ)
    (ha : l[i]? = some a) (y : Assign) : (l.set i { a with x := y }).Pairwise Differ := by
  rw [List.pairwise_iff_getElem] at h ⊢
  have hi : i < l.length := (List.getElem?_eq_some_iff.1 ha).1
  have hia : l[i] = a := (List.getElem?_eq_some_iff.1 ha).2
  have same : ∀ (j : Nat) (hj : j < l.length),
      ((l.set i { a with x := y })[j]'(by simpa using hj)).hash = l[j].hash ∧
      ((l.set i { a with x := y })[j]'(by simpa using hj)).remaining = l[j].remaining ∧
      ((l.set i { a with x := y })[j]'(by simpa using hj)).value = l[j].value := by
    intro j hj
    rw [List.getElem_set]
    by_cases e : i = j
    · subst e
      rw [if_pos rfl, hia]
      exact ⟨rfl, rfl, rfl⟩
    · rw [if_neg e]
      exact ⟨rfl, rfl, rfl⟩
  intro j k hj hk hjk
  rw [List.length_set] at hj hk
  obtain ⟨a1, a2, a3⟩ := same j hj
  obtain ⟨b1, b2, b3⟩ := same k hk
  have := h j k hj hk hjk
  unfold Differ at this ⊢
  rw [a1, a2, a3, b1, b2, b3]
  exact this

/-- Every entry has the hash of its vector, when nothing was overwritten. -/
def Hashed (g : Setting) (s : Storage) : Prop := ∀ e ∈ s.data, e.hash = g.hash e.x

variable {g : Setting} {s s' : Storage}

theorem insert_data {t : ObjType} {c : Evict} {e : Entry} (h : s.insert t c e = .ok s') :
    ∃ id, s'.data = s.data.set id e := by
  obtain ⟨id, _, h⟩ := bind_eq_ok.1 h
  obtain ⟨s1, h1, h⟩ := bind_eq_ok.1 h
  unfold Storage.replace at h1
  split at h1
  · have e1 := Except.ok.inj h1
    unfold Storage.sort at h
    split at h
    · rw [← Except.ok.inj h, ← e1]
      exact ⟨id, rfl⟩
    · cases h
  · cases h1

theorem update_distinct {c : Evict} {x : Assign} {v : Rat} (h : s.data.Pairwise Differ)
    (hu : tryUpdate g c x v s = .ok s') : s'.data.Pairwise Differ := by
  unfold tryUpdate at hu
  split at hu
  · rename_i hi
    obtain ⟨id, e⟩ := insert_data hu
    rw [e]
    refine pairwise_set (fun _ _ => Differ.symm) _ _ h fun a ha => ?_
    unfold canUpdate at hi
    have := List.all_eq_true.1 hi a ha
    simp only [Bool.not_eq_true', Bool.and_eq_false_iff, decide_eq_false_iff_not] at this
    rcases this with (h | h) | h
    · exact Or.inr (Or.inl (Ne.symm h))
    · exact Or.inr (Or.inr ⟨rfl, Ne.symm h⟩)
    · exact Or.inl (Ne.symm h)
  · rw [← Except.ok.inj hu]; exact h

theorem advance_distinct {c : Evict} {x : Assign} {k : Nat} (h : s.data.Pairwise Differ)
    (hu : tryAdvance g c x k s = .ok s') : s'.data.Pairwise Differ := by
  unfold tryAdvance at hu
  split at hu
  · rename_i hi
    obtain ⟨id, e⟩ := insert_data hu
    rw [e]
    refine pairwise_set (fun _ _ => Differ.symm) _ _ h fun a ha => ?_
    unfold canAdvance at hi
    have := List.all_eq_true.1 hi a ha
    simp only [Bool.not_eq_true', Bool.and_eq_false_iff, decide_eq_false_iff_not] at this
    rcases this with h | h
    · exact Or.inr (Or.inl (Ne.symm h))
    · exact Or.inl (Ne.symm h)
  · rw [← Except.ok.inj hu]; exact h

theorem crossover_distinct {c : Cross} {x x' : Assign} (h : s.data.Pairwise Differ)
    (hx : crossover g c x s = .ok (x', s')) : s'.data.Pairwise Differ := by
  obtain ⟨a, b, h1, _, h2, h3⟩ := C22_crossover_of_the_population g c x x' s s' hx
  by_cases hp : Puts c
  · obtain ⟨_, _, id, hid, hd⟩ := h3 hp
    have ha : s.data[id]? = some a := by
      unfold ranking at h1
      rw [List.getElem?_map, hid] at h1
      exact Option.some.inj h1
    rw [hd]
    exact pairwise_put h ha b
  · rw [(h2 hp).1]; exact h

theorem make_distinct {srt : Sorter} {init : List Assign} (hd : (init.map g.hash).Nodup)
    (h : Storage.make g srt init = .ok s) : s.data.Pairwise Differ := by
  unfold Storage.make Storage.sort at h
  split at h
  · rw [← Except.ok.inj h]
    show (init.map _).Pairwise Differ
    rw [List.pairwise_map]
    rw [List.nodup_iff_pairwise_ne, List.pairwise_map] at hd
    exact hd.imp fun h => Or.inl h
  · cases h

theorem history_distinct : ∀ (ops : List Op) (s s' : Storage), s.data.Pairwise Differ →
    history g ops s = .ok s' → s'.data.Pairwise Differ
  | [], s, s', hd, h => Except.ok.inj h ▸ hd
  | o :: ops, s, s', hd, h => by
    obtain ⟨s1, h1, h⟩ := bind_eq_ok.1 h
    refine history_distinct ops s1 s' ?_ h
    cases o with
    | update c x v => exact update_distinct hd h1
    | advance c x k => exact advance_distinct hd h1
    | cross c x =>
      obtain ⟨⟨x', s2⟩, h2, h1⟩ := bind_eq_ok.1 h1
      exact Except.ok.inj h1 ▸ crossover_distinct hd h2

/-- C105, part.  When the initial vectors have different hashes, after any sequence of calls made
one at a time, whatever the evicted positions and the sorts, two entries of the population have
different hashes or different numbers of remaining constraints or, when both are solutions, different
values. -/
theorem C105_no_entry_twice_partial (g : Setting) (srt : Sorter) (init : List Assign)
    (hd : (init.map g.hash).Nodup) (ops : List Op) (s : Storage)
    (h : (Storage.make g srt init >>= history g ops) = .ok s) :
    s.data.Pairwise fun a b =>
      a.hash ≠ b.hash ∨ a.remaining ≠ b.remaining ∨ (a.remaining = 0 ∧ a.value ≠ b.value) := by
  obtain ⟨s0, h0, h⟩ := bind_eq_ok.1 h
  have := make_distinct hd h0
  exact history_distinct ops s0 s this h

/-! ## The run of a worker is a sequence of calls -/

theorem history_append : ∀ (ops ops' : List Op) (s s1 s2 : Storage), history g ops s = .ok s1 →
    history g ops' s1 = .ok s2 → history g (ops ++ ops') s = .ok s2
  | [], ops', s, s1, s2, h1, h2 => by
    have e : s = s1 := Except.ok.inj h1
    subst e; exact h2
  | o :: ops, ops', s, s1, s2, h1, h2 => by
    obtain ⟨s3, h3, h1⟩ := bind_eq_ok.1 h1
    exact bind_eq_ok.2 ⟨s3, h3, history_append ops ops' s3 s1 s2 h1 h2⟩

/-- A sequence of calls leads from a storage to another, with crossovers of `P`. -/
def Leads (g : Setting) (P : Cross → Prop) (s s' : Storage) : Prop :=
  ∃ ops, history g ops s = .ok s' ∧ ∀ c x, Op.cross c x ∈ ops → P c

variable {P : Cross → Prop}

theorem Leads.refl (s : Storage) : Leads g P s s := ⟨[], rfl, by simp⟩

theorem Leads.trans {s1 s2 s3 : Storage} (h : Leads g P s1 s2) (h' : Leads g P s2 s3) :
    Leads g P s1 s3 := by
  obtain ⟨a, h1, h2⟩ := h
  obtain ⟨b, h3, h4⟩ := h'
  refine ⟨a ++ b, history_append a b _ _ _ h1 h3, fun c x hc => ?_⟩
  rcases List.mem_append.1 hc with hc | hc
  · exact h2 c x hc
  · exact h4 c x hc

theorem Leads.one {o : Op} (h : step g s o = .ok s') (ho : ∀ c x, o = .cross c x → P c) :
    Leads g P s s' :=
  ⟨[o], bind_eq_ok.2 ⟨s', h, rfl⟩, fun c x hc => ho c x (List.mem_singleton.1 hc).symm⟩

variable {ρ : Type} {slv : Slv} {upd : ρ → Nat → Assign → Outcome Assign} {p : Params}

theorem update_leads {c : Call ρ} {w w' : Worker} (h : w.update g c = .ok w') :
    Leads g P w.storage w'.storage := by
  obtain ⟨s', h1, h⟩ := bind_eq_ok.1 h
  rw [← Except.ok.inj h]
  exact .one (o := .update (c.evict w.passes) w.x (results g.o w.x)) h1 (fun _ _ e => by cases e)

theorem mainLoop_leads {c : Call ρ} : ∀ (k : Nat) (w w' : Worker) (b b' : Option Nat),
    mainLoop g slv upd c k w b = .ok (w', b') → Leads g P w.storage w'.storage
  | 0, w, w', b, b', h => by
    have := Except.ok.inj h
    simp only [Prod.mk.injEq] at this
    exact this.1 ▸ .refl _
  | k + 1, w, w', b, b', h => by
    rw [mainLoop] at h
    split at h
    · have := Except.ok.inj h
      simp only [Prod.mk.injEq] at this
      exact this.1 ▸ .refl _
    · obtain ⟨⟨rem, cmp, x⟩, _, h⟩ := bind_eq_ok.1 h
      simp only at h
      split at h
      · obtain ⟨w1, hu, h⟩ := bind_eq_ok.1 h
        have := Except.ok.inj h
        simp only [Prod.mk.injEq] at this
        rw [← this.1]
        exact update_leads (w := w.pass cmp x) hu
      · split at h
        · have := Except.ok.inj h
          simp only [Prod.mk.injEq] at this
          rw [← this.1]
          exact .refl _
        · exact mainLoop_leads k (w.pass cmp x) _ _ _ h

theorem pushInner_leads {c : Call ρ} : ∀ (k : Nat) (w w' : Worker),
    pushInner g slv upd c k w = .ok w' → Leads g P w.storage w'.storage
  | 0, w, w', h => Except.ok.inj h ▸ .refl _
  | k + 1, w, w', h => by
    rw [pushInner] at h
    split at h
    · exact Except.ok.inj h ▸ .refl _
    · obtain ⟨⟨rem, cmp, x⟩, _, h⟩ := bind_eq_ok.1 h
      simp only at h
      split at h
      · exact update_leads (w := w.pass cmp x) h
      · split at h
        · rw [← Except.ok.inj h]
          exact .refl _
        · exact pushInner_leads k (w.pass cmp x) _ h

theorem pushLoop_leads {c : Call ρ} (iters : Nat) : ∀ (k : Nat) (w w' : Worker),
    pushLoop g slv upd c iters k w = .ok w' → Leads g P w.storage w'.storage
  | 0, w, w', h => Except.ok.inj h ▸ .refl _
  | k + 1, w, w', h => by
    rw [pushLoop] at h
    split at h
    · exact Except.ok.inj h ▸ .refl _
    · obtain ⟨⟨rem, cmp, x⟩, _, h⟩ := bind_eq_ok.1 h
      simp only at h
      split at h
      · obtain ⟨w1, h1, h⟩ := bind_eq_ok.1 h
        obtain ⟨w2, h2, h⟩ := bind_eq_ok.1 h
        exact (update_leads (w := w.pass cmp x) h1).trans
          ((pushInner_leads _ _ _ h2).trans (pushLoop_leads iters k _ _ h))
      · obtain ⟨w1, h1, h⟩ := bind_eq_ok.1 h
        have e := Except.ok.inj h1
        subst e
        obtain ⟨w2, h2, h⟩ := bind_eq_ok.1 h
        exact (pushInner_leads _ (w.pass cmp x) _ h2).trans (pushLoop_leads iters k _ _ h)

theorem call_leads {c : Call ρ} (hP : ∀ k, c.cross = some k → P k) {w w' : Worker}
    (h : call g slv upd p c w = .ok w') : Leads g P w.storage w'.storage := by
  obtain ⟨w1, h1, h⟩ := bind_eq_ok.1 h
  obtain ⟨cmp, _, h⟩ := bind_eq_ok.1 h
  obtain ⟨⟨w2, b⟩, h2, h⟩ := bind_eq_ok.1 h
  have hk1 : Leads g P w.storage w1.storage := by
    unfold reinit at h1
    split at h1
    · rw [← Except.ok.inj h1]
      exact .refl _
    · rename_i k hk
      obtain ⟨⟨x, s⟩, hx, h1⟩ := bind_eq_ok.1 h1
      rw [← Except.ok.inj h1]
      refine .one (o := .cross k w.x) (bind_eq_ok.2 ⟨(x, s), hx, rfl⟩) fun c' x' e => ?_
      cases e
      exact hP k hk
  have hk2 : Leads g P w1.storage w2.storage := mainLoop_leads _ { w1 with compute := cmp } _ _ _ h2
  refine hk1.trans (hk2.trans ?_)
  simp only at h
  split at h
  · exact pushLoop_leads _ _ _ _ h
  · obtain ⟨st, h3, h⟩ := bind_eq_ok.1 h
    rw [← Except.ok.inj h]
    exact .one (o := .advance (c.evict w2.passes) w2.x (b.getD intMax)) h3 (fun _ _ e => by cases e)

theorem calls_leads : ∀ (cs : List (Call ρ)), (∀ c ∈ cs, ∀ k, c.cross = some k → P k) →
    ∀ (w w' : Worker), calls g slv upd p cs w = .ok w' → Leads g P w.storage w'.storage
  | [], _, w, w', h => Except.ok.inj h ▸ .refl _
  | c :: cs, hP, w, w', h => by
    obtain ⟨w1, h1, h⟩ := bind_eq_ok.1 h
    exact (call_leads (hP c (List.mem_cons_self ..)) h1).trans
      (calls_leads cs (fun d hd => hP d (List.mem_cons_of_mem _ hd)) _ _ h)

theorem history_hashed : ∀ (ops : List Op) (s s' : Storage), Hashed g s →
    (∀ c x, Op.cross c x ∈ ops → ¬ Puts c) → history g ops s = .ok s' → Hashed g s'
  | [], s, s', hd, _, h => Except.ok.inj h ▸ hd
  | o :: ops, s, s', hd, hp, h => by
    obtain ⟨s1, h1, h⟩ := bind_eq_ok.1 h
    refine history_hashed ops s1 s' ?_ (fun c x hc => hp c x (List.mem_cons_of_mem _ hc)) h
    have ins : ∀ (c : Evict) (e : Entry), e.hash = g.hash e.x → s.insert g.t c e = .ok s1 →
        Hashed g s1 := by
      intro c e he hi
      obtain ⟨id, hid⟩ := insert_data hi
      intro a ha
      rw [hid] at ha
      rcases List.mem_or_eq_of_mem_set ha with ha | rfl
      · exact hd a ha
      · exact he
    cases o with
    | update c x v =>
      change tryUpdate g c x v s = _ at h1
      unfold tryUpdate at h1
      split at h1
      · exact ins c _ rfl h1
      · exact Except.ok.inj h1 ▸ hd
    | advance c x k =>
      change tryAdvance g c x k s = _ at h1
      unfold tryAdvance at h1
      split at h1
      · exact ins c _ rfl h1
      · exact Except.ok.inj h1 ▸ hd
    | cross c x =>
      obtain ⟨⟨x', s2⟩, h2, h1⟩ := bind_eq_ok.1 h1
      obtain ⟨_, _, _, _, h3, _⟩ := C22_crossover_of_the_population g c x x' s s2 h2
      have e : s2 = s1 := Except.ok.inj h1
      rw [← e, (h3 (hp c x (List.mem_cons_self ..))).1]
      exact hd

variable {kind : SolverType} {updf : Slv → ρ → Nat → Assign → Outcome Assign}

/-- C105, part.  With one worker, the storage `five`, `init_crossover_bastert_insertion = 0` and
initial vectors with different hashes: two of the reported solutions that are stored without remaining
constraint have different assignments.  The hash only reads the variables of the problem. -/
theorem C105_five_are_different_partial (ch : Choices ρ) (hch : ChoicesOk ch) (hcl : Clean ch)
    (p : Params) (pb : Problem) (csts : List Merged) (hd : (ch.init.map ch.hash).Nodup)
    (hh : ∀ x y : Assign, (∀ i < pb.values.length, x i = y i) → ch.hash x = ch.hash y)
    (r : Result) (w : Worker) (h : optimizeMerged kind updf ch p .five pb csts = .ok (r, w))
    (i j : Nat) (hij : i < j) (a b : Entry) (ha : w.storage.best i = .ok a)
    (hb : w.storage.best j = .ok b) (ha0 : a.remaining = 0) (hb0 : b.remaining = 0)
    (u v : Solution) (hu : r.solutions[i]? = some u) (hv : r.solutions[j]? = some v) :
    u.variables ≠ v.variables := by
  obtain ⟨hk, hr⟩ := optimizeMerged_kept hch h
  obtain ⟨_, hc, h⟩ := bind_eq_ok.1 h
  obtain ⟨s0, h0, h⟩ := bind_eq_ok.1 h
  obtain ⟨slv, hs, h⟩ := bind_eq_ok.1 h
  obtain ⟨w', hw, h⟩ := bind_eq_ok.1 h
  obtain ⟨r', hr', h⟩ := bind_eq_ok.1 h
  have e := Except.ok.inj h
  simp only [Prod.mk.injEq] at e
  obtain ⟨rfl, rfl⟩ := e
  obtain ⟨ops, ho, hp⟩ := calls_leads (P := fun k => ¬ Puts k) ch.calls
    (fun c hc k hk hp => hcl c hc ⟨k, hk, hp⟩) _ _ hw
  have hdist := history_distinct ops _ _ (make_distinct hd h0) ho
  have hhash : Hashed ⟨pb.type, pb.objective, csts, ch.bastert, ch.hash⟩ w'.storage := by
    refine history_hashed ops _ _ ?_ hp ho
    unfold Storage.make Storage.sort at h0
    split at h0
    · intro e he
      rw [← Except.ok.inj h0] at he
      obtain ⟨y, _, rfl⟩ := List.mem_map.1 he
      rfl
    · cases h0
  -- The two positions hold different entries.
  obtain ⟨ia, a1, a2⟩ := best_ok ha
  obtain ⟨ib, b1, b2⟩ := best_ok hb
  have hne : ia ≠ ib := by
    intro e
    subst e
    have hnd : w'.storage.indices.Nodup := hk.ranked.perm.nodup_iff.2 List.nodup_range
    have hi := (List.getElem?_eq_some_iff.1 a1).1
    have := (List.Nodup.getElem_inj_iff hnd (hi := hi)
      (hj := (List.getElem?_eq_some_iff.1 b1).1)).1 (by
        rw [(List.getElem?_eq_some_iff.1 a1).2, (List.getElem?_eq_some_iff.1 b1).2])
    omega
  have hdiff : Differ a b := by
    rw [List.pairwise_iff_getElem] at hdist
    obtain ⟨c1, c2⟩ := List.getElem?_eq_some_iff.1 a2
    obtain ⟨d1, d2⟩ := List.getElem?_eq_some_iff.1 b2
    rcases Nat.lt_or_gt_of_ne hne with h | h
    · rw [← c2, ← d2]; exact hdist _ _ c1 d1 h
    · rw [← c2, ← d2]; exact (hdist _ _ d1 c1 h).symm
  -- What is reported.
  have hsol : ∀ (k : Nat) (e : Entry) (t : Solution), w'.storage.best k = .ok e →
      r'.solutions[k]? = some t → t = convert pb.values.length e := by
    intro k e t he ht
    obtain ⟨f, hf, hr⟩ := bind_eq_ok.1 hr
    obtain ⟨b0, q0, hr⟩ := bind_eq_ok.1 hr
    obtain ⟨b1, q1, hr⟩ := bind_eq_ok.1 hr
    obtain ⟨b2, q2, hr⟩ := bind_eq_ok.1 hr
    obtain ⟨b3, q3, hr⟩ := bind_eq_ok.1 hr
    obtain ⟨b4, q4, hr⟩ := bind_eq_ok.1 hr
    rw [← Except.ok.inj hr] at ht
    match k, ht with
    | 0, ht => rw [← Option.some.inj ht, Except.ok.inj (q0.symm.trans he)]
    | 1, ht => rw [← Option.some.inj ht, Except.ok.inj (q1.symm.trans he)]
    | 2, ht => rw [← Option.some.inj ht, Except.ok.inj (q2.symm.trans he)]
    | 3, ht => rw [← Option.some.inj ht, Except.ok.inj (q3.symm.trans he)]
    | 4, ht => rw [← Option.some.inj ht, Except.ok.inj (q4.symm.trans he)]
    | k + 5, ht => simp at ht
  rw [hsol i a u ha hu, hsol j b v hb hv]
  intro heq
  have hsame : ∀ k < pb.values.length, a.x k = b.x k := by
    intro k hk
    have := congrArg (fun l : List Int => l[k]?) heq
    simp only [convert, List.getElem?_map, List.getElem?_range hk, Option.map_some,
      Option.some.injEq] at this
    cases h1 : a.x k <;> cases h2 : b.x k <;> simp_all
  obtain ⟨y, _, _, va, xa⟩ := hk.found a (List.mem_of_getElem? a2) ha0
  obtain ⟨z, _, _, vb, xb⟩ := hk.found b (List.mem_of_getElem? b2) hb0
  rw [← xa hcl, results_eq] at va
  rw [← xb hcl, results_eq] at vb
  rcases hdiff with h | h | ⟨_, h⟩
  · refine h ?_
    rw [hhash a (List.mem_of_getElem? a2), hhash b (List.mem_of_getElem? b2)]
    exact hh _ _ hsame
  · omega
  · refine h ?_
    rw [va, vb]
    obtain ⟨_, c1, c2⟩ := bind_eq_ok.1 hc
    have c1 := check_eq_ok.1 c1
    have c2 := check_eq_ok.1 c2
    rw [List.all_eq_true] at c1 c2
    unfold objective
    congr 1
    · congr 1
      refine congrArg List.sum (List.map_congr_left fun e he => ?_)
      rw [hsame e.var (by simpa using c1 e he)]
    · refine congrArg List.sum (List.map_congr_left fun e he => ?_)
      have := c2 e he
      simp only [Bool.and_eq_true, decide_eq_true_eq] at this
      rw [hsame e.a this.1, hsame e.b this.2]

/-! ## Examples -/

/-- Three solutions and two other vectors, with five hashes. -/
def exMixed : List Assign := exFive.take 3 ++ [vec [], vec [true, true]]

def exMixedChoices : Choices Row :=
  { exChoices (exTurns.map fun c => exCall c.1 c.2) with init := exMixed }

theorem exMixed_ok : ChoicesOk exMixedChoices :=
  ⟨show 5 ≤ exMixed.length by decide, stdSorter_ok,
    (exChoices_ok (cs := exTurns) (by decide)).calls⟩

theorem exMixed_hash (x y : Assign) (h : ∀ i < Preprocess.exRed.values.length, x i = y i) :
    exMixedChoices.hash x = exMixedChoices.hash y := by
  show exHash x = exHash y
  have e : Preprocess.exRed.values.length = 4 := by decide
  rw [e] at h
  unfold exHash
  rw [h 0 (by decide), h 1 (by decide), h 2 (by decide), h 3 (by decide)]

/-- The hypotheses of C105 are met: two turns find a fourth solution. -/
example : ∃ r w, optimizeMerged Preprocess.exRed.ptype updateRow exMixedChoices exParams .five
      Preprocess.exRed Dispatch.exMs = .ok (r, w) ∧
    r.solutions.map (·.variables) = [[1, 0, 0, 0], [1, 0, 0, 1], [0, 1, 0, 0], [0, 0, 1, 0],
      [1, 1, 0, 0]] ∧
    ∀ i j, i < j → ∀ a b, w.storage.best i = .ok a → w.storage.best j = .ok b → a.remaining = 0 →
      b.remaining = 0 → ∀ u v, r.solutions[i]? = some u → r.solutions[j]? = some v →
        u.variables ≠ v.variables := by
  have h : (optimizeMerged Preprocess.exRed.ptype updateRow exMixedChoices exParams .five
      Preprocess.exRed Dispatch.exMs).map (fun q => q.1) = .ok (exResult [⟨[1, 0, 0, 0], 11⟩,
        ⟨[1, 0, 0, 1], 11⟩, ⟨[0, 1, 0, 0], 10⟩, ⟨[0, 0, 1, 0], 7⟩, ⟨[1, 1, 0, 0], 13⟩]) := by
    decide +kernel
  cases e : optimizeMerged Preprocess.exRed.ptype updateRow exMixedChoices exParams .five
      Preprocess.exRed Dispatch.exMs with
  | error f => rw [e] at h; cases h
  | ok q =>
    obtain ⟨r, w⟩ := q
    rw [e] at h
    have hr : r = _ := Except.ok.inj h
    refine ⟨r, w, rfl, by rw [hr]; rfl, fun i j hij a b ha hb ha0 hb0 u v hu hv => ?_⟩
    exact C105_five_are_different_partial exMixedChoices exMixed_ok exTurns_clean exParams
      Preprocess.exRed Dispatch.exMs (show (exMixed.map exHash).Nodup by decide) exMixed_hash
      r w e i j hij a b ha hb ha0 hb0 u v hu hv

/-- A sequence of four calls meets the hypotheses of C105; the last one offers again the first
solution, and is refused. -/
example : ∃ s, (Storage.make exSetting stdSorter exMixed >>= history exSetting
      [.update ⟨4, stdSorter⟩ (vec [true]) 30, .advance ⟨3, stdSorter⟩ (vec [true, true, true]) 1,
       .cross (.putRandom 2 (vec [])) (vec []), .update ⟨4, stdSorter⟩ (vec [true]) 30]) = .ok s ∧
    s.data.map (fun e => (e.hash, e.remaining)) = [(7, 1), (1, 0), (1, 0), (0, 0), (3, 0)] ∧
    s.data.Pairwise fun a b =>
      a.hash ≠ b.hash ∨ a.remaining ≠ b.remaining ∨ (a.remaining = 0 ∧ a.value ≠ b.value) := by
  have h : ((Storage.make exSetting stdSorter exMixed >>= history exSetting
      [.update ⟨4, stdSorter⟩ (vec [true]) 30, .advance ⟨3, stdSorter⟩ (vec [true, true, true]) 1,
       .cross (.putRandom 2 (vec [])) (vec []), .update ⟨4, stdSorter⟩ (vec [true]) 30]).map
        fun s => s.data.map fun e => (e.hash, e.remaining)) =
      .ok [(7, 1), (1, 0), (1, 0), (0, 0), (3, 0)] := by decide +kernel
  cases e : (Storage.make exSetting stdSorter exMixed >>= history exSetting
      [.update ⟨4, stdSorter⟩ (vec [true]) 30, .advance ⟨3, stdSorter⟩ (vec [true, true, true]) 1,
       .cross (.putRandom 2 (vec [])) (vec []), .update ⟨4, stdSorter⟩ (vec [true]) 30]) with
  | error f => rw [e] at h; cases h
  | ok s =>
    rw [e] at h
    exact ⟨s, rfl, Except.ok.inj h, C105_no_entry_twice_partial exSetting stdSorter exMixed
      (show (exMixed.map exHash).Nodup by decide) _ s e⟩

/-- C105 does not hold with two workers: both test that the same solution is not in the population,
then both insert it.  The storage `five` reports it twice. -/
theorem C105_two_workers_store_it_twice :
    ∃ ch : Crew Row, CrewOk ch ∧ CrewClean ch ∧ (ch.init.map ch.hash).Nodup ∧ ∃ res,
      crewOptimize updateRow stdSorts .none true 2 8 ch exParams .five Preprocess.exRaw = .ok res ∧
      res.status = .success ∧ res.solutions.take 2 = [⟨[0, 0, 1, 1], 7⟩, ⟨[0, 0, 1, 1], 7⟩] := by
  refine ⟨{ exCrew [(none, 4)] (exSchedule 40) with
      init := [vec [], vec [true, true], vec [true, true, true], vec [false, true, true],
        vec [false, true, true, true]] },
    ⟨by decide, stdSorter_ok, fun _ => (exChoices_ok (cs := [(none, 4)]) (by decide)).calls⟩, ?_,
    show (List.map exHash [vec [], vec [true, true], vec [true, true, true],
      vec [false, true, true], vec [false, true, true, true]]).Nodup by decide,
    exResult [⟨[0, 0, 1, 1], 7⟩, ⟨[0, 0, 1, 1], 7⟩, ⟨[1, 1, 0, 0], 13⟩, ⟨[1, 1, 1, 0], 12⟩,
      ⟨[0, 1, 1, 0], 9⟩], by decide +kernel, rfl, rfl⟩
  intro _ c hc ⟨k, h1, _⟩
  obtain rfl := List.mem_singleton.1 hc
  cases h1

/-- C105 does not hold when the initial vectors are not different: they are not compared. -/
theorem C105_initial_vectors_are_not_compared :
    ∃ ch : Choices Row, ChoicesOk ch ∧ Clean ch ∧ ∃ res,
      optimize updateRow stdSorts .none true ch exParams .five Preprocess.exRaw = .ok res ∧
      res.status = .success ∧ (res.solutions.map (·.variables)).take 3 =
        [[1, 0, 0, 0], [1, 0, 0, 1], [1, 0, 0, 0]] :=
  ⟨{ exChoices [] with init := exFive.take 4 ++ [vec [true]] },
    ⟨by decide, stdSorter_ok, fun c hc => absurd hc (List.not_mem_nil)⟩,
    fun c hc => absurd hc (List.not_mem_nil), exResult [⟨[1, 0, 0, 0], 11⟩, ⟨[1, 0, 0, 1], 11⟩,
      ⟨[1, 0, 0, 0], 11⟩, ⟨[0, 1, 0, 0], 10⟩, ⟨[0, 0, 1, 0], 7⟩],
    by decide +kernel, rfl, rfl⟩

/-- C105 does not hold of a vector that was offered without a pass, when the time is up: a solution
is stored again with 2147483647 remaining constraints, and the storage `five` reports it twice. -/
theorem C105_stored_without_a_pass :
    ∃ ch : Choices Row, ChoicesOk ch ∧ Clean ch ∧ (ch.init.map ch.hash).Nodup ∧ ∃ res,
      optimize updateRow stdSorts .none true ch exParams .five Preprocess.exRaw = .ok res ∧
      res.status = .success ∧ res.solutions.map (·.variables) =
        [[1, 0, 0, 0], [1, 0, 0, 1], [0, 1, 0, 0], [0, 0, 1, 0], [1, 0, 0, 0]] := by
  refine ⟨{ exChoices [{ exCall none 4 with stopMain := fun _ => true
                                            mutate := fun _ => vec [true] }] with init := exFive },
    ⟨by decide, stdSorter_ok, fun c hc k => ?_⟩, fun c hc ⟨k, h1, _⟩ => ?_,
    show (exFive.map exHash).Nodup by decide,
    exResult [⟨[1, 0, 0, 0], 11⟩, ⟨[1, 0, 0, 1], 11⟩,
      ⟨[0, 1, 0, 0], 10⟩, ⟨[0, 0, 1, 0], 7⟩, ⟨[1, 0, 0, 0], 11⟩], by decide +kernel, rfl, rfl⟩
  · obtain rfl := List.mem_singleton.1 hc
    exact ⟨show exFive.length / 5 ≤ 4 by decide, show 4 < exFive.length by decide, stdSorter_ok⟩
  · obtain rfl := List.mem_singleton.1 hc
    cases h1

end Bx.Optimizer
