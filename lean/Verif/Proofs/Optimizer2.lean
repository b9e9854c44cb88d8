import Verif.Proofs.Optimizer

/-! # The worker of the optimizer -/

namespace Bx.Optimizer

open Itm Merge SolverCtor Spec Bx.Spec.Optimizer

theorem foldl_lhs (x : Assign) : ∀ (es : List FunElem) (a : Int),
    es.foldl (fun s e => if x e.var then s + e.factor else s) a = a + lhs x es
  | [], a => by simp [lhs]
  | e :: es, a => by
    rw [List.foldl_cons, foldl_lhs x es]
    by_cases h : x e.var <;> simp [lhs, h] ; omega

theorem countViolated_eq (x : Assign) : ∀ csts : List Merged,
    countViolated x csts = unsatisfied x csts
  | [] => rfl
  | c :: cs => by
    have ih := countViolated_eq x cs
    unfold unsatisfied at *
    simp only [countViolated, foldl_lhs, Int.zero_add, List.filter_cons, ih]
    by_cases h : c.min ≤ lhs x c.elems ∧ lhs x c.elems ≤ c.max
    · simp [h]
    · simp [h]; omega

theorem countViolated_zero {x : Assign} : ∀ {csts : List Merged},
    countViolated x csts = 0 ↔ Within x csts
  | [] => by simp [countViolated, Within]
  | c :: cs => by
    have ih := countViolated_zero (x := x) (csts := cs)
    unfold Within at *
    simp only [countViolated, foldl_lhs, Int.zero_add, List.forall_mem_cons, ← ih]
    by_cases h : c.min ≤ lhs x c.elems ∧ lhs x c.elems ≤ c.max
    · simp [h]
    · simp [h]

/-- What holds of a worker: the population is ranked, its first entry is as good as the
solutions among the `seen` vectors, and an entry without remaining constraint has the value of one
of them, and its vector if nothing was overwritten. -/
structure Kept (g : Setting) (n : Nat) (clean : Prop) (seen : List Assign) (s : Storage) :
    Prop where
  ranked : Ranked g.t n s
  covers : ∀ y ∈ seen, Within y g.csts → ∃ f, s.best 0 = .ok f ∧ f.remaining = 0 ∧
    AtLeastAsGood g.t f.value (results g.o y)
  found : ∀ e ∈ s.data, e.remaining = 0 → ∃ y ∈ seen, Within y g.csts ∧
    e.value = results g.o y ∧ (clean → e.x = y)

variable {g : Setting} {n : Nat} {clean : Prop} {seen : List Assign} {s : Storage}

theorem Kept.make {srt : Sorter} (hs : SortOk srt) {init : List Assign} (hn : 0 < init.length)
    (clean : Prop) :
    ∃ s, Storage.make g srt init = .ok s ∧ Kept g init.length clean init s := by
  obtain ⟨s, h1, h2, h3⟩ := make_spec (g := g) hs init
  refine ⟨s, h1, h2, fun y hy hw => ?_, fun e he hr => ?_⟩
  · obtain ⟨_, f, _, _, hf⟩ := h2.best hn
    have hm : (⟨y, results g.o y, g.hash y, countViolated y g.csts⟩ : Entry) ∈ s.data := by
      rw [h3]; exact List.mem_map_of_mem hy
    have hg := h2.front_good hf hm
    have hz : countViolated y g.csts = 0 := countViolated_zero.2 hw
    rcases hg with hg | ⟨hg, hv⟩
    · simp only [hz] at hg; omega
    · exact ⟨f, hf, by rw [hg]; exact hz, hv⟩
  · rw [h3] at he
    obtain ⟨y, hy, rfl⟩ := List.mem_map.1 he
    exact ⟨y, hy, countViolated_zero.1 hr, rfl, fun _ => rfl⟩

/-- More vectors that are not solutions. -/
theorem Kept.skip (h : Kept g n clean seen s) {x : Assign} (hx : ¬ Within x g.csts) :
    Kept g n clean (seen ++ [x]) s := by
  refine ⟨h.ranked, fun y hy hw => ?_, fun e he hr => ?_⟩
  · rcases List.mem_append.1 hy with hy | hy
    · exact h.covers y hy hw
    · rw [List.mem_singleton] at hy
      exact absurd (hy ▸ hw) hx
  · obtain ⟨y, hy, rest⟩ := h.found e he hr
    exact ⟨y, List.mem_append_left _ hy, rest⟩

/-- A solution. -/
theorem Kept.update (h : Kept g n clean seen s) (hn : 5 ≤ n) {c : Evict} (hc : EvictOk n c)
    {x : Assign} (hx : Within x g.csts) :
    ∃ s', tryUpdate g c x (results g.o x) s = .ok s' ∧ Kept g n clean (seen ++ [x]) s' := by
  unfold tryUpdate
  by_cases hi : canUpdate s (g.hash x) (results g.o x) = true
  · rw [if_pos hi]
    obtain ⟨s', f, f', id, h1, h2, h3, h4, h5, h6, h7, h8⟩ := insert_spec h.ranked hn hc
      ⟨x, results g.o x, g.hash x, 0⟩
    refine ⟨s', h1, h2, fun y hy hw => ?_, fun e he hr => ?_⟩
    · rcases List.mem_append.1 hy with hy | hy
      · obtain ⟨k, k1, k2, k3⟩ := h.covers y hy hw
        rw [h3] at k1
        cases k1
        rcases h5 with h5 | ⟨h5, h5'⟩
        · omega
        · exact ⟨f', h4, by omega, asGood_trans h5' k3⟩
      · rw [List.mem_singleton] at hy
        subst hy
        rcases h6 with h6 | ⟨h6, h6'⟩
        · simp at h6
        · exact ⟨f', h4, h6, h6'⟩
    · rw [h7] at he
      rcases List.mem_or_eq_of_mem_set he with he | rfl
      · obtain ⟨y, hy, rest⟩ := h.found e he hr
        exact ⟨y, List.mem_append_left _ hy, rest⟩
      · exact ⟨x, by simp, hx, rfl, fun _ => rfl⟩
  · rw [if_neg hi]
    refine ⟨s, rfl, h.ranked, fun y hy hw => ?_, fun e he hr => ?_⟩
    · rcases List.mem_append.1 hy with hy | hy
      · exact h.covers y hy hw
      · rw [List.mem_singleton] at hy
        subst hy
        unfold canUpdate at hi
        rw [List.all_eq_true] at hi
        push Not at hi
        obtain ⟨e, he, hq⟩ := hi
        simp only [ne_eq, Bool.not_eq_true', Bool.not_eq_false, Bool.and_eq_true,
          decide_eq_true_eq] at hq
        obtain ⟨_, f, _, _, hf⟩ := h.ranked.best (i := 0) (by omega)
        rcases h.ranked.front_good hf he with hg | ⟨hg, hv⟩
        · omega
        · rw [hq.1.2] at hv
          exact ⟨f, hf, by omega, hv⟩
    · obtain ⟨y, hy, rest⟩ := h.found e he hr
      exact ⟨y, List.mem_append_left _ hy, rest⟩

/-- A vector that is not a solution. -/
theorem Kept.advance (h : Kept g n clean seen s) (hn : 5 ≤ n) {c : Evict} (hc : EvictOk n c)
    (x : Assign) {k : Nat} (hk : k ≠ 0) :
    ∃ s', tryAdvance g c x k s = .ok s' ∧ Kept g n clean seen s' := by
  unfold tryAdvance
  by_cases hi : canAdvance s (g.hash x) k = true
  · rw [if_pos hi]
    obtain ⟨s', f, f', id, h1, h2, h3, h4, h5, h6, h7, h8⟩ := insert_spec h.ranked hn hc
      ⟨x, results g.o x, g.hash x, k⟩
    refine ⟨s', h1, h2, fun y hy hw => ?_, fun e he hr => ?_⟩
    · obtain ⟨k, k1, k2, k3⟩ := h.covers y hy hw
      rw [h3] at k1
      cases k1
      rcases h5 with h5 | ⟨h5, h5'⟩
      · omega
      · exact ⟨f', h4, by omega, asGood_trans h5' k3⟩
    · rw [h7] at he
      rcases List.mem_or_eq_of_mem_set he with he | rfl
      · exact h.found e he hr
      · exact absurd hr hk
  · rw [if_neg hi]
    exact ⟨s, rfl, h⟩

theorem index_ok {s : Storage} {i id : Nat} (h : s.index i = .ok id) :
    s.indices[i]? = some id := by
  unfold Storage.index at h
  cases h1 : s.indices[i]? with
  | none => rw [h1] at h; cases h
  | some j => rw [h1] at h; rw [Except.ok.inj h]

theorem entry_ok {s : Storage} {i : Nat} {e : Entry} (h : s.entry i = .ok e) :
    s.data[i]? = some e := by
  unfold Storage.entry at h
  cases h1 : s.data[i]? with
  | none => rw [h1] at h; cases h
  | some j => rw [h1] at h; rw [Except.ok.inj h]

/-- Overwriting the vector of an entry. -/
theorem Kept.put (h : Kept g n clean seen s) (hcl : ¬ clean) {id : Nat} {a : Entry}
    (ha : s.data[id]? = some a) (y : Assign) :
    Kept g n clean seen { s with data := s.data.set id { a with x := y } } := by
  have hr := h.ranked.put ha y
  refine ⟨hr, fun z hz hw => ?_, fun e he hre => ?_⟩
  · obtain ⟨f, f1, f2, f3⟩ := h.covers z hz hw
    obtain ⟨i0, q1, q2⟩ := best_ok f1
    by_cases hi : id = i0
    · subst hi
      rw [ha] at q2
      cases q2
      refine ⟨{ a with x := y }, ?_, f2, f3⟩
      unfold Storage.best Storage.index Storage.entry
      simp only [q1, bind, Except.bind,
        List.getElem?_set_self (List.getElem?_eq_some_iff.1 ha).1]
    · refine ⟨f, ?_, f2, f3⟩
      unfold Storage.best Storage.index Storage.entry
      simp only [q1, bind, Except.bind, List.getElem?_set_ne hi, q2]
  · rcases List.mem_or_eq_of_mem_set he with he | rfl
    · exact h.found e he hre
    · obtain ⟨z, hz, h1, h2, _⟩ := h.found a (List.mem_of_getElem? ha) hre
      exact ⟨z, hz, h1, h2, fun hc => absurd hc hcl⟩

theorem Kept.crossover (h : Kept g n clean seen s) {c : Cross} (hcl : clean → ¬ Puts c)
    {x x' : Assign} {s' : Storage} (hx : crossover g c x s = .ok (x', s')) :
    Kept g n clean seen s' := by
  have hput : ∀ (first : Nat) (y : Assign), Puts c →
      (do let id ← s.index first
          let a ← s.entry id
          let s ← s.replace id { a with x := y }
          Except.ok (x, s) : Outcome (Assign × Storage)) = .ok (x', s') →
      Kept g n clean seen s' := by
    intro first y hp hx
    obtain ⟨id, h1, hx⟩ := bind_eq_ok.1 hx
    obtain ⟨a, h2, hx⟩ := bind_eq_ok.1 hx
    obtain ⟨s1, h3, hx⟩ := bind_eq_ok.1 hx
    have := Except.ok.inj hx
    simp only [Prod.mk.injEq] at this
    obtain ⟨_, rfl⟩ := this
    unfold Storage.replace at h3
    split at h3
    · rw [← Except.ok.inj h3]
      exact h.put (fun hc => hcl hc hp) (entry_ok h2) y
    · cases h3
  cases c with
  | mix first second mask =>
    obtain ⟨_, _, hx⟩ := bind_eq_ok.1 hx
    obtain ⟨_, _, hx⟩ := bind_eq_ok.1 hx
    obtain ⟨_, _, hx⟩ := bind_eq_ok.1 hx
    obtain ⟨_, _, hx⟩ := bind_eq_ok.1 hx
    have := Except.ok.inj hx
    simp only [Prod.mk.injEq] at this
    exact this.2 ▸ h
  | mixBastert first mask =>
    obtain ⟨_, _, hx⟩ := bind_eq_ok.1 hx
    obtain ⟨_, _, hx⟩ := bind_eq_ok.1 hx
    have := Except.ok.inj hx
    simp only [Prod.mk.injEq] at this
    exact this.2 ▸ h
  | mixRandom first random mask =>
    obtain ⟨_, _, hx⟩ := bind_eq_ok.1 hx
    obtain ⟨_, _, hx⟩ := bind_eq_ok.1 hx
    have := Except.ok.inj hx
    simp only [Prod.mk.injEq] at this
    exact this.2 ▸ h
  | putBastert first => exact hput first g.bastert trivial hx
  | putRandom first random => exact hput first random trivial hx

/-! ## The loops -/

variable {ρ : Type} {kind : SolverType} {nv : Nat} {slv : Slv}
  {upd : ρ → Nat → Assign → Outcome Assign} {c : Call ρ} {init : List Assign}

/-- A pass, and an update when no constraint remains. -/
theorem Kept.pass {w w' : Worker} (h : Kept g n clean (init ++ w.trace) w.storage) (hn : 5 ≤ n)
    (hc : ∀ k, EvictOk n (c.evict k)) {cmp : Compute} {x : Assign} (hx : Within x g.csts)
    (hu : (w.pass cmp x).update g c = .ok w') :
    Kept g n clean (init ++ w'.trace) w'.storage := by
  obtain ⟨s', h1, h2⟩ := h.update hn (hc (w.pass cmp x).passes) hx
  obtain ⟨s'', h3, hu⟩ := bind_eq_ok.1 hu
  have e : s' = s'' := Except.ok.inj (h1.symm.trans h3)
  subst e
  rw [← Except.ok.inj hu]
  show Kept g n clean (init ++ (w.trace ++ [x])) s'
  rw [← List.append_assoc]
  exact h2

theorem Kept.noPass {w : Worker} (h : Kept g n clean (init ++ w.trace) w.storage)
    {cmp : Compute} {x : Assign} (hx : ¬ Within x g.csts) :
    Kept g n clean (init ++ (w.pass cmp x).trace) (w.pass cmp x).storage := by
  show Kept g n clean (init ++ (w.trace ++ [x])) w.storage
  rw [← List.append_assoc]
  exact h.skip hx

theorem mainLoop_kept (hs : makeSlv kind g.csts nv = .ok slv) (hn : 5 ≤ n)
    (hc : ∀ k, EvictOk n (c.evict k)) : ∀ (k : Nat) (w w' : Worker) (b b' : Option Nat),
    mainLoop g slv upd c k w b = .ok (w', b') →
    Kept g n clean (init ++ w.trace) w.storage →
    Kept g n clean (init ++ w'.trace) w'.storage
  | 0, w, w', b, b', h, hk => by
    have := Except.ok.inj h
    simp only [Prod.mk.injEq] at this
    exact this.1 ▸ hk
  | k + 1, w, w', b, b', h, hk => by
    rw [mainLoop] at h
    split at h
    · have := Except.ok.inj h
      simp only [Prod.mk.injEq] at this
      exact this.1 ▸ hk
    · obtain ⟨⟨rem, cmp, x⟩, hr, h⟩ := bind_eq_ok.1 h
      have hrem := (run_spec hs hr).1
      simp only at h
      split at h
      · rename_i h0
        obtain ⟨w1, hu, h⟩ := bind_eq_ok.1 h
        have := Except.ok.inj h
        simp only [Prod.mk.injEq] at this
        exact this.1 ▸ hk.pass hn hc (violations_zero.1 (by omega)) hu
      · rename_i h0
        have hk' := hk.noPass (cmp := cmp) (x := x) fun hw => h0 (by
          rw [hrem]; exact violations_zero.2 hw)
        split at h
        · have := Except.ok.inj h
          simp only [Prod.mk.injEq] at this
          exact this.1 ▸ hk'
        · exact mainLoop_kept hs hn hc k _ _ _ _ h hk'

theorem pushInner_kept (hs : makeSlv kind g.csts nv = .ok slv) (hn : 5 ≤ n)
    (hc : ∀ k, EvictOk n (c.evict k)) : ∀ (k : Nat) (w w' : Worker),
    pushInner g slv upd c k w = .ok w' →
    Kept g n clean (init ++ w.trace) w.storage →
    Kept g n clean (init ++ w'.trace) w'.storage
  | 0, w, w', h, hk => Except.ok.inj h ▸ hk
  | k + 1, w, w', h, hk => by
    rw [pushInner] at h
    split at h
    · exact Except.ok.inj h ▸ hk
    · obtain ⟨⟨rem, cmp, x⟩, hr, h⟩ := bind_eq_ok.1 h
      have hrem := (run_spec hs hr).1
      simp only at h
      split at h
      · rename_i h0
        exact hk.pass hn hc (violations_zero.1 (by omega)) h
      · rename_i h0
        have hk' := hk.noPass (cmp := cmp) (x := x) fun hw => h0 (by
          rw [hrem]; exact violations_zero.2 hw)
        split at h
        · exact Except.ok.inj h ▸ hk'
        · exact pushInner_kept hs hn hc k _ _ h hk'

theorem pushLoop_kept (hs : makeSlv kind g.csts nv = .ok slv) (hn : 5 ≤ n)
    (hc : ∀ k, EvictOk n (c.evict k)) (iters : Nat) : ∀ (k : Nat) (w w' : Worker),
    pushLoop g slv upd c iters k w = .ok w' →
    Kept g n clean (init ++ w.trace) w.storage →
    Kept g n clean (init ++ w'.trace) w'.storage
  | 0, w, w', h, hk => Except.ok.inj h ▸ hk
  | k + 1, w, w', h, hk => by
    rw [pushLoop] at h
    split at h
    · exact Except.ok.inj h ▸ hk
    · obtain ⟨⟨rem, cmp, x⟩, hr, h⟩ := bind_eq_ok.1 h
      have hrem := (run_spec hs hr).1
      simp only at h
      split at h
      · obtain ⟨w1, h1, h⟩ := bind_eq_ok.1 h
        obtain ⟨w2, h2, h⟩ := bind_eq_ok.1 h
        exact pushLoop_kept hs hn hc iters k _ _ h (pushInner_kept hs hn hc _ _ _ h2
          (hk.pass hn hc (violations_zero.1 (by omega)) h1))
      · rename_i h0
        obtain ⟨w1, h1, h⟩ := bind_eq_ok.1 h
        obtain ⟨w2, h2, h⟩ := bind_eq_ok.1 h
        refine pushLoop_kept hs hn hc iters k _ _ h (pushInner_kept hs hn hc _ _ _ h2 ?_)
        exact Except.ok.inj h1 ▸ hk.noPass (cmp := cmp) (x := x) fun hw => h0 (by
          rw [hrem]; exact violations_zero.2 hw)

theorem best_remaining_ne (b : Option Nat) (h : b ≠ some 0) : b.getD intMax ≠ 0 := by
  cases b with
  | none => decide
  | some k => intro e; exact h (by rw [show k = 0 from e])

theorem call_kept (hs : makeSlv kind g.csts nv = .ok slv) (hn : 5 ≤ n) {p : Params}
    (hc : CallOk n c) (hcl : clean → ¬ Overwrites c) {w w' : Worker}
    (h : call g slv upd p c w = .ok w') (hk : Kept g n clean (init ++ w.trace) w.storage) :
    Kept g n clean (init ++ w'.trace) w'.storage := by
  obtain ⟨w1, h1, h⟩ := bind_eq_ok.1 h
  obtain ⟨cmp, _, h⟩ := bind_eq_ok.1 h
  obtain ⟨⟨w2, b⟩, h2, h⟩ := bind_eq_ok.1 h
  have hk1 : Kept g n clean (init ++ w1.trace) w1.storage := by
    unfold reinit at h1
    split at h1
    · exact Except.ok.inj h1 ▸ hk
    · rename_i k hk0
      obtain ⟨⟨x, s⟩, hx, h1⟩ := bind_eq_ok.1 h1
      rw [← Except.ok.inj h1]
      exact hk.crossover (fun hc' hp => hcl hc' ⟨k, hk0, hp⟩) hx
  have hk2 := mainLoop_kept (init := init) (clean := clean) hs hn hc _ _ _ _ _ h2 hk1
  simp only at h
  split at h
  · exact pushLoop_kept hs hn hc _ _ _ _ h hk2
  · rename_i hb
    obtain ⟨s', q1, q2⟩ := hk2.advance hn (hc w2.passes) w2.x (best_remaining_ne b hb)
    obtain ⟨st, h3, h⟩ := bind_eq_ok.1 h
    have e : s' = st := Except.ok.inj (q1.symm.trans h3)
    subst e
    rw [← Except.ok.inj h]
    exact q2

theorem calls_kept (hs : makeSlv kind g.csts nv = .ok slv) (hn : 5 ≤ n) {p : Params} :
    ∀ (cs : List (Call ρ)), (∀ c ∈ cs, CallOk n c) → (clean → ∀ c ∈ cs, ¬ Overwrites c) →
    ∀ (w w' : Worker), calls g slv upd p cs w = .ok w' →
    Kept g n clean (init ++ w.trace) w.storage →
    Kept g n clean (init ++ w'.trace) w'.storage
  | [], _, _, w, w', h, hk => Except.ok.inj h ▸ hk
  | c :: cs, hc, hcl, w, w', h, hk => by
    obtain ⟨w1, h1, h⟩ := bind_eq_ok.1 h
    exact calls_kept hs hn cs (fun d hd => hc d (List.mem_cons_of_mem _ hd))
      (fun q d hd => hcl q d (List.mem_cons_of_mem _ hd)) _ _ h
      (call_kept hs hn (hc c (List.mem_cons_self ..))
        (fun q => hcl q c (List.mem_cons_self ..)) h1 hk)

end Bx.Optimizer
