import Verif.Props.Optimizer

/-!
# The number of remaining constraints reported by `optimize`
-/

namespace Bx.Optimizer

open Itm Merge SolverCtor Spec Spec.Optimizer

theorem violations_eq (csts : List Merged) (x : Assign) : violations csts x = unsatisfied x csts := by
  unfold violations
  have key : ∀ (l pre : List Merged), csts = pre ++ l →
      (((List.range' pre.length l.length).filter fun k => decide (Violates csts x k)).length =
        unsatisfied x l) := by
    intro l
    induction l with
    | nil => intro pre _; rfl
    | cons c l ih =>
      intro pre e
      have hv : Violates csts x pre.length ↔ ¬ (c.min ≤ lhs x c.elems ∧ lhs x c.elems ≤ c.max) := by
        have hc : csts[pre.length]? = some c := by rw [e]; simp
        unfold Violates
        rw [hc]
        constructor
        · rintro ⟨d, hd, h⟩
          rw [Option.some.inj hd]; exact h
        · exact fun h => ⟨c, rfl, h⟩
      have := ih (pre ++ [c]) (by simp [e])
      rw [List.length_append, List.length_singleton] at this
      unfold unsatisfied at *
      rw [List.length_cons, List.range'_succ, List.filter_cons, List.filter_cons]
      by_cases h : c.min ≤ lhs x c.elems ∧ lhs x c.elems ≤ c.max
      · rw [if_neg (by simp [hv, h]), if_neg (by simp [h]), this]
      · rw [if_pos (by rw [decide_eq_true_eq]; exact hv.2 h), if_pos (by simp [h]),
          List.length_cons, List.length_cons, this]
  have := key csts [] rfl
  rw [List.length_nil, ← List.range_eq_range'] at this
  exact this

theorem unsatisfied_zero {x : Assign} {csts : List Merged} :
    unsatisfied x csts = 0 ↔ Within x csts := by
  rw [← violations_eq]; exact violations_zero

/-- What holds of the numbers of remaining constraints: the first entry has as few of them as any
`seen` vector, unless the number `best` of the current turn has; each of these numbers is that of a
`seen` vector, or `INT_MAX`. -/
structure Low (g : Setting) (n : Nat) (seen : List Assign) (best : Option Nat) (s : Storage) :
    Prop where
  ranked : Ranked g.t n s
  low : ∀ f, s.best 0 = .ok f → ∀ y ∈ seen,
    f.remaining ≤ unsatisfied y g.csts ∨ ∃ b, best = some b ∧ b ≤ unsatisfied y g.csts
  real : ∀ e ∈ s.data, e.remaining = intMax ∨ ∃ y ∈ seen, e.remaining = unsatisfied y g.csts
  pend : ∀ b, best = some b → ∃ y ∈ seen, b = unsatisfied y g.csts

/-- The first entry is a solution. -/
def Zero (s : Storage) : Prop := ∀ f, s.best 0 = .ok f → f.remaining = 0

variable {g : Setting} {n : Nat} {seen : List Assign} {best : Option Nat} {s : Storage}

theorem Low.make {srt : Sorter} (hs : SortOk srt) {init : List Assign} (hn : 0 < init.length)
    (h : Storage.make g srt init = .ok s) : Low g init.length init none s := by
  obtain ⟨s', h1, h2, h3⟩ := make_spec (g := g) hs init
  have e : s' = s := Except.ok.inj (h1.symm.trans h)
  subst e
  refine ⟨h2, fun f hf y hy => Or.inl ?_, fun e he => Or.inr ?_, by simp⟩
  · have hm : (⟨y, results g.o y, g.hash y, countViolated y g.csts⟩ : Entry) ∈ s'.data := by
      rw [h3]; exact List.mem_map_of_mem hy
    rw [← countViolated_eq]
    rcases h2.front_good hf hm with hg | ⟨hg, _⟩
    · exact Nat.le_of_lt hg
    · exact Nat.le_of_eq hg
  · rw [h3] at he
    obtain ⟨y, hy, rfl⟩ := List.mem_map.1 he
    exact ⟨y, hy, countViolated_eq y g.csts⟩

theorem Low.of_zero (h : Low g n seen best s) (hz : Zero s) {seen' : List Assign}
    (hs : ∀ y ∈ seen, y ∈ seen') : Low g n seen' none s := by
  refine ⟨h.ranked, fun f hf y _ => Or.inl (by rw [hz f hf]; exact Nat.zero_le _), fun e he => ?_,
    by simp⟩
  rcases h.real e he with h | ⟨y, hy, h⟩
  · exact Or.inl h
  · exact Or.inr ⟨y, hs y hy, h⟩

theorem Low.update (h : Low g n seen best s) (hn : 5 ≤ n) {c : Evict} (hc : EvictOk n c)
    {x : Assign} (hx : Within x g.csts) {v : Rat} {s' : Storage} (hu : tryUpdate g c x v s = .ok s')
    {seen' : List Assign} (hs : ∀ y ∈ seen, y ∈ seen') (hx' : x ∈ seen') :
    Low g n seen' none s' ∧ Zero s' := by
  unfold tryUpdate at hu
  by_cases hi : canUpdate s (g.hash x) v = true
  · rw [if_pos hi] at hu
    obtain ⟨s1, f, f', id, h1, h2, h3, h4, h5, h6, h7, _⟩ := insert_spec h.ranked hn hc
      ⟨x, v, g.hash x, 0⟩
    have e : s1 = s' := Except.ok.inj (h1.symm.trans hu)
    subst e
    have hz : Zero s1 := by
      intro k hk
      have e : f' = k := Except.ok.inj (h4.symm.trans hk)
      subst e
      rcases h6 with h6 | ⟨h6, _⟩
      · exact absurd h6 (by simp)
      · exact h6
    refine ⟨⟨h2, fun k hk y _ => Or.inl (by rw [hz k hk]; exact Nat.zero_le _), fun e he => ?_,
      by simp⟩, hz⟩
    rw [h7] at he
    rcases List.mem_or_eq_of_mem_set he with he | rfl
    · rcases h.real e he with h | ⟨y, hy, h⟩
      · exact Or.inl h
      · exact Or.inr ⟨y, hs y hy, h⟩
    · exact Or.inr ⟨x, hx', (unsatisfied_zero.2 hx).symm⟩
  · rw [if_neg hi] at hu
    have e : s = s' := Except.ok.inj hu
    subst e
    have hz : Zero s := by
      intro k hk
      unfold canUpdate at hi
      rw [List.all_eq_true] at hi
      push Not at hi
      obtain ⟨e, he, hq⟩ := hi
      simp only [ne_eq, Bool.not_eq_true', Bool.not_eq_false, Bool.and_eq_true,
        decide_eq_true_eq] at hq
      rcases h.ranked.front_good hk he with hg | ⟨hg, _⟩ <;> omega
    exact ⟨h.of_zero hz hs, hz⟩

theorem Low.advance (h : Low g n seen best s) (hn : 5 ≤ n) {c : Evict} (hc : EvictOk n c)
    {x : Assign} {s' : Storage} (hu : tryAdvance g c x (best.getD intMax) s = .ok s') :
    Low g n seen none s' := by
  unfold tryAdvance at hu
  have hle : ∀ f : Entry, s.best 0 = .ok f → ∀ k : Nat, k ≤ f.remaining → k ≤ best.getD intMax →
      ∀ y ∈ seen, k ≤ unsatisfied y g.csts := by
    intro f hf k h1 h2 y hy
    rcases h.low f hf y hy with h3 | ⟨b, rfl, h3⟩
    · omega
    · simp only [Option.getD_some] at h2; omega
  by_cases hi : canAdvance s (g.hash x) (best.getD intMax) = true
  · rw [if_pos hi] at hu
    obtain ⟨s1, f, f', id, h1, h2, h3, h4, h5, h6, h7, _⟩ := insert_spec h.ranked hn hc
      ⟨x, results g.o x, g.hash x, best.getD intMax⟩
    have e : s1 = s' := Except.ok.inj (h1.symm.trans hu)
    subst e
    refine ⟨h2, fun k hk y hy => Or.inl ?_, fun e he => ?_, by simp⟩
    · have e : f' = k := Except.ok.inj (h4.symm.trans hk)
      subst e
      refine hle f h3 _ ?_ ?_ y hy
      · rcases h5 with h5 | ⟨h5, _⟩ <;> omega
      · rcases h6 with h6 | ⟨h6, _⟩
        · exact Nat.le_of_lt h6
        · exact Nat.le_of_eq h6
    · rw [h7] at he
      rcases List.mem_or_eq_of_mem_set he with he | rfl
      · exact h.real e he
      · cases best with
        | none => exact Or.inl rfl
        | some b => exact Or.inr (h.pend b rfl)
  · rw [if_neg hi] at hu
    have e : s = s' := Except.ok.inj hu
    subst e
    refine ⟨h.ranked, fun k hk y hy => Or.inl ?_, h.real, by simp⟩
    unfold canAdvance at hi
    rw [List.all_eq_true] at hi
    push Not at hi
    obtain ⟨e, he, hq⟩ := hi
    simp only [ne_eq, Bool.not_eq_true', Bool.not_eq_false, Bool.and_eq_true,
      decide_eq_true_eq] at hq
    refine hle k hk _ (Nat.le_refl _) ?_ y hy
    rcases h.ranked.front_good hk he with hg | ⟨hg, _⟩ <;> omega

theorem Low.crossover (h : Low g n seen best s) (hn : 5 ≤ n) {c : Cross} {x x' : Assign}
    {s' : Storage} (hx : crossover g c x s = .ok (x', s')) : Low g n seen best s' := by
  obtain ⟨a, b, h1, _, h2, h3⟩ := C22_crossover_of_the_population g c x x' s s' hx
  by_cases hp : Puts c
  · obtain ⟨_, hi, id, hid, hd⟩ := h3 hp
    have ha : s.data[id]? = some a := by
      unfold ranking at h1
      rw [List.getElem?_map, hid] at h1
      exact Option.some.inj h1
    have e : s' = { s with data := s.data.set id { a with x := b } } := by
      cases s'
      simp only at hi hd
      rw [hi, hd]
    subst e
    refine ⟨h.ranked.put ha b, fun f' hf' y hy => ?_, fun e he => ?_, h.pend⟩
    · obtain ⟨_, f, _, _, hf⟩ := h.ranked.best (i := 0) (by omega)
      obtain ⟨f1, k1, k2, _⟩ := best_set hf ha b
      have e : f1 = f' := Except.ok.inj (k1.symm.trans hf')
      subst e
      rw [k2]
      exact h.low f hf y hy
    · rcases List.mem_or_eq_of_mem_set he with he | rfl
      · exact h.real e he
      · exact h.real a (List.mem_of_getElem? ha)
  · rw [(h2 hp).1]; exact h

variable {ρ : Type} {kind : SolverType} {slv : Slv} {nv : Nat}
  {upd : ρ → Nat → Assign → Outcome Assign} {c : Call ρ} {init : List Assign}

theorem mainLoop_low (hs : makeSlv kind g.csts nv = .ok slv) (hn : 5 ≤ n)
    (hc : ∀ k, EvictOk n (c.evict k)) : ∀ (k : Nat) (w w' : Worker) (b b' : Option Nat),
    mainLoop g slv upd c k w b = .ok (w', b') → b ≠ some 0 →
    Low g n (init ++ w.trace) b w.storage →
    Low g n (init ++ w'.trace) b' w'.storage ∧ (b' = some 0 → Zero w'.storage)
  | 0, w, w', b, b', h, hb, hk => by
    have := Except.ok.inj h
    simp only [Prod.mk.injEq] at this
    obtain ⟨rfl, rfl⟩ := this
    exact ⟨hk, fun e => absurd e hb⟩
  | k + 1, w, w', b, b', h, hb, hk => by
    rw [mainLoop] at h
    split at h
    · have := Except.ok.inj h
      simp only [Prod.mk.injEq] at this
      obtain ⟨rfl, rfl⟩ := this
      exact ⟨hk, fun e => absurd e hb⟩
    · obtain ⟨⟨rem, cmp, x⟩, hr, h⟩ := bind_eq_ok.1 h
      have hrem := (run_spec hs hr).1
      rw [violations_eq] at hrem
      simp only at h
      split at h
      · rename_i h0
        obtain ⟨w1, hu, h⟩ := bind_eq_ok.1 h
        have := Except.ok.inj h
        simp only [Prod.mk.injEq] at this
        obtain ⟨rfl, rfl⟩ := this
        obtain ⟨s', hu', hw⟩ := bind_eq_ok.1 hu
        have hw := Except.ok.inj hw
        subst hw
        have hx : Within x g.csts := unsatisfied_zero.1 (by omega)
        obtain ⟨q1, q2⟩ := hk.update hn (hc _) hx hu' (seen' := init ++ (w.trace ++ [x]))
          (fun y hy => by rw [← List.append_assoc]; exact List.mem_append_left _ hy) (by simp)
        refine ⟨⟨q1.ranked, fun f hf y hy => Or.inl (by rw [q2 f hf]; exact Nat.zero_le _), q1.real,
          fun b hb => ?_⟩, fun _ => q2⟩
        cases hb
        exact ⟨x, by simp [Worker.pass], (unsatisfied_zero.2 hx).symm⟩
      · rename_i h0
        have hb' : (if ltInt rem b then some rem else b) ≠ some 0 := by
          split
          · simpa using h0
          · exact hb
        have hk' : Low g n (init ++ (w.pass cmp x).trace) (if ltInt rem b then some rem else b)
            (w.pass cmp x).storage := by
          show Low g n (init ++ (w.trace ++ [x])) _ w.storage
          rw [← List.append_assoc]
          refine ⟨hk.ranked, fun f hf y hy => ?_, fun e he => ?_, fun b' hb' => ?_⟩
          · rcases List.mem_append.1 hy with hy | hy
            · rcases hk.low f hf y hy with q | ⟨b', rfl, q⟩
              · exact Or.inl q
              · right
                unfold ltInt
                by_cases hlt : rem < b'
                · exact ⟨rem, by simp [hlt], by omega⟩
                · exact ⟨b', by simp [hlt], q⟩
            · rw [List.mem_singleton] at hy
              subst hy
              right
              unfold ltInt
              cases b with
              | none => exact ⟨rem, by simp, by omega⟩
              | some b' =>
                by_cases hlt : rem < b'
                · exact ⟨rem, by simp [hlt], by omega⟩
                · exact ⟨b', by simp [hlt], by omega⟩
          · rcases hk.real e he with q | ⟨y, hy, q⟩
            · exact Or.inl q
            · exact Or.inr ⟨y, List.mem_append_left _ hy, q⟩
          · split at hb'
            · cases hb'
              exact ⟨x, by simp, hrem⟩
            · obtain ⟨y, hy, q⟩ := hk.pend b' hb'
              exact ⟨y, List.mem_append_left _ hy, q⟩
        split at h
        · have := Except.ok.inj h
          simp only [Prod.mk.injEq] at this
          obtain ⟨rfl, rfl⟩ := this
          exact ⟨hk', fun e => absurd e hb'⟩
        · exact mainLoop_low hs hn hc k _ _ _ _ h hb' hk'

/-- A pass that ends on a solution, or not, when the first entry is a solution. -/
theorem Low.found {w w' : Worker} {cmp : Compute} {x : Assign} (hn : 5 ≤ n)
    (hc : ∀ k, EvictOk n (c.evict k)) (hx : Within x g.csts)
    (hu : (w.pass cmp x).update g c = .ok w')
    (h : Low g n (init ++ w.trace) none w.storage) :
    Low g n (init ++ w'.trace) none w'.storage ∧ Zero w'.storage := by
  obtain ⟨s', hu, hw⟩ := bind_eq_ok.1 hu
  rw [← Except.ok.inj hw]
  exact h.update hn (hc _) hx hu (seen' := init ++ (w.trace ++ [x]))
    (fun y hy => by rw [← List.append_assoc]; exact List.mem_append_left _ hy) (by simp)

theorem pushInner_low (hs : makeSlv kind g.csts nv = .ok slv) (hn : 5 ≤ n)
    (hc : ∀ k, EvictOk n (c.evict k)) : ∀ (k : Nat) (w w' : Worker),
    pushInner g slv upd c k w = .ok w' →
    Low g n (init ++ w.trace) none w.storage → Zero w.storage →
    Low g n (init ++ w'.trace) none w'.storage ∧ Zero w'.storage
  | 0, w, w', h, hk, hz => Except.ok.inj h ▸ ⟨hk, hz⟩
  | k + 1, w, w', h, hk, hz => by
    rw [pushInner] at h
    split at h
    · exact Except.ok.inj h ▸ ⟨hk, hz⟩
    · obtain ⟨⟨rem, cmp, x⟩, hr, h⟩ := bind_eq_ok.1 h
      have hrem := (run_spec hs hr).1
      simp only at h
      have hk' : Low g n (init ++ (w.pass cmp x).trace) none (w.pass cmp x).storage :=
        hk.of_zero hz fun y hy => by
          show y ∈ init ++ (w.trace ++ [x])
          rw [← List.append_assoc]; exact List.mem_append_left _ hy
      split at h
      · exact hk.found hn hc (violations_zero.1 (by omega)) h
      · split at h
        · exact Except.ok.inj h ▸ ⟨hk', hz⟩
        · exact pushInner_low hs hn hc k _ _ h hk' hz

theorem pushLoop_low (hs : makeSlv kind g.csts nv = .ok slv) (hn : 5 ≤ n)
    (hc : ∀ k, EvictOk n (c.evict k)) (iters : Nat) : ∀ (k : Nat) (w w' : Worker),
    pushLoop g slv upd c iters k w = .ok w' →
    Low g n (init ++ w.trace) none w.storage → Zero w.storage →
    Low g n (init ++ w'.trace) none w'.storage ∧ Zero w'.storage
  | 0, w, w', h, hk, hz => Except.ok.inj h ▸ ⟨hk, hz⟩
  | k + 1, w, w', h, hk, hz => by
    rw [pushLoop] at h
    split at h
    · exact Except.ok.inj h ▸ ⟨hk, hz⟩
    · obtain ⟨⟨rem, cmp, x⟩, hr, h⟩ := bind_eq_ok.1 h
      have hrem := (run_spec hs hr).1
      simp only at h
      have hk' : Low g n (init ++ (w.pass cmp x).trace) none (w.pass cmp x).storage :=
        hk.of_zero hz fun y hy => by
          show y ∈ init ++ (w.trace ++ [x])
          rw [← List.append_assoc]; exact List.mem_append_left _ hy
      split at h
      · obtain ⟨w1, h1, h⟩ := bind_eq_ok.1 h
        obtain ⟨w2, h2, h⟩ := bind_eq_ok.1 h
        obtain ⟨q1, q2⟩ := hk.found hn hc (violations_zero.1 (by omega)) h1
        obtain ⟨q3, q4⟩ := pushInner_low hs hn hc _ _ _ h2 q1 q2
        exact pushLoop_low hs hn hc iters k _ _ h q3 q4
      · obtain ⟨w1, h1, h⟩ := bind_eq_ok.1 h
        have e := Except.ok.inj h1
        subst e
        obtain ⟨w2, h2, h⟩ := bind_eq_ok.1 h
        obtain ⟨q3, q4⟩ := pushInner_low hs hn hc _ _ _ h2 hk' hz
        exact pushLoop_low hs hn hc iters k _ _ h q3 q4

theorem call_low (hs : makeSlv kind g.csts nv = .ok slv) (hn : 5 ≤ n) {p : Params}
    (hc : CallOk n c) {w w' : Worker}
    (h : call g slv upd p c w = .ok w') (hk : Low g n (init ++ w.trace) none w.storage) :
    Low g n (init ++ w'.trace) none w'.storage := by
  obtain ⟨w1, h1, h⟩ := bind_eq_ok.1 h
  obtain ⟨cmp, _, h⟩ := bind_eq_ok.1 h
  obtain ⟨⟨w2, b⟩, h2, h⟩ := bind_eq_ok.1 h
  have hk1 : Low g n (init ++ w1.trace) none w1.storage := by
    unfold reinit at h1
    split at h1
    · exact Except.ok.inj h1 ▸ hk
    · obtain ⟨⟨x, s⟩, hx, h1⟩ := bind_eq_ok.1 h1
      rw [← Except.ok.inj h1]
      exact hk.crossover hn hx
  obtain ⟨hk2, hz2⟩ := mainLoop_low (init := init) hs hn hc _ _ _ _ _ h2 (by simp) hk1
  simp only at h
  split at h
  · rename_i hb
    exact (pushLoop_low hs hn hc _ _ _ _ h (hk2.of_zero (hz2 hb) fun _ hy => hy) (hz2 hb)).1
  · obtain ⟨st, h3, h⟩ := bind_eq_ok.1 h
    rw [← Except.ok.inj h]
    exact hk2.advance hn (hc _) h3

theorem calls_low (hs : makeSlv kind g.csts nv = .ok slv) (hn : 5 ≤ n) {p : Params} :
    ∀ (cs : List (Call ρ)), (∀ c ∈ cs, CallOk n c) →
    ∀ (w w' : Worker), calls g slv upd p cs w = .ok w' →
    Low g n (init ++ w.trace) none w.storage →
    Low g n (init ++ w'.trace) none w'.storage
  | [], _, w, w', h, hk => Except.ok.inj h ▸ hk
  | c :: cs, hc, w, w', h, hk => by
    obtain ⟨w1, h1, h⟩ := bind_eq_ok.1 h
    exact calls_low hs hn cs (fun d hd => hc d (List.mem_cons_of_mem _ hd)) _ _ h
      (call_low hs hn (hc c (List.mem_cons_self ..)) h1 hk)

end Bx.Optimizer
