import Verif.Proofs.Workers

/-!
# One worker alone
-/

namespace Bx.Optimizer

open Itm Merge SolverCtor Spec Spec.Optimizer

variable {ρ : Type} {g : Setting} {slv : Slv} {upd : ρ → Nat → Assign → Outcome Assign}
  {p : Params} {c : Call ρ} {todo : List (Call ρ)}

/-- Some steps of a worker lead from a state to another. -/
inductive Reach (g : Setting) (slv : Slv) (upd : ρ → Nat → Assign → Outcome Assign) (p : Params) :
    Local ρ → Storage → Local ρ → Storage → Prop where
  | refl (l : Local ρ) (s : Storage) : Reach g slv upd p l s l s
  | head {l l1 l' : Local ρ} {s s1 s' : Storage} (h : l.step g slv upd p s = .ok (l1, s1))
      (t : Reach g slv upd p l1 s1 l' s') : Reach g slv upd p l s l' s'

theorem Reach.trans {l l1 l' : Local ρ} {s s1 s' : Storage} (h : Reach g slv upd p l s l1 s1)
    (t : Reach g slv upd p l1 s1 l' s') : Reach g slv upd p l s l' s' := by
  induction h with
  | refl l s => exact t
  | head h _ ih => exact .head h (ih t)

theorem Reach.one {l l' : Local ρ} {s s' : Storage} (h : l.step g slv upd p s = .ok (l', s')) :
    Reach g slv upd p l s l' s' := .head h (.refl _ _)

/-- The worker of the sequential model, at a point. -/
def Worker.at (w : Worker) (pc : At ρ) (todo : List (Call ρ)) : Local ρ :=
  ⟨pc, todo, w.x, w.compute, w.passes, w.trace⟩

theorem update_reach {w w' : Worker} (next : Next) {pc : At ρ} (h : w.update g c = .ok w') :
    Reach g slv upd p ((w.at pc todo).offer g c next w.storage) w.storage
      (w'.at (next.at c) todo) w'.storage := by
  obtain ⟨s', hu, hw⟩ := bind_eq_ok.1 h
  clear h
  have hw := Except.ok.inj hw
  subst hw
  unfold tryUpdate at hu
  unfold Local.offer
  show Reach g slv upd p (if canUpdate w.storage (g.hash w.x) (results g.o w.x) then _ else _) _ _ s'
  split at hu
  · rename_i hi
    rw [if_pos hi]
    refine .one ?_
    show (w.storage.insert g.t (c.evict w.passes) ⟨w.x, results g.o w.x, g.hash w.x, 0⟩ >>= _) = _
    rw [hu]
    rfl
  · rename_i hi
    rw [if_neg hi]
    rw [← Except.ok.inj hu]
    exact .refl _ _

theorem mainLoop_reach : ∀ (k : Nat) (w w' : Worker) (b b' : Option Nat),
    mainLoop g slv upd c k w b = .ok (w', b') → b ≠ some 0 →
    Reach g slv upd p (w.at (.main c k b) todo) w.storage
      (w'.at (if b' = some 0 then .pushes c p.pushes else .advance c b') todo) w'.storage
  | 0, w, w', b, b', h, hb => by
    have := Except.ok.inj h
    simp only [Prod.mk.injEq] at this
    obtain ⟨rfl, rfl⟩ := this
    rw [if_neg hb]
    exact .one rfl
  | k + 1, w, w', b, b', h, hb => by
    rw [mainLoop] at h
    split at h
    · rename_i hst
      have := Except.ok.inj h
      simp only [Prod.mk.injEq] at this
      obtain ⟨rfl, rfl⟩ := this
      rw [if_neg hb]
      refine .one ?_
      show (if c.stopMain w.passes then _ else _) = _
      rw [if_pos hst]
      rfl
    · rename_i hst
      obtain ⟨⟨rem, cmp, x⟩, hr, h⟩ := bind_eq_ok.1 h
      simp only at h
      have hstep : (w.at (.main c (k + 1) b) todo).step g slv upd p w.storage =
          if rem = 0 then .ok ((((w.pass cmp x).at (.main c (k + 1) b) todo).offer g c
            (.pushes p.pushes) w.storage), w.storage)
          else .ok ((w.pass cmp x).at (if c.kappaOver (w.pass cmp x).passes then
              .advance c (if ltInt rem b then some rem else b)
            else .main c k (if ltInt rem b then some rem else b)) todo, w.storage) := by
        show (if c.stopMain w.passes then _ else
          (run slv upd (c.pass w.passes) w.compute w.x >>= _)) = _
        rw [if_neg hst, hr]
        rfl
      split at h
      · rename_i h0
        obtain ⟨w1, hu, h⟩ := bind_eq_ok.1 h
        have := Except.ok.inj h
        simp only [Prod.mk.injEq] at this
        obtain ⟨rfl, rfl⟩ := this
        rw [if_pos h0] at hstep
        rw [if_pos rfl]
        exact .head hstep (update_reach (.pushes p.pushes) hu)
      · rename_i h0
        rw [if_neg h0] at hstep
        have hb' : (if ltInt rem b then some rem else b) ≠ some 0 := by
          split
          · simpa using h0
          · exact hb
        split at h
        · rename_i hk
          have := Except.ok.inj h
          simp only [Prod.mk.injEq] at this
          obtain ⟨rfl, rfl⟩ := this
          rw [if_neg hb']
          rw [if_pos hk] at hstep
          exact .one hstep
        · rename_i hk
          rw [if_neg hk] at hstep
          exact .head hstep (mainLoop_reach k _ _ _ _ h hb')

theorem pushInner_reach (m : Nat) : ∀ (k : Nat) (w w' : Worker),
    pushInner g slv upd c k w = .ok w' →
    Reach g slv upd p (w.at (.inner c m k) todo) w.storage (w'.at (.pushes c m) todo) w'.storage
  | 0, w, w', h => by
    rw [← Except.ok.inj h]
    exact .one rfl
  | k + 1, w, w', h => by
    rw [pushInner] at h
    split at h
    · rename_i hst
      rw [← Except.ok.inj h]
      refine .one ?_
      show (if c.stopInner w.passes then _ else _) = _
      rw [if_pos hst]
      rfl
    · rename_i hst
      obtain ⟨⟨rem, cmp, x⟩, hr, h⟩ := bind_eq_ok.1 h
      simp only at h
      have hstep : (w.at (.inner c m (k + 1)) todo).step g slv upd p w.storage =
          if rem = 0 then .ok ((((w.pass cmp x).at (.inner c m (k + 1)) todo).offer g c
            (.pushes m) w.storage), w.storage)
          else .ok ((w.pass cmp x).at (if c.kappaOver (w.pass cmp x).passes then .pushes c m
            else .inner c m k) todo, w.storage) := by
        show (if c.stopInner w.passes then _ else
          (run slv upd (c.pass w.passes) w.compute w.x >>= _)) = _
        rw [if_neg hst, hr]
        rfl
      split at h
      · rename_i h0
        rw [if_pos h0] at hstep
        exact .head hstep (update_reach (.pushes m) h)
      · rename_i h0
        rw [if_neg h0] at hstep
        split at h
        · rename_i hk
          rw [← Except.ok.inj h]
          rw [if_pos hk] at hstep
          exact .one hstep
        · rename_i hk
          rw [if_neg hk] at hstep
          exact .head hstep (pushInner_reach m k _ _ h)

theorem pushLoop_reach : ∀ (k : Nat) (w w' : Worker),
    pushLoop g slv upd c p.pushIter k w = .ok w' →
    Reach g slv upd p (w.at (.pushes c k) todo) w.storage (w'.at .turn todo) w'.storage
  | 0, w, w', h => by
    rw [← Except.ok.inj h]
    exact .one rfl
  | k + 1, w, w', h => by
    rw [pushLoop] at h
    split at h
    · rename_i hst
      rw [← Except.ok.inj h]
      refine .one ?_
      show (if c.stopPush w.passes then _ else _) = _
      rw [if_pos hst]
      rfl
    · rename_i hst
      obtain ⟨⟨rem, cmp, x⟩, hr, h⟩ := bind_eq_ok.1 h
      simp only at h
      have hstep : (w.at (.pushes c (k + 1)) todo).step g slv upd p w.storage =
          if rem = 0 then .ok ((((w.pass cmp x).at (.pushes c (k + 1)) todo).offer g c
            (.inner k p.pushIter) w.storage), w.storage)
          else .ok ((w.pass cmp x).at (.inner c k p.pushIter) todo, w.storage) := by
        show (if c.stopPush w.passes then _ else
          (pushAndRun slv upd (c.pass w.passes) w.compute w.x >>= _)) = _
        rw [if_neg hst, hr]
        rfl
      split at h
      · rename_i h0
        obtain ⟨w1, h1, h⟩ := bind_eq_ok.1 h
        obtain ⟨w2, h2, h⟩ := bind_eq_ok.1 h
        rw [if_pos h0] at hstep
        exact .head hstep ((update_reach (.inner k p.pushIter) h1).trans
          ((pushInner_reach k _ _ _ h2).trans (pushLoop_reach k _ _ h)))
      · rename_i h0
        obtain ⟨w1, h1, h⟩ := bind_eq_ok.1 h
        have e := Except.ok.inj h1
        subst e
        obtain ⟨w2, h2, h⟩ := bind_eq_ok.1 h
        rw [if_neg h0] at hstep
        exact .head hstep ((pushInner_reach k _ _ _ h2).trans (pushLoop_reach k _ _ h))

theorem call_reach {w w' : Worker} (h : call g slv upd p c w = .ok w') :
    Reach g slv upd p (w.at .turn (c :: todo)) w.storage (w'.at .turn todo) w'.storage := by
  obtain ⟨w1, h1, h⟩ := bind_eq_ok.1 h
  obtain ⟨cmp, hc, h⟩ := bind_eq_ok.1 h
  obtain ⟨⟨w2, b⟩, h2, h⟩ := bind_eq_ok.1 h
  have hstep : (w.at .turn (c :: todo)).step g slv upd p w.storage =
      .ok ((⟨w1.storage, w1.x, cmp, w1.passes, w1.trace⟩ : Worker).at (.main c p.limit none) todo,
        w1.storage) := by
    unfold reinit at h1
    unfold Local.step Worker.at
    simp only
    split at h1
    · rename_i hk
      have e := Except.ok.inj h1
      subst e
      simp only [hk, bind, Except.bind] at hc ⊢
      rw [hc]
    · rename_i k hk
      obtain ⟨⟨x, s1⟩, h3, h1⟩ := bind_eq_ok.1 h1
      have e := Except.ok.inj h1
      subst e
      simp only at h3 hc
      simp only [hk, h3, bind, Except.bind]
      rw [hc]
  have hmain := mainLoop_reach (p := p) (todo := todo) _ _ _ _ _ h2 (by simp)
  refine .head hstep (hmain.trans ?_)
  simp only at h
  split at h
  · rename_i hb
    rw [if_pos hb]
    exact pushLoop_reach _ _ _ h
  · rename_i hb
    rw [if_neg hb]
    obtain ⟨st, h3, h⟩ := bind_eq_ok.1 h
    rw [← Except.ok.inj h]
    unfold tryAdvance at h3
    split at h3
    · rename_i hi
      refine .head (l1 := w2.at (.insert c ⟨w2.x, results g.o w2.x, g.hash w2.x, b.getD intMax⟩
        .turn) todo) (s1 := w2.storage) ?_ (.one ?_)
      · show (if canAdvance w2.storage (g.hash w2.x) (b.getD intMax) then _ else _) = _
        rw [if_pos hi]
        rfl
      · show (w2.storage.insert g.t (c.evict w2.passes) _ >>= _) = _
        rw [h3]
        rfl
    · rename_i hi
      rw [← Except.ok.inj h3]
      refine .one ?_
      show (if canAdvance w2.storage (g.hash w2.x) (b.getD intMax) then _ else _) = _
      rw [if_neg hi]
      rfl

theorem calls_reach : ∀ (cs : List (Call ρ)) (w w' : Worker),
    calls g slv upd p cs w = .ok w' →
    Reach g slv upd p (w.at .turn cs) w.storage (w'.at .turn []) w'.storage
  | [], w, w', h => Except.ok.inj h ▸ .refl _ _
  | c :: cs, w, w', h => by
    obtain ⟨w1, h1, h⟩ := bind_eq_ok.1 h
    exact (call_reach h1).trans (calls_reach cs w1 w' h)

/-- The steps of the only worker of a pool. -/
theorem Reach.pool {l l' : Local ρ} {s s' : Storage} (h : Reach g slv upd p l s l' s') :
    ∃ is, Pool.steps g slv upd p is ⟨s, [l]⟩ = .ok ⟨s', [l']⟩ := by
  induction h with
  | refl l s => exact ⟨[], rfl⟩
  | @head l l1 l' s s1 s' h _ ih =>
    obtain ⟨is, ih⟩ := ih
    refine ⟨0 :: is, ?_⟩
    show ((l.step g slv upd p s >>= _) >>= _) = _
    rw [h]
    exact ih

end Bx.Optimizer
