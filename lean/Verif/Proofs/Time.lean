import Verif.Proofs.Numeric2
import Verif.Proofs.Remaining
import Verif.Spec.Time

/-!
# Two runs of `solve` that differ by the clock, and the vector of a run that fails
-/

namespace Bx.Itm

open Merge SolverCtor Spec Optimizer

section Fewest

variable {ρ : Type} {kind : SolverType} {csts : List Merged} {n : Nat} {s : Slv}
  {upd : ρ → Nat → Assign → Outcome Assign} {r : Run ρ} {t : ObjType} {o : Objective}

/-- The best vector is the first of the trace with the least number of violated constraints. -/
structure Fewest (csts : List Merged) (st : St) : Prop where
  same : st.best.remaining = st.bestRemaining
  none : st.bestRemaining = none → st.trace = [] ∧ st.best.x = none
  some : ∀ k, st.bestRemaining = some k → ∃ (i : Nat) (x : Assign), st.best.x = some x ∧ st.trace[i]? = some x ∧
    violations csts x = k ∧ (∀ y ∈ st.trace, k ≤ violations csts y) ∧
    ∀ (j : Nat) (y : Assign), j < i → st.trace[j]? = some y → k < violations csts y

/-- After a pass that ends on a vector that is not feasible. -/
theorem Fewest.step {st st' : St} {x : Assign} (h : Fewest csts st) (ht : st'.trace = st.trace ++ [x])
    (hb : st'.best = if ltInt (violations csts x) st.bestRemaining then
      storeRemaining st.best x (violations csts x) else st.best)
    (hr : st'.bestRemaining = if ltInt (violations csts x) st.bestRemaining then
      Option.some (violations csts x) else st.bestRemaining) : Fewest csts st' := by
  by_cases hl : ltInt (violations csts x) st.bestRemaining = true
  · rw [if_pos hl] at hb hr
    have hb' : st'.best = { st.best with x := Option.some x, remaining := Option.some (violations csts x) } := by
      rw [hb, storeRemaining, h.same, if_pos hl]
    refine ⟨by rw [hb', hr], fun h0 => by rw [hr] at h0; simp at h0, fun k hk => ?_⟩
    rw [hr] at hk
    have hk := Option.some.inj hk
    subst hk
    have hlt : ∀ y ∈ st.trace, violations csts x < violations csts y := by
      intro y hy
      cases hbr : st.bestRemaining with
      | none => rw [(h.none hbr).1] at hy; simp at hy
      | some b =>
        obtain ⟨_, _, _, _, _, h4, _⟩ := h.some b hbr
        rw [hbr] at hl
        exact Nat.lt_of_lt_of_le (of_decide_eq_true hl) (h4 y hy)
    refine ⟨st.trace.length, x, by rw [hb'], by rw [ht]; simp, rfl, fun y hy => ?_, fun j y hj hy => ?_⟩
    · rw [ht] at hy
      rcases List.mem_append.mp hy with hy | hy
      · exact Nat.le_of_lt (hlt y hy)
      · rw [List.mem_singleton.mp hy]
    · rw [ht, List.getElem?_append_left hj] at hy
      exact hlt y (List.mem_of_getElem? hy)
  · rw [if_neg hl] at hb hr
    refine ⟨by rw [hb, hr, h.same], fun h0 => ?_, fun k hk => ?_⟩
    · rw [hr] at h0
      rw [h0] at hl
      exact absurd rfl hl
    · rw [hr] at hk
      obtain ⟨i, z, h1, h2, h3, h4, h5⟩ := h.some k hk
      have hi := (List.getElem?_eq_some_iff.mp h2).1
      refine ⟨i, z, by rw [hb, h1], by rw [ht, List.getElem?_append_left hi, h2], h3, fun y hy => ?_,
        fun j y hj hy => ?_⟩
      · rw [ht] at hy
        rcases List.mem_append.mp hy with hy | hy
        · exact h4 y hy
        · rw [List.mem_singleton.mp hy]
          rw [hk] at hl
          exact Nat.le_of_not_lt fun hc => hl (decide_eq_true hc)
      · rw [ht, List.getElem?_append_left (by omega)] at hy
        exact h5 j y hj hy

theorem mainLoop_fewest (hs : makeSlv kind csts n = .ok s) : ∀ (k : Nat) (st st' : St) (e : Exit),
    mainLoop s upd r t o k st = .ok (st', e) → e ≠ .found → Fewest csts st → Fewest csts st'
  | 0, st, st', e, h, _, hf => by
    have h := Except.ok.inj h
    simp only [Prod.mk.injEq] at h
    rw [← h.1]; exact hf
  | k + 1, st, st', e, h, he, hf => by
    unfold mainLoop at h
    obtain ⟨⟨rem, c, x⟩, hrun, h⟩ := bind_eq_ok.mp h
    obtain ⟨hrem, _⟩ := run_spec hs hrun
    simp only at h
    by_cases hz : rem = 0
    · rw [if_pos hz] at h
      have h := Except.ok.inj h
      simp only [Prod.mk.injEq] at h
      exact absurd h.2.symm he
    · rw [if_neg hz] at h
      generalize hst1 : (if ltInt rem _ = true then _ else _ : St) = st1 at h
      have hf1 : Fewest csts st1 := by
        subst hrem
        refine hf.step (x := x) ?_ ?_ ?_ <;> rw [← hst1] <;> split <;> rfl
      split at h
      · have h := Except.ok.inj h
        simp only [Prod.mk.injEq] at h
        rw [← h.1]; exact hf1
      · split at h
        · have h := Except.ok.inj h
          simp only [Prod.mk.injEq] at h
          rw [← h.1]; exact hf1
        · exact mainLoop_fewest hs k st1 st' e h he hf1

theorem mainLoop_trace : ∀ (k : Nat) (st st' : St) (e : Exit),
    mainLoop s upd r t o k st = .ok (st', e) → st.trace ≠ [] ∨ k ≠ 0 → st'.trace ≠ []
  | 0, st, st', e, h, hn => by
    have h := Except.ok.inj h
    simp only [Prod.mk.injEq] at h
    rw [← h.1]; exact hn.resolve_right (by simp)
  | k + 1, st, st', e, h, _ => by
    unfold mainLoop at h
    obtain ⟨⟨rem, c, x⟩, hrun, h⟩ := bind_eq_ok.mp h
    simp only at h
    split at h
    · have h := Except.ok.inj h
      simp only [Prod.mk.injEq] at h
      rw [← h.1]; simp
    · generalize hst1 : (if ltInt rem _ = true then _ else _ : St) = st1 at h
      have ht : st1.trace ≠ [] := by
        rw [← hst1]
        split <;> simp
      split at h
      · have h := Except.ok.inj h
        simp only [Prod.mk.injEq] at h
        rw [← h.1]; exact ht
      · split at h
        · have h := Except.ok.inj h
          simp only [Prod.mk.injEq] at h
          rw [← h.1]; exact ht
        · exact mainLoop_trace k st1 st' e h (Or.inl ht)

end Fewest

end Bx.Itm

namespace Bx.Num

open Merge SolverCtor Spec Itm Mult

variable {Ω : Type} {s : Slv} {upd : Upd Ω} {w : World Ω} {cfg : Cfg} {t : ObjType} {o : Objective}
  {late : Nat → Bool}

/-! ## What does not read the clock -/

theorem mainLoop_step (n : Nat) (st : State) :
    mainLoop s upd { w with timeUp := late } cfg t o (n + 1) st = (do
    let i := st.base.passes
    let (remaining, c, x, m) ← pass s upd w ⟨st.kappa, cfg.delta, cfg.theta, none⟩ i st.base.compute
      st.base.x st.mem
    let next := nextMain s w cfg i remaining st.kappa
    let st := st.after ⟨false, visits w i st.mem st.base.compute, st.kappa, st.mem,
      st.base.compute, st.base.x, remaining, c, x, next⟩ m
    if remaining = 0 then
      .ok ({ st with base := { st.base with best := storeValue t st.base.best x (results o x),
                                            bestRemaining := some 0 } }, .found)
    else
      let st :=
        if ltInt remaining st.base.bestRemaining then
          { st with base := { st.base with best := storeRemaining st.base.best x remaining,
                                           bestRemaining := some remaining } }
        else st
      if st.kappa > cfg.kappaMax then .ok (st, .kappa)
      else if late st.base.passes then .ok (st, .time)
      else mainLoop s upd { w with timeUp := late } cfg t o n st) := rfl

theorem pushInner_step (n iter : Nat) (st : State) :
    pushInner s upd { w with timeUp := late } cfg t o (n + 1) iter st = (do
    let i := st.base.passes
    let (remaining, c, x, m) ← pass s upd w ⟨st.kappa, cfg.delta, cfg.theta, none⟩ i st.base.compute
      st.base.x st.mem
    let next := nextInner s w cfg iter remaining st.kappa
    let st := st.after ⟨false, visits w i st.mem st.base.compute, st.kappa, st.mem,
      st.base.compute, st.base.x, remaining, c, x, next⟩ m
    if remaining = 0 then
      .ok { st with base := { st.base with best := storeValue t st.base.best x (results o x) } }
    else if st.kappa > cfg.kappaMax then .ok st
    else if late st.base.passes then .ok st
    else pushInner s upd { w with timeUp := late } cfg t o n (iter + 1) st) := rfl

theorem pushLoop_step (n : Nat) (st : State) :
    pushLoop s upd { w with timeUp := late } cfg t o (n + 1) st = (do
    let i := st.base.passes
    let cmp := if st.base.compute.useCycle then
        { st.base.compute with order := nextState st.base.compute.order } else st.base.compute
    let kappa := w.rnd (cfg.kFactor * st.kappa)
    let (remaining, c, x, m) ← pass s upd w ⟨kappa, cfg.delta, cfg.theta, some cfg.amplifier⟩ i cmp
      st.base.x st.mem
    let st := st.after ⟨true, visits w i st.mem cmp, kappa, st.mem, cmp, st.base.x, remaining,
      c, x, st.kappa⟩ m
    let st :=
      if remaining = 0 then
        { st with base := { st.base with best := storeValue t st.base.best x (results o x) } }
      else st
    if late st.base.passes then .ok st
    else do
      let st ← pushInner s upd { w with timeUp := late } cfg t o cfg.pushIter 0 st
      pushLoop s upd { w with timeUp := late } cfg t o n st) := rfl

/-! ## The loops only add vectors -/

/-- `b` comes after `a`. -/
def After (a b : State) : Prop :=
  a.base.trace <+: b.base.trace ∧
    (a.base.trace.length = a.base.passes → b.base.trace.length = b.base.passes) ∧
    a.base.passes ≤ b.base.passes

theorem After.refl (a : State) : After a a := ⟨List.prefix_refl _, id, Nat.le_refl _⟩

theorem After.trans {a b c : State} (h1 : After a b) (h2 : After b c) : After a c :=
  ⟨h1.1.trans h2.1, fun h => h2.2.1 (h1.2.1 h), Nat.le_trans h1.2.2 h2.2.2⟩

theorem After.pass {a : State} {v : Visit} {m : Mem} {b : State} (h : Same b (a.after v m)) : After a b := by
  refine ⟨?_, fun hl => ?_, ?_⟩
  · rw [h.trace]; exact List.prefix_append _ _
  · rw [h.trace, h.passes]; simp [State.after, hl]
  · rw [h.passes]; exact Nat.le_succ _

theorem mainLoop_after (n : Nat) (st st' : State) (e : Exit)
    (h : mainLoop s upd w cfg t o n st = .ok (st', e)) : After st st' :=
  mainLoop_inv (I := After st) (J := After st)
    (fun _ _ _ _ hi _ _ hsame => ⟨hi.trans (.pass hsame), fun _ _ => hi.trans (.pass hsame)⟩)
    n st st' e h (.refl _) (.refl _)

theorem pushInner_after (n iter : Nat) (st st' : State)
    (h : pushInner s upd w cfg t o n iter st = .ok st') : After st st' :=
  pushInner_inv (I := fun _ => After st) (J := After st)
    (fun _ _ _ _ _ hi _ _ hsame => ⟨hi.trans (.pass hsame), fun _ _ => hi.trans (.pass hsame)⟩)
    n iter st st' h (.refl _) (.refl _)

theorem pushLoop_after (n : Nat) (st st' : State)
    (h : pushLoop s upd w cfg t o n st = .ok st') : After st st' :=
  pushLoop_inv (I := fun _ => After st) (J := After st)
    (fun _ _ _ _ hi _ _ hsame => ⟨hi.trans (.pass hsame), hi.trans (.pass hsame)⟩)
    (fun _ _ _ _ _ hi _ _ hsame => ⟨hi.trans (.pass hsame), fun _ _ => hi.trans (.pass hsame)⟩)
    n st st' h (.refl _)

/-! ## Two clocks -/

theorem mainLoop_clock (hle : ∀ k, late k = true → w.timeUp k = true) : ∀ (n : Nat) (st st1 st2 : State)
    (e1 e2 : Exit), mainLoop s upd w cfg t o n st = .ok (st1, e1) →
    mainLoop s upd { w with timeUp := late } cfg t o n st = .ok (st2, e2) →
    (st1 = st2 ∧ e1 = e2) ∨ (e1 = .time ∧ 0 < st1.base.passes ∧ w.timeUp st1.base.passes = true ∧ After st1 st2)
  | 0, st, st1, st2, e1, e2, h1, h2 => by
    have h1 := Except.ok.inj h1
    have h2 := Except.ok.inj h2
    rw [h1] at h2
    exact Or.inl (Prod.mk.inj h2)
  | n + 1, st, st1, st2, e1, e2, h1, h2 => by
    rw [mainLoop_step] at h2
    unfold mainLoop at h1
    obtain ⟨⟨rem, c, x, m⟩, hp, h1⟩ := bind_eq_ok.mp h1
    obtain ⟨_, hp', h2⟩ := bind_eq_ok.mp h2
    obtain rfl := Except.ok.inj (hp.symm.trans hp')
    clear hp'
    simp only at h1 h2
    by_cases hz : rem = 0
    · rw [if_pos hz] at h1 h2
      have h1 := Except.ok.inj h1
      have h2 := Except.ok.inj h2
      rw [h1] at h2
      exact Or.inl (Prod.mk.inj h2)
    · rw [if_neg hz] at h1 h2
      generalize hst' : (if ltInt rem _ = true then _ else _ : State) = st' at h1 h2
      have hpos : 0 < st'.base.passes := by
        rw [← hst']
        split <;> exact Nat.succ_pos _
      by_cases hk : st'.kappa > cfg.kappaMax
      · rw [if_pos hk] at h1 h2
        have h1 := Except.ok.inj h1
        have h2 := Except.ok.inj h2
        rw [h1] at h2
        exact Or.inl (Prod.mk.inj h2)
      · rw [if_neg hk] at h1 h2
        by_cases ht : w.timeUp st'.base.passes = true
        · rw [if_pos ht] at h1
          have h1 := Except.ok.inj h1
          simp only [Prod.mk.injEq] at h1
          obtain ⟨rfl, rfl⟩ := h1
          refine Or.inr ⟨rfl, hpos, ht, ?_⟩
          split at h2
          · have h2 := Except.ok.inj h2
            simp only [Prod.mk.injEq] at h2
            rw [← h2.1]; exact .refl _
          · exact mainLoop_after _ _ _ _ h2
        · rw [if_neg ht] at h1
          rw [if_neg fun hc => ht (hle _ hc)] at h2
          exact mainLoop_clock hle n st' st1 st2 e1 e2 h1 h2

theorem pushInner_clock (hle : ∀ k, late k = true → w.timeUp k = true) : ∀ (n iter : Nat) (st st1 st2 : State),
    pushInner s upd w cfg t o n iter st = .ok st1 →
    pushInner s upd { w with timeUp := late } cfg t o n iter st = .ok st2 →
    st1 = st2 ∨ (w.timeUp st1.base.passes = true ∧ After st1 st2)
  | 0, iter, st, st1, st2, h1, h2 => by
    have h1 := Except.ok.inj h1
    have h2 := Except.ok.inj h2
    exact Or.inl (h1.symm.trans h2)
  | n + 1, iter, st, st1, st2, h1, h2 => by
    rw [pushInner_step] at h2
    unfold pushInner at h1
    obtain ⟨⟨rem, c, x, m⟩, hp, h1⟩ := bind_eq_ok.mp h1
    obtain ⟨_, hp', h2⟩ := bind_eq_ok.mp h2
    obtain rfl := Except.ok.inj (hp.symm.trans hp')
    clear hp'
    simp only at h1 h2
    by_cases hz : rem = 0
    · rw [if_pos hz] at h1 h2
      exact Or.inl ((Except.ok.inj h1).symm.trans (Except.ok.inj h2))
    · rw [if_neg hz] at h1 h2
      generalize st.after _ m = st' at h1 h2
      by_cases hk : st'.kappa > cfg.kappaMax
      · rw [if_pos hk] at h1 h2
        exact Or.inl ((Except.ok.inj h1).symm.trans (Except.ok.inj h2))
      · rw [if_neg hk] at h1 h2
        by_cases ht : w.timeUp st'.base.passes = true
        · rw [if_pos ht] at h1
          have h1 := Except.ok.inj h1
          subst h1
          refine Or.inr ⟨ht, ?_⟩
          split at h2
          · rw [← Except.ok.inj h2]; exact .refl _
          · exact pushInner_after _ _ _ _ h2
        · rw [if_neg ht] at h1
          rw [if_neg fun hc => ht (hle _ hc)] at h2
          exact pushInner_clock hle n (iter + 1) st' st1 st2 h1 h2

/-- The runs of the push phase are equal, or they share the vectors until the time is over. -/
theorem pushLoop_clock (hle : ∀ k, late k = true → w.timeUp k = true) : ∀ (n : Nat) (st st1 st2 : State),
    pushLoop s upd w cfg t o n st = .ok st1 →
    pushLoop s upd { w with timeUp := late } cfg t o n st = .ok st2 →
    st1 = st2 ∨ ∃ sh, After st sh ∧ 0 < sh.base.passes ∧ w.timeUp sh.base.passes = true ∧ After sh st1 ∧ After sh st2
  | 0, st, st1, st2, h1, h2 => by
    exact Or.inl ((Except.ok.inj h1).symm.trans (Except.ok.inj h2))
  | n + 1, st, st1, st2, h1, h2 => by
    rw [pushLoop_step] at h2
    unfold pushLoop at h1
    obtain ⟨⟨rem, c, x, m⟩, hp, h1⟩ := bind_eq_ok.mp h1
    obtain ⟨_, hp', h2⟩ := bind_eq_ok.mp h2
    obtain rfl := Except.ok.inj (hp.symm.trans hp')
    clear hp'
    simp only at h1 h2
    generalize hcmp : (if st.base.compute.useCycle = true then
      ({ st.base.compute with order := nextState st.base.compute.order } : Compute)
      else st.base.compute) = cmp at h1 h2
    generalize hst' : (if rem = 0 then _ else _ : State) = st' at h1 h2
    have hpos : 0 < st'.base.passes := by
      rw [← hst']
      split <;> exact Nat.succ_pos _
    have haft : After st st' := by
      refine .pass (v := ⟨true, visits w st.base.passes st.mem cmp,
        w.rnd (cfg.kFactor * st.kappa), st.mem, cmp, st.base.x, rem, c, x, st.kappa⟩) (m := m) ?_
      rw [← hst']
      split <;> exact ⟨rfl, rfl, rfl, rfl, rfl, rfl, rfl⟩
    by_cases ht : w.timeUp st'.base.passes = true
    · rw [if_pos ht] at h1
      have h1 := Except.ok.inj h1
      subst h1
      refine Or.inr ⟨_, haft, hpos, ht, .refl _, ?_⟩
      split at h2
      · rw [← Except.ok.inj h2]; exact .refl _
      · obtain ⟨st3, h3, h2⟩ := bind_eq_ok.mp h2
        exact (pushInner_after _ _ _ _ h3).trans (pushLoop_after _ _ _ h2)
    · rw [if_neg ht] at h1
      rw [if_neg fun hc => ht (hle _ hc)] at h2
      obtain ⟨st3, h3, h1⟩ := bind_eq_ok.mp h1
      obtain ⟨st4, h4, h2⟩ := bind_eq_ok.mp h2
      have hin := pushInner_after _ _ _ _ h3
      have haft3 := haft.trans hin
      rcases pushInner_clock hle _ _ _ _ _ h3 h4 with rfl | ⟨g1, g2⟩
      · rcases pushLoop_clock hle n st3 st1 st2 h1 h2 with h | ⟨sh, k1, k0, k2, k3, k4⟩
        · exact Or.inl h
        · exact Or.inr ⟨sh, haft3.trans k1, k0, k2, k3, k4⟩
      · exact Or.inr ⟨st3, haft3, Nat.lt_of_lt_of_le hpos hin.2.2, g1, pushLoop_after _ _ _ h1, g2.trans (pushLoop_after _ _ _ h2)⟩

/-! ## The whole runs -/

/-- What two runs that differ by the clock share. -/
theorem functor_clock {kind : SolverType} {upd : Slv → Upd Ω} {csts : List Merged} {n : Nat}
    {a a' : Answer} {st st' : State} (hle : ∀ k, late k = true → w.timeUp k = true)
    (h : functor kind upd w cfg t o csts n = .ok (a, st))
    (h' : functor kind upd { w with timeUp := late } cfg t o csts n = .ok (a', st')) :
    (∀ k y, InTime w.timeUp k → a.final.trace[k]? = some y → a'.final.trace[k]? = some y) ∧
    (a.exit = .found → a'.exit = .found ∧ a'.mainPasses = a.mainPasses ∧
      ∀ k, k < a.mainPasses → a'.final.trace[k]? = a.final.trace[k]?) ∧
    (a.exit ≠ .found → a.final.trace <+: a'.final.trace) := by
  obtain ⟨s, c, st1, e, hs, hc, hm, hp, rfl⟩ := functor_cases h
  obtain ⟨s', c', st2, e', hs', hc', hm', hp', rfl⟩ := functor_cases h'
  obtain rfl := Except.ok.inj (hs.symm.trans hs')
  obtain rfl := Except.ok.inj (hc.symm.trans hc')
  have hm' : mainLoop s (upd s) { w with timeUp := late } cfg t o cfg.limit (start w cfg c) =
    .ok (st2, e') := hm'
  have hA := mainLoop_after _ _ _ _ hm
  have hlen := hA.2.1 rfl
  have hpref : ∀ {sh u v : State}, sh.base.trace.length = sh.base.passes → 0 < sh.base.passes →
      w.timeUp sh.base.passes = true → After sh u → After sh v →
      ∀ k y, InTime w.timeUp k → u.base.trace[k]? = some y → v.base.trace[k]? = some y := by
    intro sh u v hl hpos hup hu hv k y hk hy
    have hlt : k < sh.base.trace.length := by
      refine Nat.lt_of_not_le fun hge => ?_
      have := hk _ hpos (by omega)
      rw [hup] at this
      exact absurd this (by simp)
    obtain ⟨l1, e1⟩ := hu.1
    obtain ⟨l2, e2⟩ := hv.1
    rw [← e1, List.getElem?_append_left hlt] at hy
    rw [← e2, List.getElem?_append_left hlt]
    exact hy
  dsimp only
  rcases mainLoop_clock hle _ _ _ _ _ _ hm hm' with ⟨rfl, rfl⟩ | ⟨rfl, hpos, hup, haft⟩
  · by_cases he : e = .found
    · rw [if_pos he] at hp hp'
      refine ⟨?_, fun _ => ⟨he, rfl, fun k hk => ?_⟩, fun hne => absurd he hne⟩
      rotate_left
      · obtain ⟨l1, e1⟩ := (pushLoop_after _ _ _ hp).1
        obtain ⟨l2, e2⟩ := (pushLoop_after _ _ _ hp').1
        rw [← e1, ← e2, List.getElem?_append_left (by omega), List.getElem?_append_left (by omega)]
      rcases pushLoop_clock hle _ _ _ _ hp hp' with rfl | ⟨sh, k1, k2, k3, k4, k5⟩
      · exact fun _ _ _ h => h
      · exact hpref (k1.2.1 hlen) k2 k3 k4 k5
    · rw [if_neg he] at hp hp'
      obtain rfl := Except.ok.inj hp
      obtain rfl := Except.ok.inj hp'
      exact ⟨fun _ _ _ h => h, fun h => absurd h he, fun _ => List.prefix_refl _⟩
  · rw [if_neg (by simp)] at hp
    obtain rfl := Except.ok.inj hp
    have haft' : After st1 st' := by
      refine haft.trans ?_
      split at hp'
      · exact pushLoop_after _ _ _ hp'
      · rw [← Except.ok.inj hp']; exact .refl _
    exact ⟨hpref hlen hpos hup (.refl _) haft', fun h => absurd h (by simp), fun _ => haft'.1⟩

/-! ## Two limits -/

theorem mainLoop_limit (d : Nat) : ∀ (n : Nat) (st st1 st2 : State) (e1 e2 : Exit),
    mainLoop s upd w cfg t o n st = .ok (st1, e1) → mainLoop s upd w cfg t o (n + d) st = .ok (st2, e2) →
    (st1 = st2 ∧ e1 = e2) ∨ (e1 = .limit ∧ After st1 st2)
  | 0, st, st1, st2, e1, e2, h1, h2 => by
    have h1 := Except.ok.inj h1
    simp only [Prod.mk.injEq] at h1
    obtain ⟨rfl, rfl⟩ := h1
    exact Or.inr ⟨rfl, mainLoop_after _ _ _ _ h2⟩
  | n + 1, st, st1, st2, e1, e2, h1, h2 => by
    rw [Nat.add_right_comm] at h2
    unfold mainLoop at h1 h2
    obtain ⟨⟨rem, c, x, m⟩, hp, h1⟩ := bind_eq_ok.mp h1
    obtain ⟨_, hp', h2⟩ := bind_eq_ok.mp h2
    obtain rfl := Except.ok.inj (hp.symm.trans hp')
    clear hp'
    simp only at h1 h2
    have same : ∀ {p : State × Exit}, (Except.ok p : Outcome (State × Exit)) = .ok (st1, e1) →
        (Except.ok p : Outcome (State × Exit)) = .ok (st2, e2) → st1 = st2 ∧ e1 = e2 := by
      intro p g1 g2
      exact Prod.mk.inj ((Except.ok.inj g1).symm.trans (Except.ok.inj g2))
    by_cases hz : rem = 0
    · rw [if_pos hz] at h1 h2
      exact Or.inl (same h1 h2)
    · rw [if_neg hz] at h1 h2
      generalize (if ltInt rem _ = true then _ else _ : State) = st' at h1 h2
      by_cases hk : st'.kappa > cfg.kappaMax
      · rw [if_pos hk] at h1 h2
        exact Or.inl (same h1 h2)
      · rw [if_neg hk] at h1 h2
        by_cases ht : w.timeUp st'.base.passes = true
        · rw [if_pos ht] at h1 h2
          exact Or.inl (same h1 h2)
        · rw [if_neg ht] at h1 h2
          exact mainLoop_limit d n st' st1 st2 e1 e2 h1 h2

theorem pushLoop_limit (d : Nat) : ∀ (n : Nat) (st st1 st2 : State),
    pushLoop s upd w cfg t o n st = .ok st1 → pushLoop s upd w cfg t o (n + d) st = .ok st2 → After st1 st2
  | 0, st, st1, st2, h1, h2 => by
    obtain rfl := Except.ok.inj h1
    exact pushLoop_after _ _ _ h2
  | n + 1, st, st1, st2, h1, h2 => by
    rw [Nat.add_right_comm] at h2
    unfold pushLoop at h1 h2
    obtain ⟨⟨rem, c, x, m⟩, hp, h1⟩ := bind_eq_ok.mp h1
    obtain ⟨_, hp', h2⟩ := bind_eq_ok.mp h2
    obtain rfl := Except.ok.inj (hp.symm.trans hp')
    clear hp'
    simp only at h1 h2
    generalize (if st.base.compute.useCycle = true then
      ({ st.base.compute with order := nextState st.base.compute.order } : Compute)
      else st.base.compute) = cmp at h1 h2
    generalize (if rem = 0 then _ else _ : State) = st' at h1 h2
    by_cases ht : w.timeUp st'.base.passes = true
    · rw [if_pos ht] at h1 h2
      obtain rfl := Except.ok.inj (h1.symm.trans h2)
      exact .refl _
    · rw [if_neg ht] at h1 h2
      obtain ⟨st3, h3, h1⟩ := bind_eq_ok.mp h1
      obtain ⟨st4, h4, h2⟩ := bind_eq_ok.mp h2
      obtain rfl := Except.ok.inj (h3.symm.trans h4)
      exact pushLoop_limit d n st3 st1 st2 h1 h2

/-- The limits are only read by the calls of the loops. -/
theorem mainLoop_cfg (L P : Nat) : ∀ (n : Nat) (st : State),
    mainLoop s upd w { cfg with limit := L, pushes := P } t o n st = mainLoop s upd w cfg t o n st
  | 0, _ => rfl
  | n + 1, st => by
    unfold mainLoop
    simp only [mainLoop_cfg L P n]
    rfl

theorem pushInner_cfg (L P : Nat) : ∀ (n iter : Nat) (st : State),
    pushInner s upd w { cfg with limit := L, pushes := P } t o n iter st = pushInner s upd w cfg t o n iter st
  | 0, _, _ => rfl
  | n + 1, iter, st => by
    unfold pushInner
    simp only [pushInner_cfg L P n]
    rfl

theorem pushLoop_cfg (L P : Nat) : ∀ (n : Nat) (st : State),
    pushLoop s upd w { cfg with limit := L, pushes := P } t o n st = pushLoop s upd w cfg t o n st
  | 0, _ => rfl
  | n + 1, st => by
    unfold pushLoop
    simp only [pushLoop_cfg L P n, pushInner_cfg L P]

/-- What two runs that differ by the limits share. -/
theorem functor_limits {kind : SolverType} {upd : Slv → Upd Ω} {csts : List Merged} {n : Nat}
    {a a' : Answer} {st st' : State} {L P : Nat} (hL : cfg.limit ≤ L) (hP : cfg.pushes ≤ P)
    (h : functor kind upd w cfg t o csts n = .ok (a, st))
    (h' : functor kind upd w { cfg with limit := L, pushes := P } t o csts n = .ok (a', st')) :
    a.final.trace <+: a'.final.trace ∧
    (a.exit = .found → a'.exit = .found ∧ a'.mainPasses = a.mainPasses ∧
      (P = cfg.pushes → a' = a)) := by
  obtain ⟨s, c, st1, e, hs, hc, hm, hp, rfl⟩ := functor_cases h
  obtain ⟨s', c', st2, e', hs', hc', hm', hp', rfl⟩ := functor_cases h'
  obtain rfl := Except.ok.inj (hs.symm.trans hs')
  obtain rfl := Except.ok.inj (hc.symm.trans hc')
  obtain ⟨d, rfl⟩ := Nat.exists_eq_add_of_le hL
  obtain ⟨d', rfl⟩ := Nat.exists_eq_add_of_le hP
  rw [mainLoop_cfg] at hm'
  simp only [pushLoop_cfg] at hp'
  have hm' : mainLoop s (upd s) w cfg t o (cfg.limit + d) (start w cfg c) = .ok (st2, e') := hm'
  dsimp only
  rcases mainLoop_limit d _ _ _ _ _ _ hm hm' with ⟨rfl, rfl⟩ | ⟨rfl, haft⟩
  · by_cases he : e = .found
    · rw [if_pos he] at hp hp'
      refine ⟨(pushLoop_limit d' _ _ _ _ hp hp').1, fun _ => ⟨he, rfl, fun hpu => ?_⟩⟩
      rw [hpu] at hp'
      obtain rfl := Except.ok.inj (hp.symm.trans hp')
      rfl
    · rw [if_neg he] at hp hp'
      obtain rfl := Except.ok.inj hp
      obtain rfl := Except.ok.inj hp'
      exact ⟨List.prefix_refl _, fun h => absurd h he⟩
  · rw [if_neg (by simp)] at hp
    obtain rfl := Except.ok.inj hp
    have haft' : After st1 st' := by
      refine haft.trans ?_
      split at hp'
      · exact pushLoop_after _ _ _ hp'
      · rw [← Except.ok.inj hp']; exact .refl _
    exact ⟨haft'.1, fun h => absurd h (by simp)⟩

/-! ## Two values of `kappa-max` -/

theorem mainLoop_kappa {K : Rat} (hK : cfg.kappaMax ≤ K) : ∀ (n : Nat) (st st1 st2 : State) (e1 e2 : Exit),
    mainLoop s upd w cfg t o n st = .ok (st1, e1) →
    mainLoop s upd w { cfg with kappaMax := K } t o n st = .ok (st2, e2) →
    (st1 = st2 ∧ e1 = e2) ∨ (e1 = .kappa ∧ After st1 st2)
  | 0, st, st1, st2, e1, e2, h1, h2 => by
    have h1 := Except.ok.inj h1
    have h2 := Except.ok.inj h2
    rw [h1] at h2
    exact Or.inl (Prod.mk.inj h2)
  | n + 1, st, st1, st2, e1, e2, h1, h2 => by
    unfold mainLoop at h1 h2
    obtain ⟨⟨rem, c, x, m⟩, hp, h1⟩ := bind_eq_ok.mp h1
    obtain ⟨_, hp', h2⟩ := bind_eq_ok.mp h2
    obtain rfl := Except.ok.inj (hp.symm.trans hp')
    clear hp'
    simp only at h1 h2
    have hnext : nextMain s w { cfg with kappaMax := K } st.base.passes rem st.kappa =
      nextMain s w cfg st.base.passes rem st.kappa := rfl
    rw [hnext] at h2
    have same : ∀ {p : State × Exit}, (Except.ok p : Outcome (State × Exit)) = .ok (st1, e1) →
        (Except.ok p : Outcome (State × Exit)) = .ok (st2, e2) → st1 = st2 ∧ e1 = e2 := by
      intro p g1 g2
      exact Prod.mk.inj ((Except.ok.inj g1).symm.trans (Except.ok.inj g2))
    by_cases hz : rem = 0
    · rw [if_pos hz] at h1 h2
      exact Or.inl (same h1 h2)
    · rw [if_neg hz] at h1 h2
      generalize (if ltInt rem _ = true then _ else _ : State) = st' at h1 h2
      by_cases hk : st'.kappa > cfg.kappaMax
      · rw [if_pos hk] at h1
        have h1 := Except.ok.inj h1
        simp only [Prod.mk.injEq] at h1
        obtain ⟨rfl, rfl⟩ := h1
        refine Or.inr ⟨rfl, ?_⟩
        split at h2
        · have h2 := Except.ok.inj h2
          simp only [Prod.mk.injEq] at h2
          rw [← h2.1]; exact .refl _
        · split at h2
          · have h2 := Except.ok.inj h2
            simp only [Prod.mk.injEq] at h2
            rw [← h2.1]; exact .refl _
          · exact mainLoop_after _ _ _ _ h2
      · have hk' : ¬ st'.kappa > K := fun hc => hk (lt_of_le_of_lt hK hc)
        rw [if_neg hk] at h1
        rw [if_neg hk'] at h2
        by_cases ht : w.timeUp st'.base.passes = true
        · rw [if_pos ht] at h1 h2
          exact Or.inl (same h1 h2)
        · rw [if_neg ht] at h1 h2
          exact mainLoop_kappa hK n st' st1 st2 e1 e2 h1 h2

/-- What two runs that differ by `kappa-max` share. -/
theorem functor_kappa {kind : SolverType} {upd : Slv → Upd Ω} {csts : List Merged} {n : Nat}
    {a a' : Answer} {st st' : State} {K : Rat} (hK : cfg.kappaMax ≤ K)
    (h : functor kind upd w cfg t o csts n = .ok (a, st))
    (h' : functor kind upd w { cfg with kappaMax := K } t o csts n = .ok (a', st')) :
    (a.exit = .found → a'.exit = .found ∧ a'.mainPasses = a.mainPasses ∧
      ∀ k, k < a.mainPasses → a'.final.trace[k]? = a.final.trace[k]?) ∧
    (a.exit ≠ .found → a.final.trace <+: a'.final.trace) := by
  obtain ⟨s, c, st1, e, hs, hc, hm, hp, rfl⟩ := functor_cases h
  obtain ⟨s', c', st2, e', hs', hc', hm', hp', rfl⟩ := functor_cases h'
  obtain rfl := Except.ok.inj (hs.symm.trans hs')
  obtain rfl := Except.ok.inj (hc.symm.trans hc')
  have hm' : mainLoop s (upd s) w { cfg with kappaMax := K } t o cfg.limit (start w cfg c) =
    .ok (st2, e') := hm'
  have hlen := (mainLoop_after _ _ _ _ hm).2.1 rfl
  dsimp only
  rcases mainLoop_kappa hK _ _ _ _ _ _ hm hm' with ⟨rfl, rfl⟩ | ⟨rfl, haft⟩
  · by_cases he : e = .found
    · rw [if_pos he] at hp hp'
      refine ⟨fun _ => ⟨he, rfl, fun k hk => ?_⟩, fun hne => absurd he hne⟩
      obtain ⟨l1, e1⟩ := (pushLoop_after _ _ _ hp).1
      obtain ⟨l2, e2⟩ := (pushLoop_after _ _ _ hp').1
      rw [← e1, ← e2, List.getElem?_append_left (by omega), List.getElem?_append_left (by omega)]
    · rw [if_neg he] at hp hp'
      obtain rfl := Except.ok.inj hp
      obtain rfl := Except.ok.inj hp'
      exact ⟨fun h => absurd h he, fun _ => List.prefix_refl _⟩
  · rw [if_neg (by simp)] at hp
    obtain rfl := Except.ok.inj hp
    have haft' : After st1 st' := by
      refine haft.trans ?_
      split at hp'
      · exact pushLoop_after _ _ _ hp'
      · rw [← Except.ok.inj hp']; exact .refl _
    exact ⟨fun h => absurd h (by simp), fun _ => haft'.1⟩

end Bx.Num
