import Verif.Model.Numeric
import Verif.Proofs.Solve
import Verif.Proofs.Multipliers

/-! Helper lemmas on the solving loop with its numbers: it is one of the runs of
`Verif.Model.Solve`. -/

namespace Bx.Num

open Merge SolverCtor Spec Itm Mult

variable {Ω : Type}

/-! ## A pass -/

/-- Each update with its numbers is an update of `Verif.Model.Solve`, for a choice that `Q` accepts. -/
structure Sim {ρ : Type} (upd : Upd Ω) (w : World Ω) (updA : ρ → Nat → Assign → Outcome Assign)
    (Q : ρ → Prop) : Prop where
  dflt : ∃ ch, Q ch
  step : ∀ t i p k x m x' m', upd (w.oracle t i) p k x m = .ok (x', m') →
    ∃ ch, Q ch ∧ updA ch k x = .ok x'

theorem updateRows_congr {ρ : Type} {upd : ρ → Nat → Assign → Outcome Assign} {r1 r2 : Nat → ρ} :
    ∀ (l : List Nat) (i : Nat) (x : Assign), (∀ j, i ≤ j → r1 j = r2 j) →
      updateRows upd r1 i l x = updateRows upd r2 i l x
  | [], _, _, _ => rfl
  | k :: l, i, x, h => by
    unfold updateRows
    rw [h i (Nat.le_refl _)]
    cases upd (r2 i) k x with
    | error f => rfl
    | ok y => exact updateRows_congr l (i + 1) y fun j hj => h j (by omega)

theorem rows_sim {ρ : Type} {upd : Upd Ω} {w : World Ω} {updA : ρ → Nat → Assign → Outcome Assign}
    {Q : ρ → Prop} (hs : Sim upd w updA Q) {t : Nat} {p : Param} :
    ∀ (l : List Nat) (i : Nat) (x : Assign) (m : Mem) (x' : Assign) (m' : Mem),
    rows upd (w.oracle t) p i l x m = .ok (x', m') →
    ∃ row : Nat → ρ, (∀ j, Q (row j)) ∧ updateRows updA row i l x = .ok x'
  | [], i, x, m, x', m', h => by
    have h := Except.ok.inj h
    simp only [Prod.mk.injEq] at h
    obtain ⟨ch, hch⟩ := hs.dflt
    exact ⟨fun _ => ch, fun _ => hch, by rw [← h.1]; rfl⟩
  | k :: l, i, x, m, x', m', h => by
    unfold rows at h
    obtain ⟨⟨y, m1⟩, h1, h⟩ := bind_eq_ok.mp h
    obtain ⟨ch, hq, hch⟩ := hs.step _ _ _ _ _ _ _ _ h1
    obtain ⟨row, hr1, hr2⟩ := rows_sim hs l (i + 1) y m1 x' m' h
    refine ⟨fun j => if j = i then ch else row j, fun j => ?_, ?_⟩
    · by_cases hj : j = i
      · simpa [hj] using hq
      · simpa [hj] using hr1 j
    · unfold updateRows
      simp only [if_true]
      rw [hch, ok_bind, updateRows_congr (r2 := row) l (i + 1) y]
      · exact hr2
      · intro j hj
        rw [if_neg (by omega)]

theorem pass_run {ρ : Type} {upd : Upd Ω} {w : World Ω} {updA : ρ → Nat → Assign → Outcome Assign}
    {Q : ρ → Prop} (hs : Sim upd w updA Q) {ok : Ω → Prop} (hw : w.Ok ok) {s : Slv} {p : Param}
    {t : Nat} {c : Compute} {x : Assign} {m : Mem} {rem : Nat} {c' : Compute} {x' : Assign} {m' : Mem}
    (h : pass s upd w p t c x m = .ok (rem, c', x', m')) :
    ∃ P : Pass ρ, P.Ok ∧ (∀ i, Q (P.row i)) ∧ run s updA P c x = .ok (rem, c', x') := by
  unfold pass at h
  obtain ⟨⟨y, m1⟩, h1, h⟩ := bind_eq_ok.mp h
  obtain ⟨row, hr1, hr2⟩ := rows_sim hs _ _ _ _ _ _ h1
  have key : ∀ (perm : List Nat → List Nat) (permO : List (Nat × Int) → List (Nat × Int)),
      (∀ l, (perm l).Perm l) → (∀ l, (permO l).Perm l) →
      run s updA ⟨perm, permO, row⟩ c x = .ok (rem, c', x') →
      ∃ P : Pass ρ, P.Ok ∧ (∀ i, Q (P.row i)) ∧ run s updA P c x = .ok (rem, c', x') :=
    fun perm permO g1 g2 g3 => ⟨⟨perm, permO, row⟩, ⟨g1, g2⟩, hr1, g3⟩
  have fin : ∀ {α : Type} {e : Outcome α} {f : α → Nat × Compute},
      (do let d ← e; Except.ok ((f d).1, (f d).2, y, m1)) =
        (Except.ok (rem, c', x', m') : Outcome (Nat × Compute × Assign × Mem)) →
      (do let d ← e; Except.ok ((f d).1, (f d).2, y)) =
        (Except.ok (rem, c', x') : Outcome (Nat × Compute × Assign)) := by
    intro α e f hh
    obtain ⟨d, hd, hh⟩ := bind_eq_ok.mp hh
    have hh := Except.ok.inj hh
    simp only [Prod.mk.injEq] at hh
    obtain ⟨e1, e2, e3, _⟩ := hh
    rw [hd, ok_bind, e1, e2, e3]
  have pid : ∀ l : List Nat, (id l).Perm l := fun l => List.Perm.refl l
  have pidO : ∀ l : List (Nat × Int), (id l).Perm l := fun l => List.Perm.refl l
  obtain ⟨R, mO, ord, uc⟩ := c
  cases ord <;> dsimp only [visits] at h hr2
  case none =>
    refine key id id pid pidO ?_
    unfold run; dsimp only; rw [hr2, ok_bind]
    exact fin (f := fun r => (r.length, ⟨r, mO, .none, uc⟩)) h
  case cycle =>
    refine key id id pid pidO ?_
    unfold run; dsimp only; rw [hr2, ok_bind]
    exact fin (f := fun r => (r.length, ⟨r, mO, .cycle, uc⟩)) h
  case reversing =>
    refine key id id pid pidO ?_
    unfold run; dsimp only; rw [hr2, ok_bind]
    exact fin (f := fun r => (r.length, ⟨r, mO, .reversing, uc⟩)) h
  case randomSorting =>
    refine key (w.shuffle t) id (hw.shuffle t) pidO ?_
    unfold run; dsimp only; rw [hr2, ok_bind]
    exact fin (f := fun r => (r.length, ⟨r, mO, .randomSorting, uc⟩)) h
  case lagrangianDecr =>
    refine key (w.sortR t fun k => -m.pi k) id (fun l => (hw.sortR t _ l).1) pidO ?_
    unfold run; dsimp only; rw [hr2, ok_bind]
    exact fin (f := fun r => (r.length, ⟨r, mO, .lagrangianDecr, uc⟩)) h
  case lagrangianIncr =>
    refine key (w.sortR t fun k => m.pi k) id (fun l => (hw.sortR t _ l).1) pidO ?_
    unfold run; dsimp only; rw [hr2, ok_bind]
    exact fin (f := fun r => (r.length, ⟨r, mO, .lagrangianIncr, uc⟩)) h
  case infeasibilityDecr =>
    refine key id (w.sortO t fun q => -q.2) pid (fun l => (hw.sortO t _ l).1) ?_
    unfold run; dsimp only; rw [hr2, ok_bind]
    exact fin (f := fun d => (d.length, ⟨R, d, .infeasibilityDecr, uc⟩)) h
  case infeasibilityIncr =>
    refine key id (w.sortO t fun q => q.2) pid (fun l => (hw.sortO t _ l).1) ?_
    unfold run; dsimp only; rw [hr2, ok_bind]
    exact fin (f := fun d => (d.length, ⟨R, d, .infeasibilityIncr, uc⟩)) h
  case piSignChange =>
    refine key (w.shuffle t) id (hw.shuffle t) pidO ?_
    unfold run; dsimp only; rw [hr2, ok_bind]
    exact fin (f := fun n => (n, ⟨w.shuffle t R, mO, .piSignChange, uc⟩)) h

/-! ## The loops -/

/-- What one pass of the loop is: `v` describes it, and the memory is `m` after it. -/
structure IsPass (s : Slv) (upd : Upd Ω) (w : World Ω) (cfg : Cfg) (push : Bool) (st : State) (v : Visit)
    (m : Mem) : Prop where
  passEq : pass s upd w ⟨v.kappa, cfg.delta, cfg.theta, if push then some cfg.amplifier else none⟩
    st.base.passes v.compute v.x st.mem = .ok (v.remaining, v.compute', v.x', m)
  isPush : v.push = push
  kappa : v.kappa = if push then w.rnd (cfg.kFactor * st.kappa) else st.kappa
  mem : v.mem = st.mem
  x : v.x = st.base.x
  compute : v.compute = if push && st.base.compute.useCycle then
    { st.base.compute with order := nextState st.base.compute.order } else st.base.compute
  rows : v.rows = visits w st.base.passes st.mem v.compute

/-- The same state but for the solutions stored. -/
structure Same (a b : State) : Prop where
  mem : a.mem = b.mem
  kappa : a.kappa = b.kappa
  log : a.log = b.log
  compute : a.base.compute = b.base.compute
  x : a.base.x = b.base.x
  passes : a.base.passes = b.base.passes
  trace : a.base.trace = b.base.trace

theorem Same.rfl' {a : State} : Same a a := ⟨rfl, rfl, rfl, rfl, rfl, rfl, rfl⟩

section Loops

variable {s : Slv} {upd : Upd Ω} {w : World Ω} {cfg : Cfg} {t : ObjType} {o : Objective}

/-- An invariant of the main loop: `I` at the head of the loop and `J` at its end. -/
theorem mainLoop_inv (I J : State → Prop)
    (step : ∀ st v m st1, I st → IsPass s upd w cfg false st v m →
      v.next = nextMain s w cfg st.base.passes v.remaining st.kappa → Same st1 (st.after v m) →
      J st1 ∧ (v.remaining ≠ 0 → ¬ v.next > cfg.kappaMax → I st1)) :
    ∀ (n : Nat) (st st' : State) (e : Exit), mainLoop s upd w cfg t o n st = .ok (st', e) →
      I st → J st → J st'
  | 0, st, st', e, h, _, hj => by
    have h := Except.ok.inj h
    simp only [Prod.mk.injEq] at h
    rw [← h.1]; exact hj
  | n + 1, st, st', e, h, hi, _ => by
    unfold mainLoop at h
    obtain ⟨⟨rem, c, x, m⟩, hp, h⟩ := bind_eq_ok.mp h
    simp only at h
    have hst := fun st1 => step st ⟨false, visits w st.base.passes st.mem st.base.compute, st.kappa,
      st.mem, st.base.compute, st.base.x, rem, c, x,
      nextMain s w cfg st.base.passes rem st.kappa⟩ m st1 hi ⟨hp, rfl, rfl, rfl, rfl, rfl, rfl⟩ rfl
    by_cases hz : rem = 0
    · rw [if_pos hz] at h
      have h := Except.ok.inj h
      simp only [Prod.mk.injEq] at h
      rw [← h.1]
      refine (hst _ ?_).1
      exact ⟨rfl, rfl, rfl, rfl, rfl, rfl, rfl⟩
    · rw [if_neg hz] at h
      generalize hst1 : (if ltInt rem _ = true then _ else _ : State) = st1 at h
      have hsame : Same st1 (st.after ⟨false, visits w st.base.passes st.mem st.base.compute,
          st.kappa, st.mem, st.base.compute, st.base.x, rem, c, x,
          nextMain s w cfg st.base.passes rem st.kappa⟩ m) := by
        rw [← hst1]
        split <;> exact ⟨rfl, rfl, rfl, rfl, rfl, rfl, rfl⟩
      obtain ⟨g1, g2⟩ := hst st1 hsame
      by_cases hk : st1.kappa > cfg.kappaMax
      · rw [if_pos hk] at h
        have h := Except.ok.inj h
        simp only [Prod.mk.injEq] at h
        rw [← h.1]; exact g1
      · rw [if_neg hk] at h
        by_cases ht : w.timeUp st1.base.passes = true
        · rw [if_pos ht] at h
          have h := Except.ok.inj h
          simp only [Prod.mk.injEq] at h
          rw [← h.1]; exact g1
        · rw [if_neg ht] at h
          exact mainLoop_inv I J step n st1 st' e h
            (g2 hz (by rw [hsame.kappa] at hk; exact hk)) g1

/-- An invariant of the inner loop of the push phase. -/
theorem pushInner_inv (I : Nat → State → Prop) (J : State → Prop)
    (step : ∀ iter st v m st1, I iter st → IsPass s upd w cfg false st v m →
      v.next = nextInner s w cfg iter v.remaining st.kappa → Same st1 (st.after v m) →
      J st1 ∧ (v.remaining ≠ 0 → ¬ v.next > cfg.kappaMax → I (iter + 1) st1)) :
    ∀ (n iter : Nat) (st st' : State), pushInner s upd w cfg t o n iter st = .ok st' →
      I iter st → J st → J st'
  | 0, iter, st, st', h, _, hj => by
    have h := Except.ok.inj h
    rw [← h]; exact hj
  | n + 1, iter, st, st', h, hi, _ => by
    unfold pushInner at h
    obtain ⟨⟨rem, c, x, m⟩, hp, h⟩ := bind_eq_ok.mp h
    simp only at h
    have hst := fun st1 => step iter st ⟨false, visits w st.base.passes st.mem st.base.compute,
      st.kappa, st.mem, st.base.compute, st.base.x, rem, c, x,
      nextInner s w cfg iter rem st.kappa⟩ m st1 hi ⟨hp, rfl, rfl, rfl, rfl, rfl, rfl⟩ rfl
    by_cases hz : rem = 0
    · rw [if_pos hz] at h
      have h := Except.ok.inj h
      rw [← h]
      refine (hst _ ?_).1
      exact ⟨rfl, rfl, rfl, rfl, rfl, rfl, rfl⟩
    · rw [if_neg hz] at h
      obtain ⟨g1, g2⟩ := hst _ Same.rfl'
      split at h
      · have h := Except.ok.inj h
        rw [← h]; exact g1
      · rename_i hk
        split at h
        · have h := Except.ok.inj h
          rw [← h]; exact g1
        · exact pushInner_inv I J step n (iter + 1) _ st' h (g2 hz hk) g1

/-- An invariant of the push phase: `J` at the head of each push. -/
theorem pushLoop_inv (I : Nat → State → Prop) (J : State → Prop)
    (push : ∀ st v m st1, J st → IsPass s upd w cfg true st v m → v.next = st.kappa →
      Same st1 (st.after v m) → J st1 ∧ I 0 st1)
    (step : ∀ iter st v m st1, I iter st → IsPass s upd w cfg false st v m →
      v.next = nextInner s w cfg iter v.remaining st.kappa → Same st1 (st.after v m) →
      J st1 ∧ (v.remaining ≠ 0 → ¬ v.next > cfg.kappaMax → I (iter + 1) st1)) :
    ∀ (n : Nat) (st st' : State), pushLoop s upd w cfg t o n st = .ok st' → J st → J st'
  | 0, st, st', h, hj => by
    have h := Except.ok.inj h
    rw [← h]; exact hj
  | n + 1, st, st', h, hj => by
    unfold pushLoop at h
    obtain ⟨⟨rem, c, x, m⟩, hp, h⟩ := bind_eq_ok.mp h
    simp only at h
    generalize hcmp : (if st.base.compute.useCycle = true then
      ({ st.base.compute with order := nextState st.base.compute.order } : Compute)
      else st.base.compute) = cmp at hp h
    generalize hst1 : (if rem = 0 then _ else _ : State) = st1 at h
    have hsame : Same st1 (st.after ⟨true, visits w st.base.passes st.mem cmp,
        w.rnd (cfg.kFactor * st.kappa), st.mem, cmp, st.base.x, rem, c, x, st.kappa⟩ m) := by
      rw [← hst1]
      split <;> exact ⟨rfl, rfl, rfl, rfl, rfl, rfl, rfl⟩
    obtain ⟨g1, g2⟩ := push st ⟨true, visits w st.base.passes st.mem cmp,
        w.rnd (cfg.kFactor * st.kappa), st.mem, cmp, st.base.x, rem, c, x, st.kappa⟩ m st1 hj
      ⟨hp, rfl, rfl, rfl, rfl, by rw [Bool.true_and]; exact hcmp.symm, rfl⟩ rfl hsame
    by_cases ht : w.timeUp st1.base.passes = true
    · rw [if_pos ht] at h
      have h := Except.ok.inj h
      rw [← h]; exact g1
    · rw [if_neg ht] at h
      obtain ⟨st2, h2, h⟩ := bind_eq_ok.mp h
      exact pushLoop_inv I J push step n st2 st' h (pushInner_inv I J step _ _ _ _ h2 g2 g1)

/-! ## The runs of `Verif.Model.Solve` -/

/-- The run `r` makes the passes of the log. -/
structure Agrees {ρ : Type} (s : Slv) (updA : ρ → Nat → Assign → Outcome Assign) (w : World Ω) (cfg : Cfg)
    (r : Run ρ) (log : List Visit) : Prop where
  pass : ∀ i v, log[i]? = some v → run s updA (r.pass i) v.compute v.x =
    .ok (v.remaining, v.compute', v.x')
  kappa : ∀ i v, log[i]? = some v → r.kappaOver (i + 1) = decide (v.next > cfg.kappaMax)
  time : r.timeUp = w.timeUp

variable {ρ : Type} {updA : ρ → Nat → Assign → Outcome Assign}

theorem at_end {l1 l2 l : List Visit} {v : Visit} {n : Nat} (h : l = (l1 ++ [v]) ++ l2)
    (hn : l1.length = n) : l[n]? = some v := by
  rw [h, List.append_assoc, List.getElem?_append_right (by omega)]
  simp [hn]

theorem mainLoop_refines : ∀ (n : Nat) (st st' : State) (e : Exit),
    mainLoop s upd w cfg t o n st = .ok (st', e) → st.log.length = st.base.passes →
    (∃ l, st'.log = st.log ++ l) ∧ st'.log.length = st'.base.passes ∧
    ∀ r, Agrees s updA w cfg r st'.log → Itm.mainLoop s updA r t o n st.base = .ok (st'.base, e)
  | 0, st, st', e, h, hl => by
    have h := Except.ok.inj h
    simp only [Prod.mk.injEq] at h
    obtain ⟨rfl, rfl⟩ := h
    exact ⟨⟨[], by simp⟩, hl, fun _ _ => rfl⟩
  | n + 1, st, st', e, h, hl => by
    unfold mainLoop at h
    obtain ⟨⟨rem, c, x, m⟩, hp, h⟩ := bind_eq_ok.mp h
    simp only at h
    generalize hv : (⟨false, visits w st.base.passes st.mem st.base.compute, st.kappa, st.mem,
      st.base.compute, st.base.x, rem, c, x, nextMain s w cfg st.base.passes rem st.kappa⟩ : Visit)
      = v at h
    have vc : v.compute = st.base.compute := by rw [← hv]
    have vx : v.x = st.base.x := by rw [← hv]
    have vr : v.remaining = rem := by rw [← hv]
    have vc' : v.compute' = c := by rw [← hv]
    have vx' : v.x' = x := by rw [← hv]
    have hl1 : (st.after v m).log.length = (st.after v m).base.passes := by
      simp [State.after, hl]
    have hrun : ∀ r l2 l, l = (st.log ++ [v]) ++ l2 → Agrees s updA w cfg r l →
        run s updA (r.pass st.base.passes) st.base.compute st.base.x = .ok (rem, c, x) ∧
        r.kappaOver (st.base.passes + 1) = decide (v.next > cfg.kappaMax) := by
      intro r l2 l h1 h2
      have := at_end h1 hl
      exact ⟨by rw [← vc, ← vx, h2.pass _ _ this, vr, vc', vx'], h2.kappa _ _ this⟩
    by_cases hz : rem = 0
    · rw [if_pos hz] at h
      have h := Except.ok.inj h
      simp only [Prod.mk.injEq] at h
      obtain ⟨rfl, rfl⟩ := h
      refine ⟨⟨[v], rfl⟩, hl1, fun r hr => ?_⟩
      obtain ⟨h1, _⟩ := hrun r [] _ (by simp [State.after]) hr
      unfold Itm.mainLoop
      rw [h1, ok_bind]
      simp only [hz, if_true]
      simp only [State.after, vc', vx']
    · rw [if_neg hz] at h
      generalize hst1 : (if ltInt rem _ = true then _ else _ : State) = st1 at h
      have hsame : Same st1 (st.after v m) := by
        rw [← hst1]
        split <;> exact ⟨rfl, rfl, rfl, rfl, rfl, rfl, rfl⟩
      have hbase : (if ltInt rem st.base.bestRemaining = true then
          ({ st.base with compute := c, x := x, passes := st.base.passes + 1,
                          trace := st.base.trace ++ [x],
                          best := storeRemaining st.base.best x rem,
                          bestRemaining := some rem } : St)
        else { st.base with compute := c, x := x, passes := st.base.passes + 1,
                            trace := st.base.trace ++ [x] }) = st1.base := by
        rw [← hst1]
        by_cases hlt : ltInt rem st.base.bestRemaining = true
        · rw [if_pos hlt, if_pos (by exact hlt)]
          simp only [State.after, vc', vx']
        · rw [if_neg hlt, if_neg (by exact hlt)]
          simp only [State.after, vc', vx']
      have hlog : st1.log = st.log ++ [v] := hsame.log
      have hpass : st1.base.passes = st.base.passes + 1 := hsame.passes
      have hk1 : st1.kappa = v.next := hsame.kappa
      have hl2 : st1.log.length = st1.base.passes := by rw [hlog, hpass]; simp [hl]
      have hmain : ∀ r, run s updA (r.pass st.base.passes) st.base.compute st.base.x =
          .ok (rem, c, x) → Itm.mainLoop s updA r t o (n + 1) st.base =
            if r.kappaOver st1.base.passes then .ok (st1.base, .kappa)
            else if r.timeUp st1.base.passes then .ok (st1.base, .time)
            else Itm.mainLoop s updA r t o n st1.base := by
        intro r h1
        conv_lhs => unfold Itm.mainLoop
        rw [h1, ok_bind]
        simp only [hz, if_false]
        rw [hbase]
      by_cases hk : st1.kappa > cfg.kappaMax
      · rw [if_pos hk] at h
        have h := Except.ok.inj h
        simp only [Prod.mk.injEq] at h
        obtain ⟨rfl, rfl⟩ := h
        refine ⟨⟨[v], hlog⟩, hl2, fun r hr => ?_⟩
        obtain ⟨h1, h2⟩ := hrun r [] _ (by rw [hlog]; simp) hr
        rw [hmain r h1, hpass, h2, if_pos (by simpa [hk1] using hk)]
      · rw [if_neg hk] at h
        by_cases ht : w.timeUp st1.base.passes = true
        · rw [if_pos ht] at h
          have h := Except.ok.inj h
          simp only [Prod.mk.injEq] at h
          obtain ⟨rfl, rfl⟩ := h
          refine ⟨⟨[v], hlog⟩, hl2, fun r hr => ?_⟩
          obtain ⟨h1, h2⟩ := hrun r [] _ (by rw [hlog]; simp) hr
          rw [hmain r h1, hpass, h2, if_neg (by simpa [hk1] using hk), ← hpass, hr.time, if_pos ht]
        · rw [if_neg ht] at h
          obtain ⟨⟨l, g1⟩, g2, g3⟩ := mainLoop_refines n st1 st' e h hl2
          refine ⟨⟨v :: l, by rw [g1, hlog]; simp⟩, g2, fun r hr => ?_⟩
          obtain ⟨h1, h2⟩ := hrun r l _ (by rw [g1, hlog]) hr
          rw [hmain r h1, hpass, h2, if_neg (by simpa [hk1] using hk), ← hpass, hr.time, if_neg ht]
          exact g3 r hr

theorem pushInner_refines : ∀ (n iter : Nat) (st st' : State),
    pushInner s upd w cfg t o n iter st = .ok st' → st.log.length = st.base.passes →
    (∃ l, st'.log = st.log ++ l) ∧ st'.log.length = st'.base.passes ∧
    ∀ r, Agrees s updA w cfg r st'.log → Itm.pushInner s updA r t o n st.base = .ok st'.base
  | 0, iter, st, st', h, hl => by
    have h := Except.ok.inj h
    subst h
    exact ⟨⟨[], by simp⟩, hl, fun _ _ => rfl⟩
  | n + 1, iter, st, st', h, hl => by
    unfold pushInner at h
    obtain ⟨⟨rem, c, x, m⟩, hp, h⟩ := bind_eq_ok.mp h
    simp only at h
    generalize hv : (⟨false, visits w st.base.passes st.mem st.base.compute, st.kappa, st.mem,
      st.base.compute, st.base.x, rem, c, x, nextInner s w cfg iter rem st.kappa⟩ : Visit)
      = v at h
    have vc : v.compute = st.base.compute := by rw [← hv]
    have vx : v.x = st.base.x := by rw [← hv]
    have vr : v.remaining = rem := by rw [← hv]
    have vc' : v.compute' = c := by rw [← hv]
    have vx' : v.x' = x := by rw [← hv]
    have hl1 : (st.after v m).log.length = (st.after v m).base.passes := by
      simp [State.after, hl]
    have hrun : ∀ r l2 l, l = (st.log ++ [v]) ++ l2 → Agrees s updA w cfg r l →
        run s updA (r.pass st.base.passes) st.base.compute st.base.x = .ok (rem, c, x) ∧
        r.kappaOver (st.base.passes + 1) = decide (v.next > cfg.kappaMax) := by
      intro r l2 l h1 h2
      have := at_end h1 hl
      exact ⟨by rw [← vc, ← vx, h2.pass _ _ this, vr, vc', vx'], h2.kappa _ _ this⟩
    by_cases hz : rem = 0
    · rw [if_pos hz] at h
      have h := Except.ok.inj h
      subst h
      refine ⟨⟨[v], rfl⟩, hl1, fun r hr => ?_⟩
      obtain ⟨h1, _⟩ := hrun r [] _ (by simp [State.after]) hr
      unfold Itm.pushInner
      rw [h1, ok_bind]
      simp only [hz, if_true]
      simp only [State.after, vc', vx']
    · rw [if_neg hz] at h
      have hmain : ∀ r, run s updA (r.pass st.base.passes) st.base.compute st.base.x =
          .ok (rem, c, x) → Itm.pushInner s updA r t o (n + 1) st.base =
            if r.kappaOver (st.base.passes + 1) then .ok (st.after v m).base
            else if r.timeUp (st.base.passes + 1) then .ok (st.after v m).base
            else Itm.pushInner s updA r t o n (st.after v m).base := by
        intro r h1
        conv_lhs => unfold Itm.pushInner
        rw [h1, ok_bind]
        simp only [hz, if_false]
        subst vc' vx'
        rfl
      by_cases hk : v.next > cfg.kappaMax
      · rw [if_pos (by exact hk)] at h
        have h := Except.ok.inj h
        subst h
        refine ⟨⟨[v], rfl⟩, hl1, fun r hr => ?_⟩
        obtain ⟨h1, h2⟩ := hrun r [] _ (by simp [State.after]) hr
        rw [hmain r h1, h2, if_pos (by simpa using hk)]
      · rw [if_neg (by exact hk)] at h
        by_cases ht : w.timeUp (st.base.passes + 1) = true
        · rw [if_pos (by exact ht)] at h
          have h := Except.ok.inj h
          subst h
          refine ⟨⟨[v], rfl⟩, hl1, fun r hr => ?_⟩
          obtain ⟨h1, h2⟩ := hrun r [] _ (by simp [State.after]) hr
          rw [hmain r h1, h2, if_neg (by simpa using hk), hr.time, if_pos ht]
        · rw [if_neg (by exact ht)] at h
          obtain ⟨⟨l, g1⟩, g2, g3⟩ := pushInner_refines n (iter + 1) _ st' h hl1
          refine ⟨⟨v :: l, by rw [g1]; simp [State.after]⟩, g2, fun r hr => ?_⟩
          obtain ⟨h1, h2⟩ := hrun r l _ (by rw [g1]; rfl) hr
          rw [hmain r h1, h2, if_neg (by simpa using hk), hr.time, if_neg ht]
          exact g3 r hr

theorem Agrees.left {r : Run ρ} {l1 l2 : List Visit} (h : Agrees s updA w cfg r (l1 ++ l2)) :
    Agrees s updA w cfg r l1 := by
  have hh : ∀ (i : Nat) v, l1[i]? = some v → (l1 ++ l2)[i]? = some v := by
    intro i v hv
    rw [List.getElem?_append_left (List.getElem?_eq_some_iff.mp hv).1, hv]
  exact ⟨fun i v hv => h.pass i v (hh i v hv), fun i v hv => h.kappa i v (hh i v hv), h.time⟩

theorem pushLoop_refines : ∀ (n : Nat) (st st' : State),
    pushLoop s upd w cfg t o n st = .ok st' → st.log.length = st.base.passes →
    (∃ l, st'.log = st.log ++ l) ∧ st'.log.length = st'.base.passes ∧
    ∀ r, Agrees s updA w cfg r st'.log →
      Itm.pushLoop s updA r t o cfg.pushIter n st.base = .ok st'.base
  | 0, st, st', h, hl => by
    have h := Except.ok.inj h
    subst h
    exact ⟨⟨[], by simp⟩, hl, fun _ _ => rfl⟩
  | n + 1, st, st', h, hl => by
    unfold pushLoop at h
    obtain ⟨⟨rem, c, x, m⟩, hp, h⟩ := bind_eq_ok.mp h
    simp only at h
    generalize hcmp : (if st.base.compute.useCycle = true then
      ({ st.base.compute with order := nextState st.base.compute.order } : Compute)
      else st.base.compute) = cmp at hp h
    generalize hv : (⟨true, visits w st.base.passes st.mem cmp,
        w.rnd (cfg.kFactor * st.kappa), st.mem, cmp, st.base.x, rem, c, x, st.kappa⟩ : Visit) = v at h
    have vc : v.compute = cmp := by rw [← hv]
    have vx : v.x = st.base.x := by rw [← hv]
    have vr : v.remaining = rem := by rw [← hv]
    have vc' : v.compute' = c := by rw [← hv]
    have vx' : v.x' = x := by rw [← hv]
    generalize hst1 : (if rem = 0 then _ else _ : State) = st1 at h
    have hsame : Same st1 (st.after v m) := by
      rw [← hst1]
      split <;> exact ⟨rfl, rfl, rfl, rfl, rfl, rfl, rfl⟩
    have hbase : (if rem = 0 then
        ({ st.base with compute := c, x := x, passes := st.base.passes + 1,
                        trace := st.base.trace ++ [x],
                        best := storeValue t st.base.best x (results o x) } : St)
      else { st.base with compute := c, x := x, passes := st.base.passes + 1,
                          trace := st.base.trace ++ [x] }) = st1.base := by
      rw [← hst1]
      by_cases hz : rem = 0
      · rw [if_pos hz, if_pos hz]
        simp only [State.after, vc', vx']
      · rw [if_neg hz, if_neg hz]
        simp only [State.after, vc', vx']
    have hlog : st1.log = st.log ++ [v] := hsame.log
    have hpass : st1.base.passes = st.base.passes + 1 := hsame.passes
    have hl2 : st1.log.length = st1.base.passes := by rw [hlog, hpass]; simp [hl]
    have hmain : ∀ r l2 l, l = (st.log ++ [v]) ++ l2 → Agrees s updA w cfg r l →
        Itm.pushLoop s updA r t o cfg.pushIter (n + 1) st.base =
          if r.timeUp st1.base.passes then .ok st1.base
          else Itm.pushInner s updA r t o cfg.pushIter st1.base >>= fun st =>
            Itm.pushLoop s updA r t o cfg.pushIter n st := by
      intro r l2 l h1 h2
      have h3 := h2.pass _ _ (at_end h1 hl)
      rw [vc, vx, vr, vc', vx'] at h3
      conv_lhs => unfold Itm.pushLoop
      unfold pushAndRun
      rw [hcmp, h3, ok_bind]
      simp only
      rw [hbase]
    by_cases ht : w.timeUp st1.base.passes = true
    · rw [if_pos ht] at h
      have h := Except.ok.inj h
      subst h
      refine ⟨⟨[v], hlog⟩, hl2, fun r hr => ?_⟩
      rw [hmain r [] _ (by rw [hlog]; simp) hr, hr.time, if_pos ht]
    · rw [if_neg ht] at h
      obtain ⟨st2, h2, h⟩ := bind_eq_ok.mp h
      obtain ⟨⟨l1, g1⟩, g2, g3⟩ := pushInner_refines (updA := updA) _ _ _ _ h2 hl2
      obtain ⟨⟨l, f1⟩, f2, f3⟩ := pushLoop_refines n st2 st' h g2
      refine ⟨⟨v :: l1 ++ l, by rw [f1, g1, hlog]; simp⟩, f2, fun r hr => ?_⟩
      rw [hmain r (l1 ++ l) _ (by rw [f1, g1, hlog]; simp) hr, hr.time, if_neg ht,
        g3 r (by rw [f1] at hr; exact hr.left), ok_bind]
      exact f3 r hr

end Loops

/-! ## The functor -/

/-- The state before the first pass. -/
def start (w : World Ω) (cfg : Cfg) (c : Compute) : State :=
  { base := { compute := c, x := w.x0 }, mem := mem0, kappa := cfg.kappaMin }

theorem functor_cases {kind : SolverType} {upd : Slv → Upd Ω} {w : World Ω} {cfg : Cfg} {t : ObjType}
    {o : Objective} {csts : List Merged} {n : Nat} {a : Answer} {st : State}
    (h : functor kind upd w cfg t o csts n = .ok (a, st)) :
    ∃ s c st1 e, makeSlv kind csts n = .ok s ∧ (Compute.make cfg.order n).init s w.x0 = .ok c ∧
      mainLoop s (upd s) w cfg t o cfg.limit (start w cfg c) = .ok (st1, e) ∧
      (if e = .found then pushLoop s (upd s) w cfg t o cfg.pushes st1 else .ok st1) = .ok st ∧
      a = { status := statusOf e st.base.best.remaining
            solution := st.base.best.x.map fun x => ((List.range n).map x, st.base.best.value)
            final := st.base
            exit := e
            mainPasses := st1.base.passes } := by
  unfold functor at h
  obtain ⟨s, hs, h⟩ := bind_eq_ok.mp h
  obtain ⟨c, hc, h⟩ := bind_eq_ok.mp h
  obtain ⟨⟨st1, e⟩, hm, h⟩ := bind_eq_ok.mp h
  simp only at h
  obtain ⟨st', hst', h⟩ := bind_eq_ok.mp h
  have h := Except.ok.inj h
  simp only [Prod.mk.injEq] at h
  obtain ⟨rfl, rfl⟩ := h
  exact ⟨s, c, st1, e, hs, hc, hm, hst', rfl⟩

/-- The run with its numbers is a run of `Verif.Model.Solve`. -/
theorem functor_refines {ρ : Type} {kind : SolverType} {upd : Slv → Upd Ω} {w : World Ω} {cfg : Cfg}
    {t : ObjType} {o : Objective} {csts : List Merged} {n : Nat} {a : Answer} {st : State}
    {updA : Slv → ρ → Nat → Assign → Outcome Assign} {Q : ρ → Prop} {ok : Ω → Prop} (hw : w.Ok ok)
    (hsim : ∀ s, makeSlv kind csts n = .ok s → Sim (upd s) w (updA s) Q)
    (h : functor kind upd w cfg t o csts n = .ok (a, st)) :
    ∃ r : Run ρ, r.Ok ∧ (∀ i j, Q ((r.pass i).row j)) ∧ r.x0 = w.x0 ∧ r.timeUp = w.timeUp ∧
      (∀ i v, st.log[i]? = some v → r.kappaOver (i + 1) = decide (v.next > cfg.kappaMax)) ∧
      Itm.functor kind updA r cfg.params t o csts n = .ok a ∧ a.final = st.base ∧
      st.log.length = a.final.passes := by
  obtain ⟨s, c, st1, e, hs, hc, hm, hp, rfl⟩ := functor_cases h
  have hsim := hsim s hs
  -- every pass of the log is a pass of `Verif.Model.Solve`
  have hgood : ∀ v ∈ st.log, ∃ P : Pass ρ, P.Ok ∧ (∀ i, Q (P.row i)) ∧
      run s (updA s) P v.compute v.x = .ok (v.remaining, v.compute', v.x') := by
    have hstep : ∀ (push : Bool) st v m st1, (∀ u ∈ State.log st, ∃ P : Pass ρ, P.Ok ∧
        (∀ i, Q (P.row i)) ∧ run s (updA s) P u.compute u.x = .ok (u.remaining, u.compute', u.x')) →
        IsPass s (upd s) w cfg push st v m → Same st1 (st.after v m) → ∀ u ∈ State.log st1,
        ∃ P : Pass ρ, P.Ok ∧ (∀ i, Q (P.row i)) ∧
          run s (updA s) P u.compute u.x = .ok (u.remaining, u.compute', u.x') := by
      intro push st v m st1 hi hv hsame u hu
      rw [hsame.log] at hu
      rcases List.mem_append.mp hu with hu | hu
      · exact hi u hu
      · rw [List.mem_singleton.mp hu]
        exact pass_run hsim hw hv.passEq
    have h1 := mainLoop_inv (J := fun st => ∀ v ∈ st.log, ∃ P : Pass ρ, P.Ok ∧ (∀ i, Q (P.row i)) ∧
        run s (updA s) P v.compute v.x = .ok (v.remaining, v.compute', v.x')) _
      (fun st v m st1 hi hv _ hsame => ⟨hstep _ st v m st1 hi hv hsame,
        fun _ _ => hstep _ st v m st1 hi hv hsame⟩) _ _ _ _ hm (by simp [start]) (by simp [start])
    by_cases he : e = .found
    · rw [if_pos he] at hp
      exact pushLoop_inv (fun _ st => ∀ v ∈ st.log, ∃ P : Pass ρ, P.Ok ∧ (∀ i, Q (P.row i)) ∧
          run s (updA s) P v.compute v.x = .ok (v.remaining, v.compute', v.x')) _
        (fun st v m st1 hi hv _ hsame => ⟨hstep _ st v m st1 hi hv hsame,
          hstep _ st v m st1 hi hv hsame⟩)
        (fun _ st v m st1 hi hv _ hsame => ⟨hstep _ st v m st1 hi hv hsame,
          fun _ _ => hstep _ st v m st1 hi hv hsame⟩) _ _ _ hp h1
    · rw [if_neg he] at hp
      rw [← Except.ok.inj hp]
      exact h1
  obtain ⟨ch, hch⟩ := hsim.dflt
  -- the run
  have hex : ∀ i : Nat, ∃ P : Pass ρ, P.Ok ∧ (∀ i, Q (P.row i)) ∧ ∀ v, st.log[i]? = some v →
      run s (updA s) P v.compute v.x = .ok (v.remaining, v.compute', v.x') := by
    intro i
    cases hi : st.log[i]? with
    | none => exact ⟨⟨id, id, fun _ => ch⟩, ⟨fun l => List.Perm.refl l, fun l => List.Perm.refl l⟩,
        fun _ => hch, by simp⟩
    | some v =>
      obtain ⟨P, g1, g2, g3⟩ := hgood v (List.mem_of_getElem? hi)
      exact ⟨P, g1, g2, fun u hu => by rw [← Option.some.inj hu]; exact g3⟩
  choose P hP1 hP2 hP3 using hex
  let r : Run ρ := ⟨w.x0, P, fun i => match st.log[i - 1]? with
    | some v => decide (v.next > cfg.kappaMax)
    | none => false, w.timeUp⟩
  have hag : Agrees s (updA s) w cfg r st.log :=
    ⟨fun i v hv => hP3 i v hv, fun i v hv => by simp [r, hv], rfl⟩
  obtain ⟨_, g2, g3⟩ := mainLoop_refines (updA := updA s) _ _ _ _ hm rfl
  have key : Itm.functor kind updA r cfg.params t o csts n = .ok
      { status := statusOf e st.base.best.remaining
        solution := st.base.best.x.map fun x => ((List.range n).map x, st.base.best.value)
        final := st.base
        exit := e
        mainPasses := st1.base.passes } ∧ st.log.length = st.base.passes := by
    unfold Itm.functor
    rw [hs, ok_bind]
    change ((Compute.make cfg.order n).init s w.x0 >>= _) = _ ∧ _
    rw [hc, ok_bind]
    change (Itm.mainLoop s (updA s) r t o cfg.limit (start w cfg c).base >>= _) = _ ∧ _
    by_cases he : e = .found
    · rw [if_pos he] at hp
      obtain ⟨⟨l, f1⟩, f2, f3⟩ := pushLoop_refines (updA := updA s) _ _ _ hp g2
      rw [g3 r (by rw [f1] at hag; exact hag.left), ok_bind]
      simp only [Itm.pushPhase, he, if_true]
      change (Itm.pushLoop s (updA s) r t o cfg.pushIter cfg.pushes st1.base >>= _) = _ ∧ _
      rw [f3 r hag]
      exact ⟨rfl, f2⟩
    · rw [if_neg he] at hp
      have := Except.ok.inj hp
      subst this
      rw [g3 r hag, ok_bind]
      simp only [Itm.pushPhase, he, if_false]
      exact ⟨rfl, g2⟩
  exact ⟨r, hP1, hP2, rfl, rfl, hag.kappa, key.1, rfl, key.2⟩

/-- The update of the four solvers. -/
theorem update_sim {mode : ObjType} {w : World Oracle} (hw : w.Ok fun o => o.Ok mode) (s : Slv) (c : CostFun) :
    Sim (fun o p k x m => Mult.update mode o p s c k x m) w (updateRow s) Row.Ok where
  dflt := ⟨⟨id, fun _ => false⟩, fun l => List.Perm.refl l⟩
  step t i p k x m x' m' h := by
    obtain ⟨row, _, _, hr, _⟩ := update_eq h
    rcases update_updateRow (mode := mode) (o := w.oracle t i) (p := p) (c := c) (x := x) (m := m)
      hr with ⟨x1, h1, m1, h2⟩ | ⟨f, _, h2⟩
    · rw [h] at h2
      have := (Prod.mk.injEq .. ▸ Except.ok.inj h2 : x' = x1 ∧ m' = m1).1
      subst this
      exact ⟨_, toRow_ok (hw.oracle t i) _ _ _ _ _ _, h1⟩
    · rw [h] at h2
      cases h2

end Bx.Num
