import Mathlib.Tactic.Ring
import Mathlib.Tactic.Linarith
import Mathlib.Tactic.FieldSimp
import Verif.Spec.Scaling
import Verif.Proofs.Costs
import Verif.Proofs.Numeric

/-! Lemmas on an objective multiplied by a number. -/

namespace Bx.Scaling

open Merge SolverCtor Spec Itm Mult Costs Setup

variable {Ω : Type}

/-! ## The loop -/

/-- The best solution, with a value multiplied by `a`. -/
def best (a : Rat) (b : Best) : Best := { b with value := b.value.map (a * ·) }

def base (a : Rat) (st : St) : St := { st with best := best a st.best }

def visit (S : Mem → Mem) (v : Num.Visit) : Num.Visit := { v with mem := S v.mem }

def state (a : Rat) (S : Mem → Mem) (st : Num.State) : Num.State :=
  ⟨base a st.base, S st.mem, st.kappa, st.log.map (visit S)⟩

theorem isBetter_times {a : Rat} (ha : 0 < a) (t : ObjType) (v : Rat) (b : Option Rat) :
    isBetter t (a * v) (b.map (a * ·)) = isBetter t v b := by
  cases b with
  | none => rfl
  | some b =>
    cases t <;> simp [isBetter, ha]

theorem isBetter_neg (t t' : ObjType) (h : t' ≠ t) (v : Rat) (b : Option Rat) :
    isBetter t' (-1 * v) (b.map (-1 * ·)) = isBetter t v b := by
  cases b with
  | none => rfl
  | some b =>
    cases t <;> cases t' <;> first | exact absurd rfl h | simp [isBetter]

theorem storeValue_times {a : Rat} {t t' : ObjType}
    (ha : ∀ v b, isBetter t' (a * v) (b.map (a * ·)) = isBetter t v b) (b : Best) (x : Assign) (v : Rat) :
    storeValue t' (best a b) x (a * v) = best a (storeValue t b x v) := by
  unfold storeValue
  rw [show (best a b).value = b.value.map (a * ·) from rfl, ha]
  split <;> rfl

theorem storeRemaining_times (a : Rat) (b : Best) (x : Assign) (r : Nat) :
    storeRemaining (best a b) x r = best a (storeRemaining b x r) := by
  unfold storeRemaining
  show (if ltInt r b.remaining = true then _ else _) = _
  split <;> rfl

theorem addLinear_times (a : Rat) (x : Assign) : ∀ (es : List ObjElem) (r : Rat),
    addLinear x (a * r) (es.map fun e => { e with factor := a * e.factor }) = a * addLinear x r es
  | [], r => rfl
  | e :: es, r => by
    simp only [List.map_cons, addLinear]
    rw [show (if x e.var = true then a * r + a * e.factor else a * r) =
      a * (if x e.var = true then r + e.factor else r) by split <;> ring]
    exact addLinear_times a x es _

theorem addQuadratic_times (a : Rat) (x : Assign) : ∀ (es : List QuadElem) (r : Rat),
    addQuadratic x (a * r) (es.map fun e => { e with factor := a * e.factor }) = a * addQuadratic x r es
  | [], r => rfl
  | e :: es, r => by
    simp only [List.map_cons, addQuadratic]
    rw [show (if (x e.a && x e.b) = true then a * r + a * e.factor else a * r) =
      a * (if (x e.a && x e.b) = true then r + e.factor else r) by split <;> ring]
    exact addQuadratic_times a x es _

theorem results_times (a : Rat) (o : Objective) (x : Assign) :
    results (times a o) x = a * results o x := by
  unfold results times
  simp only [addLinear_times, addQuadratic_times]
  cases o.qelems <;> simp

/-- What two runs have to share: `S` maps the multipliers and preferences of the first to those of the
second. -/
structure Sim (a : Rat) (S : Mem → Mem) (t t' : ObjType) (good : Compute → Prop) (upd upd' : Num.Upd Ω)
    (w w' : Num.World Ω) (cfg : Num.Cfg) (delta' : Rat) (o o' : Objective) : Prop where
  better : ∀ v b, isBetter t' (a * v) (b.map (a * ·)) = isBetter t v b
  upd : ∀ t i kappa push k x m,
    upd' (w'.oracle t i) ⟨kappa, delta', cfg.theta, push⟩ k x (S m) =
      (upd (w.oracle t i) ⟨kappa, cfg.delta, cfg.theta, push⟩ k x m).map fun r => (r.1, S r.2)
  visits : ∀ t m c, good c → Num.visits w' t (S m) c = Num.visits w t m c
  goodR : ∀ c, good c → ∀ R, good { c with R := R }
  goodO : ∀ c, good c → ∀ d, good { c with mOrder := d }
  next : ∀ c, good c → good (if c.useCycle then { c with order := nextState c.order } else c)
  pow : w'.pow = w.pow
  timeUp : w'.timeUp = w.timeUp
  rnd : w'.rnd = w.rnd
  results : ∀ x, results o' x = a * results o x

section
variable {a : Rat} {S : Mem → Mem} {t t' : ObjType} {good : Compute → Prop} {upd upd' : Num.Upd Ω}
  {w w' : Num.World Ω} {cfg : Num.Cfg} {delta' : Rat} {o o' : Objective}

theorem rows_sim (h : Sim a S t t' good upd upd' w w' cfg delta' o o') (i0 : Nat) (kappa : Rat) (push : Option Rat) :
    ∀ (ks : List Nat) (i : Nat) (x : Assign) (m : Mem),
    Num.rows upd' (w'.oracle i0) ⟨kappa, delta', cfg.theta, push⟩ i ks x (S m) =
      (Num.rows upd (w.oracle i0) ⟨kappa, cfg.delta, cfg.theta, push⟩ i ks x m).map fun r => (r.1, S r.2)
  | [], i, x, m => rfl
  | k :: ks, i, x, m => by
    unfold Num.rows
    rw [h.upd]
    cases upd (w.oracle i0 i) ⟨kappa, cfg.delta, cfg.theta, push⟩ k x m with
    | error e => rfl
    | ok r => exact rows_sim h i0 kappa push ks (i + 1) r.1 r.2

theorem pass_sim (h : Sim a S t t' good upd upd' w w' cfg delta' o o') (s : Slv) (kappa : Rat)
    (push : Option Rat) (i : Nat) (c : Compute) (hc : good c) (x : Assign) (m : Mem) :
    Num.pass s upd' w' ⟨kappa, delta', cfg.theta, push⟩ i c x (S m) =
      (Num.pass s upd w ⟨kappa, cfg.delta, cfg.theta, push⟩ i c x m).map
        fun r => (r.1, r.2.1, r.2.2.1, S r.2.2.2) := by
  unfold Num.pass
  rw [h.visits i m c hc, rows_sim h]
  cases Num.rows upd (w.oracle i) ⟨kappa, cfg.delta, cfg.theta, push⟩ 0 (Num.visits w i m c) x m with
  | error e => rfl
  | ok r =>
    simp only [ok_bind, Except.map]
    cases c.order
    case infeasibilityDecr => dsimp only; cases infeasibility s r.1 <;> rfl
    case infeasibilityIncr => dsimp only; cases infeasibility s r.1 <;> rfl
    case piSignChange => dsimp only; cases localViolated s r.1 <;> rfl
    all_goals (dsimp only; cases violated s r.1 <;> rfl)

theorem pass_good (h : Sim a S t t' good upd upd' w w' cfg delta' o o') {s : Slv} {p : Param} {i : Nat}
    {c : Compute} (hc : good c) {x : Assign} {m : Mem} {r : Nat × Compute × Assign × Mem}
    (hr : Num.pass s upd w p i c x m = .ok r) : good r.2.1 := by
  unfold Num.pass at hr
  obtain ⟨r1, _, hr⟩ := bind_eq_ok.mp hr
  dsimp only at hr
  split at hr
  · obtain ⟨d, _, hr⟩ := bind_eq_ok.mp hr
    obtain rfl := Except.ok.inj hr
    exact h.goodO c hc d
  · obtain ⟨d, _, hr⟩ := bind_eq_ok.mp hr
    obtain rfl := Except.ok.inj hr
    exact h.goodO c hc d
  · obtain ⟨d, _, hr⟩ := bind_eq_ok.mp hr
    obtain rfl := Except.ok.inj hr
    exact h.goodR c hc _
  · obtain ⟨d, _, hr⟩ := bind_eq_ok.mp hr
    obtain rfl := Except.ok.inj hr
    exact h.goodR c hc d

theorem grow_sim (h : Sim a S t t' good upd upd' w w' cfg delta' o o') (s : Slv) (late : Bool) (r : Nat) (k : Rat) :
    Num.grow s w' { cfg with delta := delta' } late r k = Num.grow s w cfg late r k := by
  unfold Num.grow
  rw [h.rnd, h.pow]

theorem after_sim (a : Rat) (S : Mem → Mem) (st : Num.State) (v : Num.Visit) (m : Mem) :
    (state a S st).after (visit S v) (S m) = state a S (st.after v m) := by
  unfold Num.State.after state
  simp [visit, base]

theorem mainLoop_sim (h : Sim a S t t' good upd upd' w w' cfg delta' o o') (s : Slv) :
    ∀ (n : Nat) (st : Num.State), good st.base.compute →
    Num.mainLoop s upd' w' { cfg with delta := delta' } t' o' n (state a S st) =
      (Num.mainLoop s upd w cfg t o n st).map fun r => (state a S r.1, r.2)
  | 0, st, _ => rfl
  | n + 1, st, hg => by
    unfold Num.mainLoop
    rw [show (state a S st).kappa = st.kappa from rfl, show (state a S st).mem = S st.mem from rfl,
      show (state a S st).base.passes = st.base.passes from rfl,
      show (state a S st).base.compute = st.base.compute from rfl,
      show (state a S st).base.x = st.base.x from rfl]
    dsimp only
    rw [pass_sim h _ _ _ _ _ hg]
    cases hp : Num.pass s upd w ⟨st.kappa, cfg.delta, cfg.theta, none⟩ st.base.passes st.base.compute
      st.base.x st.mem with
    | error e => rfl
    | ok r =>
      have hgc := pass_good h hg hp
      obtain ⟨remaining, c, x, m⟩ := r
      replace hgc : good c := hgc
      simp only [Except.map, ok_bind]
      have hk : Num.nextMain s w' { cfg with delta := delta' } st.base.passes remaining st.kappa =
          Num.nextMain s w cfg st.base.passes remaining st.kappa := by
        unfold Num.nextMain
        rw [grow_sim h]
      rw [hk, h.visits _ _ _ hg]
      have ha := after_sim a S st ⟨false, Num.visits w st.base.passes st.mem st.base.compute, st.kappa, st.mem,
        st.base.compute, st.base.x, remaining, c, x,
        Num.nextMain s w cfg st.base.passes remaining st.kappa⟩ m
      unfold visit at ha
      dsimp only at ha
      rw [ha]
      have hg1 : good (st.after ⟨false, Num.visits w st.base.passes st.mem st.base.compute, st.kappa, st.mem,
        st.base.compute, st.base.x, remaining, c, x,
        Num.nextMain s w cfg st.base.passes remaining st.kappa⟩ m).base.compute := hgc
      generalize st.after ⟨false, Num.visits w st.base.passes st.mem st.base.compute, st.kappa, st.mem,
        st.base.compute, st.base.x, remaining, c, x,
        Num.nextMain s w cfg st.base.passes remaining st.kappa⟩ m = st1 at hg1 ⊢
      split
      · show _ = Except.ok (state a S _, _)
        rw [h.results, show (state a S st1).base.best = best a st1.base.best from rfl,
          storeValue_times h.better]
        rfl
      · have hs : (if ltInt remaining (state a S st1).base.bestRemaining = true then
            { state a S st1 with
              base := { (state a S st1).base with
                best := storeRemaining (state a S st1).base.best x remaining,
                bestRemaining := some remaining } }
            else state a S st1) =
            state a S (if ltInt remaining st1.base.bestRemaining = true then
              { st1 with base := { st1.base with best := storeRemaining st1.base.best x remaining,
                                                 bestRemaining := some remaining } }
              else st1) := by
          rw [show (state a S st1).base.bestRemaining = st1.base.bestRemaining from rfl,
            show (state a S st1).base.best = best a st1.base.best from rfl, storeRemaining_times]
          split <;> rfl
        rw [hs]
        have hg2 : good (if ltInt remaining st1.base.bestRemaining = true then
              { st1 with base := { st1.base with best := storeRemaining st1.base.best x remaining,
                                                 bestRemaining := some remaining } }
              else st1).base.compute := by
          split <;> exact hg1
        generalize (if ltInt remaining st1.base.bestRemaining = true then
              { st1 with base := { st1.base with best := storeRemaining st1.base.best x remaining,
                                                 bestRemaining := some remaining } }
              else st1) = st2 at hg2 ⊢
        rw [show (state a S st2).kappa = st2.kappa from rfl,
          show (state a S st2).base.passes = st2.base.passes from rfl, h.timeUp]
        split
        · rfl
        · split
          · rfl
          · rw [mainLoop_sim h s n st2 hg2]
            rfl

theorem pushInner_sim (h : Sim a S t t' good upd upd' w w' cfg delta' o o') (s : Slv) :
    ∀ (n iter : Nat) (st : Num.State), good st.base.compute →
    Num.pushInner s upd' w' { cfg with delta := delta' } t' o' n iter (state a S st) =
      (Num.pushInner s upd w cfg t o n iter st).map (state a S)
  | 0, _, st, _ => rfl
  | n + 1, iter, st, hg => by
    unfold Num.pushInner
    rw [show (state a S st).kappa = st.kappa from rfl, show (state a S st).mem = S st.mem from rfl,
      show (state a S st).base.passes = st.base.passes from rfl,
      show (state a S st).base.compute = st.base.compute from rfl,
      show (state a S st).base.x = st.base.x from rfl]
    dsimp only
    rw [pass_sim h _ _ _ _ _ hg]
    cases hp : Num.pass s upd w ⟨st.kappa, cfg.delta, cfg.theta, none⟩ st.base.passes st.base.compute
      st.base.x st.mem with
    | error e => rfl
    | ok r =>
      have hgc := pass_good h hg hp
      obtain ⟨remaining, c, x, m⟩ := r
      replace hgc : good c := hgc
      simp only [Except.map, ok_bind]
      have hk : Num.nextInner s w' { cfg with delta := delta' } iter remaining st.kappa =
          Num.nextInner s w cfg iter remaining st.kappa := by
        unfold Num.nextInner
        rw [grow_sim h]
      rw [hk, h.visits _ _ _ hg]
      have ha := after_sim a S st ⟨false, Num.visits w st.base.passes st.mem st.base.compute, st.kappa, st.mem,
        st.base.compute, st.base.x, remaining, c, x,
        Num.nextInner s w cfg iter remaining st.kappa⟩ m
      unfold visit at ha
      dsimp only at ha
      rw [ha]
      have hg1 : good (st.after ⟨false, Num.visits w st.base.passes st.mem st.base.compute, st.kappa, st.mem,
        st.base.compute, st.base.x, remaining, c, x,
        Num.nextInner s w cfg iter remaining st.kappa⟩ m).base.compute := hgc
      generalize st.after ⟨false, Num.visits w st.base.passes st.mem st.base.compute, st.kappa, st.mem,
        st.base.compute, st.base.x, remaining, c, x,
        Num.nextInner s w cfg iter remaining st.kappa⟩ m = st1 at hg1 ⊢
      rw [show (state a S st1).kappa = st1.kappa from rfl,
        show (state a S st1).base.passes = st1.base.passes from rfl, h.timeUp]
      split
      · show _ = Except.ok (state a S _)
        rw [h.results, show (state a S st1).base.best = best a st1.base.best from rfl,
          storeValue_times h.better]
        rfl
      · split
        · rfl
        · split
          · rfl
          · rw [pushInner_sim h s n (iter + 1) st1 hg1]
            rfl

theorem init_good (h : Sim a S t t' good upd upd' w w' cfg delta' o o') {s : Slv} {x : Assign} {c c' : Compute}
    (hc : good c) (hr : c.init s x = .ok c') : good c' := by
  unfold Compute.init at hr
  split at hr
  · obtain ⟨d, _, hr⟩ := bind_eq_ok.mp hr
    obtain rfl := Except.ok.inj hr
    exact h.goodO c hc d
  · obtain ⟨d, _, hr⟩ := bind_eq_ok.mp hr
    obtain rfl := Except.ok.inj hr
    exact h.goodO c hc d
  · obtain rfl := Except.ok.inj hr
    exact h.goodR c hc _
  · obtain ⟨d, _, hr⟩ := bind_eq_ok.mp hr
    obtain rfl := Except.ok.inj hr
    exact h.goodR c hc d

theorem mainLoop_good (h : Sim a S t t' good upd upd' w w' cfg delta' o o') (s : Slv) :
    ∀ (n : Nat) (st : Num.State), good st.base.compute → ∀ r, Num.mainLoop s upd w cfg t o n st = .ok r →
      good r.1.base.compute
  | 0, st, hg, r, hr => by
    obtain rfl := Except.ok.inj hr
    exact hg
  | n + 1, st, hg, r, hr => by
    unfold Num.mainLoop at hr
    obtain ⟨q, hp, hr⟩ := bind_eq_ok.mp hr
    have hgc := pass_good h hg hp
    obtain ⟨remaining, c, x, m⟩ := q
    dsimp only at hr hgc
    split at hr
    · obtain rfl := Except.ok.inj hr
      exact hgc
    · split at hr
      · split at hr
        · obtain rfl := Except.ok.inj hr
          exact hgc
        · split at hr
          · obtain rfl := Except.ok.inj hr
            exact hgc
          · refine mainLoop_good h s n _ ?_ r hr
            exact hgc
      · split at hr
        · obtain rfl := Except.ok.inj hr
          exact hgc
        · split at hr
          · obtain rfl := Except.ok.inj hr
            exact hgc
          · refine mainLoop_good h s n _ ?_ r hr
            exact hgc

theorem pushInner_good (h : Sim a S t t' good upd upd' w w' cfg delta' o o') (s : Slv) :
    ∀ (n iter : Nat) (st : Num.State), good st.base.compute →
      ∀ r, Num.pushInner s upd w cfg t o n iter st = .ok r → good r.base.compute
  | 0, _, st, hg, r, hr => by
    obtain rfl := Except.ok.inj hr
    exact hg
  | n + 1, iter, st, hg, r, hr => by
    unfold Num.pushInner at hr
    obtain ⟨q, hp, hr⟩ := bind_eq_ok.mp hr
    have hgc := pass_good h hg hp
    obtain ⟨remaining, c, x, m⟩ := q
    dsimp only at hr hgc
    split at hr
    · obtain rfl := Except.ok.inj hr
      exact hgc
    · split at hr
      · obtain rfl := Except.ok.inj hr
        exact hgc
      · split at hr
        · obtain rfl := Except.ok.inj hr
          exact hgc
        · refine pushInner_good h s n (iter + 1) _ ?_ r hr
          exact hgc

theorem pushLoop_sim (h : Sim a S t t' good upd upd' w w' cfg delta' o o') (s : Slv) :
    ∀ (n : Nat) (st : Num.State), good st.base.compute →
    Num.pushLoop s upd' w' { cfg with delta := delta' } t' o' n (state a S st) =
      (Num.pushLoop s upd w cfg t o n st).map (state a S)
  | 0, st, _ => rfl
  | n + 1, st, hg => by
    unfold Num.pushLoop
    rw [show (state a S st).kappa = st.kappa from rfl, show (state a S st).mem = S st.mem from rfl,
      show (state a S st).base.passes = st.base.passes from rfl,
      show (state a S st).base.compute = st.base.compute from rfl,
      show (state a S st).base.x = st.base.x from rfl, h.rnd]
    dsimp only
    have hg0 := h.next _ hg
    generalize (if st.base.compute.useCycle = true then
        { st.base.compute with order := nextState st.base.compute.order } else st.base.compute) = cmp at hg0 ⊢
    rw [pass_sim h _ _ _ _ _ hg0]
    cases hp : Num.pass s upd w ⟨w.rnd (cfg.kFactor * st.kappa), cfg.delta, cfg.theta, some cfg.amplifier⟩
      st.base.passes cmp st.base.x st.mem with
    | error e => rfl
    | ok r =>
      have hgc := pass_good h hg0 hp
      obtain ⟨remaining, c, x, m⟩ := r
      replace hgc : good c := hgc
      simp only [Except.map, ok_bind]
      rw [h.visits _ _ _ hg0]
      have ha := after_sim a S st ⟨true, Num.visits w st.base.passes st.mem cmp,
        w.rnd (cfg.kFactor * st.kappa), st.mem, cmp, st.base.x, remaining, c, x, st.kappa⟩ m
      unfold visit at ha
      dsimp only at ha
      rw [ha]
      have hg1 : good (st.after ⟨true, Num.visits w st.base.passes st.mem cmp,
        w.rnd (cfg.kFactor * st.kappa), st.mem, cmp, st.base.x, remaining, c, x, st.kappa⟩ m).base.compute := hgc
      generalize st.after ⟨true, Num.visits w st.base.passes st.mem cmp,
        w.rnd (cfg.kFactor * st.kappa), st.mem, cmp, st.base.x, remaining, c, x, st.kappa⟩ m = st1 at hg1 ⊢
      have hs : (if remaining = 0 then
          { state a S st1 with
            base := { (state a S st1).base with
              best := storeValue t' (state a S st1).base.best x (results o' x) } }
          else state a S st1) =
          state a S (if remaining = 0 then
            { st1 with base := { st1.base with best := storeValue t st1.base.best x (results o x) } }
            else st1) := by
        rw [h.results, show (state a S st1).base.best = best a st1.base.best from rfl,
          storeValue_times h.better]
        split <;> rfl
      rw [hs]
      have hg2 : good (if remaining = 0 then
            { st1 with base := { st1.base with best := storeValue t st1.base.best x (results o x) } }
            else st1).base.compute := by
        split <;> exact hg1
      generalize (if remaining = 0 then
            { st1 with base := { st1.base with best := storeValue t st1.base.best x (results o x) } }
            else st1) = st2 at hg2 ⊢
      rw [show (state a S st2).base.passes = st2.base.passes from rfl, h.timeUp]
      split
      · rfl
      · rw [pushInner_sim h s _ _ _ hg2]
        cases hi : Num.pushInner s upd w cfg t o cfg.pushIter 0 st2 with
        | error e => rfl
        | ok st3 => exact pushLoop_sim h s n st3 (pushInner_good h s _ _ _ hg2 _ hi)

end

/-- Two runs that share this do the same search. -/
theorem functor_sim {a : Rat} {S : Mem → Mem} {t t' : ObjType} {good : Compute → Prop}
    {upd upd' : Slv → Num.Upd Ω} {w w' : Num.World Ω}
    {cfg : Num.Cfg} {delta' : Rat} {o o' : Objective} (kind : SolverType) (csts : List Merged)
    (n : Nat) (h : ∀ s, Sim a S t t' good (upd s) (upd' s) w w' cfg delta' o o') (hx : w'.x0 = w.x0)
    (hS : S Num.mem0 = Num.mem0) (hgood : good (Compute.make cfg.order n)) :
    SameSearch a (Num.functor kind upd w cfg t o csts n)
      (Num.functor kind upd' w' { cfg with delta := delta' } t' o' csts n) := by
  unfold Num.functor
  rw [hx]
  cases makeSlv kind csts n with
  | error e => exact rfl
  | ok s =>
    simp only [ok_bind]
    cases hc : (Compute.make cfg.order n).init s w.x0 with
    | error e => exact rfl
    | ok c =>
      simp only [ok_bind]
      have hg : good c := init_good (h s) hgood hc
      have hm := mainLoop_sim (h s) s cfg.limit
        { base := { compute := c, x := w.x0 }, mem := Num.mem0, kappa := cfg.kappaMin } hg
      rw [show state a S { base := { compute := c, x := w.x0 }, mem := Num.mem0, kappa := cfg.kappaMin } =
        { base := { compute := c, x := w.x0 }, mem := Num.mem0, kappa := cfg.kappaMin } by
        unfold state; rw [hS]; rfl] at hm
      rw [hm]
      cases hr : Num.mainLoop s (upd s) w cfg t o cfg.limit
        { base := { compute := c, x := w.x0 }, mem := Num.mem0, kappa := cfg.kappaMin } with
      | error e => exact rfl
      | ok r =>
        have hg' := mainLoop_good (h s) s cfg.limit _ hg r hr
        obtain ⟨st, e⟩ := r
        simp only [Except.map, ok_bind]
        have hp : Num.pushPhase s (upd' s) w' { cfg with delta := delta' } t' o' e (state a S st) =
            (Num.pushPhase s (upd s) w cfg t o e st).map (state a S) := by
          unfold Num.pushPhase
          split
          · exact pushLoop_sim (h s) s cfg.pushes st hg'
          · rfl
        rw [hp]
        cases Num.pushPhase s (upd s) w cfg t o e st with
        | error e => exact rfl
        | ok st' =>
          refine ⟨rfl, rfl, rfl, rfl, ?_⟩
          show Option.map _ st'.base.best.x = Option.map _ (Option.map _ st'.base.best.x)
          rw [Option.map_map]
          rfl

/-! ## The updates -/

/-- The multipliers and preferences multiplied by `b`. -/
def mem (b : Rat) (m : Mem) : Mem := ⟨fun i => b * m.pi i, fun i j => b * m.P i j⟩

def cell (b : Rat) (r : RC) : RC := { r with value := b * r.value }

theorem mem_zero (b : Rat) : mem b Num.mem0 = Num.mem0 := by
  unfold mem Num.mem0
  simp

theorem sum_times {α : Type} (b : Rat) (f g : α → Rat) (l : List α) (h : ∀ p ∈ l, g p = b * f p) :
    (l.map g).sum = b * (l.map f).sum := by
  induction l with
  | nil => simp
  | cons p l ih =>
    simp only [List.map_cons, List.sum_cons]
    rw [h p (by simp), ih fun q hq => h q (by simp [hq])]
    ring

theorem decrease_times (b : Rat) (m : Mem) (k : Nat) (row : List FunElem) (theta : Rat) :
    decrease (mem b m) k row theta = mem b (decrease m k row theta) := by
  unfold decrease mem
  congr 1
  funext i j
  dsimp only
  split <;> ring

section
variable {b : Rat} {c c' : CostFun} (hc : ∀ j x, c' j x = b * c j x)
include hc

theorem reduced_times (s : Slv) (m : Mem) (x : Assign) (j : Nat) :
    Mult.reduced s c' (mem b m) x j = b * Mult.reduced s c m x j := by
  unfold Mult.reduced
  have h1 : ((column s j).map fun p => (p.2 : Rat) * (mem b m).pi p.1).sum =
      b * ((column s j).map fun p => (p.2 : Rat) * m.pi p.1).sum :=
    sum_times b _ _ _ fun p _ => by simp only [mem]; ring
  have h2 : ((column s j).map fun p => (p.2 : Rat) * (mem b m).P p.1 j).sum =
      b * ((column s j).map fun p => (p.2 : Rat) * m.P p.1 j).sum :=
    sum_times b _ _ _ fun p _ => by simp only [mem]; ring
  rw [hc, h1, h2]
  ring

theorem valueOf_times (s : Slv) (m : Mem) (x : Assign) (push : Option Rat) (i : Nat) (e : FunElem) :
    Mult.valueOf s c' (mem b m) x push i e = b * Mult.valueOf s c m x push i e := by
  unfold Mult.valueOf
  rw [reduced_times hc]
  cases push with
  | none => dsimp only; split <;> ring
  | some amp =>
    have h1 : pushed s.kind c' x amp i e = b * pushed s.kind c x amp i e := by
      unfold pushed
      cases s.kind <;> simp only [hc] <;> ring
    dsimp only
    rw [h1]
    split <;> ring

theorem cells_times (s : Slv) (m : Mem) (x : Assign) (push : Option Rat) (row : List FunElem)
    (is : List Nat) :
    Mult.cells s c' (mem b m) x push row is = (Mult.cells s c m x push row is).map (cell b) := by
  unfold Mult.cells
  rw [List.map_map]
  refine List.map_congr_left fun i _ => ?_
  show RC.mk ((row[i]?.map (Mult.valueOf s c' (mem b m) x push i)).getD 0) i =
    RC.mk (b * (row[i]?.map (Mult.valueOf s c m x push i)).getD 0) i
  congr 1
  cases row[i]? with
  | none => simp
  | some e => exact valueOf_times hc s m x push i e

end

theorem stopIterating_times {b : Rat} (hb : 0 < b) (t : ObjType) (v : Rat) (coin : Bool) :
    stopIterating t (b * v) coin = stopIterating t v coin := by
  unfold stopIterating
  have h0 : b * v = 0 ↔ v = 0 := by simp [hb.ne']
  by_cases hv : v = 0
  · rw [if_pos hv, if_pos (h0.mpr hv)]
  · rw [if_neg hv, if_neg fun h => hv (h0.mp h)]
    cases t
    · exact decide_eq_decide.mpr ⟨fun h => by nlinarith, fun h => by nlinarith⟩
    · exact decide_eq_decide.mpr ⟨fun h => by nlinarith, fun h => by nlinarith⟩

theorem valueAt_times {b : Rat} {o o' : Oracle} (hs : ∀ j, o'.stale j = b * o.stale j) (R : List RC)
    (i : Int) : Mult.valueAt o' (R.map (cell b)) i = b * Mult.valueAt o R i := by
  unfold Mult.valueAt
  rw [List.getElem?_map]
  cases R[i.toNat]? with
  | none => exact hs i
  | some r => rfl

theorem turnP_times (b : Rat) (t : SolverType) (row : List FunElem) (k : Nat) (up : Bool) (d : Rat) :
    ∀ (is : List Nat) (P : Nat → Nat → Rat),
    turnP t row k up (b * d) (fun i j => b * P i j) is = fun i j => b * turnP t row k up d P is i j
  | [], P => rfl
  | i :: is, P => by
    unfold turnP
    cases row[i]? with
    | none => rfl
    | some e =>
      dsimp only
      rw [← turnP_times b t row k up d is]
      congr 1
      funext i j
      split
      · split <;> ring
      · rfl

theorem ids_times (b : Rat) (R : List RC) : (R.map (cell b)).map RC.id = R.map RC.id := by
  rw [List.map_map]
  rfl

theorem affectMem_times {b : Rat} {o o' : Oracle} (hs : ∀ j, o'.stale j = b * o.stale j) (s : Slv)
    (row : List FunElem) (k : Nat) (R : List RC) (sel : Int) (kappa delta : Rat) (m : Mem) :
    affectMem s o' row k (R.map (cell b)) sel kappa (b * delta) (mem b m) =
      mem b (affectMem s o row k R sel kappa delta m) := by
  unfold affectMem
  simp only [ids_times, valueAt_times hs]
  have hd : ∀ r v : Rat, b * delta + r * (b * v) = b * (delta + r * v) := fun r v => by ring
  split
  · rw [show b * delta + ratio kappa * (b * Mult.valueAt o R 0 / 2) =
      b * (delta + ratio kappa * (Mult.valueAt o R 0 / 2)) by ring]
    unfold mem
    congr 1
    exact turnP_times b _ _ _ _ _ _ _
  · split
    · rw [show b * delta + ratio kappa * (b * Mult.valueAt o R sel * (3 / 2)) =
        b * (delta + ratio kappa * (Mult.valueAt o R sel * (3 / 2))) by ring]
      unfold mem
      congr 1
      exact turnP_times b _ _ _ _ _ _ _
    · rw [show b * delta + ratio kappa * (b * Mult.valueAt o R (sel + 1) - b * Mult.valueAt o R sel) =
        b * (delta + ratio kappa * (Mult.valueAt o R (sel + 1) - Mult.valueAt o R sel)) by ring]
      unfold mem
      congr 1
      · funext i
        dsimp only
        split <;> ring
      · dsimp only
        rw [turnP_times, turnP_times]

theorem stopIterating_neg {t t' : ObjType} (h : t' ≠ t) (v : Rat) (coin : Bool) :
    stopIterating t' (-1 * v) coin = stopIterating t v coin := by
  unfold stopIterating
  by_cases hv : v = 0
  · simp [hv]
  · rw [if_neg hv, if_neg (by simpa using hv)]
    cases t <;> cases t' <;> first | exact absurd rfl h | simp

theorem update_times {b : Rat} {t t' : ObjType}
    (hb : ∀ v coin, stopIterating t' (b * v) coin = stopIterating t v coin) {c c' : CostFun}
    (hc : ∀ j x, c' j x = b * c j x)
    {o o' : Oracle} (hsort : ∀ l, o'.sort (l.map (cell b)) = (o.sort l).map (cell b))
    (hcoin : ∀ j, o'.coin j = o.coin j) (hs : ∀ j, o'.stale j = b * o.stale j) (s : Slv)
    (kappa delta theta : Rat) (push : Option Rat) (k : Nat) (x : Assign) (m : Mem) :
    Mult.update t' o' ⟨kappa, b * delta, theta, push⟩ s c' k x (mem b m) =
      (Mult.update t o ⟨kappa, delta, theta, push⟩ s c k x m).map fun r => (r.1, mem b r.2) := by
  unfold Mult.update
  cases rowOf s k with
  | error e => rfl
  | ok row =>
    simp only [ok_bind]
    cases boundOf s k with
    | error e => rfl
    | ok bd =>
      simp only [ok_bind]
      rw [decrease_times]
      have hr : toRow t' o' s c' (mem b (decrease m k row theta)) x push row =
          toRow t o s c (decrease m k row theta) x push row := by
        unfold toRow
        congr 1
        · funext is
          rw [cells_times hc, hsort, ids_times]
        · funext i
          rw [cells_times hc, hsort, valueAt_times hs, hb, hcoin]
      rw [hr, cells_times hc, hsort]
      cases select s (toRow t o s c (decrease m k row theta) x push row) row bd with
      | error e => rfl
      | ok sel =>
        simp only [ok_bind]
        cases Itm.affect s k row
          ((toRow t o s c (decrease m k row theta) x push row).sort (List.range row.length)) sel x with
        | error e => rfl
        | ok x' =>
          simp only [ok_bind, Except.map]
          rw [affectMem_times hs]

/-! ## The costs -/

theorem modify_map {α : Type} (g f f' : α → α) (h : ∀ v, g (f v) = f' (g v)) (l : List α) (i : Nat) :
    (l.modify i f).map g = (l.map g).modify i f' := by
  apply List.ext_getElem?
  intro j
  simp only [List.getElem?_map, List.getElem?_modify]
  cases l[j]? with
  | none => rfl
  | some v =>
    simp only [Option.map_some, Option.map_eq_map]
    split <;> simp [h]

theorem addElements_times (a : Rat) (n : Nat) : ∀ (es : List ObjElem) (acc : List Rat),
    addElements n (es.map fun e => { e with factor := a * e.factor }) (acc.map (a * ·)) =
      (addElements n es acc).map (List.map (a * ·))
  | [], acc => rfl
  | e :: es, acc => by
    simp only [List.map_cons, addElements]
    cases check (decide (e.var < n)) "elem.variable_index < n" with
    | error e => rfl
    | ok u =>
      simp only [ok_bind]
      rw [← addElements_times a n es]
      congr 1
      exact (modify_map _ _ _ (fun v => by ring) acc e.var).symm

theorem countQuads_times (a : Rat) (n var : Nat) : ∀ (qs : List QuadElem) (acc : Nat),
    countQuads n var (qs.map fun e => { e with factor := a * e.factor }) acc = countQuads n var qs acc
  | [], acc => rfl
  | e :: es, acc => by
    simp only [List.map_cons, countQuads]
    rw [countQuads_times a n var es]

theorem fillIndices_times (a : Rat) (n : Nat) (qs : List QuadElem) : ∀ (left var last : Nat),
    fillIndices n (qs.map fun e => { e with factor := a * e.factor }) left var last =
      fillIndices n qs left var last
  | 0, _, _ => rfl
  | left + 1, var, last => by
    simp only [fillIndices]
    rw [countQuads_times]
    congr 1
    funext next
    rw [fillIndices_times a n qs left]

/-- The values of a list of quadratic elements multiplied by `a`. -/
def quads (a : Rat) (l : List (Rat × Nat)) : List (Rat × Nat) := l.map fun q => (a * q.1, q.2)

theorem copyQuads_times (a : Rat) (room var : Nat) : ∀ (qs : List QuadElem) (acc : List (Rat × Nat)),
    copyQuads room var (qs.map fun e => { e with factor := a * e.factor }) (quads a acc) =
      (copyQuads room var qs acc).map (quads a)
  | [], acc => rfl
  | e :: es, acc => by
    simp only [List.map_cons, copyQuads]
    rw [show (quads a acc).length = acc.length by simp [quads]]
    split
    · split
      · rw [← copyQuads_times a room var es]
        congr 1
        simp [quads]
      · rfl
    · exact copyQuads_times a room var es acc

theorem fillQuads_times (a : Rat) (room : Nat) (qs : List QuadElem) :
    ∀ (left var : Nat) (acc : List (Rat × Nat)),
    fillQuads room (qs.map fun e => { e with factor := a * e.factor }) left var (quads a acc) =
      (fillQuads room qs left var acc).map (quads a)
  | 0, _, _ => rfl
  | left + 1, var, acc => by
    simp only [fillQuads]
    rw [copyQuads_times]
    cases copyQuads room var qs acc with
    | error e => rfl
    | ok acc' => exact fillQuads_times a room qs left (var + 1) acc'

/-- The costs multiplied by `a`. -/
def costs (a : Rat) (c : Cost) : Cost := { c with linear := c.linear.map (a * ·), quads := quads a c.quads }

theorem costs_over (a : Rat) (c : Cost) : costs a c = c.over a⁻¹ := by
  unfold costs quads Cost.over
  congr 1
  · exact List.map_congr_left fun v _ => by rw [div_inv_eq_mul, mul_comm]
  · exact List.map_congr_left fun v _ => by rw [div_inv_eq_mul, mul_comm]

theorem makeCosts_times (a : Rat) (o : Objective) (n : Nat) :
    makeCosts (times a o) n = (makeCosts o n).map (costs a) := by
  have hz : (List.replicate n (0 : Rat)) = (List.replicate n (0 : Rat)).map (a * ·) := by simp
  have hl := addElements_times a n o.elems (List.replicate n 0)
  rw [← hz] at hl
  unfold makeCosts
  rw [show (times a o).qelems.isEmpty = o.qelems.isEmpty by
    unfold times; cases o.qelems <;> rfl]
  split
  · unfold makeDefault
    rw [show (times a o).elems = o.elems.map fun e => { e with factor := a * e.factor } from rfl, hl]
    cases addElements n o.elems (List.replicate n 0) <;> rfl
  · unfold makeQuadratic
    rw [show (times a o).elems = o.elems.map fun e => { e with factor := a * e.factor } from rfl, hl,
      show (times a o).qelems = o.qelems.map fun e => { e with factor := a * e.factor } from rfl,
      fillIndices_times, List.length_map]
    have hq := fillQuads_times a (2 * o.qelems.length + 1) o.qelems n 0 []
    rw [show quads a [] = [] from rfl] at hq
    rw [hq]
    cases addElements n o.elems (List.replicate n 0) with
    | error e => rfl
    | ok l =>
      simp only [Except.map, ok_bind]
      cases fillIndices n o.qelems n 0 0 with
      | error e => rfl
      | ok is =>
        simp only [ok_bind]
        cases fillQuads (2 * o.qelems.length + 1) o.qelems n 0 [] <;> rfl

theorem isEmpty_times (a : Rat) (o : Objective) : (times a o).qelems.isEmpty = o.qelems.isEmpty := by
  unfold times; cases o.qelems <;> rfl

theorem costFun_times (a b : Rat) (o : Objective) (c : Cost) (j : Nat) (x : Assign) :
    costFun (times a o) (costs b c) j x = b * costFun o c j x := by
  unfold costFun
  rw [isEmpty_times, costs_over, at_over, atLinear_over]
  cases hq : o.qelems.isEmpty
  · simp only [Bool.false_eq_true, if_false]
    cases c.at j x with
    | error e => simp [Except.map]
    | ok v => simp [Except.map, mul_comm]
  · simp only [if_true]
    cases c.atLinear j x with
    | error e => simp [Except.map]
    | ok v => simp [Except.map, mul_comm]

theorem costAt_times (a : Rat) (o : Objective) (c : Cost) (i : Nat) :
    Init.costAt (times a o) (costs a c) i = (Init.costAt o c i).map (a * ·) := by
  have h : (fun v : Rat => v / a⁻¹) = fun v => a * v := by
    funext v; rw [div_inv_eq_mul, mul_comm]
  unfold Init.costAt Cost.get
  rw [isEmpty_times, costs_over, at_over, atLinear_over, h]
  split <;> rfl

theorem initX_times {a : Rat} (ha : 0 < a) (t : ObjType) (v : Rat) (z : Bool) :
    Init.initX t (a * v) z = Init.initX t v z := by
  unfold Init.initX
  have h0 : a * v = 0 ↔ v = 0 := by simp [ha.ne']
  have h1 : a * v < 0 ↔ v < 0 := ⟨fun h => by nlinarith, fun h => by nlinarith⟩
  have h2 : a * v > 0 ↔ v > 0 := ⟨fun h => by nlinarith, fun h => by nlinarith⟩
  cases t <;> simp only [h0, h1, h2]

theorem bastert_times {a : Rat} (ha : 0 < a) (t : ObjType) {cost cost' : Nat → Outcome Rat}
    (hc : ∀ i, cost' i = (cost i).map (a * ·)) : ∀ (left i : Nat) (x : Assign),
    Init.bastert t cost' left i x = Init.bastert t cost left i x
  | 0, _, _ => rfl
  | left + 1, i, x => by
    simp only [Init.bastert]
    rw [hc]
    cases cost i with
    | error e => rfl
    | ok v =>
      simp only [Except.map, ok_bind]
      rw [initX_times ha]
      exact bastert_times ha t hc left (i + 1) _

/-! ## The norms -/

theorem costs_costs (a b : Rat) (c : Cost) : costs a (costs b c) = costs (a * b) c := by
  unfold costs quads
  simp only [List.map_map]
  congr 1
  · exact List.map_congr_left fun v _ => by simp only [Function.comp]; ring
  · exact List.map_congr_left fun v _ => by simp only [Function.comp]; rw [mul_assoc]

theorem costs_one (c : Cost) : costs 1 c = c := by
  unfold costs quads
  simp

theorem foldl_max (a : Rat) (ha : 0 < a) : ∀ (l : List Rat) (v : Rat),
    (l.map (a * ·)).foldl max (a * v) = a * l.foldl max v
  | [], v => rfl
  | u :: l, v => by
    simp only [List.map_cons, List.foldl_cons]
    rw [← mul_max_of_nonneg _ _ ha.le]
    exact foldl_max a ha l _

theorem maxFrom_eq : ∀ (l : List Rat) (v : Rat), maxFrom v l = l.foldl max v
  | [], v => rfl
  | u :: l, v => by
    unfold maxFrom
    simp only [List.foldl_cons]
    rw [show (if v < u then u else v) = max v u by
      rcases lt_or_ge v u with h | h
      · rw [if_pos h, max_eq_right h.le]
      · rw [if_neg (not_lt.mpr h), max_eq_left h]]
    exact maxFrom_eq l _

/-- How the divisor of a norm changes. -/
def factor (n : Norm) (a : Rat) : Rat :=
  match n with
  | .none => 1
  | .l1 | .loo => a
  | .l2 => a * a

theorem divisor_times {a : Rat} (ha : 0 < a) (n : Norm) (c : Cost) :
    divisor n (costs a c) = factor n a * divisor n c := by
  have hl : (costs a c).linear ++ (costs a c).quads.map Prod.fst =
      (c.linear ++ c.quads.map Prod.fst).map (a * ·) := by
    unfold costs quads
    simp [Function.comp_def]
  unfold divisor
  rw [hl]
  generalize c.linear ++ c.quads.map Prod.fst = l
  cases n with
  | none => simp [factor]
  | l1 =>
    simp only [factor, List.map_map]
    exact sum_times a _ _ l fun v _ => by simp [abs_mul, abs_of_pos ha]
  | l2 =>
    simp only [factor, List.map_map]
    exact sum_times (a * a) _ _ l fun v _ => by simp only [Function.comp]; ring
  | loo =>
    cases l with
    | nil => simp [factor]
    | cons v vs => exact foldl_max a ha vs v

theorem normalize_eq (f : FloatType) (n : Norm) (c : Cost) (hn : f.isNormal (divisor n c) = true) :
    normalize f n c = .ok (costs (divisor n c)⁻¹ c) ∨ (n = .loo ∧ c.linear = []) := by
  have hd : c.divide f (divisor n c) = costs (divisor n c)⁻¹ c := by
    unfold Cost.divide
    rw [if_pos hn, costs_over, inv_inv]
    rfl
  cases n with
  | none =>
    left
    show Except.ok c = .ok (costs (1 : Rat)⁻¹ c)
    rw [inv_one, costs_one]
  | l1 =>
    left
    rw [← hd]
    unfold normalize Cost.l1 divisor
    simp [Function.comp_def]
  | l2 =>
    left
    rw [← hd]
    unfold normalize Cost.l2 divisor
    simp [Function.comp_def]
  | loo =>
    cases hl : c.linear with
    | nil => exact Or.inr ⟨rfl, rfl⟩
    | cons v vs =>
      left
      rw [← hd]
      unfold normalize Cost.loo divisor
      simp only [hl, List.cons_append, List.foldl_append, maxFrom_eq]

/-! ## Delta -/

theorem least_times {b : Rat} (hb : 0 < b) : ∀ l : List Rat,
    Init.least (l.map (b * ·)) = (Init.least l).map (b * ·)
  | [] => rfl
  | v :: vs => by
    simp only [List.map_cons, Init.least]
    rw [least_times hb vs]
    by_cases hv : v = 0
    · simp [hv]
    · rw [if_neg hv, if_neg (by simp [hv, hb.ne'])]
      cases Init.least vs with
      | none => simp [abs_mul, abs_of_pos hb]
      | some m =>
        simp only [Option.map_some, abs_mul, abs_of_pos hb, mul_le_mul_iff_right₀ hb]
        split <;> rfl

theorem least_some : ∀ l : List Rat, (∃ v ∈ l, v ≠ 0) → ∃ m, Init.least l = some m
  | [], h => by simp at h
  | v :: vs, h => by
    unfold Init.least
    by_cases hv : v = 0
    · rw [if_pos hv]
      obtain ⟨u, hu, h0⟩ := h
      refine least_some vs ⟨u, ?_, h0⟩
      rcases List.mem_cons.mp hu with rfl | h
      · exact absurd hv h0
      · exact h
    · rw [if_neg hv]
      cases Init.least vs <;> exact ⟨_, rfl⟩

theorem computeDelta_times {b : Rat} (hb : 0 < b) (big : Rat) (c : Cost) (theta : Rat)
    (h : (∃ v ∈ c.linear, v ≠ 0) ∨ ∃ q ∈ c.quads, q.1 ≠ 0) :
    Init.computeDelta id big (costs b c) theta = b * Init.computeDelta id big c theta := by
  have hl : (costs b c).linear ++ (costs b c).quads.map Prod.fst =
      (c.linear ++ c.quads.map Prod.fst).map (b * ·) := by
    unfold costs quads
    simp [Function.comp_def]
  obtain ⟨m, hm⟩ := least_some (c.linear ++ c.quads.map Prod.fst) (by
    rcases h with ⟨v, hv, h0⟩ | ⟨q, hq, h0⟩
    · exact ⟨v, by simp [hv], h0⟩
    · exact ⟨q.1, List.mem_append_right _ (List.mem_map_of_mem hq), h0⟩)
  unfold Init.computeDelta
  rw [hl, least_times hb, hm]
  simp only [Option.map_some, Option.getD_some, id]
  ring

end Bx.Scaling
