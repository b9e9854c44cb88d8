import Verif.Model.Params
import Verif.Proofs.Numeric2
import Verif.Props.Multipliers
import Verif.Props.Solve

/-!
# C81-C84: the weights, the orders and the end of the solving loop

`functor` runs the solving loop with its numbers: the multipliers, the preferences and the weight
`kappa`.  Its log has one entry per pass: `rows` are the constraints updated, in order, `kappa` the
weight of the updates, `x` and `x'` the assignments before and after, `mem` the multipliers and the
preferences before.
The engine `upd` is the row update of any solver.
-/

namespace Bx.Num

open Merge SolverCtor Spec Itm Mult

variable {Ω : Type}

variable {kind : SolverType} {upd : Slv → Upd Ω} {w : World Ω} {cfg : Cfg} {t : ObjType}
  {o : Objective} {csts : List Merged} {n : Nat} {a : Answer} {st : State}

/-- C83, the log describes the passes of the run: it has one entry per vector of the trace; each pass
starts from the vector, the multipliers and the preferences that the one before left, the first one
from the initial vector and from zeros; and it updates its rows one after the other, with its weight,
the step `delta`, the factor `theta` and, in the pushes only, the amplifier. -/
theorem C83_log_is_the_run (h : functor kind upd w cfg t o csts n = .ok (a, st)) :
    st.log.map Visit.x' = a.final.trace ∧
    ∃ s, makeSlv kind csts n = .ok s ∧ ∃ ms : List Mem, ms.length = st.log.length + 1 ∧
      ms[0]? = some ⟨fun _ => 0, fun _ _ => 0⟩ ∧ ∀ (i : Nat) v, st.log[i]? = some v →
      (w.x0 :: a.final.trace)[i]? = some v.x ∧ ms[i]? = some v.mem ∧ ∃ m', ms[i + 1]? = some m' ∧
        Updates (fun j k b c => upd s (w.oracle i j)
            ⟨v.kappa, cfg.delta, cfg.theta, if v.push then some cfg.amplifier else none⟩ k b.1 b.2 = .ok c)
          0 v.rows (v.x, v.mem) (v.x', m') := by
  obtain ⟨s, hs, hf, hfin, _⟩ := functor_faithful h
  rw [hfin]
  refine ⟨hf.trace, s, hs, st.log.map Visit.mem ++ [st.mem], by simp, hf.start, fun i v hv => ?_⟩
  obtain ⟨m', g1, g2⟩ := hf.did i v hv
  refine ⟨hf.before i v hv, ?_, m', g1, rows_updates _ _ _ _ _ _ _ _ _ g2⟩
  rw [List.getElem?_append_left (by simpa using (List.getElem?_eq_some_iff.mp hv).1)]
  simp [hv]

private theorem rem_eq {v : Visit} (h : v.remaining = violations csts v.x') :
    v.remaining = (brokenRows csts v.x').length := by
  rw [h, broken_eq]
  rfl

/-! ## C81 -/

/-- C81, the main loop: the first pass has the weight `kappa-min`; from one pass to the next the
weight is kept during the first `w` passes and then grows by `kappa-step` times the power of the
share of the constraints that are not respected, rounded; it never decreases, it stays between
`kappa-min` and `kappa-max`, and the loop ends as soon as it would go beyond.  In the push phase a
weight is at most `kappa-max + kappa-step` (`C81_push_weight_beyond_the_maximum`).  The rounding is
any one: `rnd` is the identity for exact numbers, `binary 24` for `float` and `binary 53` for
`double`.  What is missing: the weight can be 1 (`C81_weight_one`). -/
theorem C81_weights_partial (hr : Range w cfg)
    (h : functor kind upd w cfg t o csts n = .ok (a, st)) :
    (∀ v, st.log[0]? = some v → 0 < a.mainPasses → v.kappa = cfg.kappaMin) ∧
    (∀ (i : Nat) v v', st.log[i]? = some v → st.log[i + 1]? = some v' → i + 1 < a.mainPasses →
      v'.kappa = (if cfg.w.floor < (i : Int) then
        w.rnd (v.kappa +
          w.rnd (cfg.kappaStep * w.pow ((brokenRows csts v.x').length / csts.length)))
        else v.kappa) ∧ v.kappa ≤ v'.kappa) ∧
    (∀ (i : Nat) v, st.log[i]? = some v → i < a.mainPasses →
      cfg.kappaMin ≤ v.kappa ∧ v.kappa ≤ cfg.kappaMax ∧ v.push = false) ∧
    (∀ (i : Nat) v, st.log[i]? = some v → a.mainPasses ≤ i →
      ∃ K, cfg.kappaMin ≤ K ∧ K ≤ w.rnd (cfg.kappaMax + cfg.kappaStep) ∧
        v.kappa = if v.push then w.rnd (cfg.kFactor * K) else K) ∧
    (a.exit = .kappa → 0 < a.mainPasses → ∃ v, st.log.getLast? = some v ∧
      st.log.length = a.mainPasses ∧ v.kappa ≤ cfg.kappaMax ∧
      cfg.kappaMax < w.rnd (v.kappa +
        w.rnd (cfg.kappaStep * w.pow ((brokenRows csts v.x').length / csts.length)))) := by
  obtain ⟨s, hs, _, _, st1, l, hlog, hlen, hml, hwent, hl, hkap, _, _, hpush⟩ := functor_faithful h
  obtain ⟨_, hrows, _⟩ := makeSlv_facts hs
  have hrl : s.rows.length = csts.length := by rw [hrows]; simp
  have hb := hml.bounds hrl hr hwent
  have hget : ∀ (i : Nat), i < a.mainPasses → st.log[i]? = st1.log[i]? := by
    intro i hi
    rw [hlog, List.getElem?_append_left (by omega)]
  refine ⟨?_, ?_, ?_, ?_, ?_⟩
  · intro v hv h0
    rw [hget 0 h0] at hv
    exact hml.first v hv
  · intro i v v' hv hv' hi
    rw [hget i (by omega)] at hv
    rw [hget (i + 1) hi] at hv'
    have hz := (hwent i v v' hv hv').1
    refine ⟨?_, by rw [hml.chain i v v' hv hv']; exact (hb i v hv).2.2.2.ge⟩
    rw [hml.chain i v v' hv hv', hml.rule i v hv]
    unfold nextMain grow
    rw [if_neg hz, rem_eq (hml.rem v (List.mem_of_getElem? hv)), hrl]
    by_cases hc : cfg.w.floor < (i : Int)
    · simp [hc]
    · simp [hc]
  · intro i v hv hi
    rw [hget i hi] at hv
    obtain ⟨h1, h2, _⟩ := hb i v hv
    exact ⟨h1, h2, hml.push v (List.mem_of_getElem? hv)⟩
  · intro i v hv hi
    obtain ⟨_, l', hl', hK⟩ := hpush hr
    rw [hl', List.getElem?_append_right (by omega)] at hv
    exact hK v (List.mem_of_getElem? hv)
  · intro he h0
    have hnil := hl (by rw [he]; simp)
    subst hnil
    rw [List.append_nil] at hlog
    have hk := hkap he
    rw [hml.cur] at hk
    have hpos : st1.log ≠ [] := by
      intro hn
      rw [hn] at hlen
      simp at hlen
      omega
    have hlast := List.getLast?_eq_getLast_of_ne_nil hpos
    rw [hlast] at hk
    simp only at hk
    have hmem : st1.log[a.mainPasses - 1]? = some (st1.log.getLast hpos) := by
      rw [← hlast, List.getLast?_eq_getElem?, hlen]
    obtain ⟨_, h2, _⟩ := hb _ _ hmem
    refine ⟨st1.log.getLast hpos, by rw [hlog]; exact hlast, by rw [hlog, hlen], h2, ?_⟩
    rw [hml.rule _ _ hmem] at hk
    unfold nextMain grow at hk
    split at hk
    · exact absurd h2 (not_le.mpr hk)
    · rw [rem_eq (hml.rem _ (List.mem_of_getElem? hmem)), hrl] at hk
      split at hk
      · exact hk
      · exact absurd h2 (not_le.mpr hk)

/-! ## C82 -/

/-- C82, part: let `d` be a lower bound of the growth of the weight, rounded, for a share of the
constraints that is not null.  Once `kappa-min + N * d` is beyond `kappa-max`, the main loop has made
at most `w + 1 + N` passes, whatever the loop limit and the clock.  What is missing: a step that is
lost by the rounding (`C82_lost_step_never_ends`). -/
theorem C82_main_loop_ends_partial (hr : Range w cfg) (d : Rat)
    (hd : ∀ kappa q, cfg.kappaMin ≤ kappa → kappa ≤ cfg.kappaMax → w.rnd kappa = kappa →
      1 / (csts.length : Rat) ≤ q → q ≤ 1 →
      kappa + d ≤ w.rnd (kappa + w.rnd (cfg.kappaStep * w.pow q))) (N : Nat)
    (hN : cfg.kappaMax < cfg.kappaMin + N * d)
    (h : functor kind upd w cfg t o csts n = .ok (a, st)) :
    a.mainPasses ≤ cfg.w.floor.toNat + 1 + N := by
  obtain ⟨s, hs, _, _, st1, l, hlog, hlen, hml, hwent, _⟩ := functor_faithful h
  obtain ⟨_, hrows, _⟩ := makeSlv_facts hs
  have hrl : s.rows.length = csts.length := by rw [hrows]; simp
  by_contra hn
  have hi : cfg.w.floor.toNat + 1 + N < st1.log.length := by omega
  have hv := List.getElem?_eq_getElem hi
  have h1 := hml.grows hrl hr hwent hd _ _ hv
  obtain ⟨_, h2, _⟩ := hml.bounds hrl hr hwent _ _ hv
  rw [Nat.add_sub_cancel_left] at h1
  linarith

/-- C82, part, with exact numbers: let `c` be a lower bound of the power on the shares that are not
null; the growth is `kappa-step * c`. -/
theorem C82_main_loop_ends_exact_partial (hr : Range w cfg) (he : ∀ q, w.rnd q = q) (c : Rat)
    (hc : ∀ q, 1 / (csts.length : Rat) ≤ q → q ≤ 1 → c ≤ w.pow q) (N : Nat)
    (hN : cfg.kappaMax < cfg.kappaMin + N * (cfg.kappaStep * c))
    (h : functor kind upd w cfg t o csts n = .ok (a, st)) :
    a.mainPasses ≤ cfg.w.floor.toNat + 1 + N := by
  refine C82_main_loop_ends_partial hr _ (fun kappa q _ _ _ h1 h2 => ?_) N hN h
  rw [he, he]
  have := mul_le_mul_of_nonneg_left (hc q h1 h2) hr.step
  linarith

/-- C82, part, with `p` binary digits: let `c` be a lower bound of the power on the shares that are
not null.  The growth is at least `kappa-step * c`, less the errors of the product and of the sum. -/
theorem C82_main_loop_ends_rounded_partial (hr : Range w cfg) (p : Nat) (he : w.rnd = binary p)
    (h0 : 0 ≤ cfg.kappaMin) (c : Rat) (hc0 : 0 ≤ c)
    (hc : ∀ q, 1 / (csts.length : Rat) ≤ q → q ≤ 1 → c ≤ w.pow q) (N : Nat)
    (hN : cfg.kappaMax < cfg.kappaMin +
      N * (cfg.kappaStep * c * (1 - 1 / 2 ^ p) ^ 2 - cfg.kappaMax * (1 / 2 ^ p)))
    (h : functor kind upd w cfg t o csts n = .ok (a, st)) :
    a.mainPasses ≤ cfg.w.floor.toNat + 1 + N := by
  refine C82_main_loop_ends_partial hr _ (fun kappa q k1 k2 _ h1 h2 => ?_) N hN h
  rw [he]
  have hu0 : (0 : Rat) ≤ 1 / 2 ^ p := by positivity
  have hu1 : (1 : Rat) / 2 ^ p ≤ 1 := by
    rw [div_le_one (by positivity)]
    exact one_le_pow₀ (by norm_num)
  have hsc : 0 ≤ cfg.kappaStep * c := mul_nonneg hr.step hc0
  have hle := mul_le_mul_of_nonneg_left (hc q h1 h2) hr.step
  have e1 := (binary_error p (hsc.trans hle)).1
  have e2 := (binary_error p (q := kappa + binary p (cfg.kappaStep * w.pow q)) (by
    have := mul_nonneg (hsc.trans hle) (show 0 ≤ 1 - 1 / 2 ^ p by linarith)
    linarith)).1
  generalize (1 : Rat) / 2 ^ p = u at *
  generalize binary p (cfg.kappaStep * w.pow q) = r at *
  have f1 : cfg.kappaStep * c * (1 - u) ≤ r :=
    (mul_le_mul_of_nonneg_right hle (by linarith)).trans e1
  have f2 := mul_le_mul_of_nonneg_right f1 (show 0 ≤ 1 - u by linarith)
  have f3 := mul_le_mul_of_nonneg_right k2 hu0
  refine le_trans ?_ e2
  linarith

/-- C82 is false of the code when the step is lost by the rounding: on constraints that have no
solution and without a time limit, the main loop makes as many passes as the loop limit allows,
whatever it is. -/
theorem C82_lost_step_never_ends (hr : Range w cfg)
    (hlost : ∀ q, 0 ≤ q → q ≤ 1 →
      w.rnd (cfg.kappaMin + w.rnd (cfg.kappaStep * w.pow q)) = cfg.kappaMin)
    (htime : ∀ i, w.timeUp i = false) {ok : Ω → Prop} (hw : w.Ok ok)
    (hinf : ∀ x, ¬ Within x csts) (h : functor kind upd w cfg t o csts n = .ok (a, st)) :
    a.mainPasses = cfg.limit := by
  obtain ⟨s, hs, _, _, st1, l, hlog, hlen, hml, hwent, hl, hkap, htim, hlim, _⟩ := functor_faithful h
  obtain ⟨_, hrows, _⟩ := makeSlv_facts hs
  have hrl : s.rows.length = csts.length := by rw [hrows]; simp
  have hnext : ∀ (i : Nat) v, st1.log[i]? = some v → v.kappa = cfg.kappaMin →
      v.next = cfg.kappaMin := by
    intro i v hv hk
    have hrem : v.remaining ≤ s.rows.length := by
      rw [hml.rem v (List.mem_of_getElem? hv), hrl]; exact violations_le _ _
    rw [hml.rule i v hv, hk]
    unfold nextMain grow
    split
    · rfl
    · split
      · exact hlost _ (by positivity)
          (div_le_one_of_le₀ (by exact_mod_cast hrem) (by positivity))
      · rfl
  have hall : ∀ (i : Nat) v, st1.log[i]? = some v → v.kappa = cfg.kappaMin := by
    intro i
    induction i with
    | zero => exact fun v hv => hml.first v hv
    | succ i ih =>
      intro v hv
      have hlt := (List.getElem?_eq_some_iff.mp hv).1
      have hu : st1.log[i]? = some st1.log[i] := List.getElem?_eq_getElem (by omega)
      rw [hml.chain i _ _ hu hv]
      exact hnext i _ hu (ih _ hu)
  apply hlim
  have h1 : a.exit ≠ .found := by
    intro he
    obtain ⟨r, _, _, _, _, _, hA, _⟩ := functor_refines hw (fun s _ => any_sim upd w s) h
    have hsucc := (C31_status_partial _ _ _ _ _ _ _ hA).1.mpr he
    obtain ⟨y, _, hy⟩ := (C29_best_of_the_run _ _ _ _ _ _ _ hA).1.mp hsucc
    exact hinf y hy
  have h2 : a.exit ≠ .kappa := by
    intro he
    have hk := hkap he
    rw [hml.cur] at hk
    cases hl : st1.log.getLast? with
    | none =>
      rw [hl] at hk
      exact absurd hr.kappa (not_le.mpr hk)
    | some v =>
      rw [hl] at hk
      simp only at hk
      rw [List.getLast?_eq_getElem?] at hl
      rw [hnext _ v hl (hall _ v hl)] at hk
      exact absurd hr.kappa (not_le.mpr hk)
  have h3 : a.exit ≠ .time := by
    intro he
    have := htim he
    rw [htime] at this
    cases this
  cases he : a.exit
  · exact absurd he h1
  · exact absurd he h2
  · exact absurd he h3
  · rfl

/-- C82 is false of the code when `kappa-step` is 0, which the parameters accept. -/
theorem C82_zero_step_never_ends (hr : Range w cfg) (hz : cfg.kappaStep = 0)
    (htime : ∀ i, w.timeUp i = false) {ok : Ω → Prop} (hw : w.Ok ok)
    (hinf : ∀ x, ¬ Within x csts) (h : functor kind upd w cfg t o csts n = .ok (a, st)) :
    a.mainPasses = cfg.limit := by
  refine C82_lost_step_never_ends hr (fun q _ _ => ?_) htime hw hinf h
  rw [hz, zero_mul, hr.rnd.zero, add_zero, hr.rndMin]

/-- C82 is false of the code for steps that are not 0: with the type `double`, from `kappa-min` at
0.5, any step up to 5e-17 is lost, whatever the power. -/
theorem C82_small_step_never_ends (hr : Range w cfg) (hd : w.rnd = binary 53)
    (hmin : cfg.kappaMin = 1 / 2) (hs : cfg.kappaStep ≤ 5 / 10 ^ 17)
    (htime : ∀ i, w.timeUp i = false) {ok : Ω → Prop} (hw : w.Ok ok)
    (hinf : ∀ x, ¬ Within x csts) (h : functor kind upd w cfg t o csts n = .ok (a, st)) :
    a.mainPasses = cfg.limit := by
  refine C82_lost_step_never_ends hr (fun q h0 h1 => ?_) htime hw hinf h
  obtain ⟨p0, p1⟩ := hr.pow q h0 h1
  have g0 := hr.rnd.nonneg (mul_nonneg hr.step p0)
  have g1 := hr.rnd.mono (mul_le_mul_of_nonneg_left p1 hr.step)
  rw [mul_one, hr.rndStep] at g1
  have k1 := hr.rnd.mono (show cfg.kappaMin ≤ cfg.kappaMin + w.rnd (cfg.kappaStep * w.pow q) by
    linarith)
  rw [hr.rndMin] at k1
  have k2 := hr.rnd.mono (show cfg.kappaMin + w.rnd (cfg.kappaStep * w.pow q) ≤
    1 / 2 + 5 / 10 ^ 17 by linarith)
  rw [hd, show binary 53 (1 / 2 + 5 / 10 ^ 17) = 1 / 2 by decide +kernel, ← hd] at k2
  rw [hmin] at *
  linarith

/-! ## C83 -/

/-- C83, part: with the option `constraint-order` at `none`, `reversing`, `random-sorting`,
`infeasibility-decr`, `infeasibility-incr`, `lagrangian-decr` or `lagrangian-incr`, every pass
updates each constraint that does not hold once and no other, in the order that the option names:
that of the constraints, the opposite one, any, by decreasing or increasing distance to the bounds,
by decreasing or increasing multiplier.  With `cycle`, the passes of the main loop follow the order
of the constraints.  What is missing: `pi-sign-change` (C63), and the push phase of `cycle`
(`C83_cycle_repeats_the_first_row`). -/
theorem C83_order_is_followed_partial {ok : Ω → Prop} (hw : w.Ok ok)
    (ho : cfg.order ≠ .piSignChange) (h : functor kind upd w cfg t o csts n = .ok (a, st)) :
    ∀ (i : Nat) v, st.log[i]? = some v → cfg.order ≠ .cycle ∨ i < a.mainPasses →
      v.rows.Perm (brokenRows csts v.x) ∧ Follows csts cfg.order v.x v.mem.pi v.rows := by
  obtain ⟨l, l', hlog, hlen, h1, h2⟩ := functor_ordered hw ho h
  intro i v hv hi
  rw [broken_eq]
  rw [hlog] at hv
  by_cases hl : i < l.length
  · rw [List.getElem?_append_left hl] at hv
    exact h1 v (List.mem_of_getElem? hv)
  · rw [List.getElem?_append_right (by omega)] at hv
    refine h2 ?_ v (List.mem_of_getElem? hv)
    rcases hi with hi | hi
    · exact hi
    · omega

/-! ## C84 -/

/-- C84, part: for constraints with coefficients 0 and 1 or -1, 0 and 1 that can each be respected
and hold no variable twice, `solve` never faults with the equality solvers, and with the inequality
solvers the only fault is the read beyond the array of the reduced costs (C25).  The order
`pi-sign-change` must not have more variables than constraints (C63).  What is missing: these two
faults and the integer coefficients. -/
theorem C84_solve_returns_partial {t : SolverType} (ht : t ≠ .equalitiesZ ∧ t ≠ .inequalitiesZ)
    {mode : ObjType}
    {w : World Oracle} (hw : w.Ok fun o => o.Ok mode) {s : Slv} (hs : makeSlv t csts n = .ok s)
    (hnd : ∀ c ∈ csts, (c.elems.map FunElem.var).Nodup) (hsat : ∀ c ∈ csts, ∃ y, Respects c y)
    (ho : cfg.order = .piSignChange → n ≤ csts.length) (cost : CostFun) :
    (∃ a st, functor t (fun s o p k x m => Mult.update mode o p s cost k x m) w cfg mode o csts n =
      .ok (a, st)) ∨
    ((t = .inequalities01 ∨ t = .inequalities101) ∧
      functor t (fun s o p k x m => Mult.update mode o p s cost k x m) w cfg mode o csts n =
        .error (.ub "R[i]")) := by
  have key := functor_ends (E := fun f => (t = .inequalities01 ∨ t = .inequalities101) ∧ f = .ub "R[i]")
    (upd := fun s o p k x m => Mult.update mode o p s cost k x m) (cfg := cfg) (t := mode) (o := o)
    hs hw (by
      intro i j p k x m hk f hf
      have hck : csts[k]? = some csts[k] := List.getElem?_eq_getElem hk
      have hmem : csts[k] ∈ csts := List.getElem_mem hk
      rcases C69_update_returns t ht csts n s hs k _ hck (hnd _ hmem) (hsat _ hmem) mode _
        (hw.oracle i j) p cost x m with ⟨x', m', h⟩ | ⟨h1, _, h⟩
      · rw [h] at hf
        cases hf
      · rw [h] at hf
        cases hf
        exact ⟨h1, rfl⟩) ho
  cases hres : functor t (fun s o p k x m => Mult.update mode o p s cost k x m) w cfg mode o csts n with
  | ok r => exact Or.inl ⟨r.1, r.2, rfl⟩
  | error f =>
    obtain ⟨h1, h2⟩ := key f hres
    exact Or.inr ⟨h1, by rw [h2]⟩

/-! ## Examples -/

/-- A world: the null vector, sorts by insertion, `alpha = 0` and no time limit. -/
def exWorld : World Oracle where
  x0 _ := false
  oracle _ _ := exOracle .minimize
  shuffle _ l := l
  sortR _ key := List.insertionSort fun a b => key a ≤ key b
  sortO _ key := List.insertionSort fun a b => key a ≤ key b
  pow _ := 1
  timeUp _ := false

theorem exWorld_ok : exWorld.Ok fun o => o.Ok .minimize where
  oracle _ _ := exOracle_ok .minimize
  shuffle _ l := List.Perm.refl l
  sortR _ key l := by
    have : Std.Total (fun a b : Nat => key a ≤ key b) := ⟨fun a b => le_total _ _⟩
    have : IsTrans Nat (fun a b : Nat => key a ≤ key b) := ⟨fun a b c h1 h2 => le_trans h1 h2⟩
    exact ⟨List.perm_insertionSort _ _,
      List.pairwise_insertionSort (fun a b : Nat => key a ≤ key b) l⟩
  sortO _ key l := by
    have : Std.Total (fun a b : Nat × Int => key a ≤ key b) := ⟨fun a b => le_total _ _⟩
    have : IsTrans (Nat × Int) (fun a b => key a ≤ key b) := ⟨fun a b c h1 h2 => le_trans h1 h2⟩
    exact ⟨List.perm_insertionSort _ _,
      List.pairwise_insertionSort (fun a b : Nat × Int => key a ≤ key b) l⟩

/-- The engine of the 0/1 equality solver with constant costs. -/
def exUpd (c : List Rat) : Slv → Upd Oracle := fun s o p k x m => Mult.update .minimize o p s (costOf c) k x m

/-- x0 + x1 = 1, x1 + x2 = 1 and x0 + x2 = 1: there is no solution. -/
def exOdd : List Merged :=
  [⟨[⟨1, 0⟩, ⟨1, 1⟩], 1, 1, 0⟩, ⟨[⟨1, 1⟩, ⟨1, 2⟩], 1, 1, 1⟩, ⟨[⟨1, 0⟩, ⟨1, 2⟩], 1, 1, 2⟩]

/-- x0 + x1 = 1, x1 + x2 = 1 and x0 + x1 + x2 = 2: the solution is x0 and x2. -/
def exEven : List Merged :=
  [⟨[⟨1, 0⟩, ⟨1, 1⟩], 1, 1, 0⟩, ⟨[⟨1, 1⟩, ⟨1, 2⟩], 1, 1, 1⟩,
    ⟨[⟨1, 0⟩, ⟨1, 1⟩, ⟨1, 2⟩], 2, 2, 2⟩]

/-- What is observed of a pass: its kind, its rows, its weight and the first variables after it. -/
structure Glimpse where
  push : Bool
  rows : List Nat
  kappa : Rat
  x : List Bool
  deriving DecidableEq, Repr

def glimpse (v : Visit) : Glimpse := ⟨v.push, v.rows, v.kappa, [v.x' 0, v.x' 1, v.x' 2]⟩

/-- What is observed of a run: the exit, the number of passes of the main loop and the passes. -/
structure Look where
  exit : Exit
  mainPasses : Nat
  passes : List Glimpse
  deriving DecidableEq, Repr

def look (r : Answer × State) : Look := ⟨r.1.exit, r.1.mainPasses, r.2.log.map glimpse⟩

theorem look_ok {r : Outcome (Answer × State)} {l : Look} (h : r.map look = .ok l) :
    ∃ a st, r = .ok (a, st) ∧ a.exit = l.exit ∧ a.mainPasses = l.mainPasses ∧
      st.log.map glimpse = l.passes := by
  cases r with
  | error f => simp [Except.map] at h
  | ok r =>
    rw [← Except.ok.inj h]
    exact ⟨r.1, r.2, rfl, rfl, rfl, rfl⟩

theorem exOdd_infeasible : ∀ x, ¬ Within x exOdd := by
  intro x h
  have h1 := h ⟨[⟨1, 0⟩, ⟨1, 1⟩], 1, 1, 0⟩ (by simp [exOdd])
  have h2 := h ⟨[⟨1, 1⟩, ⟨1, 2⟩], 1, 1, 1⟩ (by simp [exOdd])
  have h3 := h ⟨[⟨1, 0⟩, ⟨1, 2⟩], 1, 1, 2⟩ (by simp [exOdd])
  simp only [lhs] at h1 h2 h3
  cases e0 : x 0 <;> cases e1 : x 1 <;> cases e2 : x 2 <;> simp [e0, e1, e2] at h1 h2 h3

/-- The settings of the examples. -/
def exCfg : Cfg := { limit := 6, w := 0, kappaStep := 1 / 2, kappaMax := 1 }

theorem exCfg_range (L : Nat) (q : Rat) (hq : 0 ≤ q) (order : COrder) :
    Range exWorld { exCfg with limit := L, kappaStep := q, order := order } where
  kappa := by norm_num [exCfg]
  step := hq
  warm := by norm_num [exCfg]
  pow _ _ _ := by norm_num [exWorld]
  rnd := Rounding.id
  rndMin := rfl
  rndStep := rfl

/-- The run of the examples makes four passes with the weights 0, 0, 1/2 and 1. -/
theorem exOdd_run : ∃ a st, functor .equalities01 (exUpd [1, 2, 3]) exWorld exCfg .minimize {} exOdd 3 =
      .ok (a, st) ∧ a.exit = .kappa ∧ a.mainPasses = 4 ∧
    st.log.map glimpse =
      [⟨false, [0, 1, 2], 0, [true, true, false]⟩, ⟨false, [0], 0, [false, true, false]⟩,
       ⟨false, [2], 1 / 2, [true, true, false]⟩, ⟨false, [0], 1, [true, false, false]⟩] :=
  look_ok (l := ⟨_, _, _⟩) (by decide +kernel)

/-- The hypotheses of C81, C82 and C83 are met. -/
example : ∃ a st, functor .equalities01 (exUpd [1, 2, 3]) exWorld exCfg .minimize {} exOdd 3 =
      .ok (a, st) ∧ a.mainPasses ≤ 4 ∧ 4 ≤ st.log.length ∧
    (∃ v, st.log.getLast? = some v ∧ v.kappa ≤ 1 ∧ 1 < v.kappa + 1 / 2) ∧
    ∀ v ∈ st.log, v.rows.Perm (brokenRows exOdd v.x) ∧ v.rows.Pairwise (· < ·) := by
  obtain ⟨a, st, h, he, hm, hl⟩ := exOdd_run
  have hr : Range exWorld exCfg := exCfg_range 6 (1 / 2) (by norm_num) .none
  have h2 := C82_main_loop_ends_exact_partial hr (fun _ => rfl) 1 (fun _ _ _ => le_refl _) 3
    (by norm_num [exCfg]) h
  obtain ⟨v, g1, g2, g3, g4⟩ := (C81_weights_partial hr h).2.2.2.2 he (by omega)
  refine ⟨a, st, h, by rw [hm], by rw [g2, hm], ⟨v, g1, g3, ?_⟩, ?_⟩
  · norm_num [exCfg, exWorld] at g4
    norm_num
    exact g4
  · intro v hv
    obtain ⟨i, hi⟩ := List.getElem?_of_mem hv
    exact C83_order_is_followed_partial exWorld_ok (by simp [exCfg]) h i v hi (Or.inl (by simp [exCfg]))

/-- C81 is false of the code: with `kappa-max = 1`, which the parameters accept, a pass is made with
the weight 1, whose updates divide by `1 - kappa = 0`. -/
theorem C81_weight_one :
    Params.kappaOk { kappaMin := .fin exCfg.kappaMin, kappaStep := .fin exCfg.kappaStep,
                     kappaMax := .fin exCfg.kappaMax } = true ∧
    ∃ a st, functor .equalities01 (exUpd [1, 2, 3]) exWorld exCfg .minimize {} exOdd 3 = .ok (a, st) ∧
      ∃ v ∈ st.log, v.kappa = 1 ∧ v.rows ≠ [] := by
  refine ⟨by decide +kernel, ?_⟩
  obtain ⟨a, st, h, _, _, hl⟩ := exOdd_run
  refine ⟨a, st, h, ?_⟩
  have hmem : (⟨false, [0], (1 : Rat), [true, false, false]⟩ : Glimpse) ∈ st.log.map glimpse := by
    rw [hl]; simp
  obtain ⟨v, hv, he⟩ := List.mem_map.mp hmem
  simp only [glimpse, Glimpse.mk.injEq] at he
  exact ⟨v, hv, he.2.2.1, by rw [he.2.1]; simp⟩

/-- C81 is false of the code: in the push phase, with the order `pi-sign-change`, passes are made with
the weight 3/5 although `kappa-max` is 1/2. -/
theorem C81_push_weight_beyond_the_maximum :
    ∃ cfg a st, functor .equalities01 (exUpd [2, 2, 0]) exWorld cfg .minimize {} exEven 3 = .ok (a, st) ∧
      Params.kappaOk { kappaMin := .fin cfg.kappaMin, kappaStep := .fin cfg.kappaStep,
                       kappaMax := .fin cfg.kappaMax } = true ∧
      ∃ v ∈ st.log, cfg.kappaMax < v.kappa ∧ v.rows ≠ [] := by
  obtain ⟨a, st, h, _, _, hl⟩ := look_ok (r := functor .equalities01 (exUpd [2, 2, 0]) exWorld
    { limit := 16, w := 0, kappaStep := 1 / 5, kappaMax := 1 / 2, pushes := 2, pushIter := 6,
      order := .piSignChange } .minimize {} exEven 3) (l := ⟨.found, 1, [⟨false, [0, 1, 2], 0, [true, false, true]⟩, ⟨true, [0, 1, 2], 0, [false, true, true]⟩,
      ⟨false, [0, 1, 2], 0, [false, true, true]⟩, ⟨false, [0, 1, 2], 0, [false, true, true]⟩,
      ⟨false, [0, 1, 2], 1 / 5, [true, true, false]⟩, ⟨false, [0, 1, 2], 2 / 5, [true, true, false]⟩,
      ⟨true, [0, 1, 2], 27 / 50, [true, true, false]⟩, ⟨false, [0, 1, 2], 3 / 5, [true, true, false]⟩]⟩)
    (by decide +kernel)
  refine ⟨_, a, st, h, by decide +kernel, ?_⟩
  have hmem : (⟨false, [0, 1, 2], (3 / 5 : Rat), [true, true, false]⟩ : Glimpse) ∈ st.log.map glimpse := by
    rw [hl]; simp
  obtain ⟨v, hv, he⟩ := List.mem_map.mp hmem
  simp only [glimpse, Glimpse.mk.injEq] at he
  refine ⟨v, hv, ?_, by rw [he.2.1]; simp⟩
  rw [he.2.2.1]
  norm_num

/-- The hypotheses of `C82_zero_step_never_ends` and of `C84_solve_returns_partial` are met: whatever
the loop limit, the run returns and has made as many passes. -/
example (L : Nat) : ∃ a st, functor .equalities01 (exUpd [1, 2, 3]) exWorld
      { exCfg with limit := L, kappaStep := 0 } .minimize {} exOdd 3 = .ok (a, st) ∧
    a.mainPasses = L := by
  have hs : makeSlv .equalities01 exOdd 3 = .ok ⟨.equalities01,
      exOdd.map Merged.elems, [⟨1, 1, 0⟩, ⟨1, 1, 0⟩, ⟨1, 1, 0⟩], 2⟩ := by decide +kernel
  rcases C84_solve_returns_partial (cfg := { exCfg with limit := L, kappaStep := 0 }) (o := {})
    (by simp) exWorld_ok hs (by decide +kernel)
    (by
      intro c hc
      simp only [exOdd, List.mem_cons, List.not_mem_nil, or_false] at hc
      rcases hc with rfl | rfl | rfl
      · exact ⟨fun j => decide (j = 0), by unfold Respects; decide +kernel⟩
      · exact ⟨fun j => decide (j = 1), by unfold Respects; decide +kernel⟩
      · exact ⟨fun j => decide (j = 0), by unfold Respects; decide +kernel⟩)
    (by simp [exCfg]) (costOf [1, 2, 3]) with ⟨a, st, h⟩ | ⟨h, _⟩
  · exact ⟨a, st, h, C82_zero_step_never_ends (exCfg_range L 0 (le_refl _) .none) rfl
      (fun _ => rfl) exWorld_ok exOdd_infeasible h⟩
  · simp at h

/-- The same with numbers of the type `double`. -/
def exDouble : World Oracle := { exWorld with rnd := binary 53 }

theorem exDouble_ok : exDouble.Ok fun o => o.Ok .minimize :=
  ⟨exWorld_ok.oracle, exWorld_ok.shuffle, exWorld_ok.sortR, exWorld_ok.sortO⟩

theorem exDouble_range (L : Nat) (m q : Rat) (hm : m ≤ 1) (hq : 0 ≤ q) (em : binary 53 m = m)
    (eq : binary 53 q = q) :
    Range exDouble { exCfg with limit := L, kappaMin := m, kappaStep := q } where
  kappa := hm
  step := hq
  warm := by norm_num [exCfg]
  pow _ _ _ := by norm_num [exDouble, exWorld]
  rnd := binary_rounding (by norm_num)
  rndMin := em
  rndStep := eq

theorem exDouble_returns (cfg : Cfg) (ho : cfg.order = .none) : ∃ a st,
    functor .equalities01 (exUpd [1, 2, 3]) exDouble cfg .minimize {} exOdd 3 = .ok (a, st) := by
  have hs : makeSlv .equalities01 exOdd 3 = .ok ⟨.equalities01,
      exOdd.map Merged.elems, [⟨1, 1, 0⟩, ⟨1, 1, 0⟩, ⟨1, 1, 0⟩], 2⟩ := by decide +kernel
  rcases C84_solve_returns_partial (cfg := cfg) (o := {})
    (by simp) exDouble_ok hs (by decide +kernel)
    (by
      intro c hc
      simp only [exOdd, List.mem_cons, List.not_mem_nil, or_false] at hc
      rcases hc with rfl | rfl | rfl
      · exact ⟨fun j => decide (j = 0), by unfold Respects; decide +kernel⟩
      · exact ⟨fun j => decide (j = 1), by unfold Respects; decide +kernel⟩
      · exact ⟨fun j => decide (j = 0), by unfold Respects; decide +kernel⟩)
    (by simp [ho]) (costOf [1, 2, 3]) with h | ⟨h, _⟩
  · exact h
  · simp at h

/-- The hypotheses of `C82_small_step_never_ends` are met: the `double` that is the closest to 1e-17
is accepted by the parameters and, whatever the loop limit, the run makes as many passes. -/
example (L : Nat) : 0 < binary 53 (1 / 10 ^ 17) ∧
    Params.kappaOk { kappaMin := .fin (1 / 2), kappaStep := .fin (binary 53 (1 / 10 ^ 17)),
                     kappaMax := .fin 1 } = true ∧
    ∃ a st, functor .equalities01 (exUpd [1, 2, 3]) exDouble
      { exCfg with limit := L, kappaMin := 1 / 2, kappaStep := binary 53 (1 / 10 ^ 17) }
      .minimize {} exOdd 3 = .ok (a, st) ∧ a.mainPasses = L := by
  refine ⟨by decide +kernel, by decide +kernel, ?_⟩
  obtain ⟨a, st, h⟩ := exDouble_returns
    { exCfg with limit := L, kappaMin := 1 / 2, kappaStep := binary 53 (1 / 10 ^ 17) } rfl
  exact ⟨a, st, h, C82_small_step_never_ends (exDouble_range L (1 / 2) (binary 53 (1 / 10 ^ 17))
    (by norm_num) (by decide +kernel) (by decide +kernel) (by decide +kernel)) rfl rfl
    (show binary 53 (1 / 10 ^ 17) ≤ 5 / 10 ^ 17 by decide +kernel) (fun _ => rfl) exDouble_ok
    exOdd_infeasible h⟩

/-- The hypotheses of `C82_main_loop_ends_rounded_partial` are met: with a step of 1e-3, a run makes
at most 1003 passes, whatever the loop limit. -/
example (L : Nat) : ∃ a st, functor .equalities01 (exUpd [1, 2, 3]) exDouble
      { exCfg with limit := L, kappaMin := 0, kappaStep := binary 53 (1 / 1000) }
      .minimize {} exOdd 3 = .ok (a, st) ∧ a.mainPasses ≤ 1003 := by
  obtain ⟨a, st, h⟩ := exDouble_returns
    { exCfg with limit := L, kappaMin := 0, kappaStep := binary 53 (1 / 1000) } rfl
  refine ⟨a, st, h, ?_⟩
  exact C82_main_loop_ends_rounded_partial (exDouble_range L 0 (binary 53 (1 / 1000)) (by norm_num)
    (by decide +kernel) (by decide +kernel) (by decide +kernel)) 53 rfl (le_refl _) 1 (by norm_num)
    (fun _ _ _ => le_refl _) 1002 (show (1 : Rat) < 0 + (1002 : Nat) *
      (binary 53 (1 / 1000) * 1 * (1 - 1 / 2 ^ 53) ^ 2 - 1 * (1 / 2 ^ 53)) by decide +kernel) h

/-- C83 is false of the code for `cycle`: when the push phase comes to the order
`infeasibility-decr`, the vector of this order still holds its first value, and the pass updates the
constraint of index 0 three times (the number of variables), although it holds. -/
theorem C83_cycle_repeats_the_first_row :
    ∃ cfg a st, cfg.order = .cycle ∧
      functor .equalities01 (exUpd [-1, 2, -1]) exWorld cfg .minimize {} exEven 3 = .ok (a, st) ∧
      ∃ v ∈ st.log, v.rows = [0, 0, 0] ∧ 0 ∉ brokenRows exEven v.x' := by
  obtain ⟨a, st, h, _, _, hl⟩ := look_ok (r := functor .equalities01 (exUpd [-1, 2, -1]) exWorld
    { limit := 16, w := 0, kappaStep := 1 / 5, kappaMax := 1 / 2, pushes := 3, pushIter := 2,
      order := .cycle } .minimize {} exEven 3) (l := ⟨.found, 1, [⟨false, [0, 1, 2], 0, [true, false, true]⟩, ⟨true, [], 0, [true, false, true]⟩,
      ⟨false, [], 0, [true, false, true]⟩, ⟨true, [], 0, [true, false, true]⟩,
      ⟨false, [], 0, [true, false, true]⟩, ⟨true, [0, 0, 0], 0, [true, false, true]⟩,
      ⟨false, [], 0, [true, false, true]⟩]⟩)
    (by decide +kernel)
  refine ⟨_, a, st, rfl, h, ?_⟩
  have hmem : (⟨true, [0, 0, 0], (0 : Rat), [true, false, true]⟩ : Glimpse) ∈ st.log.map glimpse := by
    rw [hl]; simp
  obtain ⟨v, hv, he⟩ := List.mem_map.mp hmem
  simp only [glimpse, Glimpse.mk.injEq, List.cons.injEq] at he
  refine ⟨v, hv, by simpa using he.2.1, ?_⟩
  obtain ⟨h0, h1, _⟩ := he.2.2.2
  simp [brokenRows, gap, exEven, lhs, h0, h1]

end Bx.Num
