import Verif.Props.Scaling

/-!
# C136: to maximize an objective and to minimize its opposite

The two problems have the same optimal solutions.  The theorems tell when the search is the same too.
-/

namespace Bx.Scaling

open Merge SolverCtor Spec Itm Mult Costs Setup

variable {e : Env} {cfg : Num.Cfg} {t : ObjType} {o : Objective} {csts : List Merged} {n : Nat}

theorem opposite_ne (t : ObjType) : opposite t ≠ t := by cases t <;> decide

theorem divisor_neg {m : Norm} (hm : m ≠ .loo) (c : Cost) : divisor m (costs (-1) c) = divisor m c := by
  have hl : (costs (-1) c).linear ++ (costs (-1) c).quads.map Prod.fst =
      (c.linear ++ c.quads.map Prod.fst).map (-1 * ·) := by
    unfold costs quads
    simp [Function.comp_def]
  unfold divisor
  rw [hl]
  generalize c.linear ++ c.quads.map Prod.fst = l
  cases m with
  | none => rfl
  | l1 => simp [Function.comp_def]
  | l2 => simp [Function.comp_def]
  | loo => exact absurd rfl hm

theorem initX_neg (t : ObjType) (v : Rat) (z : Bool) :
    Init.initX (opposite t) (-1 * v) z = Init.initX t v z := by
  unfold Init.initX
  cases t <;> simp [opposite]

theorem bastert_neg (t : ObjType) {cost cost' : Nat → Outcome Rat}
    (hc : ∀ i, cost' i = (cost i).map (-1 * ·)) : ∀ (left i : Nat) (x : Assign),
    Init.bastert (opposite t) cost' left i x = Init.bastert t cost left i x
  | 0, _, _ => rfl
  | left + 1, i, x => by
    simp only [Init.bastert]
    rw [hc]
    cases cost i with
    | error e => rfl
    | ok v =>
      simp only [Except.map, ok_bind]
      rw [initX_neg]
      exact bastert_neg t hc left (i + 1) _

theorem normalize_neg {m : Norm} (hm : m ≠ .loo) (f : FloatType) (c : Cost) :
    normalize f m (costs (-1) c) = (normalize f m c).map (costs (-1)) := by
  have hd : ∀ d, (costs (-1) c).divide f d = costs (-1) (c.divide f d) := by
    intro d
    unfold Cost.divide
    split
    · unfold costs quads
      simp only [List.map_map]
      congr 1
      · exact List.map_congr_left fun v _ => by simp only [Function.comp]; ring
      · exact List.map_congr_left fun q _ => by simp only [Function.comp]; rw [← mul_div_assoc]
    · rfl
  cases m with
  | none => rfl
  | l1 =>
    show Except.ok ((costs (-1) c).l1 f) = .ok (costs (-1) (c.l1 f))
    unfold Cost.l1
    rw [hd]
    congr 3
    simp [costs, quads, Function.comp_def]
  | l2 =>
    show Except.ok ((costs (-1) c).l2 f) = .ok (costs (-1) (c.l2 f))
    unfold Cost.l2
    rw [hd]
    congr 3
    simp [costs, quads, Function.comp_def]
  | loo => exact absurd rfl hm

theorem head_neg (hp : e.policy = .bastert) (hm : e.norm ≠ .loo) (hcfg : cfg.delta = 0) :
    head e cfg (opposite t) (times (-1) o) csts n = (head e cfg t o csts n).map fun h =>
      ⟨costs (-1) h.costs, 0, h.x0⟩ := by
  have hz : ∀ c, deltaOf e.big c cfg = 0 := by
    intro c
    unfold deltaOf
    rw [if_neg (by rw [hcfg]; exact lt_irrefl _), hcfg]
  unfold head
  rw [makeCosts_times]
  cases makeCosts o n with
  | error f => rfl
  | ok c =>
    simp only [Except.map, ok_bind]
    rw [normalize_neg hm]
    have hb : Init.initial (opposite t) (Init.costAt (times (-1) o) (costs (-1) c)) e.draws e.flip e.policy n csts =
        Init.initial t (Init.costAt o c) e.draws e.flip e.policy n csts := by
      rw [hp]
      unfold Init.initial
      simp only
      rw [bastert_neg t (costAt_times (-1) o c)]
    cases normalize e.float e.norm c with
    | error f => rfl
    | ok nc =>
      simp only [Except.map, ok_bind]
      rw [hb]
      cases Init.initial t (Init.costAt o c) e.draws e.flip e.policy n csts with
      | error f => rfl
      | ok x =>
        simp only [ok_bind, hz]

/-- The orders that do not follow the multipliers. -/
def Plain (c : Compute) : Prop :=
  c.order ≠ .lagrangianDecr ∧ c.order ≠ .lagrangianIncr ∧ c.useCycle = false

theorem sim_neg {c c' : CostFun} (hc : ∀ j x, c' j x = -1 * c j x)
    {w w' : Num.World Oracle} (hw : OppositeChoices w w') (hcfg : cfg.delta = 0) (s : Slv) (x0 : Assign) :
    Sim (-1) (mem (-1)) t (opposite t) Plain (fun ω p k x m => Mult.update t ω p s c k x m)
      (fun ω p k x m => Mult.update (opposite t) ω p s c' k x m)
      { w with x0 := x0 } { w' with x0 := x0 } cfg 0 o (times (-1) o) where
  better := isBetter_neg t _ (opposite_ne t)
  upd i j kappa push k x m := by
    have h := update_times (stopIterating_neg (opposite_ne t)) hc (hw.sort i j) (hw.coin i j)
      (hw.stale i j) s kappa cfg.delta cfg.theta push k x m
    rw [hcfg, mul_zero] at h
    rw [hcfg]
    exact h
  visits i m cmp hg := by
    unfold Num.visits
    cases ho : cmp.order
    case lagrangianDecr => exact absurd ho hg.1
    case lagrangianIncr => exact absurd ho hg.2.1
    all_goals simp only [hw.shuffle, hw.sortO]
  goodR _ hg _ := hg
  goodO _ hg _ := hg
  next c hg := by
    rw [if_neg (by rw [hg.2.2]; decide)]
    exact hg
  pow := hw.pow
  timeUp := hw.timeUp
  rnd := hw.rnd
  results := results_times (-1) o

/-- C136: with a null `delta`, the norms none, l1 and l2, the default initial policy and an order that does not
follow the multipliers, maximizing an objective and minimizing its opposite give the same search: the same passes, the
same vectors, the same status and the same solution, with the opposite value. -/
theorem C136_same_search_partial (hp : e.policy = .bastert) (hm : e.norm ≠ .loo) (hcfg : cfg.delta = 0)
    (ho : cfg.order ≠ .lagrangianDecr ∧ cfg.order ≠ .lagrangianIncr ∧ cfg.order ≠ .cycle)
    (kind : SolverType) {w w' : Num.World Oracle} (hw : OppositeChoices w w') :
    SameSearch (-1) (Setup.solve kind e w cfg t o csts n)
      (Setup.solve kind e w' cfg (opposite t) (times (-1) o) csts n) := by
  unfold Setup.solve
  rw [head_neg hp hm hcfg]
  cases hh : head e cfg t o csts n with
  | error f => exact rfl
  | ok h =>
    have hz : h.delta = 0 := by
      unfold head at hh
      obtain ⟨_, _, hh⟩ := bind_eq_ok.mp hh
      obtain ⟨_, _, hh⟩ := bind_eq_ok.mp hh
      obtain ⟨_, _, hh⟩ := bind_eq_ok.mp hh
      obtain rfl := Except.ok.inj hh
      unfold deltaOf
      rw [if_neg (by rw [hcfg]; exact lt_irrefl _), hcfg]
    simp only [Except.map, ok_bind]
    rw [hz]
    refine functor_sim (cfg := { cfg with delta := 0 }) (good := Plain) kind csts n
      (fun s => sim_neg (cfg := { cfg with delta := 0 }) (fun j x => costFun_times (-1) (-1) o h.costs j x) hw rfl s h.x0)
      rfl (mem_zero _) ⟨?_, ?_, ?_⟩
    · show (if cfg.order = .cycle then _ else cfg.order) ≠ _
      rw [if_neg ho.2.2]
      exact ho.1
    · show (if cfg.order = .cycle then _ else cfg.order) ≠ _
      rw [if_neg ho.2.2]
      exact ho.2.1
    · exact decide_eq_false ho.2.2

/-! ## Where it does not hold, and the hypotheses -/

/-- The world of `Num.exWorld` for a maximization: the reduced costs are sorted in the other order. -/
def maxWorld : Num.World Oracle := { Num.exWorld with oracle := fun _ _ => exOracle .maximize }

theorem maxWorld_ok : maxWorld.Ok fun o => o.Ok .maximize where
  oracle _ _ := exOracle_ok .maximize
  shuffle := Num.exWorld_ok.shuffle
  sortR := Num.exWorld_ok.sortR
  sortO := Num.exWorld_ok.sortO

theorem maxWorld_opposite : OppositeChoices maxWorld Num.exWorld where
  sort _ _ l := by
    show List.insertionSort (fun r r' : RC => r.value ≤ r'.value) _ =
      (List.insertionSort (fun r r' : RC => r'.value ≤ r.value) l).map _
    exact (List.map_insertionSort (r := fun r r' : RC => r'.value ≤ r.value)
      (s := fun r r' : RC => r.value ≤ r'.value) _ l fun r _ r' _ => by simp).symm
  coin _ _ _ := rfl
  stale _ _ _ := (mul_zero (-1)).symm
  shuffle := rfl
  sortO := rfl
  pow := rfl
  timeUp := rfl
  rnd := rfl

def oppCfg (d : Rat) (o : COrder) : Num.Cfg := { exCfg d with limit := 10, kappaMin := 1 / 10, order := o }

def oppObj (a b c d : Rat) : Objective := { elems := [⟨a, 0⟩, ⟨b, 1⟩, ⟨c, 2⟩, ⟨d, 3⟩] }

/-- C136 does not hold with a positive `delta`, which is added to the preferences in both directions: x0 + x1 + 2 x2 + x3
is maximized to 3, and the minimization of its opposite stops on a solution of value -2. -/
theorem C136_delta_changes_the_search : ∃ (w w' : Num.World Oracle) (cfg : Num.Cfg) (o : Objective)
      (csts : List Merged) (r r' : Answer × Num.State),
    w.Ok (fun o => o.Ok .maximize) ∧ w'.Ok (fun o => o.Ok .minimize) ∧ OppositeChoices w w' ∧ 0 < cfg.delta ∧
    cfg.order = .none ∧
    Setup.solve .inequalities01 (exEnv .l1) w cfg .maximize o csts 4 = .ok r ∧
    Setup.solve .inequalities01 (exEnv .l1) w' cfg .minimize (times (-1) o) csts 4 = .ok r' ∧
    r.1.status = .success ∧ r.1.solution = some ([false, true, true, false], some 3) ∧
    r'.1.status = .success ∧ r'.1.solution = some ([true, false, false, true], some (-2)) := by
  obtain ⟨r, st, h, h1, h2, _⟩ := Num.of_report (n := 4)
    (r := Setup.solve .inequalities01 (exEnv .l1) maxWorld (oppCfg (1 / 10) .none) .maximize (oppObj 1 1 2 1) exCsts 4)
    (v := ⟨.success, some ([false, true, true, false], some 3),
      [[true, false, true, false], [true, true, true, false], [true, false, true, true], [true, false, true, false],
        [true, true, true, false], [false, true, true, false]]⟩) (by decide +kernel)
  obtain ⟨r', st', h', h1', h2', _⟩ := Num.of_report (n := 4)
    (r := Setup.solve .inequalities01 (exEnv .l1) Num.exWorld (oppCfg (1 / 10) .none) .minimize
      (times (-1) (oppObj 1 1 2 1)) exCsts 4)
    (v := ⟨.success, some ([true, false, false, true], some (-2)),
      [[true, false, true, false], [true, false, true, true], [false, false, true, true], [true, false, true, true],
        [true, false, false, true]]⟩) (by decide +kernel)
  exact ⟨maxWorld, Num.exWorld, oppCfg (1 / 10) .none, oppObj 1 1 2 1, exCsts, (r, st), (r', st'), maxWorld_ok,
    Num.exWorld_ok, maxWorld_opposite, by decide +kernel, rfl, h, h', h1, h2, h1', h2'⟩

/-- C136 does not hold with the norm infinity: the largest of the opposite costs is negative, and the division by it
turns the minimization of the opposite into a minimization of the objective.  The solution found has the value -3
instead of -6. -/
theorem C136_norm_loo_changes_the_search : ∃ (w w' : Num.World Oracle) (cfg : Num.Cfg) (o : Objective)
      (csts : List Merged) (r r' : Answer × Num.State),
    w.Ok (fun o => o.Ok .maximize) ∧ w'.Ok (fun o => o.Ok .minimize) ∧ OppositeChoices w w' ∧ cfg.delta = 0 ∧
    cfg.order = .none ∧
    Setup.solve .inequalities01 (exEnv .loo) w cfg .maximize o csts 4 = .ok r ∧
    Setup.solve .inequalities01 (exEnv .loo) w' cfg .minimize (times (-1) o) csts 4 = .ok r' ∧
    r.1.status = .success ∧ r.1.solution = some ([true, false, false, true], some 6) ∧
    r'.1.status = .success ∧ r'.1.solution = some ([false, true, true, false], some (-3)) := by
  obtain ⟨r, st, h, h1, h2, _⟩ := Num.of_report (n := 4)
    (r := Setup.solve .inequalities01 (exEnv .loo) maxWorld (oppCfg 0 .none) .maximize (oppObj 1 1 2 5) exCsts 4)
    (v := ⟨.success, some ([true, false, false, true], some 6),
      [[true, false, true, true], [true, false, false, true]]⟩) (by decide +kernel)
  obtain ⟨r', st', h', h1', h2', _⟩ := Num.of_report (n := 4)
    (r := Setup.solve .inequalities01 (exEnv .loo) Num.exWorld (oppCfg 0 .none) .minimize
      (times (-1) (oppObj 1 1 2 5)) exCsts 4)
    (v := ⟨.success, some ([false, true, true, false], some (-3)),
      [[false, true, false, false], [false, true, true, false]]⟩) (by decide +kernel)
  exact ⟨maxWorld, Num.exWorld, oppCfg 0 .none, oppObj 1 1 2 5, exCsts, (r, st), (r', st'), maxWorld_ok,
    Num.exWorld_ok, maxWorld_opposite, rfl, rfl, h, h', h1, h2, h1', h2'⟩

/-- C136 does not hold with an order that follows the multipliers: they have the opposite sign, and the same order of
the configuration visits the constraints the other way round.  The maximization finds the value 9 and the minimization
of the opposite stops on -8. -/
theorem C136_lagrangian_order_changes_the_search : ∃ (w w' : Num.World Oracle) (cfg : Num.Cfg) (o : Objective)
      (csts : List Merged) (r r' : Answer × Num.State),
    w.Ok (fun o => o.Ok .maximize) ∧ w'.Ok (fun o => o.Ok .minimize) ∧ OppositeChoices w w' ∧
    w'.sortR = w.sortR ∧ cfg.delta = 0 ∧ cfg.order = .lagrangianDecr ∧
    Setup.solve .inequalities01 (exEnv .l1) w cfg .maximize o csts 4 = .ok r ∧
    Setup.solve .inequalities01 (exEnv .l1) w' cfg .minimize (times (-1) o) csts 4 = .ok r' ∧
    r.1.status = .success ∧ r.1.solution = some ([false, true, true, false], some 9) ∧
    r'.1.status = .success ∧ r'.1.solution = some ([true, false, false, true], some (-8)) := by
  obtain ⟨r, st, h, h1, h2, _⟩ := Num.of_report (n := 4)
    (r := Setup.solve .inequalities01 (exEnv .l1) maxWorld (oppCfg 0 .lagrangianDecr) .maximize (oppObj 1 3 6 7)
      exCsts 4)
    (v := ⟨.success, some ([false, true, true, false], some 9),
      [[false, true, true, true], [false, false, true, true], [false, true, true, true], [false, true, false, false],
        [false, true, true, false]]⟩) (by decide +kernel)
  obtain ⟨r', st', h', h1', h2', _⟩ := Num.of_report (n := 4)
    (r := Setup.solve .inequalities01 (exEnv .l1) Num.exWorld (oppCfg 0 .lagrangianDecr) .minimize
      (times (-1) (oppObj 1 3 6 7)) exCsts 4)
    (v := ⟨.success, some ([true, false, false, true], some (-8)),
      [[false, true, true, true], [false, false, true, true], [true, false, true, true], [false, false, true, true],
        [true, false, true, true], [true, false, true, false], [true, false, true, true],
        [true, false, false, true]]⟩) (by decide +kernel)
  exact ⟨maxWorld, Num.exWorld, oppCfg 0 .lagrangianDecr, oppObj 1 3 6 7, exCsts, (r, st), (r', st'), maxWorld_ok,
    Num.exWorld_ok, maxWorld_opposite, rfl, rfl, rfl, h, h', h1, h2, h1', h2'⟩

/-- The hypotheses of `C136_same_search_partial` are met, with the norm l1 and a success after four passes. -/
example : ∃ r, Setup.solve .inequalities01 (exEnv .l1) maxWorld (oppCfg 0 .none) .maximize (oppObj 1 1 3 5) exCsts 4
      = .ok r ∧
    r.1.status = .success ∧ r.1.solution = some ([true, false, false, true], some 6) ∧
    SameSearch (-1) (.ok r) (Setup.solve .inequalities01 (exEnv .l1) Num.exWorld (oppCfg 0 .none) .minimize
      (times (-1) (oppObj 1 1 3 5)) exCsts 4) := by
  obtain ⟨r, st, h, h1, h2, _⟩ := Num.of_report (n := 4)
    (r := Setup.solve .inequalities01 (exEnv .l1) maxWorld (oppCfg 0 .none) .maximize (oppObj 1 1 3 5) exCsts 4)
    (v := ⟨.success, some ([true, false, false, true], some 6),
      [[true, false, true, true], [false, false, true, true], [true, false, true, true],
        [true, false, false, true]]⟩) (by decide +kernel)
  refine ⟨(r, st), h, h1, h2, ?_⟩
  rw [← h]
  exact C136_same_search_partial (t := .maximize) rfl (by decide) rfl (by decide) _ maxWorld_opposite

end Bx.Scaling
