import Verif.Proofs.Scaling
import Verif.Props.Time
import Verif.Props.ZNumeric

/-!
# C135: the scale of the objective

An objective multiplied by a positive number has the same optimal solutions.  The theorems tell when the
search is the same too.
-/

namespace Bx.Scaling

open Merge SolverCtor Spec Itm Mult Costs Setup

variable {a : Rat} {e : Env} {cfg : Num.Cfg} {t : ObjType} {o : Objective} {csts : List Merged} {n : Nat}

theorem shrink_pos (m : Norm) (ha : 0 < a) : 0 < shrink m a := by
  cases m <;> simp [shrink, ha]

theorem shrink_eq (m : Norm) (ha : 0 < a) (d : Rat) :
    (factor m a * d)⁻¹ * a = shrink m a * d⁻¹ := by
  cases m <;> simp only [shrink, factor, mul_inv] <;> field_simp

/-- The lines before the loop. -/
theorem head_times (hf : 0 < e.float.tiny) (hp : e.policy = .bastert) (ha : 0 < a)
    (hd : Divides e o n) (hd' : Divides e (times a o) n) :
    head e cfg t (times a o) csts n = (head e cfg t o csts n).map fun h =>
      ⟨costs (shrink e.norm a) h.costs, deltaOf e.big (costs (shrink e.norm a) h.costs) cfg, h.x0⟩ := by
  obtain ⟨c, hc, hn⟩ := hd
  obtain ⟨c', hc', hn'⟩ := hd'
  have hcc : c' = costs a c := by
    rw [makeCosts_times, hc] at hc'
    exact (Except.ok.inj hc').symm
  subst hcc
  unfold head
  rw [hc', hc]
  simp only [ok_bind]
  have hb : ∀ d, Init.initial t (Init.costAt (times a o) (costs a c)) d e.flip e.policy n csts =
      Init.initial t (Init.costAt o c) d e.flip e.policy n csts := by
    intro d
    rw [hp]
    unfold Init.initial
    simp only
    rw [bastert_times ha t (costAt_times a o c)]
  rw [hb]
  rcases normalize_eq e.float e.norm c hn with h | ⟨h1, h2⟩
  · have h' : normalize e.float e.norm (costs a c) =
        .ok (costs (shrink e.norm a) (costs (divisor e.norm c)⁻¹ c)) := by
      rcases normalize_eq e.float e.norm (costs a c) hn' with h' | ⟨h1', h2'⟩
      · rw [h', costs_costs, costs_costs, divisor_times ha, shrink_eq _ ha]
      · rw [h1'] at h
        have h2'' : c.linear = [] := by simpa [costs] using h2'
        unfold normalize Cost.loo at h
        rw [h2''] at h
        cases h
    rw [h, h']
    simp only [ok_bind]
    cases Init.initial t (Init.costAt o c) e.draws e.flip e.policy n csts <;> rfl
  · rw [h1]
    unfold normalize Cost.loo
    have h2' : (costs a c).linear = [] := by simp [costs, h2]
    rw [h2, h2']
    rfl

theorem sim_id {Ω : Type} (ha : 0 < a) (upd : Num.Upd Ω) (w : Num.World Ω) (cfg : Num.Cfg) (o : Objective) :
    Sim a id t t (fun _ => True) upd upd w w cfg cfg.delta o (times a o) where
  better := isBetter_times ha t
  upd i j kappa push k x m := by
    show upd (w.oracle i j) ⟨kappa, cfg.delta, cfg.theta, push⟩ k x m = _
    generalize upd (w.oracle i j) ⟨kappa, cfg.delta, cfg.theta, push⟩ k x m = r
    cases r <;> rfl
  visits _ _ _ _ := rfl
  goodR _ _ _ := trivial
  goodO _ _ _ := trivial
  next _ _ := trivial
  pow := rfl
  timeUp := rfl
  rnd := rfl
  results := results_times a o

theorem costFun_same (o : Objective) (c : Cost) : costFun (times a o) c = costFun o c := by
  unfold costFun
  rw [isEmpty_times]

/-- C135: with the norms l1 and infinity and the default initial policy, an objective multiplied by a
positive number gives the same search: the same passes, the same vectors, the same status and the same solution,
with its value multiplied.  The hypotheses tell that the number that divides the costs is a normal floating point
number, for the two objectives. -/
theorem C135_same_search_partial (hf : 0 < e.float.tiny) (hp : e.policy = .bastert)
    (hn : e.norm = .l1 ∨ e.norm = .loo) (ha : 0 < a) (hd : Divides e o n) (hd' : Divides e (times a o) n)
    (kind : SolverType) (w : Num.World Oracle) :
    SameSearch a (Setup.solve kind e w cfg t o csts n) (Setup.solve kind e w cfg t (times a o) csts n) := by
  unfold Setup.solve
  rw [head_times hf hp ha hd hd', show shrink e.norm a = 1 by rcases hn with h | h <;> rw [h] <;> rfl]
  simp only [costs_one]
  have hdelta : ∀ h, head e cfg t o csts n = .ok h → h.delta = deltaOf e.big h.costs cfg := by
    intro h hh
    unfold head at hh
    obtain ⟨_, _, hh⟩ := bind_eq_ok.mp hh
    obtain ⟨_, _, hh⟩ := bind_eq_ok.mp hh
    obtain ⟨_, _, hh⟩ := bind_eq_ok.mp hh
    obtain rfl := Except.ok.inj hh
    rfl
  cases hh : head e cfg t o csts n with
  | error f => exact rfl
  | ok h =>
    simp only [Except.map, ok_bind]
    rw [costFun_same, hdelta h hh]
    exact functor_sim (cfg := { cfg with delta := deltaOf e.big h.costs cfg }) kind csts n
      (fun s => sim_id ha _ _ _ o) rfl rfl trivial

/-- C135: the same for the solvers of integer coefficients. -/
theorem C135_same_search_integer_partial (hf : 0 < e.float.tiny) (hp : e.policy = .bastert)
    (hn : e.norm = .l1 ∨ e.norm = .loo) (ha : 0 < a) (hd : Divides e o n) (hd' : Divides e (times a o) n)
    (w : Num.World ZNum.ZOracle) :
    SameSearch a (solveZ e w cfg t o csts n) (solveZ e w cfg t (times a o) csts n) := by
  unfold solveZ
  rw [head_times hf hp ha hd hd', show shrink e.norm a = 1 by rcases hn with h | h <;> rw [h] <;> rfl]
  simp only [costs_one]
  have hdelta : ∀ h, head e cfg t o csts n = .ok h → h.delta = deltaOf e.big h.costs cfg := by
    intro h hh
    unfold head at hh
    obtain ⟨_, _, hh⟩ := bind_eq_ok.mp hh
    obtain ⟨_, _, hh⟩ := bind_eq_ok.mp hh
    obtain ⟨_, _, hh⟩ := bind_eq_ok.mp hh
    obtain rfl := Except.ok.inj hh
    rfl
  cases hh : head e cfg t o csts n with
  | error f => exact rfl
  | ok h =>
    simp only [Except.map, ok_bind]
    rw [costFun_same, hdelta h hh]
    unfold ZNum.functor
    cases ZSolver.makeZ csts n with
    | error f => exact rfl
    | ok z =>
      exact functor_sim (cfg := { cfg with delta := deltaOf e.big h.costs cfg }) .inequalitiesZ csts n
        (fun s => sim_id ha _ _ _ o) rfl rfl trivial

theorem sim_mem {b : Rat} (ha : 0 < a) (hb : 0 < b) {c c' : CostFun} (hc : ∀ j x, c' j x = b * c j x)
    {w w' : Num.World Oracle} (hw : SameChoices b w w') (s : Slv) (x0 : Assign) :
    Sim a (mem b) t t (fun _ => True) (fun ω p k x m => Mult.update t ω p s c k x m) (fun ω p k x m => Mult.update t ω p s c' k x m)
      { w with x0 := x0 } { w' with x0 := x0 } cfg (b * cfg.delta) o (times a o) where
  better := isBetter_times ha t
  upd i j kappa push k x m :=
    update_times (stopIterating_times hb t) hc (hw.sort i j) (hw.coin i j) (hw.stale i j) s kappa cfg.delta cfg.theta push k x m
  goodR _ _ _ := trivial
  goodO _ _ _ := trivial
  next _ _ := trivial
  visits i m cmp _ := by
    unfold Num.visits
    cases cmp.order
    case lagrangianDecr =>
      dsimp only
      rw [← hw.sortR]
      congr 1
      funext k
      simp [mem]
    case lagrangianIncr =>
      dsimp only
      rw [← hw.sortR]
      rfl
    all_goals simp only [hw.shuffle, hw.sortO]
  pow := hw.pow
  timeUp := hw.timeUp
  rnd := hw.rnd
  results := results_times a o

theorem same_of_delta {b : Rat} {cfg' : Num.Cfg} (hf : 0 < e.float.tiny) (hp : e.policy = .bastert)
    (ha : 0 < a) (hd : Divides e o n) (hd' : Divides e (times a o) n) (kind : SolverType)
    {w w' : Num.World Oracle} (hb : b = shrink e.norm a) (hw : SameChoices b w w')
    (hcfg : ∀ d, { cfg' with delta := d } = { cfg with delta := d })
    (hdelta : ∀ c, makeCosts o n = .ok c → deltaOf e.big (costs (b * (divisor e.norm c)⁻¹) c) cfg' =
      b * deltaOf e.big (costs (divisor e.norm c)⁻¹ c) cfg) :
    SameSearch a (Setup.solve kind e w cfg t o csts n) (Setup.solve kind e w' cfg' t (times a o) csts n) := by
  subst hb
  have hh' := head_times (cfg := cfg') (t := t) (csts := csts) hf hp ha hd hd'
  have hsame : ∀ h, head e cfg t o csts n = .ok h → ∃ c, makeCosts o n = .ok c ∧
      h.costs = costs (divisor e.norm c)⁻¹ c ∧ h.delta = deltaOf e.big h.costs cfg := by
    intro h hh
    unfold head at hh
    obtain ⟨c, hc, hh⟩ := bind_eq_ok.mp hh
    obtain ⟨nc, hnc, hh⟩ := bind_eq_ok.mp hh
    obtain ⟨_, _, hh⟩ := bind_eq_ok.mp hh
    obtain rfl := Except.ok.inj hh
    obtain ⟨c1, hc1, hn1⟩ := hd
    obtain rfl := Except.ok.inj (hc.symm.trans hc1)
    refine ⟨c, hc, ?_, rfl⟩
    rcases normalize_eq e.float e.norm c hn1 with h | ⟨h1, h2⟩
    · exact Except.ok.inj (hnc.symm.trans h)
    · rw [h1] at hnc
      unfold normalize Cost.loo at hnc
      rw [h2] at hnc
      cases hnc
  have hcc : head e cfg' t o csts n = (head e cfg t o csts n).map fun h =>
      ⟨h.costs, deltaOf e.big h.costs cfg', h.x0⟩ := by
    unfold head
    cases makeCosts o n with
    | error f => rfl
    | ok c =>
      simp only [ok_bind]
      cases normalize e.float e.norm c with
      | error f => rfl
      | ok nc =>
        simp only [ok_bind]
        cases Init.initial t (Init.costAt o c) e.draws e.flip e.policy n csts <;> rfl
  unfold Setup.solve
  rw [hh', hcc]
  cases hh : head e cfg t o csts n with
  | error f => exact rfl
  | ok h =>
    obtain ⟨c, hc, h1, h2⟩ := hsame h hh
    simp only [Except.map, ok_bind]
    have hd1 : deltaOf e.big (costs (shrink e.norm a) h.costs) cfg' = shrink e.norm a * h.delta := by
      rw [h2, h1, costs_costs]
      exact hdelta c hc
    rw [hd1, hcfg]
    exact functor_sim (cfg := { cfg with delta := h.delta }) kind csts n
      (fun s => sim_mem (cfg := { cfg with delta := h.delta }) ha (shrink_pos _ ha)
        (fun j x => costFun_times a _ o h.costs j x) hw s h.x0) rfl (mem_zero _) trivial

/-- C135: when `delta` is computed by the program, an objective multiplied by a positive number gives the same
search for every norm: without norm the reduced costs, the multipliers and the preferences are multiplied by the
same number, with the norm l2 they are divided by it. -/
theorem C135_computed_delta_partial (hf : 0 < e.float.tiny) (hp : e.policy = .bastert) (ha : 0 < a)
    (hd : Divides e o n) (hd' : Divides e (times a o) n) (hz : HasCost o n) (hcfg : cfg.delta < 0)
    (kind : SolverType) {w w' : Num.World Oracle} (hw : SameChoices (shrink e.norm a) w w') :
    SameSearch a (Setup.solve kind e w cfg t o csts n) (Setup.solve kind e w' cfg t (times a o) csts n) := by
  refine same_of_delta hf hp ha hd hd' kind rfl hw (fun _ => rfl) fun c hc => ?_
  obtain ⟨c1, hc1, hn1⟩ := hd
  obtain rfl := Except.ok.inj (hc.symm.trans hc1)
  obtain ⟨c2, hc2, hz⟩ := hz
  obtain rfl := Except.ok.inj (hc.symm.trans hc2)
  unfold deltaOf
  rw [if_pos hcfg, if_pos hcfg, ← costs_costs]
  refine computeDelta_times (shrink_pos _ ha) _ _ _ ?_
  have hne := inv_ne_zero (isNormal_ne hf hn1)
  rcases hz with ⟨v, hv, h0⟩ | ⟨q, hq, h0⟩
  · exact Or.inl ⟨(divisor e.norm c)⁻¹ * v, List.mem_map_of_mem hv, mul_ne_zero hne h0⟩
  · exact Or.inr ⟨_, List.mem_map_of_mem hq, mul_ne_zero hne h0⟩

/-- C135: with a `delta` given by the user, the search is the same when this `delta` is multiplied too: by the
same number without norm, by its inverse with the norm l2. -/
theorem C135_scaled_delta_partial (hf : 0 < e.float.tiny) (hp : e.policy = .bastert) (ha : 0 < a)
    (hd : Divides e o n) (hd' : Divides e (times a o) n) (hcfg : 0 ≤ cfg.delta)
    (kind : SolverType) {w w' : Num.World Oracle} (hw : SameChoices (shrink e.norm a) w w') :
    SameSearch a (Setup.solve kind e w cfg t o csts n)
      (Setup.solve kind e w' { cfg with delta := shrink e.norm a * cfg.delta } t (times a o) csts n) := by
  refine same_of_delta hf hp ha hd hd' kind rfl hw (fun _ => rfl) fun c hc => ?_
  unfold deltaOf
  rw [if_neg (not_lt.mpr hcfg), if_neg (not_lt.mpr (mul_nonneg (shrink_pos _ ha).le hcfg))]

/-! ## Examples -/

/-- The default policy, without mutation. -/
def exEnv (m : Norm) : Env := { norm := m, draws := ⟨fun _ => true, fun _ l => l⟩, flip := fun _ => false }

/-- x0 + x1 + x2 + x3 = 2, x1 + x3 = 1 and x0 + x1 = 1. -/
def exCsts : List Merged :=
  [⟨[⟨1, 0⟩, ⟨1, 1⟩, ⟨1, 2⟩, ⟨1, 3⟩], 2, 2, 0⟩, ⟨[⟨1, 1⟩, ⟨1, 3⟩], 1, 1, 1⟩, ⟨[⟨1, 0⟩, ⟨1, 1⟩], 1, 1, 2⟩]

def exObj : Objective := { elems := [⟨1, 0⟩, ⟨1, 1⟩, ⟨2, 2⟩, ⟨1, 3⟩] }

def exCfg (d : Rat) : Num.Cfg :=
  { limit := 3, w := 0, pushes := 0, kappaStep := 1 / 10, kappaMax := 1, delta := d }

/-- The sorts by insertion make the same choices. -/
theorem exWorld_same {b : Rat} (hb : 0 < b) : SameChoices b Num.exWorld Num.exWorld where
  sort _ _ l := by
    show List.insertionSort (fun r r' : RC => r.value ≤ r'.value) _ =
      (List.insertionSort (fun r r' : RC => r.value ≤ r'.value) l).map _
    exact (List.map_insertionSort (r := fun r r' : RC => r.value ≤ r'.value)
      (s := fun r r' : RC => r.value ≤ r'.value) _ l fun r _ r' _ =>
        (mul_le_mul_iff_right₀ hb).symm).symm
  coin _ _ _ := rfl
  stale _ _ _ := (mul_zero b).symm
  sortR _ key l := by
    show List.insertionSort (fun i j => b * key i ≤ b * key j) l =
      List.insertionSort (fun i j => key i ≤ key j) l
    simpa using (List.map_insertionSort (r := fun i j => key i ≤ key j)
      (s := fun i j => b * key i ≤ b * key j) id l fun i _ j _ => (mul_le_mul_iff_right₀ hb).symm).symm
  shuffle := rfl
  sortO := rfl
  pow := rfl
  timeUp := rfl
  rnd := rfl

/-- C135 does not hold with a `delta` given by the user, without norm: the objective multiplied by 10 and the same
choices, and the program that found a solution of the problem in two passes finds none. -/
theorem C135_fixed_delta_changes_the_search : ∃ (w : Num.World Oracle) (cfg : Num.Cfg) (o : Objective)
      (csts : List Merged) (r r' : Answer × Num.State),
    w.Ok (fun o => o.Ok .minimize) ∧ SameChoices 10 w w ∧ 0 < cfg.delta ∧
    Setup.solve .inequalities01 (exEnv .none) w cfg .minimize o csts 4 = .ok r ∧
    Setup.solve .inequalities01 (exEnv .none) w cfg .minimize (times 10 o) csts 4 = .ok r' ∧
    r.1.status = .success ∧ r.1.solution = some ([false, true, true, false], some 3) ∧
    r'.1.status = .limitReached ∧ r'.1.solution = some ([false, true, false, false], none) := by
  obtain ⟨r, st, h, h1, h2, _⟩ := Num.of_report (n := 4)
    (r := Setup.solve .inequalities01 (exEnv .none) Num.exWorld (exCfg 1) .minimize exObj exCsts 4)
    (v := ⟨.success, some ([false, true, true, false], some 3),
      [[false, true, false, false], [false, true, true, false]]⟩) (by decide +kernel)
  obtain ⟨r', st', h', h1', h2', _⟩ := Num.of_report (n := 4)
    (r := Setup.solve .inequalities01 (exEnv .none) Num.exWorld (exCfg 1) .minimize (times 10 exObj) exCsts 4)
    (v := ⟨.limitReached, some ([false, true, false, false], none),
      [[false, true, false, false], [false, true, false, true], [false, true, false, false]]⟩)
    (by decide +kernel)
  exact ⟨Num.exWorld, exCfg 1, exObj, exCsts, (r, st), (r', st'), Num.exWorld_ok, exWorld_same (by decide +kernel),
    by decide +kernel, h, h', h1, h2, h1', h2'⟩

/-- C135 does not hold either with the norm l2, which divides by the sum of the squares and not by its square
root: the objective multiplied by 10 is solved in two passes, and not the objective itself. -/
theorem C135_norm_l2_changes_the_search : ∃ (w : Num.World Oracle) (cfg : Num.Cfg) (o : Objective)
      (csts : List Merged) (r r' : Answer × Num.State),
    w.Ok (fun o => o.Ok .minimize) ∧ SameChoices (1 / 10) w w ∧ 0 < cfg.delta ∧
    Setup.solve .inequalities01 (exEnv .l2) w cfg .minimize o csts 4 = .ok r ∧
    Setup.solve .inequalities01 (exEnv .l2) w cfg .minimize (times 10 o) csts 4 = .ok r' ∧
    r.1.status = .limitReached ∧ r.1.solution = some ([false, true, false, false], none) ∧
    r'.1.status = .success ∧ r'.1.solution = some ([false, true, true, false], some 30) := by
  obtain ⟨r, st, h, h1, h2, _⟩ := Num.of_report (n := 4)
    (r := Setup.solve .inequalities01 (exEnv .l2) Num.exWorld (exCfg (1 / 10)) .minimize exObj exCsts 4)
    (v := ⟨.limitReached, some ([false, true, false, false], none),
      [[false, true, false, false], [false, true, false, true], [false, true, false, false]]⟩)
    (by decide +kernel)
  obtain ⟨r', st', h', h1', h2', _⟩ := Num.of_report (n := 4)
    (r := Setup.solve .inequalities01 (exEnv .l2) Num.exWorld (exCfg (1 / 10)) .minimize (times 10 exObj) exCsts 4)
    (v := ⟨.success, some ([false, true, true, false], some 30),
      [[false, true, false, false], [false, true, true, false]]⟩) (by decide +kernel)
  exact ⟨Num.exWorld, exCfg (1 / 10), exObj, exCsts, (r, st), (r', st'), Num.exWorld_ok,
    exWorld_same (by decide +kernel), by decide +kernel, h, h', h1, h2, h1', h2'⟩

/-- The hypotheses of `C135_same_search_partial` are met, with the norm l1 and a success. -/
example : ∃ r, Setup.solve .inequalities01 (exEnv .l1) Num.exWorld (exCfg 1) .minimize exObj exCsts 4 = .ok r ∧
    r.1.status = .success ∧ r.1.solution = some ([false, true, true, false], some 3) ∧
    SameSearch 10 (.ok r)
      (Setup.solve .inequalities01 (exEnv .l1) Num.exWorld (exCfg 1) .minimize (times 10 exObj) exCsts 4) := by
  obtain ⟨r, st, h, h1, h2, _⟩ := Num.of_report (n := 4)
    (r := Setup.solve .inequalities01 (exEnv .l1) Num.exWorld (exCfg 1) .minimize exObj exCsts 4)
    (v := ⟨.success, some ([false, true, true, false], some 3),
      [[false, true, false, false], [false, true, true, false]]⟩) (by decide +kernel)
  refine ⟨(r, st), h, h1, h2, ?_⟩
  rw [← h]
  exact C135_same_search_partial (by decide +kernel) rfl (Or.inl rfl) (by decide +kernel)
    ⟨⟨[1, 1, 2, 1], [], []⟩, by decide +kernel, by decide +kernel⟩
    ⟨⟨[10, 10, 20, 10], [], []⟩, by decide +kernel, by decide +kernel⟩ _ _

/-- The hypotheses of `C135_same_search_integer_partial` are met, with the norm infinity and quadratic terms. -/
example (w : Num.World ZNum.ZOracle) (csts : List Merged) :
    let o : Objective := ⟨[⟨2, 0⟩, ⟨-1, 1⟩], [⟨3, 0, 1⟩], 5⟩
    SameSearch (1 / 2) (solveZ (exEnv .loo) w (exCfg 1) .maximize o csts 2)
      (solveZ (exEnv .loo) w (exCfg 1) .maximize (times (1 / 2) o) csts 2) :=
  C135_same_search_integer_partial (by decide +kernel) rfl (Or.inr rfl) (by decide +kernel)
    ⟨⟨[2, -1], [(3, 1), (3, 0)], [0, 1, 2]⟩, by decide +kernel, by decide +kernel⟩
    ⟨⟨[1, -1 / 2], [(3 / 2, 1), (3 / 2, 0)], [0, 1, 2]⟩, by decide +kernel, by decide +kernel⟩ w

/-- The hypotheses of `C135_computed_delta_partial` and `C135_scaled_delta_partial` are met, with the norm l2. -/
example : SameSearch 10
      (Setup.solve .inequalities01 (exEnv .l2) Num.exWorld (exCfg (-1)) .minimize exObj exCsts 4)
      (Setup.solve .inequalities01 (exEnv .l2) Num.exWorld (exCfg (-1)) .minimize (times 10 exObj) exCsts 4) ∧
    SameSearch 10
      (Setup.solve .inequalities01 (exEnv .l2) Num.exWorld (exCfg (1 / 10)) .minimize exObj exCsts 4)
      (Setup.solve .inequalities01 (exEnv .l2) Num.exWorld { exCfg (1 / 10) with delta := (10 : Rat)⁻¹ * (1 / 10) }
        .minimize (times 10 exObj) exCsts 4) := by
  have hd : Divides (exEnv .l2) exObj 4 := ⟨⟨[1, 1, 2, 1], [], []⟩, by decide +kernel, by decide +kernel⟩
  have hd' : Divides (exEnv .l2) (times 10 exObj) 4 :=
    ⟨⟨[10, 10, 20, 10], [], []⟩, by decide +kernel, by decide +kernel⟩
  exact ⟨C135_computed_delta_partial (by decide +kernel) rfl (by decide +kernel) hd hd'
      ⟨⟨[1, 1, 2, 1], [], []⟩, by decide +kernel, Or.inl ⟨1, by decide +kernel⟩⟩ (by decide +kernel) _
      (exWorld_same (by decide +kernel)),
    C135_scaled_delta_partial (cfg := exCfg (1 / 10)) (by decide +kernel) rfl (by decide +kernel) hd hd'
      (by decide +kernel) _ (exWorld_same (by decide +kernel))⟩

end Bx.Scaling
