import Verif.Proofs.Time
import Verif.Props.Numeric

/-!
# C128: what more time changes, and C129: what a search that fails returns
-/

namespace Bx.Itm

open Merge SolverCtor Spec Spec.Optimizer

variable {ρ : Type} {kind : SolverType} {upd : Slv → ρ → Nat → Assign → Outcome Assign}

/-! ## C129 -/

/-- C129: when `solve` finds no solution, what it returns is the first of the vectors at the end of its passes
that leave the fewest constraints unsatisfied, without a value. -/
theorem C129_the_fewest_unsatisfied (r : Run ρ) (p : Params) (hl : p.limit ≠ 0) (t : ObjType) (o : Objective)
    (csts : List Merged) (n : Nat) (a : Answer) (h : functor kind upd r p t o csts n = .ok a)
    (hs : a.status ≠ .success) :
    ∃ (i : Nat) (x : Assign), a.final.trace[i]? = some x ∧ a.solution = some ((List.range n).map x, none) ∧
      0 < unsatisfied x csts ∧
      (∀ y ∈ a.final.trace, unsatisfied x csts ≤ unsatisfied y csts) ∧
      ∀ (j : Nat) (y : Assign), j < i → a.final.trace[j]? = some y → unsatisfied x csts < unsatisfied y csts := by
  have hex : a.exit ≠ .found := fun he => hs ((C31_status_partial r p t o csts n a h).1.mpr he)
  have hnone : ∀ y ∈ a.final.trace, ¬ Within y csts := fun y hy hw =>
    hs ((C29_best_of_the_run r p t o csts n a h).1.mpr ⟨y, hy, hw⟩)
  have hspec := functor_spec h
  have hval := (hspec.1.nothing fun h0 => hex (hspec.2.2.2.2.2.1.mpr h0)).2
  unfold functor at h
  obtain ⟨s, hsl, h⟩ := bind_eq_ok.mp h
  obtain ⟨c, hc, h⟩ := bind_eq_ok.mp h
  obtain ⟨⟨st, e⟩, hm, h⟩ := bind_eq_ok.mp h
  simp only at h
  obtain ⟨st', hst', h⟩ := bind_eq_ok.mp h
  have h := Except.ok.inj h
  subst h
  simp only at hex hnone hval
  unfold pushPhase at hst'
  rw [if_neg hex] at hst'
  obtain rfl := Except.ok.inj hst'
  have hf := mainLoop_fewest hsl _ _ _ _ hm hex ⟨rfl, fun _ => ⟨rfl, rfl⟩, fun _ h => by simp at h⟩
  have htr : st.trace ≠ [] := mainLoop_trace _ _ _ _ hm (Or.inr hl)
  cases hb : st.bestRemaining with
  | none => exact absurd (hf.none hb).1 htr
  | some k =>
    obtain ⟨i, x, h1, h2, h3, h4, h5⟩ := hf.some k hb
    simp only [← h3, Optimizer.violations_eq] at h4 h5
    refine ⟨i, x, h2, by simp only [h1, Option.map_some, hval], ?_, h4, h5⟩
    rw [← Optimizer.violations_eq]
    exact Nat.pos_of_ne_zero fun h0 => hnone x (List.mem_of_getElem? h2) (violations_zero.mp h0)

/-- Without a pass nothing is returned. -/
theorem C129_no_loop_no_vector (r : Run ρ) (p : Params) (hl : p.limit = 0) (t : ObjType) (o : Objective)
    (csts : List Merged) (n : Nat) (a : Answer) (h : functor kind upd r p t o csts n = .ok a) :
    a.status = .limitReached ∧ a.solution = none := by
  unfold functor at h
  obtain ⟨s, hsl, h⟩ := bind_eq_ok.mp h
  obtain ⟨c, hc, h⟩ := bind_eq_ok.mp h
  obtain ⟨⟨st, e⟩, hm, h⟩ := bind_eq_ok.mp h
  simp only at h
  obtain ⟨st', hst', h⟩ := bind_eq_ok.mp h
  rw [hl] at hm
  have hm := Except.ok.inj hm
  simp only [Prod.mk.injEq] at hm
  obtain ⟨rfl, rfl⟩ := hm
  obtain rfl := Except.ok.inj hst'
  rw [← Except.ok.inj h]
  exact ⟨rfl, rfl⟩

end Bx.Itm

namespace Bx.Num

open Merge SolverCtor Spec Spec.Optimizer Itm Mult

variable {Ω : Type} {kind : SolverType} {upd : Slv → Upd Ω} {w : World Ω} {cfg : Cfg} {t : ObjType}
  {o : Objective} {csts : List Merged} {n : Nat} {ok : Ω → Prop} {late : Nat → Bool} {a a' : Answer}
  {st st' : State}

/-! ## C128

Two runs of `solve` with the same problem, parameters and random choices; the clock of the second, `late`,
says that the time is over only when the one of the first does. -/

theorem World.Ok.clock (hw : w.Ok ok) : ({ w with timeUp := late } : World Ω).Ok ok :=
  ⟨hw.oracle, hw.shuffle, hw.sortR, hw.sortO⟩

/-- C128, part: with more time, a search that succeeds still does, with its first solution after the
same number of passes. -/
theorem C128_success_is_kept (hw : w.Ok ok) (hle : ∀ k, late k = true → w.timeUp k = true)
    (h : functor kind upd w cfg t o csts n = .ok (a, st))
    (h' : functor kind upd { w with timeUp := late } cfg t o csts n = .ok (a', st'))
    (hs : a.status = .success) :
    a'.status = .success ∧ a'.mainPasses = a.mainPasses ∧
      ∀ k, k < a.mainPasses → a'.final.trace[k]? = a.final.trace[k]? := by
  obtain ⟨r, _, _, _, _, _, hr, _⟩ := functor_refines hw (fun s _ => any_sim upd w s) h
  obtain ⟨r', _, _, _, _, _, hr', _⟩ := functor_refines hw.clock (fun s _ => any_sim upd _ s) h'
  have he := (C31_status_partial r _ t o csts n a hr).1.mp hs
  obtain ⟨g1, g2, g3⟩ := (functor_clock hle h h').2.1 he
  exact ⟨(C31_status_partial r' _ t o csts n a' hr').1.mpr g1, g2, g3⟩

/-- C128, part: the passes that the first run begins in time are those of the second. -/
theorem C128_passes_in_time_are_shared (hle : ∀ k, late k = true → w.timeUp k = true)
    (h : functor kind upd w cfg t o csts n = .ok (a, st))
    (h' : functor kind upd { w with timeUp := late } cfg t o csts n = .ok (a', st'))
    (k : Nat) (hk : InTime w.timeUp k) (y : Assign) (hy : a.final.trace[k]? = some y) :
    a'.final.trace[k]? = some y :=
  (functor_clock hle h h').1 k y hk hy

/-- C128, part: with more time the solution is at least as good as all those that the first run reached in
time.  What is missing: the first run may make a push that begins late, and it may be better
(`C128_more_time_can_be_worse`). -/
theorem C128_at_least_as_good_partial (hw : w.Ok ok) (hle : ∀ k, late k = true → w.timeUp k = true)
    (h : functor kind upd w cfg t o csts n = .ok (a, st))
    (h' : functor kind upd { w with timeUp := late } cfg t o csts n = .ok (a', st'))
    (k : Nat) (hk : InTime w.timeUp k) (y : Assign) (hy : a.final.trace[k]? = some y) (hyw : Within y csts) :
    a'.status = .success ∧ ∃ x, Within x csts ∧
      a'.solution = some ((List.range n).map x, some (objective o x)) ∧
      AtLeastAsGood t (objective o x) (objective o y) := by
  obtain ⟨r', _, _, _, _, _, hr', _⟩ := functor_refines hw.clock (fun s _ => any_sim upd _ s) h'
  have hmem := List.mem_of_getElem? ((functor_clock hle h h').1 k y hk hy)
  have hs := (C29_best_of_the_run r' _ t o csts n a' hr').1.mpr ⟨y, hmem, hyw⟩
  obtain ⟨x, _, g1, g2, g3⟩ := (C29_best_of_the_run r' _ t o csts n a' hr').2 hs
  exact ⟨hs, x, g1, g2, g3 y hmem hyw⟩

/-- C128, part: with an order other than `pi-sign-change` and `cycle`, more time does not change the
solution of a search that succeeds. -/
theorem C128_same_solution (hw : w.Ok ok) (hle : ∀ k, late k = true → w.timeUp k = true)
    (h1 : cfg.order ≠ .piSignChange) (h2 : cfg.order ≠ .cycle)
    (h : functor kind upd w cfg t o csts n = .ok (a, st))
    (h' : functor kind upd { w with timeUp := late } cfg t o csts n = .ok (a', st'))
    (hs : a.status = .success) : a'.solution = a.solution := by
  obtain ⟨r, k0, _, _, _, _, hr, _⟩ := functor_refines hw (fun s _ => any_sim upd w s) h
  obtain ⟨r', k0', _, _, _, _, hr', _⟩ := functor_refines hw.clock (fun s _ => any_sim upd _ s) h'
  obtain ⟨hs', hmp, htr⟩ := C128_success_is_kept hw hle h h' hs
  obtain ⟨x, _, g1, _, _, g2⟩ := C62_push_phase_does_nothing r k0 _ t o csts n a hr h1 h2 hs
  obtain ⟨x', _, g1', _, _, g2'⟩ := C62_push_phase_does_nothing r' k0' _ t o csts n a' hr' h1 h2 hs'
  obtain ⟨_, _, _, hmt⟩ := (functor_spec hr).2.2.2.2.2.2.2.2.2.2.1
    ((C31_status_partial r _ t o csts n a hr).1.mp hs)
  rw [hmp, htr _ (by omega), g1] at g1'
  rw [g2, g2', Option.some.inj g1']

/-- C128, part: with more time, a search that fails succeeds or returns a vector that leaves no more
constraints unsatisfied. -/
theorem C128_no_more_unsatisfied (hw : w.Ok ok) (hle : ∀ k, late k = true → w.timeUp k = true)
    (hl : cfg.limit ≠ 0) (h : functor kind upd w cfg t o csts n = .ok (a, st))
    (h' : functor kind upd { w with timeUp := late } cfg t o csts n = .ok (a', st'))
    (hs : a.status ≠ .success) :
    a'.status = .success ∨ ∃ x x', a.solution = some ((List.range n).map x, none) ∧
      a'.solution = some ((List.range n).map x', none) ∧
      0 < unsatisfied x' csts ∧ unsatisfied x' csts ≤ unsatisfied x csts := by
  by_cases hs' : a'.status = .success
  · exact Or.inl hs'
  obtain ⟨r, _, _, _, _, _, hr, _⟩ := functor_refines hw (fun s _ => any_sim upd w s) h
  obtain ⟨r', _, _, _, _, _, hr', _⟩ := functor_refines hw.clock (fun s _ => any_sim upd _ s) h'
  obtain ⟨i, x, g1, g2, _, _⟩ := C129_the_fewest_unsatisfied r _ hl t o csts n a hr hs
  obtain ⟨i', x', _, g2', g3', g4', _⟩ := C129_the_fewest_unsatisfied r' _ hl t o csts n a' hr' hs'
  refine Or.inr ⟨x, x', g2, g2', g3', g4' x ?_⟩
  have he : a.exit ≠ .found := fun he => hs ((C31_status_partial r _ t o csts n a hr).1.mpr he)
  exact ((functor_clock hle h h').2.2 he).subset (List.mem_of_getElem? g1)

/-! ## C130 -/

/-- C130: with larger limits on the loops and on the pushes, the vectors reached are those of the run with the
smaller limits, then possibly others; so a success stays a success, with a solution that is at least as good, and
the same one when the number of pushes is the same. -/
theorem C130_larger_limits_are_not_worse (hw : w.Ok ok) {L P : Nat} (hL : cfg.limit ≤ L)
    (hP : cfg.pushes ≤ P) (h : functor kind upd w cfg t o csts n = .ok (a, st))
    (h' : functor kind upd w { cfg with limit := L, pushes := P } t o csts n = .ok (a', st')) :
    a.final.trace <+: a'.final.trace ∧
    (a.status = .success → a'.status = .success ∧ a'.mainPasses = a.mainPasses ∧
      ∃ x x', a.solution = some ((List.range n).map x, some (objective o x)) ∧
        a'.solution = some ((List.range n).map x', some (objective o x')) ∧
        Within x csts ∧ Within x' csts ∧ AtLeastAsGood t (objective o x') (objective o x)) ∧
    (a.status = .success → P = cfg.pushes → a'.solution = a.solution) := by
  obtain ⟨r, _, _, _, _, _, hr, _⟩ := functor_refines hw (fun s _ => any_sim upd w s) h
  obtain ⟨r', _, _, _, _, _, hr', _⟩ := functor_refines hw (fun s _ => any_sim upd _ s) h'
  obtain ⟨g1, g2⟩ := functor_limits hL hP h h'
  refine ⟨g1, fun hs => ?_, fun hs hp => ?_⟩
  · obtain ⟨k1, k2, _⟩ := g2 ((C31_status_partial r _ t o csts n a hr).1.mp hs)
    have hs' := (C31_status_partial r' _ t o csts n a' hr').1.mpr k1
    obtain ⟨x, m1, m2, m3, _⟩ := (C29_best_of_the_run r _ t o csts n a hr).2 hs
    obtain ⟨x', _, m2', m3', m4'⟩ := (C29_best_of_the_run r' _ t o csts n a' hr').2 hs'
    exact ⟨hs', k2, x, x', m3, m3', m2, m2', m4' x (g1.subset m1) m2⟩
  · rw [(g2 ((C31_status_partial r _ t o csts n a hr).1.mp hs)).2.2 hp]

/-- C130: with larger limits, a search that fails succeeds or returns a vector that leaves no more constraints
unsatisfied. -/
theorem C130_larger_limits_leave_no_more (hw : w.Ok ok) {L P : Nat} (hL : cfg.limit ≤ L)
    (hP : cfg.pushes ≤ P) (hl : cfg.limit ≠ 0) (h : functor kind upd w cfg t o csts n = .ok (a, st))
    (h' : functor kind upd w { cfg with limit := L, pushes := P } t o csts n = .ok (a', st'))
    (hs : a.status ≠ .success) :
    a'.status = .success ∨ ∃ x x', a.solution = some ((List.range n).map x, none) ∧
      a'.solution = some ((List.range n).map x', none) ∧
      0 < unsatisfied x' csts ∧ unsatisfied x' csts ≤ unsatisfied x csts := by
  by_cases hs' : a'.status = .success
  · exact Or.inl hs'
  obtain ⟨r, _, _, _, _, _, hr, _⟩ := functor_refines hw (fun s _ => any_sim upd w s) h
  obtain ⟨r', _, _, _, _, _, hr', _⟩ := functor_refines hw (fun s _ => any_sim upd _ s) h'
  have hl' : L ≠ 0 := by omega
  obtain ⟨i, x, g1, g2, _, _⟩ := C129_the_fewest_unsatisfied r _ hl t o csts n a hr hs
  obtain ⟨i', x', _, g2', g3', g4', _⟩ := C129_the_fewest_unsatisfied r' _ hl' t o csts n a' hr' hs'
  exact Or.inr ⟨x, x', g2, g2', g3', g4' x ((functor_limits hL hP h h').1.subset (List.mem_of_getElem? g1))⟩

/-! ## Examples -/

/-- What is observed of a run on `n` variables. -/
structure Report where
  status : Status
  solution : Option (List Bool × Option Rat)
  vectors : List (List Bool)
  deriving DecidableEq

def reportOf (n : Nat) (r : Answer × State) : Report :=
  ⟨r.1.status, r.1.solution, r.1.final.trace.map fun x => (List.range n).map x⟩

theorem of_report {n : Nat} {r : Outcome (Answer × State)} {v : Report} (h : r.map (reportOf n) = .ok v) :
    ∃ a st, r = .ok (a, st) ∧ a.status = v.status ∧ a.solution = v.solution ∧
      (a.final.trace.map fun x => (List.range n).map x) = v.vectors := by
  cases r with
  | error f => simp [Except.map] at h
  | ok r =>
    rw [← Except.ok.inj h]
    exact ⟨r.1, r.2, rfl, rfl, rfl, rfl⟩

/-- x0 + x1 + x2 = 1, x1 + x2 + x3 = 1, x0 + x3 ≤ 1 and x0 + x1 + x3 ≤ 2: the solutions are x1 alone and
x2 alone. -/
def pushCsts : List Merged :=
  [⟨[⟨1, 0⟩, ⟨1, 1⟩, ⟨1, 2⟩], 1, 1, 0⟩, ⟨[⟨1, 1⟩, ⟨1, 2⟩, ⟨1, 3⟩], 1, 1, 1⟩,
    ⟨[⟨1, 0⟩, ⟨1, 3⟩], 0, 1, 2⟩, ⟨[⟨1, 0⟩, ⟨1, 1⟩, ⟨1, 3⟩], 0, 2, 3⟩]

def pushObj : Objective := { elems := [⟨2, 0⟩, ⟨4, 1⟩, ⟨5, 2⟩, ⟨7, 3⟩] }

/-- The shuffles are rotations. -/
def pushWorld : World Oracle :=
  { exWorld with
    x0 := fun i => decide (i < 2)
    shuffle := fun i l =>
      let k := [2, 2, 2, 3, 3].getD i 0
      l.drop k ++ l.take k }

theorem pushWorld_ok : pushWorld.Ok fun o => o.Ok .minimize where
  oracle := exWorld_ok.oracle
  shuffle i l := by
    show (l.drop _ ++ l.take _).Perm l
    exact List.perm_append_comm.trans (by rw [List.take_append_drop])
  sortR := exWorld_ok.sortR
  sortO := exWorld_ok.sortO

def pushCfg : Cfg :=
  { order := .piSignChange, limit := 8, pushes := 2, pushIter := 4, kappaMin := 1 / 10, kappaStep := 0,
    theta := 0, delta := 5 / 2, kFactor := 1, amplifier := 8, w := 0, kappaMax := 1 }

/-- The run with the time for three passes: a fourth one, a push, begins late. -/
theorem pushRun_short : ∃ a st, functor .inequalities01 (exUpd [2, 4, 5, 7])
      { pushWorld with timeUp := fun k => decide (3 ≤ k) } pushCfg .minimize pushObj pushCsts 4 = .ok (a, st) ∧
    a.status = .success ∧ a.solution = some ([false, true, false, false], some 4) ∧
    (a.final.trace.map fun x => (List.range 4).map x) =
      [[false, false, true, false], [true, false, false, false], [true, false, true, false],
       [false, true, false, false]] :=
  of_report (v := ⟨_, _, _⟩) (by decide +kernel)

/-- The run without limit: the loop of the first push goes on instead. -/
theorem pushRun_long : ∃ a st, functor .inequalities01 (exUpd [2, 4, 5, 7])
      { pushWorld with timeUp := fun _ => false } pushCfg .minimize pushObj pushCsts 4 = .ok (a, st) ∧
    a.status = .success ∧ a.solution = some ([false, false, true, false], some 5) ∧
    (a.final.trace.map fun x => (List.range 4).map x) =
      [[false, false, true, false], [true, false, false, false], [true, false, true, false],
       [false, false, true, true], [false, false, true, false], [true, false, false, false],
       [false, false, true, true], [false, false, true, false]] :=
  of_report (v := ⟨_, _, _⟩) (by decide +kernel)

/-- C128 does not hold: with the same choices, a minimization with a limit of time returns a solution of
value 4 and the one without limit returns a solution of value 5. -/
theorem C128_more_time_can_be_worse : ∃ (w : World Oracle) (late : Nat → Bool) (cfg : Cfg) (o : Objective)
      (csts : List Merged) (a a' : Answer) (st st' : State),
    w.Ok (fun o => o.Ok .minimize) ∧ (∀ k, late k = true → w.timeUp k = true) ∧
    functor .inequalities01 (exUpd [2, 4, 5, 7]) w cfg .minimize o csts 4 = .ok (a, st) ∧
    functor .inequalities01 (exUpd [2, 4, 5, 7]) { w with timeUp := late } cfg .minimize o csts 4 =
      .ok (a', st') ∧
    a.status = .success ∧ a'.status = .success ∧
    a.solution = some ([false, true, false, false], some 4) ∧
    a'.solution = some ([false, false, true, false], some 5) := by
  obtain ⟨a, st, h, h1, h2, _⟩ := pushRun_short
  obtain ⟨a', st', h', h1', h2', _⟩ := pushRun_long
  exact ⟨_, fun _ => false, pushCfg, pushObj, pushCsts, a, a', st, st', pushWorld_ok.clock, by simp, h, h',
    h1, h1', h2, h2'⟩

/-- The hypotheses of the three theorems on a success are met: the passes 0, 1 and 2 are in time, the first
of them ends on a solution. -/
example : ∃ a a' st st', functor .inequalities01 (exUpd [2, 4, 5, 7])
      { pushWorld with timeUp := fun k => decide (3 ≤ k) } pushCfg .minimize pushObj pushCsts 4 = .ok (a, st) ∧
    functor .inequalities01 (exUpd [2, 4, 5, 7]) { pushWorld with timeUp := fun _ => false } pushCfg
      .minimize pushObj pushCsts 4 = .ok (a', st') ∧
    a.status = .success ∧ InTime (fun k => decide (3 ≤ k)) 2 ∧
    ∃ y, a.final.trace[0]? = some y ∧ (List.range 4).map y = [false, false, true, false] ∧
      a'.final.trace[0]? = some y := by
  obtain ⟨a, st, h, h1, h2, h3⟩ := pushRun_short
  obtain ⟨a', st', h', _⟩ := pushRun_long
  refine ⟨a, a', st, st', h, h', h1, ?_, ?_⟩
  · intro s _ hs
    simp; omega
  · cases hy : a.final.trace with
    | nil => rw [hy] at h3; simp at h3
    | cons y l =>
      rw [hy] at h3
      refine ⟨y, rfl, (List.cons.inj h3).1, ?_⟩
      exact C128_passes_in_time_are_shared (w := { pushWorld with timeUp := fun k => decide (3 ≤ k) })
        (late := fun _ => false) (by simp) h h' 0 (fun s h1 h2 => by omega) y (by rw [hy]; rfl)

theorem exTimeWorld_ok {x0 : Assign} {f : Nat → Bool} :
    ({ exWorld with x0 := x0, timeUp := f } : World Oracle).Ok fun o => o.Ok .minimize :=
  ⟨exWorld_ok.oracle, exWorld_ok.shuffle, exWorld_ok.sortR, exWorld_ok.sortO⟩

def exTimeObj : Objective := { elems := [⟨1, 0⟩, ⟨2, 1⟩, ⟨3, 2⟩] }

/-- The hypotheses of `C128_same_solution` are met: the default order, one pass and a limit that is over
after the first push. -/
example : ∃ a a' st st', functor .equalities01 (exUpd [1, 2, 3])
      { exWorld with x0 := fun i => i != 1, timeUp := fun k => decide (1 ≤ k) } exCfg .minimize
      exTimeObj exEven 3 = .ok (a, st) ∧
    functor .equalities01 (exUpd [1, 2, 3]) { exWorld with x0 := fun i => i != 1, timeUp := fun _ => false }
      exCfg .minimize exTimeObj exEven 3 = .ok (a', st') ∧
    a.status = .success ∧ a.final.trace.length = 2 ∧ 2 < a'.final.trace.length ∧
    a'.solution = a.solution := by
  obtain ⟨a, st, h, h1, h2, h3⟩ := of_report (n := 3)
    (r := functor .equalities01 (exUpd [1, 2, 3])
      { exWorld with x0 := fun i => i != 1, timeUp := fun k => decide (1 ≤ k) } exCfg .minimize exTimeObj exEven 3)
    (v := ⟨.success, some ([true, false, true], some 4), List.replicate 2 [true, false, true]⟩) (by decide +kernel)
  obtain ⟨a', st', h', _, _, h3'⟩ := of_report (n := 3)
    (r := functor .equalities01 (exUpd [1, 2, 3])
      { exWorld with x0 := fun i => i != 1, timeUp := fun _ => false } exCfg .minimize exTimeObj exEven 3)
    (v := ⟨.success, some ([true, false, true], some 4), List.replicate 201 [true, false, true]⟩) (by decide +kernel)
  refine ⟨a, a', st, st', h, h', h1, by simpa using congrArg List.length h3, ?_,
    C128_same_solution (w := { exWorld with x0 := fun i => i != 1, timeUp := fun k => decide (1 ≤ k) })
      (late := fun _ => false) exTimeWorld_ok (by simp) (by decide) (by decide) h h' h1⟩
  have := congrArg List.length h3'
  simp only [List.length_map, List.length_replicate] at this
  omega

/-- The hypotheses of `C128_no_more_unsatisfied` are met: with the time for two passes, then for four. -/
example : ∃ a a' st st', functor .equalities01 (exUpd [1, 2, 3])
      { exWorld with timeUp := fun k => decide (2 ≤ k) } exCfg .minimize exTimeObj exOdd 3 = .ok (a, st) ∧
    functor .equalities01 (exUpd [1, 2, 3]) { exWorld with timeUp := fun _ => false } exCfg .minimize
      exTimeObj exOdd 3 = .ok (a', st') ∧
    a.status ≠ .success ∧ a.final.trace.length = 2 ∧ a'.final.trace.length = 4 ∧
    (a'.status = .success ∨ ∃ x x', a.solution = some ((List.range 3).map x, none) ∧
      a'.solution = some ((List.range 3).map x', none) ∧
      0 < unsatisfied x' exOdd ∧ unsatisfied x' exOdd ≤ unsatisfied x exOdd) := by
  obtain ⟨a, st, h, h1, h2, h3⟩ := of_report (n := 3)
    (r := functor .equalities01 (exUpd [1, 2, 3])
      { exWorld with timeUp := fun k => decide (2 ≤ k) } exCfg .minimize exTimeObj exOdd 3)
    (v := ⟨.limitReached, some ([true, true, false], none), [[true, true, false], [false, true, false]]⟩)
    (by decide +kernel)
  obtain ⟨a', st', h', _, _, h3'⟩ := of_report (n := 3)
    (r := functor .equalities01 (exUpd [1, 2, 3])
      { exWorld with timeUp := fun _ => false } exCfg .minimize exTimeObj exOdd 3)
    (v := ⟨.limitReached, some ([true, true, false], none), [[true, true, false], [false, true, false],
      [true, true, false], [true, false, false]]⟩) (by decide +kernel)
  have hs : a.status ≠ .success := by rw [h1]; simp
  exact ⟨a, a', st, st', h, h', hs, by simpa using congrArg List.length h3,
    by simpa using congrArg List.length h3',
    C128_no_more_unsatisfied (w := { exWorld with timeUp := fun k => decide (2 ≤ k) }) (late := fun _ => false)
      exWorld_ok.clock (by simp) (by decide) h h' hs⟩

/-- The hypotheses of C129 are met by the same run: its two vectors leave one constraint unsatisfied each, and
the first is returned. -/
example : ∃ (a : Answer) (st : State) (r : Run _), functor .equalities01 (exUpd [1, 2, 3])
      { exWorld with timeUp := fun k => decide (2 ≤ k) } exCfg .minimize exTimeObj exOdd 3 = .ok (a, st) ∧
    Itm.functor .equalities01 (anyUpd (exUpd [1, 2, 3])) r exCfg.params .minimize exTimeObj exOdd 3 = .ok a ∧
    exCfg.params.limit ≠ 0 ∧ a.status ≠ .success ∧
    a.solution = some ([true, true, false], none) := by
  obtain ⟨a, st, h, h1, h2, _⟩ := of_report (n := 3)
    (r := functor .equalities01 (exUpd [1, 2, 3])
      { exWorld with timeUp := fun k => decide (2 ≤ k) } exCfg .minimize exTimeObj exOdd 3)
    (v := ⟨.limitReached, some ([true, true, false], none), [[true, true, false], [false, true, false]]⟩)
    (by decide +kernel)
  obtain ⟨r, _, _, _, _, _, hr, _⟩ := functor_refines exWorld_ok.clock
    (fun s _ => any_sim (exUpd [1, 2, 3]) _ s) h
  exact ⟨a, st, r, h, hr, by decide, by rw [h1]; simp, h2⟩

/-- The hypotheses of C130 are met: without a push the solution has the value 5; with two, of which one is in a
run that is stopped by the clock, it has the value 4. -/
example : ∃ a a' st st', functor .inequalities01 (exUpd [2, 4, 5, 7])
      { pushWorld with timeUp := fun k => decide (3 ≤ k) }
      { order := .piSignChange, limit := 1, pushes := 0, pushIter := 4, kappaMin := 1 / 10, kappaStep := 0,
        theta := 0, delta := 5 / 2, kFactor := 1, amplifier := 8, w := 0, kappaMax := 1 }
      .minimize pushObj pushCsts 4 = .ok (a, st) ∧
    functor .inequalities01 (exUpd [2, 4, 5, 7]) { pushWorld with timeUp := fun k => decide (3 ≤ k) } pushCfg
      .minimize pushObj pushCsts 4 = .ok (a', st') ∧
    a.status = .success ∧ a.solution = some ([false, false, true, false], some 5) ∧
    a'.status = .success ∧ a'.solution = some ([false, true, false, false], some 4) := by
  obtain ⟨a, st, h, h1, h2, _⟩ := of_report (n := 4)
    (r := functor .inequalities01 (exUpd [2, 4, 5, 7]) { pushWorld with timeUp := fun k => decide (3 ≤ k) }
      { pushCfg with limit := 1, pushes := 0 } .minimize pushObj pushCsts 4)
    (v := ⟨.success, some ([false, false, true, false], some 5), [[false, false, true, false]]⟩)
    (by decide +kernel)
  obtain ⟨a', st', h', h1', h2', _⟩ := pushRun_short
  exact ⟨a, a', st, st', h, h', h1, h2,
    ((C130_larger_limits_are_not_worse (L := 8) (P := 2) pushWorld_ok.clock (by decide) (by decide) h h').2.1
      h1).1, h2'⟩

/-- The hypotheses of `C130_larger_limits_leave_no_more` are met. -/
example : ∃ a a' st st', functor .equalities01 (exUpd [1, 2, 3]) exWorld { exCfg with limit := 2 } .minimize
      exTimeObj exOdd 3 = .ok (a, st) ∧
    functor .equalities01 (exUpd [1, 2, 3]) exWorld exCfg .minimize exTimeObj exOdd 3 = .ok (a', st') ∧
    a.status ≠ .success ∧ a.final.trace.length = 2 ∧ a'.final.trace.length = 4 ∧
    a.final.trace <+: a'.final.trace := by
  obtain ⟨a, st, h, h1, _, h3⟩ := of_report (n := 3)
    (r := functor .equalities01 (exUpd [1, 2, 3]) exWorld { exCfg with limit := 2 } .minimize exTimeObj exOdd 3)
    (v := ⟨.limitReached, some ([true, true, false], none), [[true, true, false], [false, true, false]]⟩)
    (by decide +kernel)
  obtain ⟨a', st', h', _, _, h3'⟩ := of_report (n := 3)
    (r := functor .equalities01 (exUpd [1, 2, 3]) exWorld exCfg .minimize exTimeObj exOdd 3)
    (v := ⟨.limitReached, some ([true, true, false], none), [[true, true, false], [false, true, false],
      [true, true, false], [true, false, false]]⟩) (by decide +kernel)
  exact ⟨a, a', st, st', h, h', by rw [h1]; simp, by simpa using congrArg List.length h3,
    by simpa using congrArg List.length h3',
    (C130_larger_limits_are_not_worse (L := 6) (P := 100) exWorld_ok (by decide) (by decide) h h').1⟩

end Bx.Num
