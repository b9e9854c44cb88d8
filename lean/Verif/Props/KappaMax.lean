import Verif.Props.Time

/-!
# C131: what a larger `kappa-max` changes
-/

namespace Bx.Num

open Merge SolverCtor Spec Spec.Optimizer Itm Mult

variable {Ω : Type} {kind : SolverType} {upd : Slv → Upd Ω} {w : World Ω} {cfg : Cfg} {t : ObjType}
  {o : Objective} {csts : List Merged} {n : Nat} {ok : Ω → Prop} {K : Rat} {a a' : Answer} {st st' : State}

/-- C131, part: with a larger `kappa-max`, a search that succeeds still does, with its first solution after the
same passes. -/
theorem C131_success_is_kept (hw : w.Ok ok) (hK : cfg.kappaMax ≤ K)
    (h : functor kind upd w cfg t o csts n = .ok (a, st))
    (h' : functor kind upd w { cfg with kappaMax := K } t o csts n = .ok (a', st'))
    (hs : a.status = .success) :
    a'.status = .success ∧ a'.mainPasses = a.mainPasses ∧
      ∀ k, k < a.mainPasses → a'.final.trace[k]? = a.final.trace[k]? := by
  obtain ⟨r, _, _, _, _, _, hr, _⟩ := functor_refines hw (fun s _ => any_sim upd w s) h
  obtain ⟨r', _, _, _, _, _, hr', _⟩ := functor_refines hw (fun s _ => any_sim upd _ s) h'
  obtain ⟨g1, g2, g3⟩ := (functor_kappa hK h h').1 ((C31_status_partial r _ t o csts n a hr).1.mp hs)
  exact ⟨(C31_status_partial r' _ t o csts n a' hr').1.mpr g1, g2, g3⟩

/-- C131, part: with a larger `kappa-max`, the solution is at least as good as all those that the first run
reached up to the end of its main loop.  What is missing: the solutions of its pushes. -/
theorem C131_at_least_as_good_partial (hw : w.Ok ok) (hK : cfg.kappaMax ≤ K)
    (h : functor kind upd w cfg t o csts n = .ok (a, st))
    (h' : functor kind upd w { cfg with kappaMax := K } t o csts n = .ok (a', st'))
    (k : Nat) (hk : k < a.mainPasses) (y : Assign) (hy : a.final.trace[k]? = some y) (hyw : Within y csts) :
    a'.status = .success ∧ ∃ x, Within x csts ∧
      a'.solution = some ((List.range n).map x, some (objective o x)) ∧
      AtLeastAsGood t (objective o x) (objective o y) := by
  obtain ⟨r, _, _, _, _, _, hr, _⟩ := functor_refines hw (fun s _ => any_sim upd w s) h
  obtain ⟨r', _, _, _, _, _, hr', _⟩ := functor_refines hw (fun s _ => any_sim upd _ s) h'
  have hs := (C29_best_of_the_run r _ t o csts n a hr).1.mpr ⟨y, List.mem_of_getElem? hy, hyw⟩
  obtain ⟨hs', _, htr⟩ := C131_success_is_kept hw hK h h' hs
  have hmem := List.mem_of_getElem? ((htr k hk).trans hy)
  obtain ⟨x, _, g1, g2, g3⟩ := (C29_best_of_the_run r' _ t o csts n a' hr').2 hs'
  exact ⟨hs', x, g1, g2, g3 y hmem hyw⟩

/-- C131, part: with an order other than `pi-sign-change` and `cycle`, a larger `kappa-max` does not change the
solution of a search that succeeds. -/
theorem C131_same_solution (hw : w.Ok ok) (hK : cfg.kappaMax ≤ K)
    (h1 : cfg.order ≠ .piSignChange) (h2 : cfg.order ≠ .cycle)
    (h : functor kind upd w cfg t o csts n = .ok (a, st))
    (h' : functor kind upd w { cfg with kappaMax := K } t o csts n = .ok (a', st'))
    (hs : a.status = .success) : a'.solution = a.solution := by
  obtain ⟨r, k0, _, _, _, _, hr, _⟩ := functor_refines hw (fun s _ => any_sim upd w s) h
  obtain ⟨r', k0', _, _, _, _, hr', _⟩ := functor_refines hw (fun s _ => any_sim upd _ s) h'
  obtain ⟨hs', hmp, htr⟩ := C131_success_is_kept hw hK h h' hs
  obtain ⟨x, _, g1, _, _, g2⟩ := C62_push_phase_does_nothing r k0 _ t o csts n a hr h1 h2 hs
  obtain ⟨x', _, g1', _, _, g2'⟩ := C62_push_phase_does_nothing r' k0' _ t o csts n a' hr' h1 h2 hs'
  obtain ⟨_, _, _, hmt⟩ := (functor_spec hr).2.2.2.2.2.2.2.2.2.2.1
    ((C31_status_partial r _ t o csts n a hr).1.mp hs)
  rw [hmp, htr _ (by omega), g1] at g1'
  rw [g2, g2', Option.some.inj g1']

/-- C131, part: with a larger `kappa-max`, a search that fails succeeds or returns a vector that leaves no more
constraints unsatisfied. -/
theorem C131_no_more_unsatisfied (hw : w.Ok ok) (hK : cfg.kappaMax ≤ K)
    (hl : cfg.limit ≠ 0) (h : functor kind upd w cfg t o csts n = .ok (a, st))
    (h' : functor kind upd w { cfg with kappaMax := K } t o csts n = .ok (a', st'))
    (hs : a.status ≠ .success) :
    a'.status = .success ∨ ∃ x x', a.solution = some ((List.range n).map x, none) ∧
      a'.solution = some ((List.range n).map x', none) ∧
      0 < unsatisfied x' csts ∧ unsatisfied x' csts ≤ unsatisfied x csts := by
  by_cases hs' : a'.status = .success
  · exact Or.inl hs'
  obtain ⟨r, _, _, _, _, _, hr, _⟩ := functor_refines hw (fun s _ => any_sim upd w s) h
  obtain ⟨r', _, _, _, _, _, hr', _⟩ := functor_refines hw (fun s _ => any_sim upd _ s) h'
  obtain ⟨i, x, g1, g2, _, _⟩ := C129_the_fewest_unsatisfied r _ hl t o csts n a hr hs
  obtain ⟨i', x', _, g2', g3', g4', _⟩ := C129_the_fewest_unsatisfied r' _ hl t o csts n a' hr' hs'
  refine Or.inr ⟨x, x', g2, g2', g3', g4' x ?_⟩
  have he : a.exit ≠ .found := fun he => hs ((C31_status_partial r _ t o csts n a hr).1.mpr he)
  exact ((functor_kappa hK h h').2 he).subset (List.mem_of_getElem? g1)

/-! ## Examples -/

/-- The shuffles are rotations. -/
def kappaWorld : World Oracle :=
  { exWorld with
    x0 := fun i => decide (1 ≤ i)
    shuffle := fun i l =>
      let k := [3, 3, 0, 0, 0, 1, 1].getD i 0
      l.drop k ++ l.take k }

theorem kappaWorld_ok : kappaWorld.Ok fun o => o.Ok .minimize where
  oracle := exWorld_ok.oracle
  shuffle i l := by
    show (l.drop _ ++ l.take _).Perm l
    exact List.perm_append_comm.trans (by rw [List.take_append_drop])
  sortR := exWorld_ok.sortR
  sortO := exWorld_ok.sortO

def kappaObj : Objective := { elems := [⟨3, 0⟩, ⟨4, 1⟩, ⟨5, 2⟩, ⟨7, 3⟩] }

def kappaCfg (K : Rat) : Cfg :=
  { order := .piSignChange, limit := 4, pushes := 2, pushIter := 6, kappaMin := 1 / 5, kappaStep := 1 / 10,
    theta := 1 / 2, delta := 3, kFactor := 1, amplifier := 12, w := 0, kappaMax := K }

/-- The run with a `kappa-max` of 1/4: the loop of the first push ends after two passes. -/
theorem kappaRun_small : ∃ a st, functor .inequalities01 (exUpd [3, 4, 5, 7]) kappaWorld (kappaCfg (1 / 4))
      .minimize kappaObj pushCsts 4 = .ok (a, st) ∧
    a.status = .success ∧ a.solution = some ([false, true, false, false], some 4) ∧
    (a.final.trace.map fun x => (List.range 4).map x) =
      [[false, false, true, false], [false, false, true, false], [true, true, false, false],
       [true, true, false, false], [false, true, false, false], [false, true, false, false]] :=
  of_report (v := ⟨_, _, _⟩) (by decide +kernel)

/-- The run with a `kappa-max` of 7/20: the loop of the first push makes a third pass. -/
theorem kappaRun_large : ∃ a st, functor .inequalities01 (exUpd [3, 4, 5, 7]) kappaWorld (kappaCfg (7 / 20))
      .minimize kappaObj pushCsts 4 = .ok (a, st) ∧
    a.status = .success ∧ a.solution = some ([false, false, true, false], some 5) ∧
    (a.final.trace.map fun x => (List.range 4).map x) =
      [[false, false, true, false], [false, false, true, false], [true, true, false, false],
       [true, true, false, false], [false, false, false, true], [true, true, false, false],
       [false, false, false, true]] :=
  of_report (v := ⟨_, _, _⟩) (by decide +kernel)

/-- C131 does not hold: with the same choices, a minimization with a `kappa-max` of 1/4 returns a solution of
value 4 and the one with a `kappa-max` of 7/20 returns a solution of value 5. -/
theorem C131_larger_kappa_max_can_be_worse : ∃ (w : World Oracle) (cfg : Cfg) (K : Rat) (o : Objective)
      (csts : List Merged) (a a' : Answer) (st st' : State),
    w.Ok (fun o => o.Ok .minimize) ∧ cfg.kappaMin < cfg.kappaMax ∧ cfg.kappaMax ≤ K ∧ K ≤ 1 ∧
    functor .inequalities01 (exUpd [3, 4, 5, 7]) w cfg .minimize o csts 4 = .ok (a, st) ∧
    functor .inequalities01 (exUpd [3, 4, 5, 7]) w { cfg with kappaMax := K } .minimize o csts 4 =
      .ok (a', st') ∧
    a.status = .success ∧ a'.status = .success ∧
    a.solution = some ([false, true, false, false], some 4) ∧
    a'.solution = some ([false, false, true, false], some 5) := by
  obtain ⟨a, st, h, h1, h2, _⟩ := kappaRun_small
  obtain ⟨a', st', h', h1', h2', _⟩ := kappaRun_large
  exact ⟨kappaWorld, kappaCfg (1 / 4), 7 / 20, kappaObj, pushCsts, a, a', st, st', kappaWorld_ok,
    by decide +kernel, by decide +kernel, by decide +kernel, h, h', h1, h1', h2, h2'⟩

/-- The hypotheses of `C131_success_is_kept` and `C131_at_least_as_good_partial` are met by these runs: the
main loop makes one pass, which ends on a solution of value 5. -/
example : ∃ a a' st st', functor .inequalities01 (exUpd [3, 4, 5, 7]) kappaWorld (kappaCfg (1 / 4))
      .minimize kappaObj pushCsts 4 = .ok (a, st) ∧
    functor .inequalities01 (exUpd [3, 4, 5, 7]) kappaWorld { kappaCfg (1 / 4) with kappaMax := 7 / 20 }
      .minimize kappaObj pushCsts 4 = .ok (a', st') ∧
    a.status = .success ∧ a'.mainPasses = a.mainPasses := by
  obtain ⟨a, st, h, h1, _⟩ := kappaRun_small
  obtain ⟨a', st', h', _⟩ := kappaRun_large
  exact ⟨a, a', st, st', h, h', h1,
    (C131_success_is_kept (K := 7 / 20) kappaWorld_ok (by decide +kernel) h h' h1).2.1⟩

/-- The hypotheses of `C131_no_more_unsatisfied` are met: three passes with a `kappa-max` of 3/4, four
with 1. -/
example : ∃ a a' st st', functor .equalities01 (exUpd [1, 2, 3]) exWorld { exCfg with kappaMax := 3 / 4 }
      .minimize exTimeObj exOdd 3 = .ok (a, st) ∧
    functor .equalities01 (exUpd [1, 2, 3]) exWorld { exCfg with kappaMax := 1 } .minimize
      exTimeObj exOdd 3 = .ok (a', st') ∧
    a.status ≠ .success ∧ a.final.trace.length = 3 ∧ a'.final.trace.length = 4 ∧
    (a'.status = .success ∨ ∃ x x', a.solution = some ((List.range 3).map x, none) ∧
      a'.solution = some ((List.range 3).map x', none) ∧
      0 < unsatisfied x' exOdd ∧ unsatisfied x' exOdd ≤ unsatisfied x exOdd) := by
  obtain ⟨a, st, h, h1, h2, h3⟩ := of_report (n := 3)
    (r := functor .equalities01 (exUpd [1, 2, 3]) exWorld { exCfg with kappaMax := 3 / 4 } .minimize
      exTimeObj exOdd 3)
    (v := ⟨.limitReached, some ([true, true, false], none), [[true, true, false], [false, true, false],
      [true, true, false]]⟩) (by decide +kernel)
  obtain ⟨a', st', h', _, _, h3'⟩ := of_report (n := 3)
    (r := functor .equalities01 (exUpd [1, 2, 3]) exWorld { exCfg with kappaMax := 1 } .minimize
      exTimeObj exOdd 3)
    (v := ⟨.limitReached, some ([true, true, false], none), [[true, true, false], [false, true, false],
      [true, true, false], [true, false, false]]⟩) (by decide +kernel)
  have hs : a.status ≠ .success := by rw [h1]; simp
  exact ⟨a, a', st, st', h, h', hs, by simpa using congrArg List.length h3,
    by simpa using congrArg List.length h3',
    C131_no_more_unsatisfied (cfg := { exCfg with kappaMax := 3 / 4 }) (K := 1) exWorld_ok (by decide +kernel)
      (by decide) h h' hs⟩

/-- The hypotheses of `C131_same_solution` are met: a success of the default order. -/
example : ∃ a a' st st', functor .equalities01 (exUpd [1, 2, 3])
      { exWorld with x0 := fun i => i != 1 } { exCfg with kappaMax := 1 / 2 } .minimize
      exTimeObj exEven 3 = .ok (a, st) ∧
    functor .equalities01 (exUpd [1, 2, 3]) { exWorld with x0 := fun i => i != 1 }
      { exCfg with kappaMax := 1 } .minimize exTimeObj exEven 3 = .ok (a', st') ∧
    a.status = .success ∧ a'.solution = a.solution := by
  obtain ⟨a, st, h, h1, h2, h3⟩ := of_report (n := 3)
    (r := functor .equalities01 (exUpd [1, 2, 3]) { exWorld with x0 := fun i => i != 1 } { exCfg with kappaMax := 1 / 2 }
      .minimize exTimeObj exEven 3)
    (v := ⟨.success, some ([true, false, true], some 4), List.replicate 201 [true, false, true]⟩)
    (by decide +kernel)
  obtain ⟨a', st', h', _⟩ := of_report (n := 3)
    (r := functor .equalities01 (exUpd [1, 2, 3]) { exWorld with x0 := fun i => i != 1 }
      { exCfg with kappaMax := 1 } .minimize exTimeObj exEven 3)
    (v := ⟨.success, some ([true, false, true], some 4), List.replicate 201 [true, false, true]⟩)
    (by decide +kernel)
  exact ⟨a, a', st, st', h, h', h1,
    C131_same_solution (w := { exWorld with x0 := fun i => i != 1 }) (cfg := { exCfg with kappaMax := 1 / 2 }) (K := 1)
      (exTimeWorld_ok (x0 := fun i => i != 1) (f := fun _ => false)) (by decide +kernel) (by decide) (by decide)
      h h' h1⟩

end Bx.Num
