import Verif.Props.Init
import Verif.Props.Numeric

/-!
# C79: a feasible initial vector with the orders `cycle` and `pi-sign-change`
-/

namespace Bx.Itm

open Merge SolverCtor Spec

variable {ρ : Type} {kind : SolverType} {upd : Slv → ρ → Nat → Assign → Outcome Assign}

/-- C79, part: with the order `cycle`, when the initial vector respects every constraint and `solve`
returns, it succeeds, with a solution that is at least as good as the initial vector.  What is missing:
the passes of the push phase may read out of bounds (C63, C83). -/
theorem C79_cycle_keeps_a_feasible_start_partial (r : Run ρ) (p : Params) (hl : p.limit ≠ 0)
    (ho : p.order = .cycle) (t : ObjType) (o : Objective) (csts : List Merged) (n : Nat) (a : Answer)
    (h : functor kind upd r p t o csts n = .ok a) (hw : Within r.x0 csts) :
    a.status = .success ∧ a.mainPasses = 1 ∧
    ∃ x, a.solution = some ((List.range n).map x, some (objective o x)) ∧ Within x csts ∧
      AtLeastAsGood t (objective o x) (objective o r.x0) := by
  have h' := h
  unfold functor at h'
  obtain ⟨s, hs, h'⟩ := bind_eq_ok.mp h'
  obtain ⟨c, hc, h'⟩ := bind_eq_ok.mp h'
  obtain ⟨⟨st, e⟩, hm, h'⟩ := bind_eq_ok.mp h'
  simp only at h'
  obtain ⟨st', hst', h'⟩ := bind_eq_ok.mp h'
  have h' := Except.ok.inj h'
  have hnil := vset_nil.mpr hw
  have hv : violated s r.x0 = .ok [] := by rw [(violated_eq hs r.x0).1]; exact congrArg _ hnil
  have hc' : c = { Compute.make .cycle n with R := [] } := by
    rw [ho] at hc
    simp only [Compute.make, if_true, Compute.init, hv, ok_bind] at hc
    exact (Except.ok.inj hc).symm
  have hm0 := hm
  obtain ⟨l, hl⟩ := Nat.exists_eq_succ_of_ne_zero hl
  rw [hl, hc'] at hm
  unfold mainLoop at hm
  simp only [run, Compute.make, if_true, updateRows, ok_bind, hv, List.length_nil] at hm
  have hm := Except.ok.inj hm
  have hst : st.passes = 1 ∧ st.trace = [r.x0] ∧ e = .found ∧ st.best.remaining = some 0 := by
    obtain ⟨h1, h2⟩ := Prod.mk.inj hm
    rw [← h1, ← h2]
    exact ⟨rfl, rfl, rfl, rfl⟩
  have hi : Inv csts t o { compute := c, x := r.x0 } := ⟨by simp, by simp, by simp⟩
  have hmem : r.x0 ∈ a.final.trace := by
    unfold pushPhase at hst'
    rw [if_pos hst.2.2.1] at hst'
    have hI := (mainLoop_spec hs _ _ _ _ hm0 hi (by simp)).1
    obtain ⟨_, _, _, ⟨l', f4⟩, _⟩ := pushLoop_spec hs _ _ _ _ hst' hI hst.2.2.2
    rw [← h']
    simp only [f4, hst.2.1]
    simp
  have hsucc := (C29_best_of_the_run r p t o csts n a h).1.mpr ⟨_, hmem, hw⟩
  obtain ⟨x, _, hx, hsol, hbest⟩ := (C29_best_of_the_run r p t o csts n a h).2 hsucc
  exact ⟨hsucc, by rw [← h']; exact hst.1, x, hsol, hx, hbest _ hmem hw⟩

/-- A run from `x0`: the choices of a pass are values for the two variables. -/
def startRun : Run (Bool × Bool) where
  x0 i := decide (i = 0)
  pass i := { perm := id, permO := id, row := fun _ => (i % 2 == 0, i % 2 == 1) }
  kappaOver _ := false
  timeUp _ := false

/-- Minimise 2 x0 + x1 under x0 + x1 = 1 from x0: the push phase finds x1. -/
example : ∃ a, functor .equalities01 (fun _ v _ _ => .ok fun i => if i = 0 then v.1 else v.2) startRun
    { order := .cycle, pushes := 4, pushIter := 2 } .minimize ⟨[⟨2, 0⟩, ⟨1, 1⟩], [], 0⟩
    [⟨[⟨1, 0⟩, ⟨1, 1⟩], 1, 1, 0⟩] 2 = .ok a ∧ a.status = .success ∧
    a.solution = some ([false, true], some 1) := by
  have key : ((functor .equalities01 (fun _ v _ _ => .ok fun i => if i = 0 then v.1 else v.2) startRun
      { order := .cycle, pushes := 4, pushIter := 2 } .minimize ⟨[⟨2, 0⟩, ⟨1, 1⟩], [], 0⟩
      [⟨[⟨1, 0⟩, ⟨1, 1⟩], 1, 1, 0⟩] 2).map fun a => a.solution) =
      .ok (some ([false, true], some 1)) := by decide +kernel
  cases h : functor .equalities01 (fun _ v _ _ => .ok fun i => if i = 0 then v.1 else v.2) startRun
      { order := .cycle, pushes := 4, pushIter := 2 } .minimize ⟨[⟨2, 0⟩, ⟨1, 1⟩], [], 0⟩
      [⟨[⟨1, 0⟩, ⟨1, 1⟩], 1, 1, 0⟩] 2 with
  | error f => rw [h] at key; simp [Except.map] at key
  | ok a =>
    rw [h] at key
    exact ⟨a, rfl, (C79_cycle_keeps_a_feasible_start_partial _ _ (by simp) rfl _ _ _ _ a h
      (by intro c hc; rw [List.mem_singleton.mp hc]; decide +kernel)).1, Except.ok.inj key⟩

end Bx.Itm

namespace Bx.Num

open Merge SolverCtor Spec Itm Mult

/-- A world whose initial vector is `x0` and `x2`. -/
def startWorld : World Oracle := { exWorld with x0 := fun i => decide (i ≠ 1) }

/-- Refutation: with the order `pi-sign-change` a feasible initial vector is lost.  The initial vector
respects the three constraints, but the first pass updates all of them and leaves it: after four
passes `solve` ends without a solution. -/
theorem C79_sign_change_loses_a_feasible_start :
    startWorld.Ok (fun o => o.Ok .minimize) ∧ Within startWorld.x0 exEven ∧
    ∃ a st, functor .equalities01 (exUpd [2, 0, 2]) startWorld { exCfg with order := .piSignChange }
        .minimize {} exEven 3 = .ok (a, st) ∧ a.status ≠ .success ∧
      ∀ v ∈ st.log, ¬ Within v.x' exEven := by
  refine ⟨⟨exWorld_ok.oracle, exWorld_ok.shuffle, exWorld_ok.sortR, exWorld_ok.sortO⟩, ?_, ?_⟩
  · intro c hc
    simp only [exEven, List.mem_cons, List.not_mem_nil, or_false] at hc
    rcases hc with rfl | rfl | rfl <;> decide +kernel
  · have key : ((functor .equalities01 (exUpd [2, 0, 2]) startWorld
        { exCfg with order := .piSignChange } .minimize {} exEven 3).map fun r =>
          (r.1.status, r.2.log.map fun v => [v.x' 0, v.x' 1, v.x' 2])) =
        .ok (.limitReached, [[true, true, false], [false, true, true], [true, true, false],
          [false, true, true]]) := by decide +kernel
    cases hr : functor .equalities01 (exUpd [2, 0, 2]) startWorld
        { exCfg with order := .piSignChange } .minimize {} exEven 3 with
    | error f => rw [hr] at key; simp [Except.map] at key
    | ok r =>
      rw [hr] at key
      obtain ⟨h1, h2⟩ := Prod.mk.inj (Except.ok.inj key)
      refine ⟨r.1, r.2, rfl, by rw [h1]; simp, ?_⟩
      intro v hv hW
      have hm := List.mem_map_of_mem (f := fun v : Visit => [v.x' 0, v.x' 1, v.x' 2]) hv
      rw [h2] at hm
      have g1 := hW ⟨[⟨1, 0⟩, ⟨1, 1⟩], 1, 1, 0⟩ (by simp [exEven])
      have g2 := hW ⟨[⟨1, 1⟩, ⟨1, 2⟩], 1, 1, 1⟩ (by simp [exEven])
      cases e0 : v.x' 0 <;> cases e1 : v.x' 1 <;> cases e2 : v.x' 2 <;>
        simp_all [lhs]

end Bx.Num
