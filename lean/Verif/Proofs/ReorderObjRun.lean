import Verif.Proofs.ReorderObj
import Verif.Proofs.CrewSame

/-! # Lemmas for C141: the objective with its terms in another order and the solvers -/

namespace Bx.Reorder

open Spec Merge Dispatch Itm

variable {ρ : Type}

theorem products_perm (x : Assign) {l l' : List QuadElem} (h : l'.Perm l) : ∀ r : Rat,
    Itm.addQuadratic x r l' = Itm.addQuadratic x r l := by
  induction h with
  | nil => exact fun _ => rfl
  | cons e _ ih => exact fun _ => ih _
  | swap a b l =>
    intro r
    simp only [Itm.addQuadratic]
    congr 1
    split <;> split <;> simp only [add_right_comm]
  | trans _ _ h1 h2 => exact fun r => (h1 r).trans (h2 r)

theorem results_same {o o' : Objective} (h : SameObjective o o') : results o' = results o := by
  have he : o'.qelems.isEmpty = o.qelems.isEmpty := by
    rw [Bool.eq_iff_iff, List.isEmpty_iff, List.isEmpty_iff]
    exact ⟨fun e => List.Perm.nil_eq (e ▸ h.products) |>.symm, fun e => List.Perm.eq_nil (e ▸ h.products)⟩
  funext x
  unfold results
  rw [he, h.value, linear_perm x h.linear, products_perm x h.products]

theorem all_perm {α : Type} {l l' : List α} (h : l'.Perm l) (p : α → Bool) : l'.all p = l.all p := by
  rw [Bool.eq_iff_iff, List.all_eq_true, List.all_eq_true]
  exact ⟨fun q a ha => q a (h.mem_iff.mpr ha), fun q a ha => q a (h.mem_iff.mp ha)⟩

theorem makeCost_same {o o' : Objective} (h : SameObjective o o') (n : Nat) : makeCost o' n = makeCost o n := by
  unfold makeCost
  rw [all_perm h.linear, all_perm h.products]

/-! ## The merge -/

theorem varCost_same {o o' : Objective} (h : SameObjective o o') (hn : (o.elems.map ObjElem.var).Nodup)
    (csts : List Merged) : varCost csts o' = varCost csts o := by
  funext v
  unfold varCost
  have hp := h.linear.filter fun e => e.var == v
  have hl : (o.elems.filter fun e => e.var == v).length ≤ 1 := by
    rw [← List.countP_eq_length_filter]
    have := List.nodup_iff_count_le_one.mp hn v
    rw [List.count, List.countP_map] at this
    exact this
  revert hp hl
  generalize (o.elems.filter fun e => e.var == v) = l
  generalize (o'.elems.filter fun e => e.var == v) = l'
  intro hp hl
  match l, hl with
  | [], _ => rw [List.Perm.eq_nil hp]
  | [e], _ => rw [List.perm_singleton.mp hp]

theorem make_obj {pb pb' : Problem} (hr : pb' = { pb with objective := pb'.objective })
    (h : SameObjective pb.objective pb'.objective) (hn : (pb.objective.elems.map ObjElem.var).Nodup)
    (s : Sorts) (o : Order) : Merge.make s o pb' = Merge.make s o pb := by
  have h1 : makeUnsorted s pb' = makeUnsorted s pb := by rw [hr]; rfl
  have h2 : ∀ o, makeOrdered o pb' = makeOrdered o pb := by intro o; rw [hr]; rfl
  have h3 : pb'.values = pb.values := by rw [hr]
  have h4 : ∀ o, makeSpecial s o pb' = makeSpecial s o pb := by
    intro o
    unfold makeSpecial
    simp only [h1, h3, all_perm h.linear, varCost_same h hn]
  cases o <;> simp only [Merge.make, h1, h2, h4]

/-! ## The search -/

section
variable {o o' : Objective} (hr : results o' = results o)
include hr

section
variable (s : Slv) (upd : ρ → Nat → Assign → Outcome Assign) (r : Run ρ) (t : ObjType)

theorem main_results : ∀ (n : Nat) (st : St), Itm.mainLoop s upd r t o' n st = Itm.mainLoop s upd r t o n st
  | 0, _ => rfl
  | n + 1, st => by simp only [Itm.mainLoop, hr, main_results n]

theorem inner_results : ∀ (n : Nat) (st : St), Itm.pushInner s upd r t o' n st = Itm.pushInner s upd r t o n st
  | 0, _ => rfl
  | n + 1, st => by simp only [Itm.pushInner, hr, inner_results n]

theorem push_results (k : Nat) : ∀ (n : Nat) (st : St),
    Itm.pushLoop s upd r t o' k n st = Itm.pushLoop s upd r t o k n st
  | 0, _ => rfl
  | n + 1, st => by simp only [Itm.pushLoop, hr, inner_results hr, push_results k n]

end

theorem functor_results (kind : SolverType) (upd : Slv → ρ → Nat → Assign → Outcome Assign) (r : Run ρ) (p : Params)
    (t : ObjType) (csts : List Merged) (n : Nat) :
    Itm.functor kind upd r p t o' csts n = Itm.functor kind upd r p t o csts n := by
  simp only [Itm.functor, Itm.pushPhase, main_results hr, push_results hr]

section
variable (a : List Merged) (t : ObjType) (x0 : Assign) (hash : Assign → Nat) (s : Slv)
  (upd : ρ → Nat → Assign → Outcome Assign) (c : Optimizer.Call ρ)

theorem workerUpdate_results (w : Optimizer.Worker) :
    Optimizer.Worker.update ⟨t, o', a, x0, hash⟩ c w = Optimizer.Worker.update ⟨t, o, a, x0, hash⟩ c w := by
  unfold Optimizer.Worker.update
  simp only [hr]
  rfl

theorem tryAdvance_results (e : Optimizer.Evict) (x : Assign) (k : Nat) (st : Optimizer.Storage) :
    Optimizer.tryAdvance ⟨t, o', a, x0, hash⟩ e x k st = Optimizer.tryAdvance ⟨t, o, a, x0, hash⟩ e x k st := by
  unfold Optimizer.tryAdvance
  simp only [hr]

theorem optMain_results : ∀ (n : Nat) (w : Optimizer.Worker) (best : Option Nat),
    Optimizer.mainLoop ⟨t, o', a, x0, hash⟩ s upd c n w best = Optimizer.mainLoop ⟨t, o, a, x0, hash⟩ s upd c n w best
  | 0, _, _ => rfl
  | n + 1, w, best => by
    simp only [Optimizer.mainLoop, workerUpdate_results hr, optMain_results n]

theorem optInner_results : ∀ (n : Nat) (w : Optimizer.Worker),
    Optimizer.pushInner ⟨t, o', a, x0, hash⟩ s upd c n w = Optimizer.pushInner ⟨t, o, a, x0, hash⟩ s upd c n w
  | 0, _ => rfl
  | n + 1, w => by
    simp only [Optimizer.pushInner, workerUpdate_results hr, optInner_results n]

theorem optPush_results (k : Nat) : ∀ (n : Nat) (w : Optimizer.Worker),
    Optimizer.pushLoop ⟨t, o', a, x0, hash⟩ s upd c k n w = Optimizer.pushLoop ⟨t, o, a, x0, hash⟩ s upd c k n w
  | 0, _ => rfl
  | n + 1, w => by
    simp only [Optimizer.pushLoop, workerUpdate_results hr, optInner_results hr, optPush_results k n]

theorem optCall_results (p : Params) (w : Optimizer.Worker) :
    Optimizer.call ⟨t, o', a, x0, hash⟩ s upd p c w = Optimizer.call ⟨t, o, a, x0, hash⟩ s upd p c w := by
  have h0 : ∀ w, Optimizer.reinit ⟨t, o', a, x0, hash⟩ c w = Optimizer.reinit ⟨t, o, a, x0, hash⟩ c w := fun _ => rfl
  simp only [Optimizer.call, h0, optMain_results hr, optPush_results hr, tryAdvance_results hr]

end

theorem optCalls_results (a : List Merged) (t : ObjType) (x : Assign) (hash : Assign → Nat) (s : Slv)
    (upd : ρ → Nat → Assign → Outcome Assign) (p : Params) : ∀ (cs : List (Optimizer.Call ρ)) (w : Optimizer.Worker),
    Optimizer.calls ⟨t, o', a, x, hash⟩ s upd p cs w = Optimizer.calls ⟨t, o, a, x, hash⟩ s upd p cs w
  | [], _ => rfl
  | c :: cs, w => by
    unfold Optimizer.calls
    rw [optCall_results hr]
    cases Optimizer.call ⟨t, o, a, x, hash⟩ s upd p c w with
    | error e => rfl
    | ok w' => exact optCalls_results a t x hash s upd p cs w'

theorem storage_results (a : List Merged) (t : ObjType) (x : Assign)
    (hash : Assign → Nat) (srt : Optimizer.Sorter) (init : List Assign) :
    Optimizer.Storage.make ⟨t, o', a, x, hash⟩ srt init = Optimizer.Storage.make ⟨t, o, a, x, hash⟩ srt init := by
  unfold Optimizer.Storage.make
  simp only [hr]

theorem localStep_results (a : List Merged) (t : ObjType) (x : Assign) (hash : Assign → Nat) (s : Slv)
    (upd : ρ → Nat → Assign → Outcome Assign) (p : Params) (l : Optimizer.Local ρ) (st : Optimizer.Storage) :
    l.step ⟨t, o', a, x, hash⟩ s upd p st = l.step ⟨t, o, a, x, hash⟩ s upd p st := by
  have ho : ∀ (c : Optimizer.Call ρ) next (l : Optimizer.Local ρ), l.offer ⟨t, o', a, x, hash⟩ c next st =
      l.offer ⟨t, o, a, x, hash⟩ c next st := fun c next l => by
    unfold Optimizer.Local.offer
    simp only [hr]
  have hc : ∀ k y, Optimizer.crossover ⟨t, o', a, x, hash⟩ k y st = Optimizer.crossover ⟨t, o, a, x, hash⟩ k y st :=
    fun _ _ => rfl
  unfold Optimizer.Local.step
  simp only [hr, ho, hc]

theorem steps_results (a : List Merged) (t : ObjType) (x : Assign) (hash : Assign → Nat) (s : Slv)
    (upd : ρ → Nat → Assign → Outcome Assign) (p : Params) : ∀ (is : List Nat) (q : Optimizer.Pool ρ),
    Optimizer.Pool.steps ⟨t, o', a, x, hash⟩ s upd p is q = Optimizer.Pool.steps ⟨t, o, a, x, hash⟩ s upd p is q
  | [], _ => rfl
  | i :: is, q => by
    simp only [Optimizer.Pool.steps, Optimizer.Pool.step, localStep_results hr, steps_results a t x hash s upd p is]

end

/-! ## The solvers -/

section
variable {pb pb' : Problem} (hp : pb' = { pb with objective := pb'.objective })
  (h : SameObjective pb.objective pb'.objective) (hn : (pb.objective.elems.map ObjElem.var).Nodup)
include hp h hn

theorem solveProblem_obj (kind : SolverType) (u : Slv → ρ → Nat → Assign → Outcome Assign) (s : Sorts) (o : Order)
    (r : Run ρ) (p : Params) : solveProblem kind u s o r p pb' = solveProblem kind u s o r p pb := by
  have e1 : pb'.values = pb.values := by rw [hp]
  have e2 : pb'.names = pb.names := by rw [hp]
  have e3 : pb'.type = pb.type := by rw [hp]
  have e4 : pb'.affected = pb.affected := by rw [hp]
  unfold solveProblem solveMerged
  simp only [make_obj hp h hn, e1, e2, e3, e4, makeCost_same h, functor_results (results_same h), h.value]

theorem optimizeProblem_obj (kind : SolverType) (u : Slv → ρ → Nat → Assign → Outcome Assign) (s : Sorts) (o : Order)
    (ch : Optimizer.Choices ρ) (p : Params) (st : Optimizer.StorageType) :
    Optimizer.optimizeProblem kind u s o ch p st pb' = Optimizer.optimizeProblem kind u s o ch p st pb := by
  have e1 : pb'.values = pb.values := by rw [hp]
  have e2 : pb'.names = pb.names := by rw [hp]
  have e3 : pb'.type = pb.type := by rw [hp]
  have e4 : pb'.affected = pb.affected := by rw [hp]
  have e6 : ∀ m s, Optimizer.report st pb' m s = Optimizer.report st pb m s := by
    rw [hp]; intro m s; rfl
  have hr := results_same h
  unfold Optimizer.optimizeProblem Optimizer.optimizeMerged
  simp only [make_obj hp h hn, e1, e2, e3, e4, e6, makeCost_same h, storage_results hr, optCalls_results hr, h.value]

theorem crewProblem_obj (kind : SolverType) (u : Slv → ρ → Nat → Assign → Outcome Assign) (s : Sorts) (o : Order)
    (threads : Nat) (ch : Optimizer.Crew ρ) (p : Params) (st : Optimizer.StorageType) :
    Optimizer.crewProblem kind u s o threads ch p st pb' = Optimizer.crewProblem kind u s o threads ch p st pb := by
  have e1 : pb'.values = pb.values := by rw [hp]
  have e2 : pb'.names = pb.names := by rw [hp]
  have e3 : pb'.type = pb.type := by rw [hp]
  have e4 : pb'.affected = pb.affected := by rw [hp]
  have e6 : ∀ m s, Optimizer.report st pb' m s = Optimizer.report st pb m s := by
    rw [hp]; intro m s; rfl
  have hr := results_same h
  unfold Optimizer.crewProblem Optimizer.crewMerged
  simp only [make_obj hp h hn, e1, e2, e3, e4, e6, makeCost_same h, storage_results hr, steps_results hr, h.value]

theorem itm_obj (upd : Engine → Slv → ρ → Nat → Assign → Outcome Assign) (w : World ρ) (c : Ctx) (opt : Bool) :
    itm (execute upd w) c opt pb' = itm (execute upd w) c opt pb := by
  have : pb'.ptype = pb.ptype := by rw [hp]
  unfold itm
  rw [this]
  cases choose c.solver c.method opt pb.ptype with
  | none => rfl
  | some p =>
    show execute upd w p pb' = execute upd w p pb
    unfold execute
    rw [optimizeProblem_obj hp h hn, solveProblem_obj hp h hn]

end

end Bx.Reorder
