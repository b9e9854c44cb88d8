import Verif.Proofs.ConstantModes
import Verif.Proofs.Reorder
import Verif.Model.RoundedCosts

/-!
# C141: the objective with its terms in another order

The search reads the objective through its costs and through the values of the vectors.
-/

namespace Bx.Reorder

open Spec Merge SolverCtor Itm

variable {Ω : Type}

/-! ## Values and costs -/

theorem linear_perm (x : Assign) {l l' : List ObjElem} (h : l'.Perm l) : ∀ r : Rat,
    Itm.addLinear x r l' = Itm.addLinear x r l := by
  induction h with
  | nil => exact fun _ => rfl
  | cons e _ ih => exact fun _ => ih _
  | swap a b l =>
    intro r
    simp only [Itm.addLinear]
    congr 1
    split <;> split <;> simp only [add_right_comm]
  | trans _ _ h1 h2 => exact fun r => (h1 r).trans (h2 r)

theorem results_perm {o o' : Objective} (hl : o'.elems.Perm o.elems) (h : o' = { o with elems := o'.elems }) :
    results o' = results o := by
  have hq : o'.qelems = o.qelems := by rw [h]
  have hv : o'.value = o.value := by rw [h]
  funext x
  unfold results
  rw [hq, hv, linear_perm x hl]

theorem modify_comm {α : Type} (l : List α) (i j : Nat) (f g : α → α) (h : i = j → ∀ v, f (g v) = g (f v)) :
    (l.modify i f).modify j g = (l.modify j g).modify i f := by
  apply List.ext_getElem?
  intro k
  simp only [List.getElem?_modify]
  cases l[k]? with
  | none => rfl
  | some v =>
    by_cases h1 : i = k <;> by_cases h2 : j = k
    · simp [h1, h2, h (h1.trans h2.symm)]
    · simp [h1, h2]
    · simp [h1, h2]
    · simp [h1, h2]

theorem elements_perm (n : Nat) {l l' : List ObjElem} (h : l'.Perm l) : ∀ acc : List Rat,
    Costs.addElements n l' acc = Costs.addElements n l acc := by
  induction h with
  | nil => exact fun _ => rfl
  | cons e _ ih =>
    intro acc
    simp only [Costs.addElements, ih]
  | swap a b l =>
    intro acc
    simp only [Costs.addElements]
    rw [modify_comm acc b.var a.var _ _ fun _ v => add_right_comm _ _ _]
    by_cases h1 : a.var < n <;> by_cases h2 : b.var < n <;> simp [check, h1, h2] <;> rfl
  | trans _ _ h1 h2 => exact fun acc => (h1 acc).trans (h2 acc)

theorem roundedElements_perm (rnd : Rat → Rat) (n : Nat) {l l' : List ObjElem} (h : l'.Perm l) :
    (l.map ObjElem.var).Nodup → ∀ acc : List Rat,
    Rounded.addElements rnd n l' acc = Rounded.addElements rnd n l acc := by
  induction h with
  | nil => exact fun _ _ => rfl
  | cons e _ ih =>
    intro hn acc
    simp only [Rounded.addElements, ih (List.nodup_cons.mp hn).2]
  | swap a b l =>
    intro hn acc
    simp only [Rounded.addElements]
    have hne : b.var ≠ a.var := by
      simp only [List.map_cons, List.nodup_cons, List.mem_cons, not_or] at hn
      exact fun he => hn.1.1 he.symm
    rw [modify_comm acc b.var a.var _ _ fun he => absurd he hne]
    by_cases h1 : a.var < n <;> by_cases h2 : b.var < n <;> simp [check, h1, h2] <;> rfl
  | trans p1 p2 h1 h2 =>
    exact fun hn acc => (h1 ((p2.map ObjElem.var).nodup_iff.mpr hn) acc).trans (h2 hn acc)

theorem makeCosts_perm {o o' : Objective} (hl : o'.elems.Perm o.elems) (h : o' = { o with elems := o'.elems })
    (n : Nat) : Setup.makeCosts o' n = Setup.makeCosts o n := by
  have hq : o'.qelems = o.qelems := by rw [h]
  unfold Setup.makeCosts Costs.makeDefault Costs.makeQuadratic
  rw [hq, elements_perm n hl]

/-! ## The search reads the objective through the values -/

section
open Num

variable (s : Slv) (upd : Num.Upd Ω) (w : Num.World Ω) (cfg : Num.Cfg) (t : ObjType) {o o' : Objective}

theorem numMain_results (hr : results o' = results o) : ∀ (n : Nat) (st : Num.State),
    Num.mainLoop s upd w cfg t o' n st = Num.mainLoop s upd w cfg t o n st
  | 0, _ => rfl
  | n + 1, st => by simp only [Num.mainLoop, hr, numMain_results hr n]

theorem numInner_results (hr : results o' = results o) : ∀ (n i : Nat) (st : Num.State),
    Num.pushInner s upd w cfg t o' n i st = Num.pushInner s upd w cfg t o n i st
  | 0, _, _ => rfl
  | n + 1, i, st => by simp only [Num.pushInner, hr, numInner_results hr n]

theorem numPush_results (hr : results o' = results o) : ∀ (n : Nat) (st : Num.State),
    Num.pushLoop s upd w cfg t o' n st = Num.pushLoop s upd w cfg t o n st
  | 0, _ => rfl
  | n + 1, st => by simp only [Num.pushLoop, hr, numInner_results s upd w cfg t hr, numPush_results hr n]

theorem numFunctor_results (hr : results o' = results o) (kind : SolverType) (upd : Slv → Num.Upd Ω)
    (csts : List Merged) (n : Nat) :
    Num.functor kind upd w cfg t o' csts n = Num.functor kind upd w cfg t o csts n := by
  simp only [Num.functor, Num.pushPhase, numMain_results _ _ w cfg t hr, numPush_results _ _ w cfg t hr]

end

theorem head_perm {o o' : Objective} (hl : o'.elems.Perm o.elems) (h : o' = { o with elems := o'.elems })
    (e : Setup.Env) (cfg : Num.Cfg) (t : ObjType) (csts : List Merged) (n : Nat) :
    Setup.head e cfg t o' csts n = Setup.head e cfg t o csts n := by
  have hq : o'.qelems = o.qelems := by rw [h]
  have hc : Init.costAt o' = Init.costAt o := by
    funext c i
    unfold Init.costAt
    rw [hq]
  unfold Setup.head
  rw [makeCosts_perm hl h, hc]

theorem costFun_perm {o o' : Objective} (h : o' = { o with elems := o'.elems }) :
    Setup.costFun o' = Setup.costFun o := by
  have hq : o'.qelems = o.qelems := by rw [h]
  funext c j x
  unfold Setup.costFun
  rw [hq]

end Bx.Reorder
