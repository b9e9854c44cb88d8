import Verif.Model.OverflowInit
import Verif.Proofs.OverflowRows

/-! Lemmas about the initial vectors with a 32 bits `int`. -/

namespace Bx.Checked

open Merge Spec Itm Init Optimizer

/-- The sum of the absolute values of the factors of cells. -/
def cellAbs (R : List Cell) : Nat := (R.map fun r => r.factor.natAbs).sum

theorem cellAbs_cons (r : Cell) (R : List Cell) : cellAbs (r :: R) = r.factor.natAbs + cellAbs R := by
  simp [cellAbs]

theorem pessimist_eq (min max : Int) : ∀ (R : List Cell) (sum i : Int),
    sum.natAbs + cellAbs R ≤ 2147483647 →
    Checked.pessimist min max R sum i = .ok (Init.pessimist min max R sum i)
  | [], sum, i, _ => by
    unfold Checked.pessimist Init.pessimist
    split <;> rfl
  | r :: R, sum, i, h => by
    rw [cellAbs_cons] at h
    unfold Checked.pessimist Init.pessimist
    split
    · rfl
    · dsimp only
      rw [int32_of (by omega), ok_bind]
      exact pessimist_eq min max R _ _ (by omega)

theorem optimist_eq (mode : ObjType) (min max : Int) : ∀ (R : List Cell) (sum i best : Int),
    sum.natAbs + cellAbs R ≤ 2147483647 →
    Checked.optimist mode min max R sum i best = .ok (Init.optimist mode min max R sum i best)
  | [], sum, i, best, _ => by
    unfold Checked.optimist Init.optimist
    rfl
  | r :: R, sum, i, best, h => by
    rw [cellAbs_cons] at h
    unfold Checked.optimist Init.optimist
    dsimp only
    rw [int32_of (by omega), ok_bind, optimist_eq mode min max R _ _ _ (by omega)]
    generalize (if min ≤ sum ∧ sum ≤ max then i else best) = b
    by_cases hb : b ≠ -2 ∧ stop mode r.value = true
    · rw [if_pos hb, if_pos hb]
    · rw [if_neg hb, if_neg hb]

theorem visitRow_eq (mode : ObjType) (b : Bool) (c : Merged) {R : List Cell}
    (h : cellAbs R ≤ 2147483647) (x : Assign) :
    Checked.visitRow mode b c R x = .ok (Init.visitRow mode b c R x) := by
  unfold Checked.visitRow Init.visitRow
  rw [optimist_eq mode _ _ R 0 (-1) (-2) (by simpa using h),
    pessimist_eq _ _ R 0 (-1) (by simpa using h)]
  cases b <;> rfl

theorem visitOpt_eq (mode : ObjType) (b : Bool) (c : Merged) {R : List Cell}
    (h : cellAbs R ≤ 2147483647) (x : Option Assign) :
    visitOpt mode b c R x = .ok (x.map (Init.visitRow mode b c R)) := by
  cases x with
  | none => rfl
  | some x =>
    unfold visitOpt
    dsimp only
    rw [visitRow_eq mode b c h, ok_bind]
    rfl

theorem cells_abs {cost : Nat → Outcome Rat} : ∀ {es : List FunElem} {R : List Cell},
    cells cost es = .ok R → cellAbs R = sumAbs es
  | [], R, h => by
    cases h
    rfl
  | e :: es, R, h => by
    unfold cells at h
    obtain ⟨v, _, h⟩ := bind_eq_ok.1 h
    obtain ⟨R', hR, h⟩ := bind_eq_ok.1 h
    cases h
    rw [cellAbs_cons, sumAbs_cons, cells_abs hR]

theorem cellAbs_perm {a b : List Cell} (h : a.Perm b) : cellAbs a = cellAbs b :=
  (h.map _).sum_eq

theorem preSolve_same {mode : ObjType} (cost : Nat → Outcome Rat) {d : Draws} (hd : d.Ok mode) :
    ∀ (csts : List Merged), (∀ m ∈ csts, Fit m) → ∀ (k : Nat) (p o : Option Assign),
    Checked.preSolve mode cost d k csts p o = Init.preSolve mode cost d k csts p o
  | [], _, k, p, o => rfl
  | c :: cs, hf, k, p, o => by
    unfold Checked.preSolve Init.preSolve
    have ih := preSolve_same cost hd cs (fun m hm => hf m (List.mem_cons_of_mem _ hm)) (k + 1)
    split
    · cases hc : cells cost c.elems with
      | error e => rfl
      | ok R =>
        simp only [ok_bind]
        have hb : cellAbs (d.order k R) ≤ 2147483647 := by
          rw [cellAbs_perm (hd k R).1, cells_abs hc]
          exact (hf c List.mem_cons_self).1
        rw [visitOpt_eq mode false c hb, ok_bind, visitOpt_eq mode true c hb, ok_bind]
        exact ih _ _
    · exact ih _ _

theorem initial_same {mode : ObjType} (cost : Nat → Outcome Rat) {d : Draws} (hd : d.Ok mode)
    (flip : Nat → Bool) (p : Policy) (n : Nat) {csts : List Merged} (hf : ∀ m ∈ csts, Fit m) :
    Checked.initial mode cost d flip p n csts = Init.initial mode cost d flip p n csts := by
  unfold Checked.initial Init.initial
  have hd' : ({ d with visit := fun _ => true } : Draws).Ok mode := hd
  cases p <;> simp only [preSolve_same cost hd' csts hf]

theorem pairs_same {mode : ObjType} (cost : Nat → Outcome Rat) {d : PopDraws}
    (hd : ∀ i, (d.pre i).Ok mode) (n : Nat) {csts : List Merged} (hf : ∀ m ∈ csts, Fit m) :
    ∀ left i, Checked.pairs mode cost d n csts left i = Init.pairs mode cost d n csts left i
  | 0, i => rfl
  | 1, i => rfl
  | left + 2, i => by
    unfold Checked.pairs Init.pairs
    rw [preSolve_same cost (hd i) csts hf, pairs_same cost hd n hf left]

theorem population_same {mode : ObjType} (cost : Nat → Outcome Rat) {d : PopDraws}
    (hd : ∀ i, (d.pre i).Ok mode) (n : Nat) {csts : List Merged} (hf : ∀ m ∈ csts, Fit m)
    (size : Nat) :
    Checked.population mode cost d n csts size = Init.population mode cost d n csts size := by
  unfold Checked.population Init.population
  rw [pairs_same cost hd n hf]

theorem sumSet_eq (x : Assign) : ∀ (es : List FunElem) (acc : Int),
    acc.natAbs + sumAbs es ≤ 2147483647 →
    sumSet x acc es = .ok (es.foldl (fun s e => if x e.var then s + e.factor else s) acc)
  | [], acc, _ => rfl
  | e :: es, acc, h => by
    rw [sumAbs_cons] at h
    unfold sumSet
    rw [List.foldl_cons]
    by_cases hx : x e.var = true
    · rw [if_pos hx, if_pos hx, int32_of (by omega), ok_bind]
      exact sumSet_eq x es _ (by omega)
    · rw [if_neg hx, if_neg hx]
      exact sumSet_eq x es _ (by omega)

theorem countViolated_same (x : Assign) : ∀ {csts : List Merged}, (∀ m ∈ csts, Fit m) →
    Checked.countViolated x csts = .ok (Optimizer.countViolated x csts)
  | [], _ => rfl
  | c :: cs, h => by
    unfold Checked.countViolated Optimizer.countViolated
    rw [sumSet_eq x c.elems 0 (by simpa using (h c List.mem_cons_self).1), ok_bind,
      countViolated_same x fun m hm => h m (List.mem_cons_of_mem _ hm), ok_bind]

end Bx.Checked
