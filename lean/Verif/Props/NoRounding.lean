import Verif.Props.RoundedCosts
import Verif.Model.RoundedZ
import Verif.Model.Solve
import Verif.Proofs.Outcome
import Mathlib.Algebra.BigOperators.Group.List.Basic
import Mathlib.Tactic.Ring

/-!
# Without rounding the rounded functions are the exact ones

The functions of `Model/Rounded`, `Model/RoundedCosts`, `Model/RoundedRows` and `Model/RoundedZ` repeat
functions of other models with a rounding after each operation.  When the rounding does nothing they are
these functions, for all arguments: what the other claims prove of exact arithmetic is what the code does
but for the rounding.
-/

namespace Bx.Rounded

open Spec (Assign)
open Preprocess (Entry MergeObj St)

theorem computeLinear_id (vars : List Int) : ∀ (l : List ObjElem) (acc : Rat),
    computeLinear id vars acc l = Lpcore.addLinear vars acc l
  | [], _ => rfl
  | e :: es, acc => by
    unfold computeLinear Lpcore.addLinear
    cases vars[e.var]? with
    | none => rfl
    | some v => exact computeLinear_id vars es _

theorem computeQuadratic_id (vars : List Int) : ∀ (l : List QuadElem) (acc : Rat),
    computeQuadratic id vars acc l = Lpcore.addQuadratic vars acc l
  | [], _ => rfl
  | e :: es, acc => by
    unfold computeQuadratic Lpcore.addQuadratic
    cases vars[e.a]? with
    | none => rfl
    | some v => cases vars[e.b]? with
      | none => rfl
      | some w => exact computeQuadratic_id vars es _

theorem addLinear_id (x : Assign) : ∀ (l : List ObjElem) (r : Rat),
    addLinear id x r l = Itm.addLinear x r l
  | [], _ => rfl
  | e :: es, r => addLinear_id x es _

theorem addQuadratic_id (x : Assign) : ∀ (l : List QuadElem) (r : Rat),
    addQuadratic id x r l = Itm.addQuadratic x r l
  | [], _ => rfl
  | e :: es, r => addQuadratic_id x es _

theorem objLinear_id (m : List Entry) : ∀ (l : List ObjElem) (o : Objective),
    objLinear id m o l = Preprocess.objLinear m o l
  | [], _ => rfl
  | e :: es, o => by
    unfold objLinear Preprocess.objLinear
    cases m[e.var]? with
    | none => rfl
    | some v => cases v with
      | gone b => exact objLinear_id m es _
      | kept j => exact objLinear_id m es _

theorem objQuadratic_id (m : List Entry) : ∀ (l : List QuadElem) (o : Objective),
    objQuadratic id m o l = Preprocess.objQuadratic m o l
  | [], _ => rfl
  | e :: es, o => by
    unfold objQuadratic Preprocess.objQuadratic
    cases m[e.a]? with
    | none => rfl
    | some v => cases m[e.b]? with
      | none => cases v <;> rfl
      | some w => cases v <;> cases w <;> exact objQuadratic_id m es _

theorem addToFirst_id (i : Nat) (f : Rat) : ∀ l : List ObjElem,
    addToFirst id i f l = Preprocess.addToFirst i f l
  | [] => rfl
  | e :: es => by
    unfold addToFirst Preprocess.addToFirst
    rw [addToFirst_id i f es]
    rfl

theorem objMerge_id : ∀ (l : List ObjElem) (i : Nat) (o : Objective),
    objMerge id o l i = Preprocess.objMerge o l i
  | [], _, _ => rfl
  | e :: es, i, o => by
    unfold objMerge Preprocess.objMerge
    rw [addToFirst_id, objMerge_id es]

theorem makeProblem_id (pb : Problem) (st : St) (mo : MergeObj) :
    makeProblem id pb st mo = Preprocess.makeProblem pb st mo := by
  have h : ∀ m, objCopy id pb m mo = Preprocess.objCopy pb m mo := by
    intro m
    unfold objCopy Preprocess.objCopy
    simp only [objLinear_id, objQuadratic_id, objMerge_id]
    rfl
  unfold makeProblem Preprocess.makeProblem
  simp only [h]

/-- C114: without rounding, the preprocessor, the value that the search gives to a vector and
`compute_solution` are those of the other claims, for every problem. -/
theorem C114_without_rounding (pb : RawProblem) (r : Result) (o : Objective) (x : Assign) :
    preprocess id pb = Preprocess.preprocess pb ∧
    computeSolution id pb r = Lpcore.computeSolution pb r ∧
    results id o x = Itm.results o x := by
  refine ⟨?_, ?_, ?_⟩
  · unfold preprocess Preprocess.preprocess Preprocess.run finish Preprocess.finish
    simp only [makeProblem_id]
    rfl
  · unfold computeSolution Lpcore.computeSolution computeSolutionImpl Lpcore.computeSolutionImpl
    simp only [computeLinear_id, computeQuadratic_id]
    congr 1
  · unfold results Itm.results
    simp only [addLinear_id, addQuadratic_id]

/-! ## The costs -/

open Costs

theorem addElements_id (n : Nat) : ∀ (l : List ObjElem) (acc : List Rat),
    addElements id n l acc = Costs.addElements n l acc
  | [], _ => rfl
  | e :: es, acc => by
    unfold addElements Costs.addElements
    rw [addElements_id n es]
    rfl

theorem sumQuads_id (c : Cost) (x : Assign) : ∀ (left first : Nat) (ret : Rat),
    sumQuads id c x left first ret = Costs.sumQuads c x left first ret
  | 0, _, _ => rfl
  | left + 1, first, ret => by
    unfold sumQuads Costs.sumQuads
    simp only [sumQuads_id c x left]
    rfl

theorem foldl_sum {α : Type} (f : α → Rat) : ∀ (l : List α) (a : Rat),
    l.foldl (fun s v => id (s + f v)) a = a + (l.map f).sum
  | [], a => by simp
  | v :: l, a => by
    rw [List.foldl_cons, foldl_sum f l, List.map_cons, List.sum_cons]
    simp only [id]
    ring

theorem divide_id (f : FloatType) (c : Cost) (d : Rat) : divide id f c d = c.divide f d := rfl

/-- C57: without rounding, the costs that the solvers use are those of the claims on exact costs. -/
theorem C57_without_rounding (o : Objective) (n : Nat) (c : Cost) (index : Nat) (x : Assign) :
    makeDefault id o n = Costs.makeDefault o n ∧ makeQuadratic id o n = Costs.makeQuadratic o n ∧
    costAt id c index x = c.at index x := by
  refine ⟨?_, ?_, ?_⟩
  · unfold makeDefault Costs.makeDefault
    rw [addElements_id]
  · unfold makeQuadratic Costs.makeQuadratic
    rw [addElements_id]
    simp only [id, List.map_id']
  · unfold costAt Cost.at
    simp only [sumQuads_id]

/-- C56: without rounding, the norms are those of the claims on exact costs. -/
theorem C56_without_rounding (f : FloatType) (n : Norm) (c : Cost) :
    normalize id f n c = Costs.normalize f n c := by
  have h1 : l1 id f c = c.l1 f := by
    unfold l1 Cost.l1
    dsimp only
    rw [foldl_sum (fun v : Rat => |v|), foldl_sum (fun q : Rat × Nat => |q.1|), zero_add, divide_id]
  have h2 : l2 id f c = c.l2 f := by
    unfold l2 Cost.l2
    dsimp only
    rw [show (fun (div v : Rat) => id (div + id (v * v))) = fun div v => id (div + v * v) from rfl,
      show (fun (div : Rat) (q : Rat × Nat) => id (div + id (q.1 * q.1))) =
        fun div q => id (div + q.1 * q.1) from rfl,
      foldl_sum (fun v : Rat => v * v), foldl_sum (fun q : Rat × Nat => q.1 * q.1), zero_add, divide_id]
  cases n
  · rfl
  · exact congrArg Except.ok h1
  · exact congrArg Except.ok h2
  · rfl

theorem epsilonUnique_id {d : Draws} {k : Nat} {g : List (Rat × Nat)} {a b : Rat} {r : List (Rat × Nat)}
    (h : epsilonUnique d k g a b = .ok r) : Costs.epsilonUnique d k g a b = .ok r := by
  unfold epsilonUnique at h
  unfold Costs.epsilonUnique
  obtain ⟨u, h1, h2⟩ := bind_eq_ok.mp h
  rw [h1]
  split at h2
  · cases h2
  · exact h2

theorem groups_id {d : Draws} : ∀ (rest done : List (Rat × Nat)) (head : Rat × Nat)
    (tail : List (Rat × Nat)) (r : _), groups d done head tail rest = .ok r →
      Costs.groups d done head tail rest = .ok r
  | [], _, _, _, _, h => by
    unfold groups at h
    unfold Costs.groups
    exact h
  | next :: rest, done, head, tail, r, h => by
    unfold groups at h
    unfold Costs.groups
    split at h
    · rename_i h1
      rw [if_pos h1]
      split at h
      · rename_i h2
        rw [if_pos h2]
        obtain ⟨g, hg, h3⟩ := bind_eq_ok.mp h
        rw [epsilonUnique_id hg]
        exact groups_id rest _ _ _ _ h3
      · rename_i h2
        rw [if_neg h2]
        exact groups_id rest _ _ _ _ h
    · rename_i h1
      rw [if_neg h1]
      exact groups_id rest _ _ _ _ h

/-- C67: without rounding, when the random norm gives costs they are those of the claims on exact
costs.  The exact model does not have the test on the bounds of a draw. -/
theorem C67_without_rounding (f : FloatType) (sort : List (Rat × Nat) → List (Rat × Nat)) (d : Draws)
    (c r : Cost) (h : randomNorm id id f sort d c = .ok r) : c.random f sort d = .ok r := by
  unfold randomNorm at h
  unfold Cost.random
  obtain ⟨l, h1, h2⟩ := bind_eq_ok.mp h
  have h3 : Costs.randomise sort d c.linear = .ok l := by
    unfold randomise at h1
    unfold Costs.randomise
    split at h1
    · rename_i he
      rw [he]; exact h1
    · rename_i head rest he
      rw [he]
      obtain ⟨⟨done, hd, t⟩, g1, g2⟩ := bind_eq_ok.mp h1
      dsimp only at g2
      obtain ⟨q, g3, g4⟩ := bind_eq_ok.mp g2
      dsimp only
      rw [groups_id _ _ _ _ _ g1, ok_bind]
      dsimp only
      have : Costs.lastGroup d done hd t = .ok q := by
        unfold lastGroup at g3
        unfold Costs.lastGroup
        split at g3
        · rename_i ht
          rw [if_pos ht]; exact g3
        · rename_i ht
          rw [if_neg ht]
          cases done with
          | nil => exact epsilonUnique_id g3
          | cons front rest' =>
            dsimp only at g3 ⊢
            obtain ⟨value, v1, v2⟩ := bind_eq_ok.mp g3
            obtain ⟨g, v3, v4⟩ := bind_eq_ok.mp v2
            have : Costs.linearize 0 front.1 ((front :: rest').length : Nat) hd.1
              (((front :: rest').length : Nat) + (t.length : Nat) + 1) = .ok value := v1
            rw [this, ok_bind, epsilonUnique_id v3]
            exact v4
      rw [this]
      exact g4
  rw [h3, ok_bind]
  exact h2

/-- The random norm gives costs: with draws in the middle of their bounds, on four costs of which two
are equal. -/
example : ∃ r, randomNorm id id single insertSort middle ⟨[1, 3, 1, 2], [], []⟩ = .ok r ∧
    r.linear = [1 / 2, 1, 1 / 2, 2 / 3] := ⟨⟨[1 / 2, 1, 1 / 2, 2 / 3], [], []⟩, by decide +kernel, rfl⟩

end Bx.Rounded

/-! ## The rows -/

namespace Bx.RoundedRows

open Merge SolverCtor Spec Itm Mult

theorem sumColumn_id (f : Nat → Rat) : ∀ (l : List (Nat × Int)) (acc : Rat),
    sumColumn id f acc l = acc + (l.map fun p => (p.2 : Rat) * f p.1).sum
  | [], acc => by simp [sumColumn]
  | p :: ps, acc => by
    rw [sumColumn, sumColumn_id f ps, List.map_cons, List.sum_cons]
    simp only [id]
    ring

theorem reduced_id (s : Slv) (c : CostFun) (m : Mem) (x : Assign) (j : Nat) :
    reduced id s c m x j = Mult.reduced s c m x j := by
  unfold reduced Mult.reduced
  rw [sumColumn_id, sumColumn_id, zero_add, zero_add]
  rfl

theorem cells_id (s : Slv) (c : CostFun) (m : Mem) (x : Assign) (push : Option Rat)
    (row : List FunElem) (is : List Nat) : cells id s c m x push row is = Mult.cells s c m x push row is := by
  have h : ∀ i, valueOf id s c m x push i = Mult.valueOf s c m x push i := by
    intro i
    funext e
    unfold valueOf Mult.valueOf
    simp only [reduced_id]
    cases push with
    | none => simp
    | some a =>
      simp only [id]
      rfl
  unfold cells Mult.cells
  simp only [h]

theorem turnP_id (t : SolverType) (row : List FunElem) (k : Nat) (up : Bool) (d : Rat) :
    ∀ (is : List Nat) (P : Nat → Nat → Rat), turnP id t row k up d P is = Mult.turnP t row k up d P is
  | [], _ => rfl
  | i :: is, P => by
    unfold turnP Mult.turnP
    cases row[i]? with
    | none => rfl
    | some e => exact turnP_id t row k up d is _

/-- C117: without rounding, the update of a row is that of the claims on exact arithmetic: the same
vector, the same multipliers, the same preferences. -/
theorem C117_update_without_rounding (mode : ObjType) (o : Oracle) (p : Param) (s : Slv) (c : CostFun) (k : Nat)
    (x : Assign) (m : Mem) : update id mode o p s c k x m = Mult.update mode o p s c k x m := by
  have hd : ∀ row, decrease id m k row p.theta = Mult.decrease m k row p.theta := fun _ => rfl
  have ht : ∀ m row, toRow id mode o s c m x p.push row = Mult.toRow mode o s c m x p.push row := by
    intro m row
    unfold toRow Mult.toRow
    simp only [cells_id]
  have ha : ∀ row R sel m, affectMem id s o row k R sel p.kappa p.delta m =
      Mult.affectMem s o row k R sel p.kappa p.delta m := by
    intro row R sel m
    unfold affectMem Mult.affectMem
    simp only [turnP_id]
    rfl
  unfold update Mult.update
  simp only [hd, ht, ha, cells_id]

end Bx.RoundedRows

namespace Bx.RoundedZ

open Merge SolverCtor Spec Exhaustive Itm Mult ZSolver
open ZNum (ZOracle valueAt)

theorem sumColumn_id (m : Mem) (j : Nat) : ∀ (l : List (Nat × Int)) (acc : Rat),
    sumColumn id m j acc l = acc + (l.map fun p => (p.2.natAbs : Rat) * (m.pi p.1 + m.P p.1 j)).sum
  | [], acc => by simp [sumColumn]
  | p :: ps, acc => by
    rw [sumColumn, sumColumn_id m j ps, List.map_cons, List.sum_cons]
    simp only [id]
    ring

theorem reduced_id (s : Slv) (c : CostFun) (m : Mem) (x : Assign) (j : Nat) :
    reduced id s c m x j = ZNum.reduced s c m x j := by
  unfold reduced ZNum.reduced
  rw [sumColumn_id, zero_add]
  rfl

theorem repaired_id (up : Bool) (repair d : Rat) (m : Mem) (k j : Nat) :
    repaired id up repair d m k j = ZNum.repaired up repair d m k j := by
  have h : ∀ a b : Rat, addP id (addP id m k j a) k j b = ZNum.addP m k j (a + b) := by
    intro a b
    unfold addP ZNum.addP
    congr 1
    funext i l
    by_cases h : i = k ∧ l = j
    · simp only [if_pos h, id]; ring
    · simp only [if_neg h]
  unfold repaired ZNum.repaired
  rw [h, h, ← sub_eq_add_neg]

theorem turn_id (s : Slv) (c : CostFun) (row : List FunElem) (k : Nat) (up : Bool) (d : Rat) :
    ∀ (is : List Nat) (x : Assign) (m : Mem), turn id s c row k up d is x m =
      ZNum.turn s c row k up d is x m
  | [], _, _ => rfl
  | i :: is, x, m => by
    unfold turn ZNum.turn
    cases row[i]? with
    | none => rfl
    | some e =>
      dsimp only
      rw [turn_id s c row k up d is, repaired_id, reduced_id]
      rfl

/-- C121: without rounding, the update of a row with integer coefficients is that of the claims on exact
arithmetic. -/
theorem C121_without_rounding (mode : ObjType) (o : ZOracle) (p : Param) (z : ZSlv) (c : CostFun)
    (k : Nat) (x : Assign) (m : Mem) : update id mode o p z c k x m = ZNum.update mode o p z c k x m := by
  have hd : ∀ row, RoundedRows.decrease id m k row p.theta = Mult.decrease m k row p.theta :=
    fun _ => rfl
  have hv : ∀ m j, valueOf id z.slv c m x p.push j = ZNum.valueOf z.slv c m x p.push j := by
    intro m j
    unfold valueOf ZNum.valueOf
    cases p.push with
    | none => simp [reduced_id]
    | some a => simp only [reduced_id, id]
  have ht : ∀ m row, toRow id o z c m x p.push row = ZNum.toRow o z c m x p.push row := by
    intro m row
    unfold toRow ZNum.toRow costAt ZNum.costAt
    simp only [hv]
  have ha : ∀ row R sel m, affect id z o.stale p c k row R sel x m =
      ZNum.affect z o.stale p c k row R sel x m := by
    intro row R sel m
    unfold affect ZNum.affect
    simp only [turn_id]
    rfl
  unfold update ZNum.update
  simp only [hd, ht, ha]

end Bx.RoundedZ
