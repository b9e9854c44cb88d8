import Verif.Model.RoundedBounds
import Verif.Props.Rounded
import Verif.Props.Utils

/-!
# C54 in floating point
-/

namespace Bx.Rounded

open Spec Props

/-- Bounds, a value between them, all three kept by the rounding. -/
private def Framed (rnd : Rat → Rat) (acc : Rat × Rat) (r : Rat) : Prop :=
  acc.1 ≤ r ∧ r ≤ acc.2 ∧ rnd acc.1 = acc.1 ∧ rnd r = r ∧ rnd acc.2 = acc.2

private theorem framed_step {rnd : Rat → Rat} (hr : Rounding rnd) {acc : Rat × Rat} {r : Rat}
    (h : Framed rnd acc r) (f : Rat) (b : Bool) :
    Framed rnd (addFactor rnd acc f) (if b then rnd (r + f) else r) := by
  obtain ⟨h1, h2, h3, h4, h5⟩ := h
  unfold addFactor
  by_cases hf : f < 0
  · rw [if_pos hf]
    have a1 : rnd (acc.1 + f) ≤ rnd (r + f) := hr.mono (by linarith)
    have a2 : rnd (acc.1 + f) ≤ r := h4 ▸ hr.mono (by linarith)
    have a3 : rnd (r + f) ≤ r := by
      conv_rhs => rw [← h4]
      exact hr.mono (by linarith)
    cases b
    · exact ⟨a2, h2, hr.idem _, h4, h5⟩
    · exact ⟨a1, le_trans a3 h2, hr.idem _, hr.idem _, h5⟩
  · rw [if_neg hf]
    have a1 : rnd (r + f) ≤ rnd (acc.2 + f) := hr.mono (by linarith)
    have a2 : r ≤ rnd (acc.2 + f) := by
      conv_lhs => rw [← h4]
      exact hr.mono (by linarith)
    have a3 : r ≤ rnd (r + f) := by
      conv_lhs => rw [← h4]
      exact hr.mono (by linarith)
    cases b
    · exact ⟨h1, a2, h3, h4, hr.idem _⟩
    · exact ⟨le_trans h1 a3, a1, h3, hr.idem _, hr.idem _⟩

private theorem framed_linear {rnd : Rat → Rat} (hr : Rounding rnd) (x : Assign)
    (es : List ObjElem) : ∀ {acc : Rat × Rat} {r : Rat}, Framed rnd acc r →
      Framed rnd ((es.map ObjElem.factor).foldl (addFactor rnd) acc) (addLinear rnd x r es) := by
  induction es with
  | nil => exact fun h => h
  | cons e es ih => exact fun h => ih (framed_step hr h e.factor (x e.var))

private theorem framed_quadratic {rnd : Rat → Rat} (hr : Rounding rnd) (x : Assign)
    (es : List QuadElem) : ∀ {acc : Rat × Rat} {r : Rat}, Framed rnd acc r →
      Framed rnd ((es.map QuadElem.factor).foldl (addFactor rnd) acc) (addQuadratic rnd x r es) := by
  induction es with
  | nil => exact fun h => h
  | cons e es ih => exact fun h => ih (framed_step hr h e.factor (x e.a && x e.b))

/-- C54, in floating point: for every rounding and every 0-1 assignment, the value that the search
computes lies between the two computed bounds, without any margin. -/
theorem C54_rounded_between {rnd : Rat → Rat} (hr : Rounding rnd) (o : Objective)
    (hv : rnd o.value = o.value) (x : Assign) :
    (minMax rnd o).1 ≤ results rnd o x ∧ results rnd o x ≤ (minMax rnd o).2 := by
  have h0 : Framed rnd (o.value, o.value) o.value := ⟨le_refl _, le_refl _, hv, hv, hv⟩
  have h := framed_quadratic hr x o.qelems (framed_linear hr x o.elems h0)
  have e : results rnd o x = addQuadratic rnd x (addLinear rnd x o.value o.elems) o.qelems := by
    unfold results
    split
    · rename_i hq
      rw [List.isEmpty_iff.mp hq]
      rfl
    · rfl
  rw [e]
  exact ⟨h.1, h.2.1⟩

/-- C54, in floating point: so does the value that `compute_solution` gives to a result that covers the
problem. -/
theorem C54_rounded_compute_solution {rnd : Rat → Rat} (hr : Rounding rnd) (pb : RawProblem)
    (r : Result) (s : Solution) (x : Assign) (wf : WellFormedRaw pb) (h0 : pb.names ≠ [])
    (hc : Covers pb r s) (hx : Names pb.names (pairs r s) x) (hs : Stored rnd pb.objective) :
    ∃ v, Rounded.computeSolution rnd pb r = .ok v ∧
      (minMax rnd pb.objective).1 ≤ v ∧ v ≤ (minMax rnd pb.objective).2 :=
  ⟨_, Props.C114_same_order hr pb r s x wf h0 hc hx hs,
    C54_rounded_between hr pb.objective hs.value x⟩

/-- C54: without rounding, the bounds are those of the claim on exact numbers. -/
theorem C54_without_rounding (o : Objective) : minMax id o = Utils.minMax o := rfl

/-! ### Examples -/

example : minMax (Spec.binary 24) ⟨[⟨16777216, 0⟩, ⟨1, 1⟩, ⟨-3, 2⟩], [⟨1, 0, 1⟩], 0⟩ =
      (-3, 16777216) ∧
    results (Spec.binary 24) ⟨[⟨16777216, 0⟩, ⟨1, 1⟩, ⟨-3, 2⟩], [⟨1, 0, 1⟩], 0⟩
      (fun _ => true) = 16777214 := by decide +kernel

end Bx.Rounded
