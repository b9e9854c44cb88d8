import Verif.Spec.Constant
import Verif.Proofs.TwiceRun
import Verif.Model.Setup

/-! # Lemmas for C139: a constant added to the objective -/

namespace Bx.Constant

open Spec Merge Dispatch Itm

variable {ρ : Type} (k : Rat)

/-- A problem with the objective `o + k`. -/
def plus (pb : Problem) : Problem := { pb with objective := plusConstant k pb.objective }

/-! ## The preprocessor -/

section
open Preprocess

theorem objLinear_plus (m : List Entry) : ∀ (es : List ObjElem) (o : Objective),
    objLinear m (plusConstant k o) es = (objLinear m o es).map (plusConstant k)
  | [], o => rfl
  | e :: es, o => by
    unfold objLinear
    cases m[e.var]? with
    | none => rfl
    | some v =>
      cases v with
      | kept j => exact objLinear_plus m es { o with elems := o.elems ++ [⟨e.factor, j⟩] }
      | gone b =>
        have := objLinear_plus m es { o with value := if b then o.value + e.factor else o.value }
        cases b
        · exact this
        · rw [← this]
          show objLinear m { o with value := o.value + k + e.factor } es =
            objLinear m { o with value := o.value + e.factor + k } es
          rw [add_right_comm]

theorem objQuadratic_plus (m : List Entry) : ∀ (es : List QuadElem) (o : Objective),
    objQuadratic m (plusConstant k o) es = (objQuadratic m o es).map (plusConstant k)
  | [], o => rfl
  | e :: es, o => by
    unfold objQuadratic
    cases m[e.a]? with
    | none => rfl
    | some v =>
      cases m[e.b]? with
      | none => cases v <;> rfl
      | some u =>
        cases v with
        | kept i =>
          cases u with
          | kept j => exact objQuadratic_plus m es { o with qelems := o.qelems ++ [⟨e.factor, i, j⟩] }
          | gone b => exact objQuadratic_plus m es { o with elems := o.elems ++ [⟨e.factor, i⟩] }
        | gone b =>
          cases u with
          | kept j => exact objQuadratic_plus m es { o with elems := o.elems ++ [⟨e.factor, j⟩] }
          | gone c =>
            have := objQuadratic_plus m es { o with value := if b && c then o.value + e.factor else o.value }
            simp only
            rw [← this]
            show objQuadratic m { o with value := if b && c then o.value + k + e.factor else o.value + k } es =
              objQuadratic m { o with value := (if b && c then o.value + e.factor else o.value) + k } es
            congr 2
            split
            · rw [add_right_comm]
            · rfl

theorem objMerge_plus : ∀ (es : List ObjElem) (i : Nat) (o : Objective),
    objMerge (plusConstant k o) es i = (objMerge o es i).map (plusConstant k)
  | [], i, o => rfl
  | e :: es, i, o => by
    unfold objMerge
    rw [show (plusConstant k o).elems = o.elems from rfl]
    split
    · exact objMerge_plus es (i + 1) { o with elems := addToFirst i e.factor o.elems }
    · rfl

theorem objCopy_plus (pb : Problem) (m : List Entry) (mo : MergeObj) :
    objCopy (plus k pb) m mo = (objCopy pb m mo).map (plusConstant k) := by
  unfold objCopy
  have h : ({ value := (plus k pb).objective.value + mo.value } : Objective) =
      plusConstant k { value := pb.objective.value + mo.value } := by
    show ({ value := pb.objective.value + k + mo.value } : Objective) = { value := pb.objective.value + mo.value + k }
    rw [add_right_comm]
  rw [h, show (plus k pb).objective.elems = pb.objective.elems from rfl,
    show (plus k pb).objective.qelems = pb.objective.qelems from rfl, objLinear_plus]
  cases objLinear m { value := pb.objective.value + mo.value } pb.objective.elems with
  | error e => rfl
  | ok o =>
    show (objQuadratic m (plusConstant k o) _ >>= _) = Except.map _ (objQuadratic m o _ >>= _)
    rw [objQuadratic_plus]
    cases objQuadratic m o pb.objective.qelems with
    | error e => rfl
    | ok o => exact objMerge_plus k mo.elems 0 o

theorem csts_plus (pb : Problem) : csts (plus k pb) = csts pb := by
  funext x
  cases x <;> rfl

theorem step_plus (pb : Problem) : step (plus k pb) = step pb := by
  funext st p
  unfold step
  rw [csts_plus]

theorem affects_plus (pb : Problem) : ∀ (fuel : Nat) (st : Preprocess.St), affects (plus k pb) fuel st = affects pb fuel st
  | 0, st => by unfold affects; rfl
  | fuel + 1, st => by
    unfold affects
    cases st.lifo with
    | nil => rfl
    | cons top rest =>
      simp only [step_plus, affects_plus pb fuel]
      rfl

theorem makeProblem_plus (pb : Problem) (st : Preprocess.St) (mo : MergeObj) :
    makeProblem (plus k pb) st mo = (makeProblem pb st mo).map (plus k) := by
  have hv : ∀ (vs : List VarValue) (i : Nat), varsCopy (plus k pb) st.vars vs i = varsCopy pb st.vars vs i := by
    intro vs
    induction vs with
    | nil => intro i; rfl
    | cons v vs ih => intro i; simp only [varsCopy, ih]; rfl
  unfold makeProblem
  simp only [objCopy_plus, hv, show (plus k pb).values = pb.values from rfl, show (plus k pb).names = pb.names from rfl,
    show (plus k pb).eqs = pb.eqs from rfl, show (plus k pb).ges = pb.ges from rfl,
    show (plus k pb).les = pb.les from rfl, show (plus k pb).type = pb.type from rfl,
    show (plus k pb).affected = pb.affected from rfl]
  cases check (keptCount (mappingLoop st.vars pb.values.length 0 0) + st.vars.length == pb.values.length)
    "c == length - length" with
  | error e => rfl
  | ok _ =>
    simp only [ok_bind]
    cases objCopy pb (mappingLoop st.vars pb.values.length 0 0) mo with
    | error e => rfl
    | ok o =>
      show (varsCopy pb st.vars pb.values 0 >>= _) = Except.map _ (varsCopy pb st.vars pb.values 0 >>= _)
      cases varsCopy pb st.vars pb.values 0 with
      | error e => rfl
      | ok r =>
        obtain ⟨ns, vs, an, av⟩ := r
        simp only [ok_bind]
        cases check (namesKept (mappingLoop st.vars pb.values.length 0 0) pb.names ns) "names" with
        | error e => rfl
        | ok _ =>
          simp only [ok_bind]
          cases cstCopy (mappingLoop st.vars pb.values.length 0 0) (st.cnt .eq) pb.eqs.zipIdx with
          | error e => rfl
          | ok eqs =>
            simp only [ok_bind]
            cases cstCopy (mappingLoop st.vars pb.values.length 0 0) (st.cnt .ge) pb.ges.zipIdx with
            | error e => rfl
            | ok ges =>
              simp only [ok_bind]
              cases cstCopy (mappingLoop st.vars pb.values.length 0 0) (st.cnt .le) pb.les.zipIdx with
              | error e => rfl
              | ok les =>
                simp only [ok_bind]
                cases check (validIndex eqs vs.length && validIndex ges vs.length && validIndex les vs.length)
                  "is_valid_variable_index" <;> rfl

theorem finish_plus (pb : Problem) (st : Preprocess.St) : finish (plus k pb) st = (finish pb st).map (plus k) := by
  unfold finish
  rw [show bqpObjective (plus k pb) st = bqpObjective pb st from rfl,
    show removeUnused (plus k pb) st = removeUnused pb st from rfl,
    show (plus k pb).values = pb.values from rfl]
  simp only [affects_plus]
  cases affects pb pb.values.length (removeUnused pb st) with
  | error e => rfl
  | ok st => exact makeProblem_plus k pb st _

theorem initCnt_plus (pb : Problem) : initCnt (plus k pb) = initCnt pb := by
  unfold initCnt
  rw [csts_plus]

theorem run_plus (pb : Problem) : Preprocess.run (plus k pb) = (Preprocess.run pb).map (plus k) := by
  unfold Preprocess.run
  rw [show cacheInRange (plus k pb) = cacheInRange pb from rfl, initCnt_plus,
    show affectBounded (plus k pb) = affectBounded pb from rfl,
    show tryAffectVariable (plus k pb) = tryAffectVariable pb from rfl,
    show (plus k pb).values = pb.values from rfl]
  split
  · rfl
  · simp only [affects_plus, finish_plus]
    cases tryAffectVariable pb (affectBounded pb { cnt := initCnt pb }) with
    | error e => rfl
    | ok st =>
      simp only [ok_bind]
      cases affects pb pb.values.length st <;> rfl

theorem affect_plus (pb : Problem) (v : Nat) (b : Bool) : Preprocess.affect (plus k pb) v b = (Preprocess.affect pb v b).map (plus k) := by
  unfold Preprocess.affect
  rw [show cacheInRange (plus k pb) = cacheInRange pb from rfl, initCnt_plus,
    show (plus k pb).values = pb.values from rfl]
  cases check (decide (v < pb.values.length)) "variable_index < length" with
  | error e => rfl
  | ok _ =>
    simp only [ok_bind]
    split
    · rfl
    · simp only [affects_plus, finish_plus]
      cases affects pb pb.values.length { cnt := initCnt pb, lifo := [(v, b)] } <;> rfl

theorem split_plus (pb : Problem) (v : Nat) :
    Preprocess.split (plus k pb) v = (Preprocess.split pb v).map fun q => (plus k q.1, plus k q.2) := by
  unfold Preprocess.split
  rw [affect_plus, affect_plus]
  cases Preprocess.affect pb v true with
  | error e => rfl
  | ok a =>
    show (Except.map _ (Preprocess.affect pb v false) >>= _) = Except.map _ (Preprocess.affect pb v false >>= _)
    cases Preprocess.affect pb v false <;> rfl

end

theorem prepared_plus (pre : Bool) (raw : RawProblem) :
    prepared pre (plusConstantRaw k raw) = (prepared pre raw).map (plus k) := by
  cases pre
  · rfl
  · exact run_plus k { ProblemType.ofRaw raw with affected := {} }

end Bx.Constant
