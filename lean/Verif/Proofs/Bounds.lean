import Verif.Spec.Bounds
import Verif.Proofs.ReorderObjPre

/-! # Lemmas for C142: the bounds of the variables -/

namespace Bx.Bounds

open Spec Merge Itm Dispatch Preprocess Twice

variable {ρ : Type}

section
variable {pb pb' : Problem} (hp : pb' = { pb with values := pb'.values }) (hl : pb'.values.length = pb.values.length)
include hp hl

theorem make_bounds (s : Sorts) (o : Order) : Merge.make s o pb' = Merge.make s o pb := by
  have h1 : makeUnsorted s pb' = makeUnsorted s pb := by rw [hp]; rfl
  have h2 : ∀ o, makeOrdered o pb' = makeOrdered o pb := by intro o; rw [hp]; rfl
  have h3 : pb'.objective = pb.objective := by rw [hp]
  have h4 : ∀ o, makeSpecial s o pb' = makeSpecial s o pb := by
    intro o
    unfold makeSpecial
    simp only [h1, h3, hl]
  cases o <;> simp only [Merge.make, h1, h2, h4]

theorem nil_bounds : pb'.values = [] ↔ pb.values = [] := by
  rw [← List.length_eq_zero_iff, ← List.length_eq_zero_iff, hl]

theorem solveProblem_bounds (kind : SolverType) (u : Slv → ρ → Nat → Assign → Outcome Assign) (s : Sorts) (o : Order)
    (r : Run ρ) (p : Params) : solveProblem kind u s o r p pb' = solveProblem kind u s o r p pb := by
  have e2 : pb'.names = pb.names := by rw [hp]
  have e3 : pb'.type = pb.type := by rw [hp]
  have e4 : pb'.affected = pb.affected := by rw [hp]
  have e5 : pb'.objective = pb.objective := by rw [hp]
  unfold solveProblem solveMerged
  simp only [make_bounds hp hl, ne_eq, nil_bounds hp hl, e2, e3, e4, e5, hl]

theorem optimizeProblem_bounds (kind : SolverType) (u : Slv → ρ → Nat → Assign → Outcome Assign) (s : Sorts) (o : Order)
    (ch : Optimizer.Choices ρ) (p : Params) (st : Optimizer.StorageType) :
    Optimizer.optimizeProblem kind u s o ch p st pb' = Optimizer.optimizeProblem kind u s o ch p st pb := by
  have e2 : pb'.names = pb.names := by rw [hp]
  have e3 : pb'.type = pb.type := by rw [hp]
  have e4 : pb'.affected = pb.affected := by rw [hp]
  have e5 : pb'.objective = pb.objective := by rw [hp]
  have e6 : ∀ m s, Optimizer.report st pb' m s = Optimizer.report st pb m s := by
    intro m s
    unfold Optimizer.report
    simp only [e2, e3, e4, hl]
  unfold Optimizer.optimizeProblem Optimizer.optimizeMerged
  simp only [make_bounds hp hl, nil_bounds hp hl, e2, e3, e4, e5, e6, hl]

theorem crewProblem_bounds (kind : SolverType) (u : Slv → ρ → Nat → Assign → Outcome Assign) (s : Sorts) (o : Order)
    (threads : Nat) (ch : Optimizer.Crew ρ) (p : Params) (st : Optimizer.StorageType) :
    Optimizer.crewProblem kind u s o threads ch p st pb' = Optimizer.crewProblem kind u s o threads ch p st pb := by
  have e2 : pb'.names = pb.names := by rw [hp]
  have e3 : pb'.type = pb.type := by rw [hp]
  have e4 : pb'.affected = pb.affected := by rw [hp]
  have e5 : pb'.objective = pb.objective := by rw [hp]
  have e6 : ∀ m s, Optimizer.report st pb' m s = Optimizer.report st pb m s := by
    intro m s
    unfold Optimizer.report
    simp only [e2, e3, e4, hl]
  unfold Optimizer.crewProblem Optimizer.crewMerged
  simp only [make_bounds hp hl, nil_bounds hp hl, e2, e3, e4, e5, e6, hl]

theorem itm_bounds (upd : Engine → Slv → ρ → Nat → Assign → Outcome Assign) (w : World ρ) (c : Ctx) (opt : Bool) :
    itm (execute upd w) c opt pb' = itm (execute upd w) c opt pb := by
  have : pb'.ptype = pb.ptype := by rw [hp]
  unfold itm
  rw [this]
  cases choose c.solver c.method opt pb.ptype with
  | none => rfl
  | some p =>
    show execute upd w p pb' = execute upd w p pb
    unfold execute
    rw [optimizeProblem_bounds hp hl, solveProblem_bounds hp hl]

end

theorem raw_bounds {raw raw' : RawProblem} (h : OtherBounds raw raw') :
    ProblemType.ofRaw raw' = { ProblemType.ofRaw raw with values := (ProblemType.ofRaw raw').values } := by
  rw [h.rest]
  rfl

/-! ## The preprocessing -/

/-- The same problem with as many variables. -/
structure RelV (pb pb' : Problem) : Prop where
  rest : pb' = { pb with values := pb'.values }
  count : pb'.values.length = pb.values.length

/-- What `varsCopy` makes of two lists of variables. -/
def RelVars (r r' : List String × List VarValue × List String × List Int) : Prop :=
  r'.1 = r.1 ∧ r'.2.1.length = r.2.1.length ∧ r'.2.2 = r.2.2

theorem varsCopy_bounds {pb pb' : Problem} (hn : pb'.names = pb.names) (vars : List (Nat × Bool)) :
    ∀ (vs vs' : List VarValue) (i : Nat), vs'.length = vs.length →
    Both RelVars (varsCopy pb vars vs i) (varsCopy pb' vars vs' i)
  | [], [], i, _ => .inr ⟨_, _, rfl, rfl, rfl, rfl, rfl⟩
  | v :: vs, w :: ws, i, hl => by
    have hl' : ws.length = vs.length := by simpa using hl
    unfold varsCopy
    rw [hn]
    cases pb.names[i]? with
    | none => exact .inl ⟨_, rfl, rfl⟩
    | some n =>
      refine Both.bind (varsCopy_bounds hn vars vs ws (i + 1) hl') ?_
      rintro ⟨ns, us, an, av⟩ ⟨ns', us', an', av'⟩ ⟨h1, h2, h3⟩
      simp only [Prod.mk.injEq] at h1 h2 h3
      obtain ⟨rfl, rfl⟩ := h3
      subst h1
      cases vars.lookup i with
      | none => exact .inr ⟨_, _, rfl, rfl, rfl, congrArg (· + 1) h2, rfl⟩
      | some b => exact .inr ⟨_, _, rfl, rfl, rfl, h2, rfl⟩

section
variable {pb pb' : Problem} (h : RelV pb pb')
include h

theorem csts_bounds : csts pb' = csts pb := by
  rw [h.rest]
  funext x
  cases x <;> rfl

theorem visit_bounds : visit pb' = visit pb := by
  rw [h.rest]; rfl

theorem step_bounds : step pb' = step pb := by
  funext st p
  unfold step
  rw [csts_bounds h]

theorem affects_bounds : ∀ (fuel : Nat) (st : Preprocess.St), affects pb' fuel st = affects pb fuel st
  | 0, st => by unfold affects; rfl
  | fuel + 1, st => by
    unfold affects
    cases st.lifo with
    | nil => rfl
    | cons top rest => simp only [step_bounds h, visit_bounds h, affects_bounds fuel]

theorem makeProblem_bounds (st : Preprocess.St) (mo : MergeObj) :
    Both RelV (makeProblem pb st mo) (makeProblem pb' st mo) := by
  have hn : pb'.names = pb.names := by rw [h.rest]
  have h1 : pb'.eqs = pb.eqs := by rw [h.rest]
  have h2 : pb'.ges = pb.ges := by rw [h.rest]
  have h3 : pb'.les = pb.les := by rw [h.rest]
  have h4 : pb'.type = pb.type := by rw [h.rest]
  have h5 : pb'.affected = pb.affected := by rw [h.rest]
  have h6 : ∀ m, objCopy pb' m mo = objCopy pb m mo := by rw [h.rest]; intro m; rfl
  unfold makeProblem
  simp only [h.count, hn, h1, h2, h3, h4, h5, h6]
  refine Both.bind (Both.refl _) ?_
  rintro _ _ rfl
  refine Both.bind (Both.refl _) ?_
  rintro o _ rfl
  refine Both.bind (varsCopy_bounds hn st.vars _ _ 0 h.count) ?_
  rintro ⟨ns, vs, an, av⟩ ⟨ns', vs', an', av'⟩ ⟨k1, k2, k3⟩
  simp only [Prod.mk.injEq] at k1 k2 k3
  obtain ⟨rfl, rfl⟩ := k3
  subst k1
  simp only [k2]
  refine Both.bind (Both.refl _) ?_
  rintro _ _ rfl
  refine Both.bind (Both.refl _) ?_
  rintro eqs _ rfl
  refine Both.bind (Both.refl _) ?_
  rintro ges _ rfl
  refine Both.bind (Both.refl _) ?_
  rintro les _ rfl
  refine Both.bind (Both.refl _) ?_
  rintro _ _ rfl
  exact .inr ⟨_, _, rfl, rfl, rfl, k2⟩

theorem finish_bounds (st : Preprocess.St) : Both RelV (finish pb st) (finish pb' st) := by
  have h1 : bqpObjective pb' st = bqpObjective pb st := by
    have hb : ∀ m i, bqpVariable pb' m i = bqpVariable pb m i := by rw [h.rest]; intro m i; rfl
    unfold bqpObjective isUnused
    simp only [hb, h.count, visit_bounds h]
  have h2 : removeUnused pb' st = removeUnused pb st := by
    have hb : unusedValue pb' = unusedValue pb := by rw [h.rest]; rfl
    unfold removeUnused isUnused
    rw [hb, h.count, visit_bounds h]
  unfold finish
  simp only [h1, h2, h.count, affects_bounds h]
  refine Both.bind (Both.refl _) ?_
  rintro st' _ rfl
  exact makeProblem_bounds h st' _

theorem initCnt_bounds : initCnt pb' = initCnt pb := by
  unfold initCnt
  rw [csts_bounds h]

theorem cache_bounds : cacheInRange pb' = cacheInRange pb := by
  have h1 : pb'.eqs = pb.eqs := by rw [h.rest]
  have h2 : pb'.ges = pb.ges := by rw [h.rest]
  have h3 : pb'.les = pb.les := by rw [h.rest]
  unfold cacheInRange
  rw [h1, h2, h3, h.count]

theorem affect_bounds (v : Nat) (b : Bool) : Both RelV (Preprocess.affect pb v b) (Preprocess.affect pb' v b) := by
  unfold Preprocess.affect
  simp only [cache_bounds h, initCnt_bounds h, h.count, affects_bounds h]
  refine Both.bind (Both.refl _) ?_
  rintro _ _ rfl
  split
  · exact .inl ⟨_, rfl, rfl⟩
  · refine Both.bind (Both.refl _) ?_
    rintro st' _ rfl
    exact finish_bounds h st'

theorem split_bounds (v : Nat) :
    Both (fun q q' => RelV q.1 q'.1 ∧ RelV q.2 q'.2) (Preprocess.split pb v) (Preprocess.split pb' v) := by
  unfold Preprocess.split
  refine Both.bind (affect_bounds h v true) ?_
  intro a a' ha
  refine Both.bind (affect_bounds h v false) ?_
  intro b b' hb
  exact .inr ⟨_, _, rfl, rfl, ha, hb⟩

theorem run_bounds (hf : List.Forall₂ SameFixed pb.values pb'.values) :
    Both RelV (Preprocess.run pb) (Preprocess.run pb') := by
  have hfold : ∀ (l l' : List VarValue) (i : Nat) (acc : List (Nat × Bool)), List.Forall₂ SameFixed l l' →
      (l'.zipIdx i).foldl (fun l p => if p.1.min = p.1.max then lifoEmplace l p.2 (decide (p.1.max ≠ 0)) else l) acc =
      (l.zipIdx i).foldl (fun l p => if p.1.min = p.1.max then lifoEmplace l p.2 (decide (p.1.max ≠ 0)) else l) acc := by
    intro l l' i acc hll
    induction hll generalizing i acc with
    | nil => rfl
    | @cons v w _ _ hv _ ih =>
      simp only [List.zipIdx_cons, List.foldl_cons]
      by_cases he : v.min = v.max
      · rw [if_pos he, if_pos (hv.1.mpr he), ih]
        have : decide (w.max ≠ 0) = decide (v.max ≠ 0) := by
          rw [decide_eq_decide, ne_eq, ne_eq, hv.2 he]
        rw [this]
      · rw [if_neg he, if_neg (fun e => he (hv.1.mp e)), ih]
  have h2 : ∀ st, affectBounded pb' st = affectBounded pb st := by
    intro st
    unfold affectBounded
    simp only [hfold _ _ 0 _ hf]
  have h3 : tryAffectVariable pb' = tryAffectVariable pb := by rw [h.rest]; rfl
  unfold Preprocess.run
  simp only [cache_bounds h, h2, h3, initCnt_bounds h, h.count, affects_bounds h]
  split
  · exact .inl ⟨_, rfl, rfl⟩
  · refine Both.bind (Both.refl _) ?_
    rintro st _ rfl
    refine Both.bind (Both.refl _) ?_
    rintro st' _ rfl
    exact finish_bounds h st'

end

/-! ## The mode `branch` -/

structure NodeV (n n' : Branch.Node) : Prop where
  problem : RelV n.problem n'.problem
  solution : n'.solution = n.solution
  remaining : n'.remaining = n.remaining
  annoying : n'.annoying = n.annoying

theorem nodeLess_bounds {a a' b b' : Branch.Node} (ha : NodeV a a') (hb : NodeV b b') :
    Branch.nodeLess a' b' = Branch.nodeLess a b := by
  have : a'.problem.type = a.problem.type := by rw [ha.problem.rest]
  unfold Branch.nodeLess
  rw [ha.solution, ha.remaining, hb.solution, hb.remaining, this]

theorem findIdx_bounds {a a' : Branch.Node} (ha : NodeV a a') {l l' : List Branch.Node}
    (h : List.Forall₂ NodeV l l') : l'.findIdx (Branch.nodeLess a') = l.findIdx (Branch.nodeLess a) := by
  induction h with
  | nil => rfl
  | cons hb _ ih => rw [List.findIdx_cons, List.findIdx_cons, nodeLess_bounds ha hb, ih]

theorem emplace_bounds {a a' : Branch.Node} (ha : NodeV a a') {l l' : List Branch.Node}
    (h : List.Forall₂ NodeV l l') (pos : Nat) :
    List.Forall₂ NodeV (Branch.emplace a l pos).1 (Branch.emplace a' l' pos).1 ∧
      (Branch.emplace a' l' pos).2 = (Branch.emplace a l pos).2 := by
  unfold Branch.emplace
  rw [findIdx_bounds ha h]
  exact ⟨insertIdx_rel ha _ h, rfl⟩

theorem body_bounds {inner : Nat → Problem → Outcome Branch.Inner}
    (hi : ∀ k pb pb', RelV pb pb' → inner k pb' = inner k pb) (a calls : Nat) {jobs jobs' : List Branch.Node}
    (h : List.Forall₂ NodeV jobs jobs') (best : Branch.Inner) :
    Both (fun q q' => List.Forall₂ NodeV q.1 q'.1 ∧ q'.2 = q.2) (Branch.body inner a calls jobs best)
      (Branch.body inner a calls jobs' best) := by
  cases h with
  | nil => exact .inl ⟨_, rfl, rfl⟩
  | @cons it it' rest rest' hit hrest =>
    have h1 : it'.problem.names = it.problem.names := by rw [hit.problem.rest]
    have h2 : it'.problem.type = it.problem.type := by rw [hit.problem.rest]
    simp only [Branch.body, h1, h2, hit.annoying]
    split
    · exact .inl ⟨_, rfl, rfl⟩
    · refine Both.bind (split_bounds hit.problem a) ?_
      rintro ⟨one, zero⟩ ⟨one', zero'⟩ ⟨ho, hz⟩
      simp only at ho hz ⊢
      rw [hi calls one one' ho, hi (calls + 1) zero zero' hz]
      refine Both.bind (Both.refl _) ?_
      rintro r0 _ rfl
      refine Both.bind (Both.refl _) ?_
      rintro r1 _ rfl
      have hn : ∀ (pb pb' : Problem) (r : Branch.Inner), RelV pb pb' → NodeV (Branch.node pb r) (Branch.node pb' r) :=
        fun pb pb' r h => ⟨h, rfl, rfl, rfl⟩
      obtain ⟨e1, e2⟩ := emplace_bounds (hn one one' r0 ho) (List.Forall₂.cons hit hrest) 0
      obtain ⟨e3, e4⟩ := emplace_bounds (hn zero zero' r1 hz) e1 (Branch.emplace (Branch.node one r0) (it :: rest) 0).2
      refine .inr ⟨_, _, rfl, rfl, ?_, rfl⟩
      simp only [e2, e4]
      exact eraseIdx_rel _ e3

theorem loop_bounds {inner : Nat → Problem → Outcome Branch.Inner}
    (hi : ∀ k pb pb', RelV pb pb' → inner k pb' = inner k pb) (a : Nat) : ∀ (steps calls : Nat)
    {jobs jobs' : List Branch.Node}, List.Forall₂ NodeV jobs jobs' → ∀ best : Branch.Inner,
    Branch.loop inner a steps calls jobs' best = Branch.loop inner a steps calls jobs best
  | 0, _, _, _, _, _ => rfl
  | steps + 1, calls, jobs, jobs', h, best => by
    unfold Branch.loop
    rcases body_bounds hi a calls h best with ⟨e, h1, h2⟩ | ⟨q, q', h1, h2, h3, h4⟩
    · rw [h1, h2]
    · rw [h1, h2]
      obtain ⟨j, b⟩ := q
      obtain ⟨j', b'⟩ := q'
      simp only at h3 h4 ⊢
      subst h4
      have he : j'.isEmpty = j.isEmpty := by cases h3 <;> rfl
      rw [he, loop_bounds hi a steps (calls + 2) h3 b']

theorem branch_bounds {inner : Nat → Problem → Outcome Result}
    (hi : ∀ k pb pb', RelV pb pb' → inner k pb' = inner k pb) {pb pb' : Problem} (h : RelV pb pb') :
    Dispatch.branch inner pb' = Dispatch.branch inner pb := by
  unfold Dispatch.branch Branch.optimize
  simp only [hi 0 pb pb' h, h.count]
  cases (inner 0 pb).map branchInner with
  | error e => rfl
  | ok best =>
    simp only
    rw [loop_bounds (inner := fun k q => (inner k q).map branchInner)
      (fun k q q' hq => by rw [hi k q q' hq]) best.annoying (3 ^ pb.values.length + 1) 1
      (jobs := [Branch.node pb best]) (jobs' := [Branch.node pb' best])
      (.cons ⟨h, rfl, rfl, rfl⟩ .nil) best]


theorem prepared_bounds (pre : Bool) {raw raw' : RawProblem} (h : SameFixedRaw raw raw') :
    Both RelV (prepared pre raw) (prepared pre raw') := by
  have hl := h.fixed.length_eq.symm
  have hr : ProblemType.ofRaw raw' = { ProblemType.ofRaw raw with values := (ProblemType.ofRaw raw').values } :=
    raw_bounds ⟨h.rest, hl⟩
  cases pre
  · exact .inr ⟨_, _, rfl, rfl, hr, hl⟩
  · refine run_bounds (pb := { ProblemType.ofRaw raw with affected := {} })
      (pb' := { ProblemType.ofRaw raw' with affected := {} }) ⟨?_, hl⟩ h.fixed
    rw [hr]

end Bx.Bounds
