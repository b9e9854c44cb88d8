import Verif.Proofs.ConstantRun

/-! # Lemmas for C139: the search with its costs, and the modes -/

namespace Bx.Constant

open Spec Merge Dispatch Itm

variable {ρ Ω : Type} (k : Rat)

/-! ## The search with its multipliers -/

section
open Num

/-- The state of a search, with a value greater by `k`. -/
def state (st : Num.State) : Num.State := { st with base := base k st.base }

variable (s : Slv) (upd : Num.Upd Ω) (w : Num.World Ω) (cfg : Num.Cfg) (t : ObjType) (o : Objective)

theorem numMain_plus : ∀ (n : Nat) (st : Num.State),
    Num.mainLoop s upd w cfg t (plusConstant k o) n (state k st) =
      (Num.mainLoop s upd w cfg t o n st).map fun q => (state k q.1, q.2)
  | 0, st => rfl
  | n + 1, st => by
    unfold Num.mainLoop
    rw [show (state k st).kappa = st.kappa from rfl, show (state k st).mem = st.mem from rfl,
      show (state k st).base.passes = st.base.passes from rfl,
      show (state k st).base.compute = st.base.compute from rfl,
      show (state k st).base.x = st.base.x from rfl]
    dsimp only
    cases Num.pass s upd w ⟨st.kappa, cfg.delta, cfg.theta, none⟩ st.base.passes st.base.compute
      st.base.x st.mem with
    | error e => rfl
    | ok r =>
      obtain ⟨remaining, c, x, m⟩ := r
      simp only [ok_bind]
      rw [show ∀ v, (state k st).after v m = state k (st.after v m) from fun _ => rfl]
      generalize st.after ⟨false, Num.visits w st.base.passes st.mem st.base.compute, st.kappa, st.mem,
        st.base.compute, st.base.x, remaining, c, x,
        Num.nextMain s w cfg st.base.passes remaining st.kappa⟩ m = st1
      split
      · rw [results_plus, show (state k st1).base.best = best k st1.base.best from rfl, storeValue_plus]
        rfl
      · have hs : (if ltInt remaining (state k st1).base.bestRemaining = true then
            { state k st1 with
              base := { (state k st1).base with
                best := storeRemaining (state k st1).base.best x remaining,
                bestRemaining := some remaining } }
            else state k st1) =
            state k (if ltInt remaining st1.base.bestRemaining = true then
              { st1 with base := { st1.base with best := storeRemaining st1.base.best x remaining,
                                                 bestRemaining := some remaining } }
              else st1) := by
          rw [show (state k st1).base.bestRemaining = st1.base.bestRemaining from rfl,
            show (state k st1).base.best = best k st1.base.best from rfl, storeRemaining_plus]
          split <;> rfl
        rw [hs]
        generalize (if ltInt remaining st1.base.bestRemaining = true then
              { st1 with base := { st1.base with best := storeRemaining st1.base.best x remaining,
                                                 bestRemaining := some remaining } }
              else st1) = st2
        rw [show (state k st2).kappa = st2.kappa from rfl,
          show (state k st2).base.passes = st2.base.passes from rfl]
        split
        · rfl
        · split
          · rfl
          · exact numMain_plus n st2

theorem numInner_plus : ∀ (n iter : Nat) (st : Num.State),
    Num.pushInner s upd w cfg t (plusConstant k o) n iter (state k st) =
      (Num.pushInner s upd w cfg t o n iter st).map (state k)
  | 0, _, st => rfl
  | n + 1, iter, st => by
    unfold Num.pushInner
    rw [show (state k st).kappa = st.kappa from rfl, show (state k st).mem = st.mem from rfl,
      show (state k st).base.passes = st.base.passes from rfl,
      show (state k st).base.compute = st.base.compute from rfl,
      show (state k st).base.x = st.base.x from rfl]
    dsimp only
    cases Num.pass s upd w ⟨st.kappa, cfg.delta, cfg.theta, none⟩ st.base.passes st.base.compute
      st.base.x st.mem with
    | error e => rfl
    | ok r =>
      obtain ⟨remaining, c, x, m⟩ := r
      simp only [ok_bind]
      rw [show ∀ v, (state k st).after v m = state k (st.after v m) from fun _ => rfl]
      generalize st.after ⟨false, Num.visits w st.base.passes st.mem st.base.compute, st.kappa, st.mem,
        st.base.compute, st.base.x, remaining, c, x,
        Num.nextInner s w cfg iter remaining st.kappa⟩ m = st1
      rw [show (state k st1).kappa = st1.kappa from rfl, show (state k st1).base.passes = st1.base.passes from rfl]
      split
      · rw [results_plus, show (state k st1).base.best = best k st1.base.best from rfl, storeValue_plus]
        rfl
      · split
        · rfl
        · split
          · rfl
          · exact numInner_plus n (iter + 1) st1

theorem numPush_plus : ∀ (n : Nat) (st : Num.State),
    Num.pushLoop s upd w cfg t (plusConstant k o) n (state k st) =
      (Num.pushLoop s upd w cfg t o n st).map (state k)
  | 0, st => rfl
  | n + 1, st => by
    unfold Num.pushLoop
    rw [show (state k st).kappa = st.kappa from rfl, show (state k st).mem = st.mem from rfl,
      show (state k st).base.passes = st.base.passes from rfl,
      show (state k st).base.compute = st.base.compute from rfl,
      show (state k st).base.x = st.base.x from rfl]
    dsimp only
    generalize (if st.base.compute.useCycle then
        { st.base.compute with order := nextState st.base.compute.order } else st.base.compute) = cmp
    cases Num.pass s upd w ⟨w.rnd (cfg.kFactor * st.kappa), cfg.delta, cfg.theta, some cfg.amplifier⟩ st.base.passes
      cmp st.base.x st.mem with
    | error e => rfl
    | ok r =>
      obtain ⟨remaining, c, x, m⟩ := r
      simp only [ok_bind]
      rw [show ∀ v, (state k st).after v m = state k (st.after v m) from fun _ => rfl]
      generalize st.after _ m = st1
      have hs : (if remaining = 0 then
            { state k st1 with base := { (state k st1).base with
                best := storeValue t (state k st1).base.best x (results (plusConstant k o) x) } }
            else state k st1) =
          state k (if remaining = 0 then
            { st1 with base := { st1.base with best := storeValue t st1.base.best x (results o x) } } else st1) := by
        rw [results_plus, show (state k st1).base.best = best k st1.base.best from rfl, storeValue_plus]
        split <;> rfl
      rw [hs]
      generalize (if remaining = 0 then
            ({ st1 with base := { st1.base with best := storeValue t st1.base.best x (results o x) } } : Num.State)
            else st1) = st2
      rw [show (state k st2).base.passes = st2.base.passes from rfl]
      split
      · rfl
      · rw [numInner_plus]
        cases Num.pushInner s upd w cfg t o cfg.pushIter 0 st2 with
        | error e => rfl
        | ok st3 => exact numPush_plus n st3

end

theorem numFunctor_plus (kind : SolverType) (upd : Slv → Num.Upd Ω) (w : Num.World Ω) (cfg : Num.Cfg) (t : ObjType)
    (o : Objective) (csts : List Merged) (n : Nat) :
    Num.functor kind upd w cfg t (plusConstant k o) csts n =
      (Num.functor kind upd w cfg t o csts n).map fun q => (answer k q.1, state k q.2) := by
  unfold Num.functor
  cases makeSlv kind csts n with
  | error e => rfl
  | ok s =>
    simp only [ok_bind]
    cases (Compute.make cfg.order n).init s w.x0 with
    | error e => rfl
    | ok c =>
      simp only [ok_bind]
      have h := numMain_plus k s (upd s) w cfg t o cfg.limit
        { base := { compute := c, x := w.x0 }, mem := Num.mem0, kappa := cfg.kappaMin }
      rw [show state k ({ base := { compute := c, x := w.x0 }, mem := Num.mem0, kappa := cfg.kappaMin } : Num.State) =
        { base := { compute := c, x := w.x0 }, mem := Num.mem0, kappa := cfg.kappaMin } from rfl] at h
      rw [h]
      cases Num.mainLoop s (upd s) w cfg t o cfg.limit
        { base := { compute := c, x := w.x0 }, mem := Num.mem0, kappa := cfg.kappaMin } with
      | error e => rfl
      | ok q =>
        obtain ⟨st, e⟩ := q
        have hp : Num.pushPhase s (upd s) w cfg t (plusConstant k o) e (state k st) =
            (Num.pushPhase s (upd s) w cfg t o e st).map (state k) := by
          unfold Num.pushPhase
          split
          · exact numPush_plus k s (upd s) w cfg t o cfg.pushes st
          · rfl
        simp only [Except.map, ok_bind] at hp ⊢
        rw [hp]
        cases Num.pushPhase s (upd s) w cfg t o e st with
        | error e => rfl
        | ok st' =>
          simp only [ok_bind, answer, state, base, best, Option.map_map]
          rfl

theorem head_plus (e : Setup.Env) (cfg : Num.Cfg) (t : ObjType) (o : Objective) (csts : List Merged) (n : Nat) :
    Setup.head e cfg t (plusConstant k o) csts n = Setup.head e cfg t o csts n := rfl

theorem setup_plus (kind : SolverType) (e : Setup.Env) (w : Num.World Mult.Oracle) (cfg : Num.Cfg) (t : ObjType)
    (o : Objective) (csts : List Merged) (n : Nat) :
    Setup.solve kind e w cfg t (plusConstant k o) csts n =
      (Setup.solve kind e w cfg t o csts n).map fun q => (answer k q.1, state k q.2) := by
  unfold Setup.solve
  rw [head_plus]
  cases Setup.head e cfg t o csts n with
  | error e => rfl
  | ok h => exact numFunctor_plus k kind _ _ _ t o csts n

theorem setupZ_plus (e : Setup.Env) (w : Num.World ZNum.ZOracle) (cfg : Num.Cfg) (t : ObjType)
    (o : Objective) (csts : List Merged) (n : Nat) :
    Setup.solveZ e w cfg t (plusConstant k o) csts n =
      (Setup.solveZ e w cfg t o csts n).map fun q => (answer k q.1, state k q.2) := by
  unfold Setup.solveZ
  rw [head_plus]
  cases Setup.head e cfg t o csts n with
  | error e => rfl
  | ok h =>
    simp only [ok_bind, ZNum.functor]
    cases ZSolver.makeZ csts n with
    | error e => rfl
    | ok z => exact numFunctor_plus k _ _ _ _ t o csts n

/-! ## The mode `manual` -/

section
open Manual

theorem manualLoop_same (inner inner' : Nat → Manual.Tuning → Manual.Inner) (p : Manual.Tuning) :
    ∀ (steps : Nat) (s s' : Manual.State), s'.iterators = s.iterators → s'.params = s.params → s'.tried = s.tried →
      (Manual.loop inner' p steps s').map (fun s => (s.params, s.tried)) =
        (Manual.loop inner p steps s).map (fun s => (s.params, s.tried))
  | 0, _, _, _, _, _ => rfl
  | steps + 1, s, s', h1, h2, h3 => by
    have hb : ∀ (i : Nat → Manual.Tuning → Manual.Inner) (s : Manual.State), (Manual.body i p s).iterators =
        s.iterators ∧ (Manual.body i p s).params = Manual.tuning p s.iterators ∧
        (Manual.body i p s).tried = s.tried ++ [s.iterators] := by
      intro i s
      unfold Manual.body
      simp only
      split <;> exact ⟨rfl, rfl, rfl⟩
    obtain ⟨a1, a2, a3⟩ := hb inner s
    obtain ⟨b1, b2, b3⟩ := hb inner' s'
    unfold Manual.loop
    dsimp only
    rw [b1, a1, h1]
    split
    · exact manualLoop_same inner inner' p steps _ _ rfl (by simp only [b2, a2, h1]) (by simp only [b3, a3, h1, h3])
    · simp only [Option.map_some, b2, a2, b3, a3, h1, h3]

theorem forM_both {α : Type} {f g : α → Outcome Result} (h : ∀ a, Twice.Both (fun _ _ => True) (f a) (g a)) :
    ∀ l : List α, l.forM (m := Except Fault) (fun a => g a >>= fun _ => .ok ()) =
      l.forM (fun a => f a >>= fun _ => .ok ())
  | [] => rfl
  | a :: l => by
    show ((g a >>= fun _ => Except.ok ()) >>= fun _ => l.forM (m := Except Fault) fun a => g a >>= fun _ => .ok ()) =
      ((f a >>= fun _ => Except.ok ()) >>= fun _ => l.forM (m := Except Fault) fun a => f a >>= fun _ => .ok ())
    rw [forM_both h l]
    rcases h a with ⟨e, h1, h2⟩ | ⟨x, y, h1, h2, _⟩ <;> rw [h1, h2] <;> rfl

theorem manual_both {R : Result → Result → Prop} {inner inner' : Nat → Manual.Tuning → Outcome Result}
    (h : ∀ n t, Twice.Both R (inner n t) (inner' n t)) (p : Manual.Tuning) :
    Twice.Both R (Dispatch.manual inner p) (Dispatch.manual inner' p) := by
  have hl := manualLoop_same (fun k t => readResult (inner k t)) (fun k t => readResult (inner' k t)) p (5 ^ 5)
    { iterators := [0, 0, 0, 0, 0], params := p } { iterators := [0, 0, 0, 0, 0], params := p } rfl rfl rfl
  unfold Dispatch.manual Manual.optimize
  cases h1 : Manual.loop (fun k t => readResult (inner k t)) p (5 ^ 5)
      { iterators := [0, 0, 0, 0, 0], params := p } with
  | none =>
    rw [h1] at hl
    cases h2 : Manual.loop (fun k t => readResult (inner' k t)) p (5 ^ 5)
        { iterators := [0, 0, 0, 0, 0], params := p } with
    | none => exact .inl ⟨_, rfl, rfl⟩
    | some s => rw [h2] at hl; cases hl
  | some s =>
    rw [h1] at hl
    cases h2 : Manual.loop (fun k t => readResult (inner' k t)) p (5 ^ 5)
        { iterators := [0, 0, 0, 0, 0], params := p } with
    | none => rw [h2] at hl; cases hl
    | some s' =>
      rw [h2] at hl
      simp only [Option.map_some, Option.some.injEq, Prod.mk.injEq] at hl
      simp only [hl.1, hl.2]
      rw [forM_both (f := fun q : List Nat × Nat => inner q.2 (Manual.tuning p q.1))
        (g := fun q => inner' q.2 (Manual.tuning p q.1)) (fun a => (h _ _).mono fun _ _ _ => trivial)]
      cases (s.tried.zipIdx.forM (m := Except Fault) fun q => inner q.2 (Manual.tuning p q.1) >>= fun _ => .ok ()) with
      | error e => exact .inl ⟨e, rfl, rfl⟩
      | ok _ => exact h _ _

end

/-! ## The mode `branch` -/

/-- What the mode reads of two results that differ by `k`. -/
structure RelI (r r' : Branch.Inner) : Prop where
  success : r'.success = r.success
  first : r.success = true → r'.first = r.first + k
  lastOr : r'.last = r.last + k ∨ (r.success = false ∧ r'.last = r.last)
  constraints : r'.constraints = r.constraints
  remaining : r'.remaining = r.remaining
  annoying : r'.annoying = r.annoying
  told : r.remaining = 0 → r.success = true

/-- Two jobs. -/
structure RelB (n n' : Branch.Node) : Prop where
  problem : n'.problem = plus k n.problem
  solution : n.remaining = 0 → n'.solution = n.solution + k
  remaining : n'.remaining = n.remaining
  annoying : n'.annoying = n.annoying

variable {k}

theorem RelI.last {r r' : Branch.Inner} (h : RelI k r r') (hs : r.success = true) : r'.last = r.last + k := by
  rcases h.lastOr with h | ⟨h, _⟩
  · exact h
  · rw [hs] at h; cases h

theorem RelI.node {r r' : Branch.Inner} (h : RelI k r r') (pb : Problem) :
    RelB k (Branch.node pb r) (Branch.node (plus k pb) r') := by
  refine ⟨rfl, ?_, h.remaining, h.annoying⟩
  intro h0
  have hs := h.told h0
  simp only [Branch.node, h.success, hs, if_true, h.last hs]

theorem RelI.isBest {a a' b b' : Branch.Inner} (ha : RelI k a a') (hb : RelI k b b') (t : ObjType) :
    Branch.isBest a' b' t = Branch.isBest a b t := by
  unfold Branch.isBest
  rw [ha.success, hb.success, ha.constraints, hb.constraints]
  split
  · rename_i h1
    split
    · rename_i h2
      rw [ha.first h1, hb.first h2]
      cases t <;> simp
    · rfl
  · rfl

theorem RelB.less {a a' b b' : Branch.Node} (ha : RelB k a a') (hb : RelB k b b') :
    Branch.nodeLess a' b' = Branch.nodeLess a b := by
  have ht : a'.problem.type = a.problem.type := by rw [ha.problem]; rfl
  unfold Branch.nodeLess
  rw [ha.remaining, hb.remaining, ht]
  split
  · rename_i h1
    split
    · rename_i h2
      rw [ha.solution h1, hb.solution h2]
      cases a.problem.type <;> simp
    · rfl
  · rfl

theorem findIdx_plus {a a' : Branch.Node} (ha : RelB k a a') {l l' : List Branch.Node}
    (h : List.Forall₂ (RelB k) l l') : l'.findIdx (Branch.nodeLess a') = l.findIdx (Branch.nodeLess a) := by
  induction h with
  | nil => rfl
  | cons hb _ ih => rw [List.findIdx_cons, List.findIdx_cons, ha.less hb, ih]

theorem emplace_plus {a a' : Branch.Node} (ha : RelB k a a') {l l' : List Branch.Node}
    (h : List.Forall₂ (RelB k) l l') (pos : Nat) :
    List.Forall₂ (RelB k) (Branch.emplace a l pos).1 (Branch.emplace a' l' pos).1 ∧
      (Branch.emplace a' l' pos).2 = (Branch.emplace a l pos).2 := by
  unfold Branch.emplace
  rw [findIdx_plus ha h]
  exact ⟨Twice.insertIdx_rel ha _ h, rfl⟩

open Twice in
theorem body_plus {inner : Nat → Problem → Outcome Branch.Inner}
    (hi : ∀ n pb, Both (RelI k) (inner n pb) (inner n (plus k pb))) (a calls : Nat) {jobs jobs' : List Branch.Node}
    (h : List.Forall₂ (RelB k) jobs jobs') {b b' : Branch.Inner} (hb : RelI k b b') :
    Both (fun q q' => List.Forall₂ (RelB k) q.1 q'.1 ∧ RelI k q.2 q'.2) (Branch.body inner a calls jobs b)
      (Branch.body inner a calls jobs' b') := by
  cases h with
  | nil => exact .inl ⟨_, rfl, rfl⟩
  | @cons it it' rest rest' hit hrest =>
    have h1 : it'.problem.names = it.problem.names := by rw [hit.problem]; rfl
    have h2 : it'.problem.type = it.problem.type := by rw [hit.problem]; rfl
    simp only [Branch.body, h1, h2, hit.annoying]
    split
    · exact .inl ⟨_, rfl, rfl⟩
    · rw [hit.problem, split_plus]
      cases Preprocess.split it.problem a with
      | error e => exact .inl ⟨e, rfl, rfl⟩
      | ok q =>
        obtain ⟨one, zero⟩ := q
        simp only [Except.map, ok_bind]
        refine Both.bind (hi calls one) ?_
        intro r0 r0' h0
        refine Both.bind (hi (calls + 1) zero) ?_
        intro r1 r1' hr1
        obtain ⟨e1, e2⟩ := emplace_plus (h0.node one) (List.Forall₂.cons hit hrest) 0
        obtain ⟨e3, e4⟩ := emplace_plus (hr1.node zero) e1 (Branch.emplace (Branch.node one r0) (it :: rest) 0).2
        have hb0 : RelI k (if Branch.isBest r0 b it.problem.type then r0 else b)
            (if Branch.isBest r0' b' it.problem.type then r0' else b') := by
          rw [h0.isBest hb]
          split
          · exact h0
          · exact hb
        refine .inr ⟨_, _, rfl, rfl, ?_, ?_⟩
        · simp only [e2, e4]
          exact eraseIdx_rel _ e3
        · simp only
          generalize (if Branch.isBest r0 b it.problem.type then r0 else b) = c at hb0 ⊢
          generalize (if Branch.isBest r0' b' it.problem.type then r0' else b') = c' at hb0 ⊢
          rw [hr1.isBest hb0]
          split
          · exact hr1
          · exact hb0

/-- Both loops go on, stop for the same reason, or return results that differ by `k`. -/
def Ends (k : Rat) (a b : Option (Outcome Branch.Inner)) : Prop :=
  (a = none ∧ b = none) ∨ ∃ x y, a = some x ∧ b = some y ∧ Twice.Both (RelI k) x y

theorem loop_plus {inner : Nat → Problem → Outcome Branch.Inner}
    (hi : ∀ n pb, Twice.Both (RelI k) (inner n pb) (inner n (plus k pb))) (a : Nat) : ∀ (steps calls : Nat)
    {jobs jobs' : List Branch.Node}, List.Forall₂ (RelB k) jobs jobs' → ∀ {b b' : Branch.Inner}, RelI k b b' →
    Ends k (Branch.loop inner a steps calls jobs b) (Branch.loop inner a steps calls jobs' b')
  | 0, _, _, _, _, _, _, _ => .inl ⟨rfl, rfl⟩
  | steps + 1, calls, jobs, jobs', h, b, b', hb => by
    unfold Branch.loop
    rcases body_plus hi a calls h hb with ⟨e, h1, h2⟩ | ⟨q, q', h1, h2, h3, h4⟩
    · rw [h1, h2]
      exact .inr ⟨_, _, rfl, rfl, .inl ⟨e, rfl, rfl⟩⟩
    · rw [h1, h2]
      obtain ⟨j, c⟩ := q
      obtain ⟨j', c'⟩ := q'
      simp only at h3 h4 ⊢
      have he : j'.isEmpty = j.isEmpty := by cases h3 <;> rfl
      rw [he]
      split
      · exact .inr ⟨_, _, rfl, rfl, .inr ⟨_, _, rfl, rfl, h4⟩⟩
      · exact loop_plus hi a steps (calls + 2) h3 h4

theorem branchInner_plus {r r' : Result} (h : DifferBy k r r') (ht : Told r) : RelI k (branchInner r) (branchInner r') := by
  rcases h with rfl | ⟨hn, rfl⟩
  · refine ⟨rfl, ?_, ?_, rfl, rfl, rfl, ?_⟩
    · intro h
      have := ht.2 (of_decide_eq_true h)
      cases hl : r.solutions with
      | nil => exact absurd hl this
      | cons s l => simp [branchInner, valuesPlus, hl]
    · rcases List.eq_nil_or_concat r.solutions with hl | ⟨l, s, hl⟩
      · refine .inr ⟨?_, by simp [branchInner, valuesPlus, hl]⟩
        refine decide_eq_false ?_
        intro h
        exact ht.2 h hl
      · exact .inl (by simp [branchInner, valuesPlus, hl])
    · intro h
      exact decide_eq_true (ht.1 (Int.ofNat_eq_zero.mp h))
  · refine ⟨rfl, ?_, ?_, rfl, rfl, rfl, ?_⟩
    · intro h; exact absurd (of_decide_eq_true h) hn
    · exact .inr ⟨decide_eq_false hn, rfl⟩
    · intro h; exact decide_eq_true (ht.1 (Int.ofNat_eq_zero.mp h))

open Twice in
theorem branch_plus {inner : Nat → Problem → Outcome Result}
    (hi : ∀ n pb, Both (fun a b => DifferBy k a b ∧ Told a) (inner n pb) (inner n (plus k pb))) (pb : Problem) :
    Both (DifferBy k) (Dispatch.branch inner pb) (Dispatch.branch inner (plus k pb)) := by
  have hi' : ∀ n pb, Both (RelI k) ((inner n pb).map branchInner) ((inner n (plus k pb)).map branchInner) := by
    intro n pb
    rcases hi n pb with ⟨e, h1, h2⟩ | ⟨x, y, h1, h2, h3⟩
    · rw [h1, h2]; exact .inl ⟨e, rfl, rfl⟩
    · rw [h1, h2]; exact .inr ⟨_, _, rfl, rfl, branchInner_plus h3.1 h3.2⟩
  have ho : Ends k (Branch.optimize (fun n q => (inner n q).map branchInner) (3 ^ pb.values.length + 1) pb)
      (Branch.optimize (fun n q => (inner n q).map branchInner) (3 ^ (plus k pb).values.length + 1) (plus k pb)) := by
    unfold Branch.optimize
    rcases hi' 0 pb with ⟨e, h1, h2⟩ | ⟨x, y, h1, h2, h3⟩
    · simp only [h1, h2]; exact .inr ⟨_, _, rfl, rfl, .inl ⟨e, rfl, rfl⟩⟩
    · simp only [h1, h2, h3.annoying]
      exact loop_plus hi' _ _ _ (.cons (h3.node pb) .nil) h3
  unfold Dispatch.branch
  rcases ho with ⟨h1, h2⟩ | ⟨x, y, h1, h2, h3⟩
  · simp only [h1, h2]; exact .inl ⟨_, rfl, rfl⟩
  · simp only [h1, h2]
    rcases h3 with ⟨e, rfl, rfl⟩ | ⟨a, b, rfl, rfl, h⟩
    · exact .inl ⟨e, rfl, rfl⟩
    · refine .inr ⟨_, _, rfl, rfl, ?_⟩
      rcases h.lastOr with hl | ⟨hs, hl⟩
      · refine .inl ?_
        simp only [h.success, hl, valuesPlus, List.map_cons, List.map_nil]
      · refine .inr ⟨?_, ?_⟩
        · simp [hs]
        · simp only [h.success, hl]

end Bx.Constant
