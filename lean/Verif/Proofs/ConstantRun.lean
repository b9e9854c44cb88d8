import Verif.Proofs.Constant
import Verif.Proofs.Solve

/-! # Lemmas for C139: the searches -/

namespace Bx.Constant

open Spec Merge Dispatch Itm

variable {ρ : Type} (k : Rat)

/-! ## Values -/

theorem addLinear_plus (x : Assign) : ∀ (es : List ObjElem) (r : Rat),
    Itm.addLinear x (r + k) es = Itm.addLinear x r es + k
  | [], r => rfl
  | e :: es, r => by
    unfold Itm.addLinear
    rw [← addLinear_plus x es]
    congr 1
    split
    · rw [add_right_comm]
    · rfl

theorem addQuadratic_plus (x : Assign) : ∀ (es : List QuadElem) (r : Rat),
    Itm.addQuadratic x (r + k) es = Itm.addQuadratic x r es + k
  | [], r => rfl
  | e :: es, r => by
    unfold Itm.addQuadratic
    rw [← addQuadratic_plus x es]
    congr 1
    split
    · rw [add_right_comm]
    · rfl

theorem results_plus (o : Objective) (x : Assign) : results (plusConstant k o) x = results o x + k := by
  unfold results plusConstant
  simp only [addLinear_plus, addQuadratic_plus]
  split <;> rfl

theorem isBetter_plus (t : ObjType) (v : Rat) (b : Option Rat) :
    isBetter t (v + k) (b.map (· + k)) = isBetter t v b := by
  cases b with
  | none => rfl
  | some b => cases t <;> simp [isBetter]

/-- The best vector, with a value greater by `k`. -/
def best (b : Best) : Best := { b with value := b.value.map (· + k) }

theorem storeValue_plus (t : ObjType) (b : Best) (x : Assign) (v : Rat) :
    storeValue t (best k b) x (v + k) = best k (storeValue t b x v) := by
  unfold storeValue
  rw [show (best k b).value = b.value.map (· + k) from rfl, isBetter_plus]
  split <;> rfl

theorem storeRemaining_plus (b : Best) (x : Assign) (r : Nat) :
    storeRemaining (best k b) x r = best k (storeRemaining b x r) := by
  unfold storeRemaining
  show (if ltInt r b.remaining = true then _ else _) = _
  split <;> rfl

/-- The state of a run, with a value greater by `k`. -/
def base (st : St) : St := { st with best := best k st.best }

/-! ## `solve` -/

section
variable (s : Slv) (upd : ρ → Nat → Assign → Outcome Assign) (r : Run ρ) (t : ObjType) (o : Objective)

theorem mainLoop_plus : ∀ (n : Nat) (st : St), mainLoop s upd r t (plusConstant k o) n (base k st) =
    (mainLoop s upd r t o n st).map fun q => (base k q.1, q.2)
  | 0, st => rfl
  | n + 1, st => by
    unfold mainLoop
    rw [show (base k st).passes = st.passes from rfl, show (base k st).compute = st.compute from rfl,
      show (base k st).x = st.x from rfl]
    cases run s upd (r.pass st.passes) st.compute st.x with
    | error e => rfl
    | ok q =>
      obtain ⟨remaining, c, x⟩ := q
      simp only [ok_bind]
      split
      · rw [results_plus, show (base k st).best = best k st.best from rfl, storeValue_plus]
        rfl
      · have hs : ∀ st1 : St, (if ltInt remaining (base k st1).bestRemaining = true then
            { base k st1 with best := storeRemaining (base k st1).best x remaining, bestRemaining := some remaining }
            else base k st1) =
            base k (if ltInt remaining st1.bestRemaining = true then
              { st1 with best := storeRemaining st1.best x remaining, bestRemaining := some remaining } else st1) := by
          intro st1
          rw [show (base k st1).bestRemaining = st1.bestRemaining from rfl,
            show (base k st1).best = best k st1.best from rfl, storeRemaining_plus]
          split <;> rfl
        have h := hs { st with compute := c, x := x, passes := st.passes + 1, trace := st.trace ++ [x] }
        generalize hg : (if ltInt remaining
            ({ st with compute := c, x := x, passes := st.passes + 1, trace := st.trace ++ [x] } : St).bestRemaining =
              true then
            { ({ st with compute := c, x := x, passes := st.passes + 1, trace := st.trace ++ [x] } : St) with
              best := storeRemaining st.best x remaining, bestRemaining := some remaining }
            else { st with compute := c, x := x, passes := st.passes + 1, trace := st.trace ++ [x] }) = st2 at h ⊢
        refine Eq.trans (b := if r.kappaOver (base k st2).passes then .ok (base k st2, Exit.kappa)
          else if r.timeUp (base k st2).passes then .ok (base k st2, Exit.time)
          else mainLoop s upd r t (plusConstant k o) n (base k st2)) ?_ ?_
        · rw [← h]
          rfl
        · rw [show (base k st2).passes = st2.passes from rfl]
          split
          · rfl
          · split
            · rfl
            · exact mainLoop_plus n st2

theorem pushInner_plus : ∀ (n : Nat) (st : St), pushInner s upd r t (plusConstant k o) n (base k st) =
    (pushInner s upd r t o n st).map (base k)
  | 0, st => rfl
  | n + 1, st => by
    unfold pushInner
    rw [show (base k st).passes = st.passes from rfl, show (base k st).compute = st.compute from rfl,
      show (base k st).x = st.x from rfl]
    cases run s upd (r.pass st.passes) st.compute st.x with
    | error e => rfl
    | ok q =>
      obtain ⟨remaining, c, x⟩ := q
      simp only [ok_bind]
      split
      · rw [results_plus, show (base k st).best = best k st.best from rfl, storeValue_plus]
        rfl
      · split
        · rfl
        · split
          · rfl
          · exact pushInner_plus n { st with compute := c, x := x, passes := st.passes + 1, trace := st.trace ++ [x] }

theorem pushLoop_plus (iters : Nat) : ∀ (n : Nat) (st : St),
    pushLoop s upd r t (plusConstant k o) iters n (base k st) = (pushLoop s upd r t o iters n st).map (base k)
  | 0, st => rfl
  | n + 1, st => by
    unfold pushLoop
    rw [show (base k st).passes = st.passes from rfl, show (base k st).compute = st.compute from rfl,
      show (base k st).x = st.x from rfl]
    cases pushAndRun s upd (r.pass st.passes) st.compute st.x with
    | error e => rfl
    | ok q =>
      obtain ⟨remaining, c, x⟩ := q
      simp only [ok_bind, results_plus]
      have h : ∀ st1 : St, (if remaining = 0 then
            { base k st1 with best := storeValue t (base k st1).best x (results o x + k) } else base k st1) =
          base k (if remaining = 0 then { st1 with best := storeValue t st1.best x (results o x) } else st1) := by
        intro st1
        rw [show (base k st1).best = best k st1.best from rfl, storeValue_plus]
        split <;> rfl
      have h := h { st with compute := c, x := x, passes := st.passes + 1, trace := st.trace ++ [x] }
      generalize hg : (if remaining = 0 then
          { ({ st with compute := c, x := x, passes := st.passes + 1, trace := st.trace ++ [x] } : St) with
            best := storeValue t st.best x (results o x) }
          else { st with compute := c, x := x, passes := st.passes + 1, trace := st.trace ++ [x] }) = st2 at h ⊢
      refine Eq.trans (b := if r.timeUp (base k st2).passes then .ok (base k st2)
        else do
          let st ← pushInner s upd r t (plusConstant k o) iters (base k st2)
          pushLoop s upd r t (plusConstant k o) iters n st) ?_ ?_
      · rw [← h]
        rfl
      · rw [show (base k st2).passes = st2.passes from rfl]
        split
        · rfl
        · rw [pushInner_plus]
          cases pushInner s upd r t o iters st2 with
          | error e => rfl
          | ok st3 => exact pushLoop_plus iters n st3

end

/-- The answer with a value greater by `k`. -/
def answer (a : Answer) : Answer :=
  { a with solution := a.solution.map fun p => (p.1, p.2.map (· + k)), final := base k a.final }

theorem functor_plus (kind : SolverType) (upd : Slv → ρ → Nat → Assign → Outcome Assign) (r : Run ρ) (p : Params)
    (t : ObjType) (o : Objective) (csts : List Merged) (n : Nat) :
    functor kind upd r p t (plusConstant k o) csts n = (functor kind upd r p t o csts n).map (answer k) := by
  unfold functor
  cases makeSlv kind csts n with
  | error e => rfl
  | ok s =>
    simp only [ok_bind]
    cases (Compute.make p.order n).init s r.x0 with
    | error e => rfl
    | ok c =>
      simp only [ok_bind]
      have h := mainLoop_plus k s (upd s) r t o p.limit { compute := c, x := r.x0 }
      rw [show base k ({ compute := c, x := r.x0 } : St) = { compute := c, x := r.x0 } from rfl] at h
      rw [h]
      cases mainLoop s (upd s) r t o p.limit { compute := c, x := r.x0 } with
      | error e => rfl
      | ok q =>
        obtain ⟨st, e⟩ := q
        have hp : pushPhase s (upd s) r p t (plusConstant k o) e (base k st) =
            (pushPhase s (upd s) r p t o e st).map (base k) := by
          unfold pushPhase
          split
          · exact pushLoop_plus k s (upd s) r t o p.pushIter p.pushes st
          · rfl
        simp only [Except.map, ok_bind] at hp ⊢
        rw [hp]
        cases pushPhase s (upd s) r p t o e st with
        | error e => rfl
        | ok st' =>
          simp only [ok_bind, answer, base, best, Option.map_map]
          rfl

theorem make_plus (s : Sorts) (o : Order) (pb : Problem) : Merge.make s o (plus k pb) = Merge.make s o pb := by
  cases o <;> rfl

/-- What a tuned mode relies on: no constraint remains only for a success, and a success has a solution. -/
def Told (r : Result) : Prop :=
  (r.remaining = 0 → r.status = .success) ∧ (r.status = .success → r.solutions ≠ [])

open Twice in
theorem solveProblem_plus (kind : SolverType) (upd : Slv → ρ → Nat → Assign → Outcome Assign) (s : Sorts) (o : Order)
    (r : Run ρ) (p : Params) (pb : Problem) : Both (fun a b => DifferBy k a b ∧ Told a)
      (solveProblem kind upd s o r p pb) (solveProblem kind upd s o r p (plus k pb)) := by
  unfold solveProblem
  rw [make_plus]
  refine Both.bind (Both.refl _) ?_
  rintro csts _ rfl
  unfold solveMerged
  rw [show (plus k pb).values = pb.values from rfl]
  split
  · rw [show makeCost (plus k pb).objective pb.values.length = makeCost pb.objective pb.values.length from rfl]
    cases makeCost pb.objective pb.values.length with
    | error e => exact .inl ⟨e, rfl, rfl⟩
    | ok _ =>
      simp only [ok_bind]
      rw [show (plus k pb).objective = plusConstant k pb.objective from rfl, functor_plus,
        show (plus k pb).type = pb.type from rfl]
      cases h : functor kind upd r p pb.type pb.objective csts pb.values.length with
      | error e => exact .inl ⟨e, rfl, rfl⟩
      | ok a =>
        have hs := functor_spec h
        have hfail : a.final.best.remaining ≠ some 0 → a.status ≠ .success := by
          intro h0
          rw [hs.2.2.2.2.2.2.1]
          unfold statusOf
          rw [if_neg h0]
          have : a.exit ≠ .found := fun he => h0 (hs.2.2.2.2.2.1.mp he)
          simp [this]
        refine .inr ⟨_, _, rfl, rfl, ?_, ⟨fun h0 => (by cases h0), ?_⟩⟩
        swap
        · intro hok
          by_cases h0 : a.final.best.remaining = some 0
          · obtain ⟨x, hx, _⟩ := hs.1.best h0
            have hsol := hs.2.2.2.2.2.2.2.1
            rw [hx] at hsol
            simp only [toResult, hsol, Option.map_some, ne_eq, List.cons_ne_nil, not_false_eq_true]
          · exact absurd hok (hfail h0)
        by_cases h0 : a.final.best.remaining = some 0
        · obtain ⟨x, hx, _, _, hv, _⟩ := hs.1.best h0
          have hsol := hs.2.2.2.2.2.2.2.1
          rw [hx, hv] at hsol
          refine .inl ?_
          simp only [toResult, answer, hsol, Option.map_some, Option.getD_some, valuesPlus, List.map_cons, List.map_nil]
          rfl
        · have hv := (hs.1.nothing h0).2
          have hsol := hs.2.2.2.2.2.2.2.1
          rw [hv] at hsol
          refine .inr ⟨hfail h0, ?_⟩
          · simp only [toResult, answer, hsol]
            cases a.final.best.x <;> rfl
  · exact .inr ⟨_, _, rfl, rfl, .inl rfl, fun h0 => (by cases h0), fun _ => List.cons_ne_nil _ _⟩

/-! ## `optimize` -/

section
open Optimizer

/-- An entry of the population with a value greater by `k`. -/
def entry (e : Optimizer.Entry) : Optimizer.Entry := { e with value := e.value + k }

/-- The population. -/
def population (s : Storage) : Storage := { s with data := s.data.map (entry k) }

theorem less_plus (t : ObjType) (data : List Optimizer.Entry) : less t (data.map (entry k)) = less t data := by
  funext i j
  unfold less
  rw [List.getElem?_map, List.getElem?_map]
  cases data[i]? with
  | none => rfl
  | some a =>
    cases data[j]? with
    | none => rfl
    | some b =>
      show better t (entry k a) (entry k b) = better t a b
      unfold better
      rw [show some (entry k b).value = (some b.value).map (· + k) from rfl,
        show (entry k a).value = a.value + k from rfl, isBetter_plus]
      rfl

theorem sort_plus (t : ObjType) (srt : Sorter) (s : Storage) :
    (population k s).sort t srt = (s.sort t srt).map (population k) := by
  unfold Storage.sort population
  simp only [List.length_map, less_plus]
  split <;> rfl

theorem index_plus (s : Storage) (i : Nat) : (population k s).index i = s.index i := rfl

theorem entry_plus (s : Storage) (i : Nat) : (population k s).entry i = (s.entry i).map (entry k) := by
  unfold Storage.entry population
  simp only [List.getElem?_map]
  cases s.data[i]? <;> rfl

theorem replace_plus (s : Storage) (i : Nat) (e : Optimizer.Entry) :
    (population k s).replace i (entry k e) = (s.replace i e).map (population k) := by
  unfold Storage.replace population
  simp only [List.length_map, ← List.map_set]
  split <;> rfl

theorem insert_plus (t : ObjType) (c : Evict) (e : Optimizer.Entry) (s : Storage) :
    (population k s).insert t c (entry k e) = (s.insert t c e).map (population k) := by
  unfold Storage.insert
  rw [index_plus]
  cases s.index c.pick with
  | error e => rfl
  | ok id =>
    simp only [ok_bind, replace_plus]
    cases s.replace id e with
    | error e => rfl
    | ok s => exact sort_plus k t c.srt s

/-- The setting with the objective `o + k`. -/
def setting (g : Optimizer.Setting) : Optimizer.Setting := { g with o := plusConstant k g.o }

/-- A worker. -/
def worker (w : Worker) : Worker := { w with storage := population k w.storage }

variable (g : Optimizer.Setting)

theorem tryAdvance_plus (c : Evict) (x : Assign) (remaining : Nat) (s : Storage) :
    tryAdvance (setting k g) c x remaining (population k s) =
      (tryAdvance g c x remaining s).map (population k) := by
  unfold tryAdvance
  have h : canAdvance (population k s) ((setting k g).hash x) remaining = canAdvance s (g.hash x) remaining := by
    unfold canAdvance population
    simp only [List.all_map]
    rfl
  rw [h]
  split
  · have := insert_plus k g.t c ⟨x, results g.o x, g.hash x, remaining⟩ s
    rw [← this]
    unfold entry
    rw [show (setting k g).o = plusConstant k g.o from rfl, results_plus]
    rfl
  · rfl

theorem tryUpdate_plus (c : Evict) (x : Assign) (v : Rat) (s : Storage) :
    tryUpdate (setting k g) c x (v + k) (population k s) = (tryUpdate g c x v s).map (population k) := by
  unfold tryUpdate
  have h : canUpdate (population k s) ((setting k g).hash x) (v + k) = canUpdate s (g.hash x) v := by
    unfold canUpdate population
    simp only [List.all_map]
    congr 1
    funext e
    show (!(decide (e.remaining = 0) && decide (e.value + k = v + k) && _)) = _
    simp only [add_left_inj]
    rfl
  rw [h]
  split
  · exact insert_plus k g.t c ⟨x, v, g.hash x, 0⟩ s
  · rfl

theorem make_population (srt : Sorter) (init : List Assign) :
    Storage.make (setting k g) srt init = (Storage.make g srt init).map (population k) := by
  have hd : (init.map fun x => (⟨x, results (setting k g).o x, (setting k g).hash x,
        countViolated x (setting k g).csts⟩ : Optimizer.Entry)) =
      (init.map fun x => (⟨x, results g.o x, g.hash x, countViolated x g.csts⟩ : Optimizer.Entry)).map (entry k) := by
    rw [List.map_map]
    refine List.map_congr_left ?_
    intro x _
    show (⟨x, results (plusConstant k g.o) x, _, _⟩ : Optimizer.Entry) = ⟨x, results g.o x + k, _, _⟩
    rw [results_plus]
    rfl
  unfold Storage.make
  rw [hd]
  exact sort_plus k g.t srt { indices := List.range init.length, data := init.map fun x =>
    ⟨x, results g.o x, g.hash x, countViolated x g.csts⟩ }

theorem crossover_plus (c : Cross) (x : Assign) (s : Storage) :
    crossover (setting k g) c x (population k s) =
      (crossover g c x s).map fun q => (q.1, population k q.2) := by
  cases c with
  | mix first second mask =>
    simp only [crossover, index_plus, entry_plus]
    cases s.index first with
    | error e => rfl
    | ok i =>
      simp only [ok_bind]
      cases s.index second with
      | error e => rfl
      | ok j =>
        simp only [ok_bind]
        cases s.entry i with
        | error e => rfl
        | ok a =>
          show (Except.map _ (s.entry j) >>= _) = Except.map _ (s.entry j >>= _)
          cases s.entry j <;> rfl
  | mixBastert first mask =>
    simp only [crossover, index_plus, entry_plus]
    cases s.index first with
    | error e => rfl
    | ok i =>
      simp only [ok_bind]
      cases s.entry i <;> rfl
  | putBastert first =>
    simp only [crossover, index_plus, entry_plus]
    cases s.index first with
    | error e => rfl
    | ok i =>
      simp only [ok_bind]
      cases s.entry i with
      | error e => rfl
      | ok a =>
        simp only [Except.map, ok_bind]
        have h := replace_plus k s i { a with x := g.bastert }
        rw [show entry k ({ a with x := g.bastert } : Optimizer.Entry) =
          { entry k a with x := (setting k g).bastert } from rfl] at h
        rw [h]
        cases s.replace i { a with x := g.bastert } <;> rfl
  | mixRandom first random mask =>
    simp only [crossover, index_plus, entry_plus]
    cases s.index first with
    | error e => rfl
    | ok i =>
      simp only [ok_bind]
      cases s.entry i <;> rfl
  | putRandom first random =>
    simp only [crossover, index_plus, entry_plus]
    cases s.index first with
    | error e => rfl
    | ok i =>
      simp only [ok_bind]
      cases s.entry i with
      | error e => rfl
      | ok a =>
        simp only [Except.map, ok_bind]
        have h := replace_plus k s i { a with x := random }
        rw [show entry k ({ a with x := random } : Optimizer.Entry) = { entry k a with x := random } from rfl] at h
        rw [h]
        cases s.replace i { a with x := random } <;> rfl

theorem reinit_plus (c : Call ρ) (w : Worker) :
    reinit (setting k g) c (worker k w) = (reinit g c w).map (worker k) := by
  unfold reinit
  cases c.cross with
  | none => rfl
  | some q =>
    show (crossover (setting k g) q w.x (population k w.storage) >>= _) = Except.map _ (crossover g q w.x w.storage >>= _)
    rw [crossover_plus]
    cases crossover g q w.x w.storage <;> rfl

theorem update_plus (c : Call ρ) (w : Worker) :
    Worker.update (setting k g) c (worker k w) = (w.update g c).map (worker k) := by
  unfold Worker.update
  rw [show (setting k g).o = plusConstant k g.o from rfl, results_plus, show (worker k w).storage =
    population k w.storage from rfl, show (worker k w).x = w.x from rfl, show (worker k w).passes = w.passes from rfl,
    tryUpdate_plus]
  cases tryUpdate g (c.evict w.passes) w.x (results g.o w.x) w.storage <;> rfl

variable (s : Slv) (upd : ρ → Nat → Assign → Outcome Assign) (c : Call ρ)

theorem workLoop_plus : ∀ (n : Nat) (w : Worker) (b : Option Nat),
    Optimizer.mainLoop (setting k g) s upd c n (worker k w) b =
      (Optimizer.mainLoop g s upd c n w b).map fun q => (worker k q.1, q.2)
  | 0, w, b => rfl
  | n + 1, w, b => by
    unfold Optimizer.mainLoop
    rw [show (worker k w).passes = w.passes from rfl, show (worker k w).compute = w.compute from rfl,
      show (worker k w).x = w.x from rfl]
    split
    · rfl
    · cases run s upd (c.pass w.passes) w.compute w.x with
      | error e => rfl
      | ok q =>
        obtain ⟨remaining, cmp, x⟩ := q
        simp only [ok_bind]
        rw [show (worker k w).pass cmp x = worker k (w.pass cmp x) from rfl]
        split
        · rw [update_plus]
          cases (w.pass cmp x).update g c <;> rfl
        · rw [show (worker k (w.pass cmp x)).passes = (w.pass cmp x).passes from rfl]
          split
          · rfl
          · exact workLoop_plus n (w.pass cmp x) _

theorem workInner_plus : ∀ (n : Nat) (w : Worker),
    Optimizer.pushInner (setting k g) s upd c n (worker k w) = (Optimizer.pushInner g s upd c n w).map (worker k)
  | 0, w => rfl
  | n + 1, w => by
    unfold Optimizer.pushInner
    rw [show (worker k w).passes = w.passes from rfl, show (worker k w).compute = w.compute from rfl,
      show (worker k w).x = w.x from rfl]
    split
    · rfl
    · cases run s upd (c.pass w.passes) w.compute w.x with
      | error e => rfl
      | ok q =>
        obtain ⟨remaining, cmp, x⟩ := q
        simp only [ok_bind]
        rw [show (worker k w).pass cmp x = worker k (w.pass cmp x) from rfl]
        split
        · exact update_plus k g c _
        · rw [show (worker k (w.pass cmp x)).passes = (w.pass cmp x).passes from rfl]
          split
          · rfl
          · exact workInner_plus n (w.pass cmp x)

theorem workPush_plus (iters : Nat) : ∀ (n : Nat) (w : Worker),
    Optimizer.pushLoop (setting k g) s upd c iters n (worker k w) =
      (Optimizer.pushLoop g s upd c iters n w).map (worker k)
  | 0, w => rfl
  | n + 1, w => by
    unfold Optimizer.pushLoop
    rw [show (worker k w).passes = w.passes from rfl, show (worker k w).compute = w.compute from rfl,
      show (worker k w).x = w.x from rfl]
    split
    · rfl
    · cases pushAndRun s upd (c.pass w.passes) w.compute w.x with
      | error e => rfl
      | ok q =>
        obtain ⟨remaining, cmp, x⟩ := q
        simp only [ok_bind]
        rw [show (worker k w).pass cmp x = worker k (w.pass cmp x) from rfl]
        have h : ∀ w1 : Worker, (do
              let w ← Optimizer.pushInner (setting k g) s upd c iters (worker k w1)
              Optimizer.pushLoop (setting k g) s upd c iters n w) = Except.map (worker k) (do
              let w ← Optimizer.pushInner g s upd c iters w1
              Optimizer.pushLoop g s upd c iters n w) := by
          intro w1
          rw [workInner_plus]
          cases Optimizer.pushInner g s upd c iters w1 with
          | error e => rfl
          | ok w2 => exact workPush_plus iters n w2
        split
        · rw [update_plus]
          cases (w.pass cmp x).update g c with
          | error e => rfl
          | ok w1 => exact h w1
        · exact h _

theorem call_plus (p : Params) (w : Worker) :
    Optimizer.call (setting k g) s upd p c (worker k w) = (Optimizer.call g s upd p c w).map (worker k) := by
  unfold Optimizer.call
  rw [show ({ worker k w with passes := 0 } : Worker) = worker k { w with passes := 0 } from rfl, reinit_plus]
  cases reinit g c { w with passes := 0 } with
  | error e => rfl
  | ok w1 =>
    simp only [Except.map, ok_bind]
    rw [show (worker k w1).compute = w1.compute from rfl, show (worker k w1).x = w1.x from rfl]
    cases w1.compute.init s w1.x with
    | error e => rfl
    | ok cmp =>
      simp only [ok_bind]
      have h := workLoop_plus k g s upd c p.limit { w1 with compute := cmp } none
      rw [show Optimizer.mainLoop (setting k g) s upd c p.limit
        (⟨(worker k w1).storage, w1.x, cmp, (worker k w1).passes, (worker k w1).trace⟩ : Worker) none = _ from h]
      cases Optimizer.mainLoop g s upd c p.limit { w1 with compute := cmp } none with
      | error e => rfl
      | ok q =>
        obtain ⟨w2, b⟩ := q
        simp only [Except.map, ok_bind]
        split
        · exact workPush_plus k g s upd c p.pushIter p.pushes w2
        · rw [show (worker k w2).storage = population k w2.storage from rfl,
            show (worker k w2).passes = w2.passes from rfl, show (worker k w2).x = w2.x from rfl, tryAdvance_plus]
          cases tryAdvance g (c.evict w2.passes) w2.x (b.getD Optimizer.intMax) w2.storage <;> rfl

theorem calls_plus (p : Params) : ∀ (cs : List (Call ρ)) (w : Worker),
    Optimizer.calls (setting k g) s upd p cs (worker k w) = (Optimizer.calls g s upd p cs w).map (worker k)
  | [], w => rfl
  | c :: cs, w => by
    unfold Optimizer.calls
    rw [call_plus]
    cases Optimizer.call g s upd p c w with
    | error e => rfl
    | ok w1 => exact calls_plus p cs w1

theorem best_plus (s : Storage) (i : Nat) : (population k s).best i = (s.best i).map (entry k) := by
  unfold Storage.best
  rw [index_plus]
  cases s.index i with
  | error e => rfl
  | ok id => exact entry_plus k s id

theorem worstFrom_plus (s : Storage) : ∀ (ids : List Nat) (last : Nat),
    worstFrom (population k s) ids last = worstFrom s ids last
  | [], last => rfl
  | id :: ids, last => by
    unfold worstFrom
    rw [entry_plus]
    cases s.entry id with
    | error e => rfl
    | ok e =>
      show (if (entry k e).isSolution then _ else _) = if e.isSolution then _ else _
      rw [show (entry k e).isSolution = e.isSolution from rfl, worstFrom_plus s ids]

theorem worst_plus (s : Storage) : (population k s).worst = s.worst.map (entry k) := by
  unfold Storage.worst
  rw [worstFrom_plus, show (population k s).indices = s.indices from rfl]
  cases worstFrom s (s.indices.drop 1) 1 with
  | error e => rfl
  | ok id => exact entry_plus k s id

theorem report_plus (st : StorageType) (pb : Problem) (m : Nat) (s : Storage) :
    report st (plus k pb) m (population k s) = (report st pb m s).map (valuesPlus k) := by
  unfold report
  rw [best_plus]
  cases s.best 0 with
  | error e => rfl
  | ok b0 =>
    simp only [Except.map, ok_bind]
    cases st with
    | one => rfl
    | bound =>
      simp only [worst_plus]
      cases s.worst <;> rfl
    | five =>
      simp only [best_plus]
      cases s.best 1 with
      | error e => rfl
      | ok b1 =>
        simp only [Except.map, ok_bind]
        cases s.best 2 with
        | error e => rfl
        | ok b2 =>
          simp only [ok_bind]
          cases s.best 3 with
          | error e => rfl
          | ok b3 =>
            simp only [ok_bind]
            cases s.best 4 <;> rfl

theorem report_told {st : StorageType} {pb : Problem} {m : Nat} {s : Storage} {r : Result}
    (h : report st pb m s = .ok r) : Told r := by
  unfold report at h
  obtain ⟨b0, _, h⟩ := bind_eq_ok.mp h
  have hr : r.remaining = b0.remaining ∧ (r.status = if b0.isSolution then .success else .timeLimitReached) ∧
      r.solutions ≠ [] := by
    cases st with
    | one =>
      rw [← Except.ok.inj h]
      exact ⟨rfl, rfl, List.cons_ne_nil _ _⟩
    | bound =>
      obtain ⟨_, _, h⟩ := bind_eq_ok.mp h
      rw [← Except.ok.inj h]
      exact ⟨rfl, rfl, List.cons_ne_nil _ _⟩
    | five =>
      obtain ⟨_, _, h⟩ := bind_eq_ok.mp h
      obtain ⟨_, _, h⟩ := bind_eq_ok.mp h
      obtain ⟨_, _, h⟩ := bind_eq_ok.mp h
      obtain ⟨_, _, h⟩ := bind_eq_ok.mp h
      obtain ⟨_, _, h⟩ := bind_eq_ok.mp h
      rw [← Except.ok.inj h]
      exact ⟨rfl, rfl, List.cons_ne_nil _ _⟩
  refine ⟨?_, fun _ => hr.2.2⟩
  intro h0
  rw [hr.2.1, if_pos]
  exact decide_eq_true (hr.1.symm.trans h0)

end

open Twice in
theorem optimizeProblem_plus (kind : SolverType) (upd : Slv → ρ → Nat → Assign → Outcome Assign) (s : Sorts)
    (o : Order) (ch : Optimizer.Choices ρ) (p : Params) (st : Optimizer.StorageType) (pb : Problem) :
    Both (fun a b => b = valuesPlus k a ∧ Told a) (Optimizer.optimizeProblem kind upd s o ch p st pb)
      (Optimizer.optimizeProblem kind upd s o ch p st (plus k pb)) := by
  unfold Optimizer.optimizeProblem
  rw [make_plus]
  refine Both.bind (Both.refl _) ?_
  rintro csts _ rfl
  rw [show (plus k pb).values = pb.values from rfl]
  split
  · exact .inr ⟨_, _, rfl, rfl, rfl, fun _ => rfl, fun _ => List.cons_ne_nil _ _⟩
  · unfold Optimizer.optimizeMerged
    rw [show makeCost (plus k pb).objective (plus k pb).values.length = makeCost pb.objective pb.values.length from rfl,
      show (plus k pb).values = pb.values from rfl]
    cases makeCost pb.objective pb.values.length with
    | error e => exact .inl ⟨e, rfl, rfl⟩
    | ok _ =>
      simp only [ok_bind]
      rw [show (⟨(plus k pb).type, (plus k pb).objective, csts, ch.bastert, ch.hash⟩ : Optimizer.Setting) =
        setting k ⟨pb.type, pb.objective, csts, ch.bastert, ch.hash⟩ from rfl, make_population]
      cases Optimizer.Storage.make ⟨pb.type, pb.objective, csts, ch.bastert, ch.hash⟩ ch.srt ch.init with
      | error e => exact .inl ⟨e, rfl, rfl⟩
      | ok storage =>
        simp only [Except.map, ok_bind]
        cases makeSlv kind csts pb.values.length with
        | error e => exact .inl ⟨e, rfl, rfl⟩
        | ok sl =>
          simp only [ok_bind]
          have h := calls_plus k ⟨pb.type, pb.objective, csts, ch.bastert, ch.hash⟩ sl (upd sl) p ch.calls
            { storage := storage, x := fun _ => false, compute := Compute.make p.order pb.values.length }
          unfold worker at h
          dsimp only at h
          rw [h]
          cases Optimizer.calls ⟨pb.type, pb.objective, csts, ch.bastert, ch.hash⟩ sl (upd sl) p ch.calls
            { storage := storage, x := fun _ => false, compute := Compute.make p.order pb.values.length } with
          | error e => exact .inl ⟨e, rfl, rfl⟩
          | ok w =>
            simp only [Except.map, ok_bind]
            rw [report_plus]
            cases hr : Optimizer.report st pb csts.length w.storage with
            | error e => exact .inl ⟨e, rfl, rfl⟩
            | ok r => exact .inr ⟨_, _, rfl, rfl, rfl, report_told hr⟩

open Twice in
theorem itm_plus (upd : Engine → Slv → ρ → Nat → Assign → Outcome Assign) (w : World ρ) (c : Ctx) (opt : Bool)
    (pb : Problem) : Both (fun a b => DifferBy k a b ∧ Told a) (itm (execute upd w) c opt pb)
      (itm (execute upd w) c opt (plus k pb)) := by
  unfold itm
  rw [show (plus k pb).ptype = pb.ptype from rfl]
  cases choose c.solver c.method opt pb.ptype with
  | none => exact .inr ⟨_, _, rfl, rfl, .inl rfl, fun h => (by cases h), fun h => (by cases h)⟩
  | some p =>
    simp only [execute]
    split
    · exact (optimizeProblem_plus k _ _ _ _ _ _ _ pb).mono fun a b h => ⟨.inl h.1, h.2⟩
    · exact solveProblem_plus k _ _ _ _ _ _ pb

end Bx.Constant
