import Verif.Model.Workers
import Verif.Proofs.ConstantRun
import Verif.Proofs.Rename
import Verif.Proofs.TwiceRun

/-! # Lemmas for C137, C138 and C139: the optimizer with several workers -/

namespace Bx.Rename

open Spec Itm

variable {f : String → String} {g : String → String} {ρ : Type}

theorem crewProblem_rename (kind : SolverType) (u : Slv → ρ → Nat → Assign → Outcome Assign) (s : Merge.Sorts)
    (o : Merge.Order) (threads : Nat) (ch : Optimizer.Crew ρ) (p : Params) (st : Optimizer.StorageType)
    (pb : Problem) :
    Optimizer.crewProblem kind u s o threads ch p st (renameProblem f g pb) =
      (Optimizer.crewProblem kind u s o threads ch p st pb).map (renameResult f) := by
  unfold Optimizer.crewProblem
  rw [make_rename]
  cases Merge.make s o pb with
  | error e => rfl
  | ok cs =>
    simp only [ok_bind]
    by_cases h : cs = [] ∨ pb.values = []
    · rw [if_pos h, if_pos (show cs = [] ∨ (renameProblem f g pb).values = [] from h)]
      rfl
    · rw [if_neg h, if_neg (show ¬ (cs = [] ∨ (renameProblem f g pb).values = []) from h)]
      unfold Optimizer.crewMerged
      simp only [report_rename]
      show ((makeCost pb.objective pb.values.length >>= _) >>= _) = _
      cases makeCost pb.objective pb.values.length with
      | error e => rfl
      | ok _ =>
      simp only [ok_bind]
      show ((Optimizer.Storage.make ⟨pb.type, pb.objective, cs, ch.bastert, ch.hash⟩ ch.srt ch.init >>= _) >>= _) = _
      cases Optimizer.Storage.make ⟨pb.type, pb.objective, cs, ch.bastert, ch.hash⟩ ch.srt ch.init with
      | error e => rfl
      | ok storage =>
      simp only [ok_bind]
      show ((makeSlv kind cs pb.values.length >>= _) >>= _) = _
      cases makeSlv kind cs pb.values.length with
      | error e => rfl
      | ok slv =>
      simp only [ok_bind]
      show ((Optimizer.Pool.steps ⟨pb.type, pb.objective, cs, ch.bastert, ch.hash⟩ slv (u slv) p ch.schedule
        ⟨storage, (List.range threads).map fun i =>
          { todo := ch.calls i, x := fun _ => false
            compute := Compute.make p.order pb.values.length }⟩ >>= _) >>= _) = _
      cases Optimizer.Pool.steps ⟨pb.type, pb.objective, cs, ch.bastert, ch.hash⟩ slv (u slv) p ch.schedule
        ⟨storage, (List.range threads).map fun i =>
          { todo := ch.calls i, x := fun _ => false
            compute := Compute.make p.order pb.values.length }⟩ with
      | error e => rfl
      | ok q =>
      simp only [ok_bind]
      split
      · cases Optimizer.report st pb cs.length q.storage <;> rfl
      · rfl

end Bx.Rename

namespace Bx.Twice

open Spec Merge Itm

variable {φ : Int → Int} {ρ : Type}

theorem step_csts (a b : List Merged) (t : ObjType) (o : Objective) (x : Assign) (hash : Assign → Nat) (s : Slv)
    (upd : ρ → Nat → Assign → Outcome Assign) (p : Params) (l : Optimizer.Local ρ) (st : Optimizer.Storage) :
    l.step ⟨t, o, b, x, hash⟩ s upd p st = l.step ⟨t, o, a, x, hash⟩ s upd p st := rfl

theorem steps_csts (a b : List Merged) (t : ObjType) (o : Objective) (x : Assign) (hash : Assign → Nat) (s : Slv)
    (upd : ρ → Nat → Assign → Outcome Assign) (p : Params) : ∀ (is : List Nat) (q : Optimizer.Pool ρ),
    Optimizer.Pool.steps ⟨t, o, b, x, hash⟩ s upd p is q = Optimizer.Pool.steps ⟨t, o, a, x, hash⟩ s upd p is q
  | [], _ => rfl
  | i :: is, q => by
    simp only [Optimizer.Pool.steps, Optimizer.Pool.step, step_csts a b, steps_csts a b t o x hash s upd p is]

variable {s : Sorts} {o : Order} {pb pb' : Problem} (h : SameMerge s o pb pb')
include h

theorem crewProblem_same (kind : SolverType) (u : Slv → ρ → Nat → Assign → Outcome Assign)
    (threads : Nat) (ch : Optimizer.Crew ρ) (p : Params) (st : Optimizer.StorageType) :
    Optimizer.crewProblem kind u s o threads ch p st pb' = Optimizer.crewProblem kind u s o threads ch p st pb := by
  unfold Optimizer.crewProblem
  rcases h.make with ⟨e, h1, h2⟩ | ⟨a, b, h1, h2, hab⟩
  · rw [h1, h2]; rfl
  · rw [h1, h2, ok_bind, ok_bind]
    have hr := h.rest
    have e1 : pb'.values = pb.values := by rw [hr]
    have e2 : pb'.names = pb.names := by rw [hr]
    have e3 : pb'.type = pb.type := by rw [hr]
    have e4 : pb'.affected = pb.affected := by rw [hr]
    have e5 : pb'.objective = pb.objective := by rw [hr]
    have e6 : ∀ m s, Optimizer.report st pb' m s = Optimizer.report st pb m s := by
      rw [hr]; intro m s; rfl
    unfold Optimizer.crewMerged
    simp only [e1, e2, e3, e4, e5, e6, hab.nil, hab.makeSlv, hab.length, storage_csts hab, steps_csts a b]

end Bx.Twice

namespace Bx.Constant

open Spec Itm Merge Optimizer

variable {ρ : Type} (k : Rat)

/-- A place in the work of a worker. -/
def place : At ρ → At ρ
  | .insert c e next => .insert c (entry k e) next
  | a => a

/-- A worker of the crew. -/
def mate (l : Local ρ) : Local ρ := { l with pc := place k l.pc }

/-- The crew. -/
def pool (q : Pool ρ) : Pool ρ := ⟨population k q.storage, q.workers.map (mate k)⟩

variable (g : Optimizer.Setting)

theorem canUpdate_plus (hash : Nat) (v : Rat) (s : Storage) :
    canUpdate (population k s) hash (v + k) = canUpdate s hash v := by
  unfold canUpdate population
  simp only [List.all_map]
  congr 1
  funext e
  show (!(decide (e.remaining = 0) && decide (e.value + k = v + k) && _)) = _
  simp only [add_left_inj]
  rfl

theorem canAdvance_plus (hash remaining : Nat) (s : Storage) :
    canAdvance (population k s) hash remaining = canAdvance s hash remaining := by
  unfold canAdvance population
  simp only [List.all_map]
  rfl

theorem place_next (c : Call ρ) (next : Next) : place k (next.at c) = next.at c := by cases next <;> rfl

theorem mate_ite (l : Local ρ) (b : Bool) {a a' : At ρ} (ha : place k a = a) (ha' : place k a' = a') :
    ({ l with pc := if b then a else a' } : Local ρ) = mate k { l with pc := if b then a else a' } := by
  unfold mate
  cases b
  · exact congrArg (fun a => ({ l with pc := a } : Local ρ)) ha'.symm
  · exact congrArg (fun a => ({ l with pc := a } : Local ρ)) ha.symm

theorem offer_plus (c : Call ρ) (next : Next) (st : Storage) (l : Local ρ) :
    Local.offer (setting k g) c next (population k st) (mate k l) = mate k (l.offer g c next st) := by
  unfold Local.offer
  rw [show (setting k g).o = plusConstant k g.o from rfl, results_plus, show (mate k l).x = l.x from rfl,
    canUpdate_plus, show (setting k g).hash = g.hash from rfl]
  split
  · rfl
  · simp only [mate, place_next]

variable (s : Slv) (upd : ρ → Nat → Assign → Outcome Assign) (p : Params)

theorem localStep_plus (l : Local ρ) (st : Storage) :
    (mate k l).step (setting k g) s upd p (population k st) =
      (l.step g s upd p st).map fun q => (mate k q.1, population k q.2) := by
  obtain ⟨pc, todo, x, compute, passes, trace⟩ := l
  cases pc with
  | turn =>
    cases todo with
    | nil => rfl
    | cons c cs =>
      simp only [mate, place, Local.step]
      cases c.cross with
      | none =>
        simp only [ok_bind]
        cases compute.init s (c.mutate x) <;> rfl
      | some q =>
        simp only [crossover_plus]
        cases crossover g q x st with
        | error e => rfl
        | ok r =>
          simp only [Except.map, ok_bind]
          cases compute.init s (c.mutate r.1) <;> rfl
  | main c n best =>
    cases n with
    | zero => rfl
    | succ n =>
      show Local.step (setting k g) s upd p ⟨.main c (n + 1) best, todo, x, compute, passes, trace⟩ (population k st) = _
      simp only [Local.step]
      by_cases hst : c.stopMain passes = true
      · rw [if_pos hst, if_pos hst]; rfl
      · rw [if_neg hst, if_neg hst]
        cases run s upd (c.pass passes) compute x with
        | error e => rfl
        | ok q =>
          obtain ⟨remaining, cmp, x⟩ := q
          simp only [ok_bind]
          by_cases hr : remaining = 0
          · rw [if_pos hr, if_pos hr]
            exact congrArg (fun l => Except.ok (l, _)) (offer_plus k g c _ st
              (Local.pass ⟨.main c (n + 1) best, todo, _, compute, passes, trace⟩ cmp x))
          · rw [if_neg hr, if_neg hr]
            exact congrArg (fun l => Except.ok (l, population k st)) (mate_ite k (Local.pass _ cmp x) _ rfl rfl)
  | advance c best =>
    show Local.step (setting k g) s upd p ⟨.advance c best, todo, x, compute, passes, trace⟩ (population k st) = _
    simp only [Local.step, canAdvance_plus, show (setting k g).hash = g.hash from rfl,
      show (setting k g).o = plusConstant k g.o from rfl, results_plus]
    cases canAdvance st (g.hash x) (best.getD intMax) <;> rfl
  | pushes c n =>
    cases n with
    | zero => rfl
    | succ n =>
      show Local.step (setting k g) s upd p ⟨.pushes c (n + 1), todo, x, compute, passes, trace⟩ (population k st) = _
      simp only [Local.step]
      by_cases hst : c.stopPush passes = true
      · rw [if_pos hst, if_pos hst]; rfl
      · rw [if_neg hst, if_neg hst]
        cases pushAndRun s upd (c.pass passes) compute x with
        | error e => rfl
        | ok q =>
          obtain ⟨remaining, cmp, x⟩ := q
          simp only [ok_bind]
          by_cases hr : remaining = 0
          · rw [if_pos hr, if_pos hr]
            exact congrArg (fun l => Except.ok (l, _)) (offer_plus k g c _ st
              (Local.pass ⟨.pushes c (n + 1), todo, _, compute, passes, trace⟩ cmp x))
          · rw [if_neg hr, if_neg hr]
            rfl
  | inner c n j =>
    cases j with
    | zero => rfl
    | succ j =>
      show Local.step (setting k g) s upd p ⟨.inner c n (j + 1), todo, x, compute, passes, trace⟩ (population k st) = _
      simp only [Local.step]
      by_cases hst : c.stopInner passes = true
      · rw [if_pos hst, if_pos hst]; rfl
      · rw [if_neg hst, if_neg hst]
        cases run s upd (c.pass passes) compute x with
        | error e => rfl
        | ok q =>
          obtain ⟨remaining, cmp, x⟩ := q
          simp only [ok_bind]
          by_cases hr : remaining = 0
          · rw [if_pos hr, if_pos hr]
            exact congrArg (fun l => Except.ok (l, _)) (offer_plus k g c _ st
              (Local.pass ⟨.inner c n (j + 1), todo, _, compute, passes, trace⟩ cmp x))
          · rw [if_neg hr, if_neg hr]
            exact congrArg (fun l => Except.ok (l, population k st)) (mate_ite k (Local.pass _ cmp x) _ rfl rfl)
  | insert c e next =>
    show Local.step (setting k g) s upd p ⟨.insert c (entry k e) next, todo, x, compute, passes, trace⟩
      (population k st) = _
    simp only [Local.step, show (setting k g).t = g.t from rfl, insert_plus]
    cases st.insert g.t (c.evict passes) e with
    | error e => rfl
    | ok st' =>
      show _ = Except.ok (mate k (⟨next.at c, todo, x, compute, passes, trace⟩ : Local ρ), population k st')
      unfold mate
      rw [place_next]
      rfl

theorem steps_plus : ∀ (is : List Nat) (q : Pool ρ),
    Pool.steps (setting k g) s upd p is (pool k q) = (Pool.steps g s upd p is q).map (pool k)
  | [], q => rfl
  | i :: is, q => by
    unfold Pool.steps
    have h : Pool.step (setting k g) s upd p (pool k q) i = (q.step g s upd p i).map (pool k) := by
      unfold Pool.step
      rw [show (pool k q).workers = q.workers.map (mate k) from rfl, List.getElem?_map]
      cases q.workers[i]? with
      | none => rfl
      | some l =>
        simp only [Option.map_some]
        rw [show (pool k q).storage = population k q.storage from rfl, localStep_plus]
        cases l.step g s upd p q.storage with
        | error e => rfl
        | ok r =>
          simp only [Except.map, ok_bind]
          unfold pool
          rw [List.map_set]
    rw [h]
    cases q.step g s upd p i with
    | error e => rfl
    | ok q1 => exact steps_plus is q1

theorem finished_plus (l : Local ρ) : (mate k l).finished = l.finished := by
  obtain ⟨pc, todo, x, compute, passes, trace⟩ := l
  cases pc <;> rfl

theorem crewProblem_plus (kind : SolverType) (upd : Slv → ρ → Nat → Assign → Outcome Assign) (s : Sorts)
    (o : Merge.Order) (threads : Nat) (ch : Crew ρ) (p : Params) (st : StorageType) (pb : Problem) :
    crewProblem kind upd s o threads ch p st (plus k pb) =
      (crewProblem kind upd s o threads ch p st pb).map (valuesPlus k) := by
  unfold crewProblem
  rw [make_plus]
  cases Merge.make s o pb with
  | error e => rfl
  | ok csts =>
    simp only [ok_bind]
    rw [show (plus k pb).values = pb.values from rfl]
    split
    · rfl
    · unfold crewMerged
      rw [show makeCost (plus k pb).objective (plus k pb).values.length = makeCost pb.objective pb.values.length from rfl,
        show (plus k pb).values = pb.values from rfl]
      cases makeCost pb.objective pb.values.length with
      | error e => rfl
      | ok _ =>
        simp only [ok_bind]
        rw [show (⟨(plus k pb).type, (plus k pb).objective, csts, ch.bastert, ch.hash⟩ : Optimizer.Setting) =
          setting k ⟨pb.type, pb.objective, csts, ch.bastert, ch.hash⟩ from rfl, make_population]
        cases Optimizer.Storage.make ⟨pb.type, pb.objective, csts, ch.bastert, ch.hash⟩ ch.srt ch.init with
        | error e => rfl
        | ok storage =>
          simp only [Except.map, ok_bind]
          cases makeSlv kind csts pb.values.length with
          | error e => rfl
          | ok sl =>
            simp only [ok_bind]
            have h := steps_plus k ⟨pb.type, pb.objective, csts, ch.bastert, ch.hash⟩ sl (upd sl) p ch.schedule
              ⟨storage, (List.range threads).map fun i =>
                { todo := ch.calls i, x := fun _ => false
                  compute := Compute.make p.order pb.values.length }⟩
            rw [show pool k ⟨storage, (List.range threads).map fun i =>
                ({ todo := ch.calls i, x := fun _ => false
                   compute := Compute.make p.order pb.values.length } : Local ρ)⟩ =
              ⟨population k storage, (List.range threads).map fun i =>
                { todo := ch.calls i, x := fun _ => false
                  compute := Compute.make p.order pb.values.length }⟩ by
                unfold pool
                rw [List.map_map]
                rfl] at h
            rw [h]
            cases Pool.steps ⟨pb.type, pb.objective, csts, ch.bastert, ch.hash⟩ sl (upd sl) p ch.schedule
              ⟨storage, (List.range threads).map fun i =>
                { todo := ch.calls i, x := fun _ => false
                  compute := Compute.make p.order pb.values.length }⟩ with
            | error e => rfl
            | ok q =>
              simp only [Except.map, ok_bind]
              rw [show (pool k q).workers.all Local.finished = q.workers.all Local.finished by
                unfold pool
                simp only [List.all_map]
                congr 1
                funext l
                exact finished_plus k l]
              split
              · rw [show (pool k q).storage = population k q.storage from rfl, report_plus]
                cases report st pb csts.length q.storage <;> rfl
              · rfl

end Bx.Constant
