import Verif.Proofs.TwiceMerge

/-! # Lemmas for C138: constraints written several times and the solvers -/

namespace Bx.Twice

open Spec Merge Dispatch Itm

variable {φ : Int → Int} {ρ : Type}

theorem ctors_strip (t : SolverType) : ∀ l : List Merged, ctors t (l.map strip) = ctors t l
  | [] => rfl
  | c :: cs => by
    rw [List.map_cons]
    unfold ctors
    rw [ctors_strip t cs]
    have : SolverCtor.ctor t (strip c) = SolverCtor.ctor t c := by cases t <;> rfl
    rw [this]

theorem matrix_strip (l : List Merged) (n : Nat) : Sparse.make (l.map strip) n = Sparse.make l n := by
  have : Sparse.accessors (l.map strip) = Sparse.accessors l := by
    unfold Sparse.accessors
    rw [List.zipIdx_map, List.flatMap_map]
    rfl
  unfold Sparse.make
  rw [this, List.length_map, List.map_map]
  rfl

theorem makeSlv_strip (t : SolverType) (l : List Merged) (n : Nat) : makeSlv t (l.map strip) n = makeSlv t l n := by
  have : reducedCostsSize (l.map strip) = reducedCostsSize l := by
    cases l with
    | nil => rfl
    | cons c cs =>
      simp only [List.map_cons, reducedCostsSize, List.foldl_map]
      rfl
  unfold makeSlv
  rw [matrix_strip, this, ctors_strip, List.map_map]
  rfl

theorem countViolated_strip (x : Assign) : ∀ l : List Merged,
    Optimizer.countViolated x (l.map strip) = Optimizer.countViolated x l
  | [] => rfl
  | c :: cs => by
    rw [List.map_cons]
    unfold Optimizer.countViolated
    rw [countViolated_strip x cs]
    rfl

theorem SameRows.makeSlv {a b : List Merged} (h : SameRows a b) (t : SolverType) (n : Nat) :
    Itm.makeSlv t b n = Itm.makeSlv t a n := by
  rw [← makeSlv_strip t b, ← makeSlv_strip t a, show b.map strip = a.map strip from h]

theorem SameRows.length {a b : List Merged} (h : SameRows a b) : b.length = a.length := by
  have := congrArg List.length (show b.map strip = a.map strip from h)
  simpa using this

theorem SameRows.nil {a b : List Merged} (h : SameRows a b) : b = [] ↔ a = [] := by
  rw [← List.length_eq_zero_iff, ← List.length_eq_zero_iff, h.length]

section
variable (a b : List Merged) (t : ObjType) (o : Objective) (x0 : Assign) (hash : Assign → Nat) (s : Slv)
  (upd : ρ → Nat → Assign → Outcome Assign) (c : Optimizer.Call ρ)

theorem tryUpdate_csts (e : Optimizer.Evict) (x : Assign) (v : Rat) (st : Optimizer.Storage) :
    Optimizer.tryUpdate ⟨t, o, b, x0, hash⟩ e x v st = Optimizer.tryUpdate ⟨t, o, a, x0, hash⟩ e x v st := rfl

theorem tryAdvance_csts (e : Optimizer.Evict) (x : Assign) (k : Nat) (st : Optimizer.Storage) :
    Optimizer.tryAdvance ⟨t, o, b, x0, hash⟩ e x k st = Optimizer.tryAdvance ⟨t, o, a, x0, hash⟩ e x k st := rfl

theorem reinit_csts (w : Optimizer.Worker) :
    Optimizer.reinit ⟨t, o, b, x0, hash⟩ c w = Optimizer.reinit ⟨t, o, a, x0, hash⟩ c w := rfl

theorem update_csts (w : Optimizer.Worker) :
    Optimizer.Worker.update ⟨t, o, b, x0, hash⟩ c w = Optimizer.Worker.update ⟨t, o, a, x0, hash⟩ c w := rfl

theorem mainLoop_csts : ∀ (n : Nat) (w : Optimizer.Worker) (best : Option Nat),
    Optimizer.mainLoop ⟨t, o, b, x0, hash⟩ s upd c n w best = Optimizer.mainLoop ⟨t, o, a, x0, hash⟩ s upd c n w best
  | 0, _, _ => rfl
  | n + 1, w, best => by
    simp only [Optimizer.mainLoop, update_csts a b, mainLoop_csts n]

theorem pushInner_csts : ∀ (n : Nat) (w : Optimizer.Worker),
    Optimizer.pushInner ⟨t, o, b, x0, hash⟩ s upd c n w = Optimizer.pushInner ⟨t, o, a, x0, hash⟩ s upd c n w
  | 0, _ => rfl
  | n + 1, w => by
    simp only [Optimizer.pushInner, update_csts a b, pushInner_csts n]

theorem pushLoop_csts (k : Nat) : ∀ (n : Nat) (w : Optimizer.Worker),
    Optimizer.pushLoop ⟨t, o, b, x0, hash⟩ s upd c k n w = Optimizer.pushLoop ⟨t, o, a, x0, hash⟩ s upd c k n w
  | 0, _ => rfl
  | n + 1, w => by
    simp only [Optimizer.pushLoop, update_csts a b, pushInner_csts a b, pushLoop_csts k n]

theorem call_csts (p : Params) (w : Optimizer.Worker) :
    Optimizer.call ⟨t, o, b, x0, hash⟩ s upd p c w = Optimizer.call ⟨t, o, a, x0, hash⟩ s upd p c w := by
  simp only [Optimizer.call, reinit_csts a b, mainLoop_csts a b, pushLoop_csts a b, tryAdvance_csts a b]

end

theorem calls_csts (a b : List Merged) (t : ObjType) (o : Objective) (x : Assign) (hash : Assign → Nat) (s : Slv)
    (upd : ρ → Nat → Assign → Outcome Assign) (p : Params) : ∀ (cs : List (Optimizer.Call ρ)) (w : Optimizer.Worker),
    Optimizer.calls ⟨t, o, b, x, hash⟩ s upd p cs w = Optimizer.calls ⟨t, o, a, x, hash⟩ s upd p cs w
  | [], _ => rfl
  | c :: cs, w => by
    unfold Optimizer.calls
    rw [call_csts a b]
    cases Optimizer.call ⟨t, o, a, x, hash⟩ s upd p c w with
    | error e => rfl
    | ok w' => exact calls_csts a b t o x hash s upd p cs w'

theorem storage_csts {a b : List Merged} (h : SameRows a b) (t : ObjType) (o : Objective) (x : Assign)
    (hash : Assign → Nat) (srt : Optimizer.Sorter) (init : List Assign) :
    Optimizer.Storage.make ⟨t, o, b, x, hash⟩ srt init = Optimizer.Storage.make ⟨t, o, a, x, hash⟩ srt init := by
  have hc : ∀ x, Optimizer.countViolated x b = Optimizer.countViolated x a := fun x => by
    rw [← countViolated_strip x b, ← countViolated_strip x a, show b.map strip = a.map strip from h]
  unfold Optimizer.Storage.make
  simp only [hc]

/-- The same problem, whose constraints have the same merged constraints in the order `o`. -/
structure SameMerge (s : Sorts) (o : Order) (pb pb' : Problem) : Prop where
  rest : pb' = { pb with eqs := pb'.eqs, ges := pb'.ges, les := pb'.les }
  make : Both SameRows (Merge.make s o pb) (Merge.make s o pb')

theorem Rel.merge {s : Sorts} (hs : s.Ok) (hφ : StrictMono φ) {pb pb' : Problem} (h : Rel φ pb pb')
    (hd : DistinctNumbers pb.eqs pb.ges pb.les) (o : Order) : SameMerge s o pb pb' :=
  ⟨h.rest, make_both hs hφ o h hd⟩

variable {s : Sorts} {o : Order} {pb pb' : Problem} (h : SameMerge s o pb pb')
include h

theorem solveProblem_same (kind : SolverType) (u : Slv → ρ → Nat → Assign → Outcome Assign) (r : Run ρ)
    (p : Params) : solveProblem kind u s o r p pb' = solveProblem kind u s o r p pb := by
  unfold solveProblem
  rcases h.make with ⟨e, h1, h2⟩ | ⟨a, b, h1, h2, hab⟩
  · rw [h1, h2]; rfl
  · rw [h1, h2, ok_bind, ok_bind]
    have hr := h.rest
    have e1 : pb'.values = pb.values := by rw [hr]
    have e2 : pb'.names = pb.names := by rw [hr]
    have e3 : pb'.type = pb.type := by rw [hr]
    have e4 : pb'.affected = pb.affected := by rw [hr]
    have e5 : pb'.objective = pb.objective := by rw [hr]
    unfold solveMerged functor
    simp only [e1, e2, e3, e4, e5, ne_eq, hab.nil, hab.makeSlv, hab.length]

theorem optimizeProblem_same (kind : SolverType) (u : Slv → ρ → Nat → Assign → Outcome Assign)
    (ch : Optimizer.Choices ρ) (p : Params) (st : Optimizer.StorageType) :
    Optimizer.optimizeProblem kind u s o ch p st pb' = Optimizer.optimizeProblem kind u s o ch p st pb := by
  unfold Optimizer.optimizeProblem
  rcases h.make with ⟨e, h1, h2⟩ | ⟨a, b, h1, h2, hab⟩
  · rw [h1, h2]; rfl
  · rw [h1, h2, ok_bind, ok_bind]
    have hr := h.rest
    have e1 : pb'.values = pb.values := by rw [hr]
    have e2 : pb'.names = pb.names := by rw [hr]
    have e3 : pb'.type = pb.type := by rw [hr]
    have e4 : pb'.affected = pb.affected := by rw [hr]
    have e5 : pb'.objective = pb.objective := by rw [hr]
    have e6 : ∀ m s, Optimizer.report st pb' m s = Optimizer.report st pb m s := by
      rw [hr]; intro m s; rfl
    unfold Optimizer.optimizeMerged
    simp only [e1, e2, e3, e4, e5, e6, hab.nil, hab.makeSlv, hab.length, storage_csts hab, calls_csts a b]

theorem execute_same {upd : Engine → Slv → ρ → Nat → Assign → Outcome Assign} {w : World ρ} (hw : w.sorts = s)
    (ho : w.order = o) (p : Plan) : execute upd w p pb' = execute upd w p pb := by
  subst hw ho
  unfold execute
  rw [optimizeProblem_same h, solveProblem_same h]

theorem itm_same {upd : Engine → Slv → ρ → Nat → Assign → Outcome Assign} {w : World ρ} (hw : w.sorts = s)
    (ho : w.order = o) (c : Ctx) (opt : Bool) : itm (execute upd w) c opt pb' = itm (execute upd w) c opt pb := by
  have : pb'.ptype = pb.ptype := by rw [h.rest]
  unfold itm
  rw [this]
  cases choose c.solver c.method opt pb.ptype with
  | none => rfl
  | some p => exact execute_same h hw ho p

omit h

/-! ## The mode `branch` -/

/-- Problems that differ by constraints written several times, whose numbers are distinct. -/
structure RelD (φ : Int → Int) (pb pb' : Problem) : Prop where
  rel : Rel φ pb pb'
  ids : DistinctNumbers pb.eqs pb.ges pb.les

theorem Red.relD {pb0 pb pb' : Problem} (h : Red φ pb0 pb pb') (hd : DistinctNumbers pb0.eqs pb0.ges pb0.les) :
    RelD φ pb pb' := by
  refine ⟨h.rel, ?_⟩
  unfold DistinctNumbers at hd ⊢
  refine List.Sublist.nodup ?_ hd
  rw [List.map_append, List.map_append, List.map_append, List.map_append]
  exact List.Sublist.append (List.Sublist.append (h.ids .eq) (h.ids .ge)) (h.ids .le)

structure RelN (φ : Int → Int) (n n' : Branch.Node) : Prop where
  problem : RelD φ n.problem n'.problem
  solution : n'.solution = n.solution
  remaining : n'.remaining = n.remaining
  annoying : n'.annoying = n.annoying

theorem nodeLess_rel {a a' b b' : Branch.Node} (ha : RelN φ a a') (hb : RelN φ b b') :
    Branch.nodeLess a' b' = Branch.nodeLess a b := by
  have : a'.problem.type = a.problem.type := by rw [ha.problem.rel.rest]
  unfold Branch.nodeLess
  rw [ha.solution, ha.remaining, hb.solution, hb.remaining, this]

theorem findIdx_rel {a a' : Branch.Node} (ha : RelN φ a a') {l l' : List Branch.Node}
    (h : List.Forall₂ (RelN φ) l l') : l'.findIdx (Branch.nodeLess a') = l.findIdx (Branch.nodeLess a) := by
  induction h with
  | nil => rfl
  | cons hb _ ih => rw [List.findIdx_cons, List.findIdx_cons, nodeLess_rel ha hb, ih]

theorem insertIdx_rel {α : Type} {R : α → α → Prop} {a a' : α} (ha : R a a') : ∀ {l l' : List α} (i : Nat),
    List.Forall₂ R l l' → List.Forall₂ R (l.insertIdx i a) (l'.insertIdx i a')
  | _, _, 0, h => .cons ha h
  | _, _, i + 1, .nil => .nil
  | _, _, i + 1, .cons hb h => .cons hb (insertIdx_rel ha i h)

theorem eraseIdx_rel {α : Type} {R : α → α → Prop} : ∀ {l l' : List α} (i : Nat),
    List.Forall₂ R l l' → List.Forall₂ R (l.eraseIdx i) (l'.eraseIdx i)
  | _, _, _, .nil => .nil
  | _, _, 0, .cons _ h => h
  | _, _, i + 1, .cons hb h => .cons hb (eraseIdx_rel i h)

theorem emplace_rel {a a' : Branch.Node} (ha : RelN φ a a') {l l' : List Branch.Node}
    (h : List.Forall₂ (RelN φ) l l') (pos : Nat) :
    List.Forall₂ (RelN φ) (Branch.emplace a l pos).1 (Branch.emplace a' l' pos).1 ∧
      (Branch.emplace a' l' pos).2 = (Branch.emplace a l pos).2 := by
  unfold Branch.emplace
  rw [findIdx_rel ha h]
  exact ⟨insertIdx_rel ha _ h, rfl⟩

theorem split_both {pb pb' : Problem} (h : RelD φ pb pb') (v : Nat) :
    Both (fun q q' => RelD φ q.1 q'.1 ∧ RelD φ q.2 q'.2) (Preprocess.split pb v) (Preprocess.split pb' v) := by
  unfold Preprocess.split
  refine Both.bind (affect_both h.rel v true) ?_
  intro a a' ha
  refine Both.bind (affect_both h.rel v false) ?_
  intro b b' hb
  exact .inr ⟨_, _, rfl, rfl, ha.relD h.ids, hb.relD h.ids⟩

theorem body_both {inner : Nat → Problem → Outcome Branch.Inner}
    (hi : ∀ k pb pb', RelD φ pb pb' → inner k pb' = inner k pb) (a calls : Nat) {jobs jobs' : List Branch.Node}
    (h : List.Forall₂ (RelN φ) jobs jobs') (best : Branch.Inner) :
    Both (fun q q' => List.Forall₂ (RelN φ) q.1 q'.1 ∧ q'.2 = q.2) (Branch.body inner a calls jobs best)
      (Branch.body inner a calls jobs' best) := by
  cases h with
  | nil => exact .inl ⟨_, rfl, rfl⟩
  | @cons it it' rest rest' hit hrest =>
    have h1 : it'.problem.names = it.problem.names := by rw [hit.problem.rel.rest]
    have h2 : it'.problem.type = it.problem.type := by rw [hit.problem.rel.rest]
    simp only [Branch.body, h1, h2, hit.annoying]
    split
    · exact .inl ⟨_, rfl, rfl⟩
    · refine Both.bind (split_both hit.problem a) ?_
      rintro ⟨one, zero⟩ ⟨one', zero'⟩ ⟨ho, hz⟩
      simp only at ho hz ⊢
      rw [hi calls one one' ho, hi (calls + 1) zero zero' hz]
      refine Both.bind (Both.refl _) ?_
      rintro r0 _ rfl
      refine Both.bind (Both.refl _) ?_
      rintro r1 _ rfl
      have hn : ∀ (pb pb' : Problem) (r : Branch.Inner), RelD φ pb pb' → RelN φ (Branch.node pb r) (Branch.node pb' r) :=
        fun pb pb' r h => ⟨h, rfl, rfl, rfl⟩
      obtain ⟨e1, e2⟩ := emplace_rel (hn one one' r0 ho) (List.Forall₂.cons hit hrest) 0
      obtain ⟨e3, e4⟩ := emplace_rel (hn zero zero' r1 hz) e1 (Branch.emplace (Branch.node one r0) (it :: rest) 0).2
      refine .inr ⟨_, _, rfl, rfl, ?_, rfl⟩
      simp only [e2, e4]
      exact eraseIdx_rel _ e3

theorem loop_both {inner : Nat → Problem → Outcome Branch.Inner}
    (hi : ∀ k pb pb', RelD φ pb pb' → inner k pb' = inner k pb) (a : Nat) : ∀ (steps calls : Nat)
    {jobs jobs' : List Branch.Node}, List.Forall₂ (RelN φ) jobs jobs' → ∀ best : Branch.Inner,
    Branch.loop inner a steps calls jobs' best = Branch.loop inner a steps calls jobs best
  | 0, _, _, _, _, _ => rfl
  | steps + 1, calls, jobs, jobs', h, best => by
    unfold Branch.loop
    rcases body_both hi a calls h best with ⟨e, h1, h2⟩ | ⟨q, q', h1, h2, h3, h4⟩
    · rw [h1, h2]
    · rw [h1, h2]
      obtain ⟨j, b⟩ := q
      obtain ⟨j', b'⟩ := q'
      simp only at h3 h4 ⊢
      subst h4
      have he : j'.isEmpty = j.isEmpty := by cases h3 <;> rfl
      rw [he, loop_both hi a steps (calls + 2) h3 b']

theorem branch_same {inner : Nat → Problem → Outcome Result}
    (hi : ∀ k pb pb', RelD φ pb pb' → inner k pb' = inner k pb) {pb pb' : Problem} (h : RelD φ pb pb') :
    Dispatch.branch inner pb' = Dispatch.branch inner pb := by
  have hv : pb'.values = pb.values := by rw [h.rel.rest]
  unfold Dispatch.branch Branch.optimize
  simp only [hi 0 pb pb' h, hv]
  cases (inner 0 pb).map branchInner with
  | error e => rfl
  | ok best =>
    simp only
    rw [loop_both (φ := φ) (inner := fun k q => (inner k q).map branchInner)
      (fun k q q' hq => by rw [hi k q q' hq]) best.annoying (3 ^ pb.values.length + 1) 1
      (jobs := [Branch.node pb best]) (jobs' := [Branch.node pb' best])
      (.cons ⟨h, rfl, rfl, rfl⟩ .nil) best]

end Bx.Twice
