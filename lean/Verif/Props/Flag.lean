import Verif.Proofs.Flag

/-!
# C134: more time never gives a worse answer in `optimize`

Two runs of `optimize` that are the same until the first is told to stop.
-/

namespace Bx.Optimizer

open Itm Merge SolverCtor Spec Spec.Optimizer

variable {ρ : Type} {kind : SolverType} {upd : Slv → ρ → Nat → Assign → Outcome Assign}

theorem PoolOk.weaken {g : Setting} {n : Nat} {clean : Prop} {init : List Assign} {q : Pool ρ}
    (h : PoolOk g n clean init q) : PoolOk g n False init q :=
  ⟨h.ranked, fun l hl => ⟨fun c hc => ⟨((h.locals l hl).todo c hc).1, fun f => f.elim⟩, (h.locals l hl).pc⟩,
    h.covers, h.low, fun e he h0 => by
      obtain ⟨y, h1, h2, h3, _⟩ := h.found e he h0
      exact ⟨y, h1, h2, h3, fun f => f.elim⟩, h.real⟩

theorem home_spec {l : Local ρ} (h : l.home = true) : (∀ e, ¬ Pend l e) ∧ ∀ b, ¬ Held l b := by
  obtain ⟨pc, todo, x0, cmp0, passes, trace⟩ := l
  cases pc with
  | turn => exact ⟨fun e he => he, fun b hb => hb⟩
  | _ => simp [Local.home] at h

/-- The parts of a run. -/
theorem flagMerged_runs {threads : Nat} {b : Begin} {ms : List (Move ρ)} {p : Params}
    {st : StorageType} {pb : Problem} {csts : List Merged} {r : Result} {q : Pool ρ}
    (h : flagMerged kind upd threads b ms p st pb csts = .ok (r, q)) :
    ∃ s0 slv, Storage.make ⟨pb.type, pb.objective, csts, b.bastert, b.hash⟩ b.srt b.init = .ok s0 ∧
      makeSlv kind csts pb.values.length = .ok slv ∧
      Pool.moves ⟨pb.type, pb.objective, csts, b.bastert, b.hash⟩ slv (upd slv) p ms
        ⟨s0, (List.range threads).map fun _ =>
          { todo := [], x := fun _ => false, compute := Compute.make p.order pb.values.length }⟩ = .ok q ∧
      (∀ l ∈ q.workers, l.home = true) ∧ report st pb csts.length q.storage = .ok r := by
  obtain ⟨_, _, h⟩ := bind_eq_ok.1 h
  obtain ⟨s0, h0, h⟩ := bind_eq_ok.1 h
  obtain ⟨slv, hs, h⟩ := bind_eq_ok.1 h
  obtain ⟨q', hq, h⟩ := bind_eq_ok.1 h
  split at h
  · rename_i hf
    obtain ⟨r', hr, h⟩ := bind_eq_ok.1 h
    have e := Except.ok.inj h
    simp only [Prod.mk.injEq] at e
    obtain ⟨rfl, rfl⟩ := e
    exact ⟨s0, slv, h0, hs, hq, fun l hl => List.all_eq_true.1 hf l hl, hr⟩
  · cases h

/-- What a run gives. -/
theorem flagMerged_ok {threads : Nat} {b : Begin} {ms : List (Move ρ)} (hb : BeginOk b ms) {p : Params}
    {st : StorageType} {pb : Problem} {csts : List Merged} {r : Result} {q : Pool ρ}
    (h : flagMerged kind upd threads b ms p st pb csts = .ok (r, q)) :
    (∀ y, Seen b.init q.workers y → Within y csts →
      Front ⟨pb.type, pb.objective, csts, b.bastert, b.hash⟩ q.storage y) ∧
    (∀ y, Seen b.init q.workers y → ∀ f, q.storage.best 0 = .ok f → f.remaining ≤ unsatisfied y csts) ∧
    (∀ e ∈ q.storage.data, e.remaining = 0 → ∃ y, Seen b.init q.workers y ∧ Within y csts ∧
      e.value = objective pb.objective y) ∧
    (∀ e ∈ q.storage.data, e.remaining = intMax ∨
      ∃ y, Seen b.init q.workers y ∧ e.remaining = unsatisfied y csts) ∧
    report st pb csts.length q.storage = .ok r := by
  obtain ⟨s0, slv, h0, hs, hq, hhome, hr⟩ := flagMerged_runs h
  have hch : CrewOk (⟨b.init, b.srt, b.bastert, b.hash, fun _ => ([] : List (Call ρ)), []⟩ : Crew ρ) :=
    ⟨hb.size, hb.srt, fun _ c hc => by cases hc⟩
  have hstart := (PoolOk.start (threads := threads) hch (p := p) (nv := pb.values.length) h0).weaken
  have hk := PoolOk.moves hs hb.size ms _ _ hb.moves hstart hq
  refine ⟨fun y hy hw => ?_, fun y hy => ?_, fun e he h0 => ?_, hk.real, hr⟩
  · rcases hk.covers y hy hw with h | ⟨l, hl, e, he, _⟩
    · exact h
    · exact absurd he ((home_spec (hhome l hl)).1 e)
  · rcases hk.low y hy with h | ⟨l, hl, k, hk', _⟩
    · exact h
    · exact absurd hk' ((home_spec (hhome l hl)).2 k)
  · obtain ⟨y, h1, h2, h3, _⟩ := hk.found e he h0
    exact ⟨y, h1, h2, by rw [h3, results_eq]⟩

/-- C134: until the first run is told to stop the two runs are the same, then the first ends, each worker making at most
the pass that it was about to make, and the second goes on.  Every pass of a worker in the first run is then made in
the second, in the same order and with the same vectors, before its other passes. -/
theorem C134_passes_are_kept (threads : Nat) (b : Begin) (pre tail rest : List (Move ρ)) (ht : Ending tail)
    (hr : ∀ m ∈ tail, m.stop = false → GoesOn rest m.worker) (p : Params) (st : StorageType) (pb : Problem)
    (csts : List Merged) (r r' : Result) (q q' : Pool ρ)
    (h : flagMerged kind upd threads b (pre ++ tail) p st pb csts = .ok (r, q))
    (h' : flagMerged kind upd threads b (pre ++ rest) p st pb csts = .ok (r', q')) :
    ∀ i, i < threads → ∃ l l', q.workers[i]? = some l ∧ q'.workers[i]? = some l' ∧ l.trace <+: l'.trace := by
  intro i hi
  obtain ⟨s0, slv, h0, hs, hq, _, _⟩ := flagMerged_runs h
  obtain ⟨s0', slv', h0', hs', hq', _, _⟩ := flagMerged_runs h'
  obtain rfl := Except.ok.inj (h0.symm.trans h0')
  obtain rfl := Except.ok.inj (hs.symm.trans hs')
  rw [moves_append] at hq hq'
  obtain ⟨q1, k1, hq⟩ := bind_eq_ok.1 hq
  obtain ⟨q1', k1', hq'⟩ := bind_eq_ok.1 hq'
  obtain rfl := Except.ok.inj (k1.symm.trans k1')
  obtain ⟨l1, hl1, _⟩ := moves_grow k1 i
    { todo := [], x := fun _ => false, compute := Compute.make p.order pb.values.length }
    (by rw [List.getElem?_map, List.getElem?_range hi]; rfl)
  exact ending_prefix ht hr hq hq' i l1 hl1

theorem moves_length {g : Setting} {s : Slv} {u : ρ → Nat → Assign → Outcome Assign} {p : Params} :
    ∀ (ms : List (Move ρ)) (a b : Pool ρ), Pool.moves g s u p ms a = .ok b →
    b.workers.length = a.workers.length
  | [], a, b, h => by rw [← Except.ok.inj h]
  | m :: ms, a, b, h => by
    obtain ⟨c, h1, h⟩ := bind_eq_ok.1 h
    rw [moves_length ms c b h]
    unfold Pool.move at h1
    split at h1
    · rw [← Except.ok.inj h1]
    · obtain ⟨⟨l, s⟩, _, h1⟩ := bind_eq_ok.1 h1
      rw [← Except.ok.inj h1]
      simp

theorem flagMerged_length {threads : Nat} {b : Begin} {ms : List (Move ρ)} {p : Params}
    {st : StorageType} {pb : Problem} {csts : List Merged} {r : Result} {q : Pool ρ}
    (h : flagMerged kind upd threads b ms p st pb csts = .ok (r, q)) : q.workers.length = threads := by
  obtain ⟨s0, slv, h0, hs, hq, _, _⟩ := flagMerged_runs h
  rw [moves_length _ _ _ hq]
  simp

theorem seen_kept {threads : Nat} {b : Begin} {pre tail rest : List (Move ρ)} (ht : Ending tail)
    (hr : ∀ m ∈ tail, m.stop = false → GoesOn rest m.worker) {p : Params} {st : StorageType} {pb : Problem}
    {csts : List Merged} {r r' : Result} {q q' : Pool ρ}
    (h : flagMerged kind upd threads b (pre ++ tail) p st pb csts = .ok (r, q))
    (h' : flagMerged kind upd threads b (pre ++ rest) p st pb csts = .ok (r', q')) (y : Assign)
    (hy : Seen b.init q.workers y) : Seen b.init q'.workers y := by
  rcases hy with hy | ⟨l, hl, hy⟩
  · exact Or.inl hy
  · obtain ⟨i, hi⟩ := List.getElem?_of_mem hl
    have hlt : i < threads := by
      rw [← flagMerged_length h]
      exact (List.getElem?_eq_some_iff.1 hi).1
    obtain ⟨l1, l2, k1, k2, k3⟩ := C134_passes_are_kept threads b pre tail rest ht hr p st pb csts r r' q q' h h' i hlt
    rw [hi] at k1
    obtain rfl := Option.some.inj k1
    exact Or.inr ⟨l2, List.mem_of_getElem? k2, k3.subset hy⟩

/-- C134, part: when the first run succeeds so does the second, and the value of its first solution is at least as
good.  Missing: insertions in the population that overlap. -/
theorem C134_not_worse_partial (threads : Nat) (b : Begin) (pre tail rest : List (Move ρ))
    (hb : BeginOk b (pre ++ tail ++ rest)) (ht : Ending tail)
    (hr : ∀ m ∈ tail, m.stop = false → GoesOn rest m.worker) (p : Params) (st : StorageType) (pb : Problem)
    (csts : List Merged) (r r' : Result) (q q' : Pool ρ)
    (h : flagMerged kind upd threads b (pre ++ tail) p st pb csts = .ok (r, q))
    (h' : flagMerged kind upd threads b (pre ++ rest) p st pb csts = .ok (r', q')) (hs : r.status = .success) :
    r'.status = .success ∧ ∃ sol sol', r.solutions.head? = some sol ∧ r'.solutions.head? = some sol' ∧
      AtLeastAsGood pb.type sol'.value sol.value := by
  obtain ⟨_, _, hfound, _, hrep⟩ := flagMerged_ok ⟨hb.size, hb.srt, fun m hm => hb.moves m (by
    rcases List.mem_append.1 hm with hm | hm <;> simp [hm])⟩ h
  obtain ⟨hcov, _, hfound', _, hrep'⟩ := flagMerged_ok ⟨hb.size, hb.srt, fun m hm => hb.moves m (by
    rcases List.mem_append.1 hm with hm | hm <;> simp [hm])⟩ h'
  obtain ⟨f, h1, h2, _, _, h5, _, _⟩ := report_spec hrep
  obtain ⟨f', h1', h2', _, _, h5', _, _⟩ := report_spec hrep'
  obtain ⟨id, _, q2⟩ := best_ok h1
  obtain ⟨y, hy, hw, hv⟩ := hfound f (List.mem_of_getElem? q2) (h2.1 hs)
  obtain ⟨f2, g1, g2, g3⟩ := hcov y (seen_kept ht hr h h' y hy) hw
  rw [h1'] at g1
  cases g1
  refine ⟨h2'.2 g2, _, _, h5, h5', ?_⟩
  rw [results_eq] at g3
  show AtLeastAsGood pb.type f'.value f.value
  rw [hv]
  exact g3

/-- C134, part: the second run does not leave more constraints unsatisfied.  Missing: insertions in the population that
overlap. -/
theorem C134_no_more_unsatisfied_partial (threads : Nat) (b : Begin) (pre tail rest : List (Move ρ))
    (hb : BeginOk b (pre ++ tail ++ rest)) (ht : Ending tail)
    (hr : ∀ m ∈ tail, m.stop = false → GoesOn rest m.worker) (p : Params) (st : StorageType) (pb : Problem)
    (csts : List Merged) (hm : csts.length ≤ 2147483647) (r r' : Result) (q q' : Pool ρ)
    (h : flagMerged kind upd threads b (pre ++ tail) p st pb csts = .ok (r, q))
    (h' : flagMerged kind upd threads b (pre ++ rest) p st pb csts = .ok (r', q')) :
    r'.remaining ≤ r.remaining ∧ r'.remaining ≤ csts.length := by
  obtain ⟨_, _, _, hreal, hrep⟩ := flagMerged_ok ⟨hb.size, hb.srt, fun m hm => hb.moves m (by
    rcases List.mem_append.1 hm with hm | hm <;> simp [hm])⟩ h
  obtain ⟨_, hlow, _, _, hrep'⟩ := flagMerged_ok ⟨hb.size, hb.srt, fun m hm => hb.moves m (by
    rcases List.mem_append.1 hm with hm | hm <;> simp [hm])⟩ h'
  obtain ⟨f, h1, _, _, _, _, _, h3, _⟩ := report_spec hrep
  obtain ⟨f', h1', _, _, _, _, _, h3', _⟩ := report_spec hrep'
  obtain ⟨id, _, q2⟩ := best_ok h1
  have h5 := hb.size
  have hlt : f'.remaining ≤ csts.length := by
    obtain ⟨y, hy⟩ := List.exists_mem_of_length_pos (l := b.init) (by omega)
    exact Nat.le_trans (hlow y (Or.inl hy) f' h1') (List.length_filter_le _ _)
  rw [h3, h3']
  refine ⟨?_, hlt⟩
  rcases hreal f (List.mem_of_getElem? q2) with he | ⟨y, hy, he⟩
  · have : intMax = 2147483647 := rfl
    omega
  · rw [he]
    exact hlow y (seen_kept ht hr h h' y hy) f' h1'

/-! ## Example -/

/-- A step of the worker `i`. -/
def exMove (i : Nat) (stop : Bool) : Move Row := ⟨i, stop, exCall none 3, ⟨3, stdSorter⟩⟩

def exBegin : Begin := ⟨exInit, stdSorter, vec [], exHash⟩

/-- Both workers begin a turn and the first makes a pass. -/
def exPre : List (Move Row) := [exMove 0 false, exMove 1 false, exMove 0 false]

/-- The flag is set; the second worker had read it before and makes a pass. -/
def exTail : List (Move Row) :=
  exMove 1 false :: (List.range 12).map fun i => exMove (i % 2) true

/-- The workers go on. -/
def exRest : List (Move Row) :=
  ((List.range 10).map fun i => exMove (i % 2) false) ++ (List.range 12).map fun i => exMove (i % 2) true

/-- The first run makes two passes, the second ten, and both find the solution. -/
example : ∃ r q r' q', flagMerged Preprocess.exRed.ptype updateRow 2 exBegin (exPre ++ exTail) exParams .one
      Preprocess.exRed Dispatch.exMs = .ok (r, q) ∧
    flagMerged Preprocess.exRed.ptype updateRow 2 exBegin (exPre ++ exRest) exParams .one
      Preprocess.exRed Dispatch.exMs = .ok (r', q') ∧
    q.workers.map (fun l => l.trace.length) = [1, 1] ∧ q'.workers.map (fun l => l.trace.length) = [5, 5] ∧
    r.status = .success ∧ r'.status = .success ∧ r'.remaining ≤ r.remaining := by
  have h1 : (flagMerged Preprocess.exRed.ptype updateRow 2 exBegin (exPre ++ exTail) exParams .one
      Preprocess.exRed Dispatch.exMs).map (fun a => (a.1, a.2.workers.map fun l => l.trace.length)) =
      .ok (exResult [⟨[0, 0, 1, 1], 7⟩], [1, 1]) := by decide +kernel
  have h2 : (flagMerged Preprocess.exRed.ptype updateRow 2 exBegin (exPre ++ exRest) exParams .one
      Preprocess.exRed Dispatch.exMs).map (fun a => a.2.workers.map fun l => l.trace.length) =
      .ok [5, 5] := by decide +kernel
  cases e1 : flagMerged Preprocess.exRed.ptype updateRow 2 exBegin (exPre ++ exTail) exParams .one
      Preprocess.exRed Dispatch.exMs with
  | error f => rw [e1] at h1; cases h1
  | ok a =>
    obtain ⟨r, q⟩ := a
    cases e2 : flagMerged Preprocess.exRed.ptype updateRow 2 exBegin (exPre ++ exRest) exParams .one
        Preprocess.exRed Dispatch.exMs with
    | error f => rw [e2] at h2; cases h2
    | ok a' =>
      obtain ⟨r', q'⟩ := a'
      rw [e1] at h1
      rw [e2] at h2
      have k1 := Except.ok.inj h1
      have k2 := Except.ok.inj h2
      simp only [Prod.mk.injEq] at k1
      have hev : EvictOk exBegin.init.length (⟨3, stdSorter⟩ : Evict) :=
        (exChoices_ok (cs := [(none, 3)]) (by decide)).calls (exCall none 3) (List.mem_singleton.2 rfl) 0
      have hb : BeginOk exBegin (exPre ++ exTail ++ exRest) :=
        ⟨show 5 ≤ exInit.length by decide, stdSorter_ok, fun m hm => by
          simp only [exPre, exTail, exRest, List.mem_append, List.mem_cons, List.mem_map, List.not_mem_nil,
            or_false] at hm
          rcases hm with ((rfl | rfl | rfl) | rfl | ⟨_, _, rfl⟩) | ⟨_, _, rfl⟩ | ⟨_, _, rfl⟩ <;> exact hev⟩
      have ht : Ending exTail := by
        unfold Ending exTail exMove
        decide
      have hr : ∀ m ∈ exTail, m.stop = false → GoesOn exRest m.worker := by
        intro m hm hs
        simp only [exTail, List.mem_cons, List.mem_map] at hm
        rcases hm with rfl | ⟨_, _, rfl⟩
        · exact ⟨[exMove 0 false], exMove 1 false, _, rfl, rfl, rfl, by simp [exMove]⟩
        · cases hs
      have hs : r.status = .success := by rw [k1.1]; rfl
      obtain ⟨n1, _⟩ := C134_not_worse_partial 2 exBegin exPre exTail exRest hb ht hr exParams .one
        Preprocess.exRed Dispatch.exMs r r' q q' e1 e2 hs
      obtain ⟨n2, _⟩ := C134_no_more_unsatisfied_partial 2 exBegin exPre exTail exRest hb ht hr exParams .one
        Preprocess.exRed Dispatch.exMs (by decide) r r' q q' e1 e2
      exact ⟨r, q, r', q', rfl, rfl, k1.2, k2, hs, n1, n2⟩

end Bx.Optimizer
