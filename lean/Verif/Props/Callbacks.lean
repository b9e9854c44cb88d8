import Verif.Proofs.Callbacks

/-!
# C106 and C107: the registered functions and the time limit of optimize
-/

namespace Bx.Optimizer

open Itm Merge SolverCtor Spec Spec.Optimizer Params

variable {ρ : Type} {kind : SolverType} {upd : Slv → ρ → Nat → Assign → Outcome Assign}

theorem watchMerged_ok {threads : Nat} {ch : Crew ρ} (hch : CrewOk ch) {limit : D} {wt : Watch}
    {fuel : Nat} {p : Itm.Params} {st : StorageType} {pb : Problem} {csts : List Merged}
    {ev : List Event} {r : Result} {q : Pool ρ}
    (h : watchMerged kind upd threads ch limit wt fuel p st pb csts = .ok (ev, r, q)) :
    ∃ (ms : List Message) (q0 q1 : Pool ρ), ev = ms.map .update ++ [.finish r] ∧
      (∀ m ∈ ms, From ⟨pb.type, pb.objective, csts, ch.bastert, ch.hash⟩ ch.init.length
        (CrewClean ch) ch.init ch.calls q0 q m) ∧
      ms.Pairwise (fun a b => NoWorse pb.type a b ∧ a.turns ≤ b.turns) ∧
      Later ⟨pb.type, pb.objective, csts, ch.bastert, ch.hash⟩ ch.init q1 q ∧
      report st pb csts.length q.storage = .ok r ∧
      (∃ j, ms.length = j + 1 ∧ isTimeLimit limit (wt.clock j) = true ∧
        ∀ i < j, isTimeLimit limit (wt.clock i) = false) ∧
      (∃ f, q0.storage.best 0 = .ok f ∧ f.remaining ≤ csts.length) ∧
      ∃ is, crewMerged kind upd threads { ch with schedule := is } p st pb csts = .ok (r, q) := by
  obtain ⟨u, hu, h⟩ := bind_eq_ok.1 h
  obtain ⟨s0, h0, h⟩ := bind_eq_ok.1 h
  obtain ⟨slv, hs, h⟩ := bind_eq_ok.1 h
  obtain ⟨⟨q1, ms⟩, hw, h⟩ := bind_eq_ok.1 h
  obtain ⟨q2, hq, h⟩ := bind_eq_ok.1 h
  split at h
  · rename_i hf
    obtain ⟨r', hr, h⟩ := bind_eq_ok.1 h
    have e := Except.ok.inj h
    simp only [Prod.mk.injEq] at e
    obtain ⟨rfl, rfl, rfl⟩ := e
    have hp := PoolOk.start (threads := threads) (p := p) (nv := pb.values.length) hch h0
    obtain ⟨k1, k2, k3, k4, is, k5⟩ := watch_spec hs hch.size fuel 0 _ _ _ hp hw
    have kl := Later.steps hs hch.size _ _ _ k1 hq
    have kq := PoolOk.steps hs hch.size _ _ _ k1 hq
    obtain ⟨j, l1, _, l3, l4⟩ := watch_length fuel 0 _ _ _ hw
    refine ⟨ms, ⟨s0, (List.range threads).map fun i =>
        { todo := ch.calls i, x := fun _ => false
          compute := Compute.make p.order pb.values.length }⟩, q1, rfl, fun m hm => ?_, k4, kl, hr, ⟨j, l1, ?_, fun i hi => ?_⟩,
      ?_, is ++ ch.schedule, ?_⟩
    · obtain ⟨q3, f, r1, r2, r3, r4⟩ := k3 m hm
      exact ⟨q3, f, r1, r2, r3.trans hch.size k1.ranked kl, r4⟩
    · rwa [Nat.zero_add] at l3
    · have := l4 i hi
      rwa [Nat.zero_add] at this
    · have h5 := hch.size
      obtain ⟨_, f, _, _, hf0⟩ := hp.ranked.best (i := 0) (by omega)
      obtain ⟨y, hy⟩ := List.exists_mem_of_length_pos (l := ch.init) (by omega)
      refine ⟨f, hf0, ?_⟩
      rcases hp.low y (Or.inl hy) with h | ⟨l, hl, b, hb, _⟩
      · exact Nat.le_trans (h f hf0) (List.length_filter_le _ _)
      · obtain ⟨i, _, rfl⟩ := List.mem_map.1 hl
        exact hb.elim
    · unfold crewMerged
      simp only [hu, h0, hs, ok_bind]
      refine bind_eq_ok.2 ⟨q2, steps_append slv _ _ _ _ _ k5 hq, ?_⟩
      rw [if_pos hf]
      exact bind_eq_ok.2 ⟨_, hr, rfl⟩
  · cases h

/-- C106, part.  When `optimize` returns for a problem with at least a merged constraint and a
variable, `start` was called once, first; `finish` was called once, last, with the result that is
returned; and `update` was called at least once between them. -/
theorem C106_calls_in_order_partial (sorts : Sorts) (po : Order) (threads : Nat) (ch : Crew ρ)
    (hch : CrewOk ch) (limit : D) (wt : Watch) (fuel : Nat) (p : Itm.Params) (st : StorageType)
    (pb : Problem) (csts : List Merged) (hm : Merge.make sorts po pb = .ok csts) (hc : csts ≠ [])
    (hv : pb.values ≠ []) (ev : List Event) (r : Result)
    (h : watchProblem kind upd sorts po threads ch limit wt fuel p st pb = .ok (ev, r)) :
    ∃ ms : List Message, ms ≠ [] ∧ ev = .start :: ms.map .update ++ [.finish r] := by
  unfold watchProblem at h
  rw [hm, ok_bind, if_neg (not_or.2 ⟨hc, hv⟩)] at h
  obtain ⟨⟨ev', r', q⟩, hw, e⟩ := bind_eq_ok.1 h
  have e := Except.ok.inj e
  simp only [Prod.mk.injEq] at e
  obtain ⟨rfl, rfl⟩ := e
  obtain ⟨ms, _, _, rfl, _, _, _, _, ⟨j, hj, _⟩, _⟩ := watchMerged_ok hch hw
  refine ⟨ms, ?_, rfl⟩
  rintro rfl
  simp at hj

/-- C106.  To be told of a run does not change it: the result is that of the workers with some order
of their steps, of which C47, C48 and C100 say what it is. -/
theorem C106_watching_changes_nothing (sorts : Sorts) (po : Order) (preprocessing : Bool)
    (thread : Int) (hardware : Nat) (ch : Crew ρ) (hch : CrewOk ch) (limit : D) (wt : Watch)
    (fuel : Nat) (p : Itm.Params) (st : StorageType) (raw : RawProblem) (ev : List Event)
    (r : Result)
    (h : watchOptimize upd sorts po preprocessing thread hardware ch limit wt fuel p st raw =
      .ok (ev, r)) :
    ∃ schedule, crewOptimize upd sorts po preprocessing thread hardware
      { ch with schedule := schedule } p st raw = .ok r := by
  obtain ⟨pb, hpb, h⟩ := bind_eq_ok.1 h
  obtain ⟨csts, hm, h⟩ := bind_eq_ok.1 h
  split at h
  · rename_i hnil
    have e := Except.ok.inj h
    simp only [Prod.mk.injEq] at e
    obtain ⟨_, rfl⟩ := e
    refine ⟨[], bind_eq_ok.2 ⟨pb, hpb, bind_eq_ok.2 ⟨csts, hm, ?_⟩⟩⟩
    rw [if_pos hnil]
  · rename_i hne
    obtain ⟨⟨ev', r', q⟩, hw, e⟩ := bind_eq_ok.1 h
    have e := Except.ok.inj e
    simp only [Prod.mk.injEq] at e
    obtain ⟨rfl, rfl⟩ := e
    obtain ⟨_, _, _, _, _, _, _, _, _, _, is, his⟩ := watchMerged_ok hch hw
    refine ⟨is, bind_eq_ok.2 ⟨pb, hpb, bind_eq_ok.2 ⟨csts, hm, ?_⟩⟩⟩
    rw [if_neg hne]
    exact bind_eq_ok.2 ⟨_, his, rfl⟩

/-- C106.  What `update` is told never gets worse, and neither does the number of turns.  What
`finish` is told is not worse: its number of remaining constraints is not more; it is a success when
`update` was told of a solution, and the value of the first solution is then at least as good. -/
theorem C106_progress_never_gets_worse (threads : Nat) (ch : Crew ρ) (hch : CrewOk ch) (limit : D)
    (wt : Watch) (fuel : Nat) (p : Itm.Params) (st : StorageType) (pb : Problem)
    (csts : List Merged) (ev : List Event) (r : Result) (q : Pool ρ)
    (h : watchMerged kind upd threads ch limit wt fuel p st pb csts = .ok (ev, r, q)) :
    ∃ ms : List Message, ev = ms.map .update ++ [.finish r] ∧
      ms.Pairwise (fun a b => NoWorse pb.type a b ∧ a.turns ≤ b.turns) ∧
      ∀ m ∈ ms, r.remaining ≤ m.remaining ∧ (m.remaining = 0 → r.status = .success ∧
        ∃ sol, r.solutions.head? = some sol ∧ AtLeastAsGood pb.type sol.value m.value) := by
  obtain ⟨ms, q0, q1, h1, h2, h3, h4, h5, _⟩ := watchMerged_ok hch h
  refine ⟨ms, h1, h3, fun m hm => ?_⟩
  obtain ⟨q2, f, k1, k2, k3, k4, rfl⟩ := h2 m hm
  obtain ⟨f', r1, r2, _, _, r3, _, r4, _, _⟩ := report_spec h5
  rw [r4]
  rcases k3.mono f f' k4 r1 with hg | ⟨hg, hv⟩
  · exact ⟨Nat.le_of_lt hg, fun h0 => by simp only at h0; omega⟩
  · refine ⟨Nat.le_of_eq hg, fun h0 => ⟨r2.2 (by simp only at h0; omega), _, r3, hv⟩⟩

/-- C106.  Each message of `update` is true: with no remaining constraint, its value is the
objective of a vector of the run that respects every constraint; otherwise a vector of the run does
not respect as many constraints as it tells.  It is not more than the number of constraints. -/
theorem C106_messages_are_true (threads : Nat) (ch : Crew ρ) (hch : CrewOk ch) (limit : D)
    (wt : Watch) (fuel : Nat) (p : Itm.Params) (st : StorageType) (pb : Problem)
    (csts : List Merged) (hlen : csts.length < 2147483647) (ev : List Event) (r : Result)
    (q : Pool ρ)
    (h : watchMerged kind upd threads ch limit wt fuel p st pb csts = .ok (ev, r, q))
    (m : Message) (hm : .update m ∈ ev) :
    m.remaining ≤ csts.length ∧
    (∃ y, Seen ch.init q.workers y ∧ unsatisfied y csts = m.remaining) ∧
    (m.remaining = 0 → ∃ y, Seen ch.init q.workers y ∧ Within y csts ∧
      m.value = objective pb.objective y) := by
  obtain ⟨ms, q0, q1, rfl, h2, _, _, _, _, ⟨f0, hf0, hl0⟩, _⟩ := watchMerged_ok hch h
  have hm : m ∈ ms := by
    rcases List.mem_append.1 hm with hm | hm
    · obtain ⟨m', h1, h2⟩ := List.mem_map.1 hm
      cases h2
      exact h1
    · cases List.mem_singleton.1 hm
  obtain ⟨q2, f, k1, k2, k3, k4, rfl⟩ := h2 m hm
  obtain ⟨id, _, hd⟩ := best_ok k4
  have hmem := List.mem_of_getElem? hd
  have hle : f.remaining ≤ csts.length := by
    rcases k2.mono f0 f hf0 k4 with h | ⟨h, _⟩ <;> omega
  refine ⟨hle, ?_, fun h0 => ?_⟩
  · rcases k1.real f hmem with h | ⟨y, hy, h⟩
    · have : intMax = 2147483647 := rfl
      omega
    · exact ⟨y, k3.seen y hy, h.symm⟩
  · obtain ⟨y, hy, hw, hv, _⟩ := k1.found f hmem h0
    exact ⟨y, k3.seen y hy, hw, by simp only; rw [hv, results_eq]⟩

/-- C106 does not hold without constraint: whatever the outside decides, `start` is called and
`finish` is not. -/
theorem C106_no_finish_without_constraint (sorts : Sorts) (po : Order) (threads : Nat)
    (ch : Crew ρ) (limit : D) (wt : Watch) (fuel : Nat) (p : Itm.Params) (st : StorageType)
    (pb : Problem) (csts : List Merged) (hm : Merge.make sorts po pb = .ok csts)
    (hc : csts = [] ∨ pb.values = []) :
    ∃ r, watchProblem kind upd sorts po threads ch limit wt fuel p st pb = .ok ([.start], r) ∧
      r.status = .success := by
  refine ⟨{ status := .success, variableName := pb.names, affected := pb.affected
            solutions := [⟨[], pb.objective.value⟩] }, ?_, rfl⟩
  unfold watchProblem
  rw [hm, ok_bind, if_pos hc]

/-! ## The time limit -/

theorem isTimeLimit_iff {limit : D} {e : Rat} :
    isTimeLimit limit e = true ↔ ∃ L : Rat, 0 < L ∧ limit = .fin L ∧ L < e := by
  unfold isTimeLimit
  cases limit with
  | nan => simp [D.le, D.lt, D.eq]
  | ninf => simp [D.le, D.lt, D.eq]
  | pinf => simp [D.le, D.lt, D.eq]
  | fin L =>
    by_cases h : L ≤ 0
    · have : (D.fin L).le (.fin 0) = true := by
        unfold D.le D.lt D.eq
        rcases lt_or_eq_of_le h with h | h <;> simp [h]
      rw [if_pos this]
      constructor
      · intro h; cases h
      · rintro ⟨L', h1, h2, _⟩
        cases h2
        exact absurd h1 (not_lt.2 h)
    · have : ¬ (D.fin L).le (.fin 0) = true := by
        unfold D.le D.lt D.eq
        have h := not_le.1 h
        have h' : L ≠ 0 := ne_of_gt h
        simp [le_of_lt h, h']
      rw [if_neg this]
      constructor
      · intro h1
        exact ⟨L, not_le.1 h, rfl, by simpa [D.lt] using h1⟩
      · rintro ⟨L', _, h2, h3⟩
        cases h2
        simpa [D.lt] using h3

/-- C107.  `optimize` does not return before its time limit, which is positive, and it does as soon
as it sees that the limit is over: all the calls of `update` but the last are followed by a look at
the clock within the limit. -/
theorem C107_not_before_the_limit (threads : Nat) (ch : Crew ρ) (hch : CrewOk ch) (limit : D)
    (wt : Watch) (fuel : Nat) (p : Itm.Params) (st : StorageType) (pb : Problem)
    (csts : List Merged) (ev : List Event) (r : Result) (q : Pool ρ)
    (h : watchMerged kind upd threads ch limit wt fuel p st pb csts = .ok (ev, r, q)) :
    ∃ (L : Rat) (k : Nat), 0 < L ∧ limit = .fin L ∧ ev.length = k + 2 ∧ L < wt.clock k ∧
      ∀ i < k, wt.clock i ≤ L := by
  obtain ⟨ms, q0, q1, rfl, _, _, _, _, ⟨j, h1, h2, h3⟩, _⟩ := watchMerged_ok hch h
  obtain ⟨L, hL, rfl, hj⟩ := isTimeLimit_iff.1 h2
  refine ⟨L, j, hL, rfl, by simp [h1], hj, fun i hi => ?_⟩
  by_contra hc
  have := isTimeLimit_iff.2 ⟨L, hL, rfl, not_le.1 hc⟩
  rw [h3 i hi] at this
  cases this

/-- C107.  With a limit of `L` seconds, less than `n + 1`, the thread that waits makes at most
`n + 1` turns of a second: however many it is given beyond, the run is the same. -/
theorem C107_ends_after_the_limit (threads : Nat) (ch : Crew ρ) (L : Rat) (hL : 0 < L) (n : Nat)
    (hn : L < n + 1) (wt : Watch) (hw : Sleeps wt) (fuel fuel' : Nat) (hf : n < fuel)
    (hf' : n < fuel') (p : Itm.Params) (st : StorageType) (pb : Problem) (csts : List Merged) :
    watchMerged kind upd threads ch (.fin L) wt fuel p st pb csts =
      watchMerged kind upd threads ch (.fin L) wt fuel' p st pb csts := by
  have ht : isTimeLimit (.fin L) (wt.clock (0 + n)) = true := by
    rw [Nat.zero_add]
    exact isTimeLimit_iff.2 ⟨L, hL, rfl, lt_of_lt_of_le hn (hw n)⟩
  unfold watchMerged
  have := fun g s u q => watch_fuel (ρ := ρ) (g := g) (slv := s) (upd := u) (p := p)
    (calls := ch.calls) n fuel fuel' 0 q ht hf hf'
  simp only [this]

/-- C107.  Without a positive and finite limit, `optimize` does not return for a problem with a
merged constraint and a variable, whatever the number of loops that is asked for: no number of turns
is enough. -/
theorem C107_no_limit_never_returns (sorts : Sorts) (po : Order) (threads : Nat) (ch : Crew ρ)
    (hch : CrewOk ch) (limit : D) (hl : Endless limit) (wt : Watch) (p : Itm.Params)
    (st : StorageType) (pb : Problem) (csts : List Merged) (hm : Merge.make sorts po pb = .ok csts)
    (hc : csts ≠ []) (hv : pb.values ≠ []) (fuel : Nat) (ev : List Event) (r : Result) :
    watchProblem kind upd sorts po threads ch limit wt fuel p st pb ≠ .ok (ev, r) := by
  intro h
  unfold watchProblem at h
  rw [hm, ok_bind, if_neg (not_or.2 ⟨hc, hv⟩)] at h
  obtain ⟨⟨ev', r', q⟩, hw, _⟩ := bind_eq_ok.1 h
  obtain ⟨L, _, h1, h2, _⟩ := C107_not_before_the_limit _ _ hch _ _ _ _ _ _ _ _ _ _ hw
  exact hl L h1 h2

/-- The limit of a new context, and that of a context that was given the default parameters. -/
theorem C107_default_has_no_limit :
    Endless ({} : SolverParams).timeLimit ∧ Endless (setAll [{}]).timeLimit := by
  constructor
  · rintro L hL h
    have : (-1 : Rat) = L := D.fin.inj h
    rw [← this] at hL
    exact absurd hL (by decide)
  · intro L hL h
    have : (setAll [{}]).timeLimit = .pinf := by decide +kernel
    rw [this] at h
    cases h

/-! ## Examples -/

/-- Two workers that make a step each in each second, and a limit of two seconds and a half. -/
def exWatch : Watch := ⟨fun k => (List.range 2).map fun i => (k + i) % 2, fun k => k + 1⟩

theorem exWatch_sleeps : Sleeps exWatch := fun _ => le_refl _

theorem exWatch_runs : watchOptimize updateRow stdSorts .none true 2 8
    (exCrew exTurns (exSchedule 40)) (.fin (5 / 2)) exWatch 3 exParams .one Preprocess.exRaw =
    .ok ([.start, .update ⟨1, 13, 2⟩, .update ⟨1, 13, 2⟩, .update ⟨0, 7, 2⟩,
      .finish (exResult [⟨[0, 0, 1, 1], 7⟩])], exResult [⟨[0, 0, 1, 1], 7⟩]) := by decide +kernel

theorem exWatch_merged : ∃ q, watchMerged Preprocess.exRed.ptype updateRow 2
    (exCrew exTurns (exSchedule 40)) (.fin (5 / 2)) exWatch 3 exParams .one Preprocess.exRed
    Dispatch.exMs = .ok ([.update ⟨1, 13, 2⟩, .update ⟨1, 13, 2⟩, .update ⟨0, 7, 2⟩,
      .finish (exResult [⟨[0, 0, 1, 1], 7⟩])], exResult [⟨[0, 0, 1, 1], 7⟩], q) := by
  have h : (watchMerged Preprocess.exRed.ptype updateRow 2
      (exCrew exTurns (exSchedule 40)) (.fin (5 / 2)) exWatch 3 exParams .one Preprocess.exRed
      Dispatch.exMs).map (fun t => (t.1, t.2.1)) = .ok ([.update ⟨1, 13, 2⟩, .update ⟨1, 13, 2⟩,
        .update ⟨0, 7, 2⟩, .finish (exResult [⟨[0, 0, 1, 1], 7⟩])],
        exResult [⟨[0, 0, 1, 1], 7⟩]) := by decide +kernel
  cases e : watchMerged Preprocess.exRed.ptype updateRow 2
      (exCrew exTurns (exSchedule 40)) (.fin (5 / 2)) exWatch 3 exParams .one Preprocess.exRed
      Dispatch.exMs with
  | error f => rw [e] at h; cases h
  | ok t =>
    obtain ⟨ev, r, q⟩ := t
    rw [e] at h
    have h := Except.ok.inj h
    simp only [Prod.mk.injEq] at h
    obtain ⟨rfl, rfl⟩ := h
    exact ⟨q, rfl⟩

/-- The hypotheses of C106 and C107 are met by these workers: the third message tells of a solution,
which a vector of the run has. -/
example : ∃ q : Pool Row, ∃ y, Seen exInit q.workers y ∧ Within y Dispatch.exMs ∧
    7 = objective Preprocess.exRed.objective y := by
  obtain ⟨q, h⟩ := exWatch_merged
  obtain ⟨_, _, h3⟩ := C106_messages_are_true 2 _ (exCrew_ok (by decide) (exSchedule 40)) _ _ _ _ _ _
    _ (by decide) _ _ q h ⟨0, 7, 2⟩ (by decide)
  exact ⟨q, h3 rfl⟩

/-- The last look at the clock of these workers is after three seconds. -/
example : ∃ (L : Rat) (k : Nat), D.fin (5 / 2) = .fin L ∧ k = 2 ∧ L < exWatch.clock k := by
  obtain ⟨q, h⟩ := exWatch_merged
  obtain ⟨L, k, _, h2, h3, h4, _⟩ := C107_not_before_the_limit 2 _
    (exCrew_ok (by decide) (exSchedule 40)) _ _ _ _ _ _ _ _ _ q h
  exact ⟨L, k, h2, by simpa using h3.symm, h4⟩

/-- However many turns are allowed, these workers are told of three times. -/
example (fuel : Nat) (hf : 2 < fuel) : ∃ q, watchMerged Preprocess.exRed.ptype updateRow 2
    (exCrew exTurns (exSchedule 40)) (.fin (5 / 2)) exWatch fuel exParams .one Preprocess.exRed
    Dispatch.exMs = .ok ([.update ⟨1, 13, 2⟩, .update ⟨1, 13, 2⟩, .update ⟨0, 7, 2⟩,
      .finish (exResult [⟨[0, 0, 1, 1], 7⟩])], exResult [⟨[0, 0, 1, 1], 7⟩], q) := by
  rw [C107_ends_after_the_limit 2 _ (5 / 2) (by norm_num) 2 (by norm_num) exWatch exWatch_sleeps
    fuel 3 hf (by decide)]
  exact exWatch_merged

/-- The same workers, with the default parameters, never return. -/
example (fuel : Nat) (ev : List Event) (r : Result) :
    watchProblem .inequalities01 updateRow stdSorts .none 2 (exCrew exTurns (exSchedule 40))
      ({} : SolverParams).timeLimit exWatch fuel exParams .one Preprocess.exRed ≠ .ok (ev, r) :=
  C107_no_limit_never_returns stdSorts .none 2 _ (exCrew_ok (by decide) (exSchedule 40)) _
    C107_default_has_no_limit.1 exWatch exParams .one Preprocess.exRed Dispatch.exMs
    (by decide +kernel) (by decide) (by decide) fuel ev r

/-- C106 does not hold of `update`, which is documented to be called for each improvement: it is
called again with the same message. -/
theorem C106_update_without_improvement :
    ∃ (ch : Crew Row) (wt : Watch), CrewOk ch ∧ Sleeps wt ∧ ∃ m ev r,
      watchOptimize updateRow stdSorts .none true 2 8 ch (.fin (5 / 2)) wt 3 exParams .one
        Preprocess.exRaw = .ok (.start :: .update m :: .update m :: ev, r) :=
  ⟨_, exWatch, exCrew_ok (by decide) (exSchedule 40), exWatch_sleeps, _, _, _, exWatch_runs⟩

/-- C106 does not hold of `finish` for a problem whose constraints are removed by the
preprocessing. -/
theorem C106_no_finish_after_preprocessing :
    ∃ raw : RawProblem, raw.les ≠ [] ∧ ∀ (ch : Crew Row) (limit : D) (wt : Watch) (fuel : Nat),
      ∃ r, watchOptimize updateRow stdSorts .none true 2 8 ch limit wt fuel exParams .one raw =
        .ok ([.start], r) ∧ r.status = .success := by
  let raw : RawProblem :=
    { Preprocess.exRaw with
        objective := { elems := [⟨3, 0⟩], value := 7 }, eqs := [], ges := []
        les := [{ label := "c1", elems := [⟨1, 0⟩], value := 0, id := 0 }]
        names := ["a"], values := Preprocess.exRaw.values.take 1 }
  refine ⟨raw, by decide, fun ch limit wt fuel => ?_⟩
  have h1 : (prepared true raw).map (fun pb => pb.values) = .ok [] := by decide +kernel
  have h2 : ((prepared true raw) >>= Merge.make stdSorts .none) = .ok [] := by decide +kernel
  cases e : prepared true raw with
  | error f => rw [e] at h1; cases h1
  | ok pb =>
    rw [e] at h1 h2
    have h1 : pb.values = [] := Except.ok.inj h1
    rw [ok_bind] at h2
    unfold watchOptimize
    rw [e, ok_bind]
    exact C106_no_finish_without_constraint _ _ _ ch limit wt fuel _ _ pb [] h2 (Or.inr h1)

end Bx.Optimizer
