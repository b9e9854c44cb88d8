import Verif.Props.Numeric
import Verif.Props.RoundedRows

/-!
# C120: a run of `solve` in floating point

C117 and C118 are about one row update in floating point.  Here the solving loop runs with these
updates: every number of the run, the weight of the passes included, is rounded with the rounding of
the world.
-/

namespace Bx.RoundedRun

open Merge SolverCtor Spec Itm Mult Num
open RoundedRows (computedIn storedIn NearlyAsGood)

/-- The engine of the 0/1 and of the -1/0/1 solvers, in floating point. -/
def engine (rnd : Rat → Rat) (mode : ObjType) (cost : CostFun) : Slv → Upd Oracle :=
  fun s o p k x m => RoundedRows.update rnd mode o p s cost k x m

/-- The price of a variable in a push, as computed: the reduced cost, plus the amplified cost. -/
def pushedIn (rnd : Rat → Rat) (csts : List Merged) (m : Mem) (k : Nat) (theta amp : Rat)
    (cost : CostFun) (x : Assign) (j : Nat) : Rat :=
  rnd (computedIn rnd csts m k theta cost x j + rnd (amp * cost j x))

variable {t : SolverType} {csts : List Merged} {n : Nat} {mode : ObjType} {w : World Oracle} {cfg : Cfg}
  {o : Objective} {a : Answer} {st : State}

/-! ## The push -/

/-- C70, in floating point, for the rows without negative coefficients, where moreover, with the 0/1
solvers, the position of each element is the index of its variable: the update of a push returns the
cheapest assignment of the row for the reduced costs plus the amplified costs, as they are computed.
What is missing: the same rows as in `C70_push_partial`. -/
theorem C70_push_rounded_partial (t : SolverType) (ht : t ≠ .equalitiesZ ∧ t ≠ .inequalitiesZ)
    (csts : List Merged) (n : Nat) (s : Slv) (hs : makeSlv t csts n = .ok s)
    (k : Nat) (c : Merged) (hk : csts[k]? = some c) (hnd : (c.elems.map FunElem.var).Nodup)
    (hsat : ∃ y, Respects c y) (hpos : ∀ e ∈ c.elems, 0 < e.factor)
    (hidx : t = .equalities101 ∨ t = .inequalities101 ∨
      ∀ (i : Nat) (e : FunElem), c.elems[i]? = some e → e.var = i)
    (rnd : Rat → Rat) (mode : ObjType) (o : Oracle) (ho : o.Ok mode)
    (kappa delta theta amp : Rat) (cost : CostFun) (x x' : Assign) (m m' : Mem)
    (h : RoundedRows.update rnd mode o ⟨kappa, delta, theta, some amp⟩ s cost k x m = .ok (x', m')) :
    Respects c x' ∧
    ∀ y, Respects c y → AtLeastAsGood mode
      (priceOf (pushedIn rnd csts m k theta amp cost x) c.elems x')
      (priceOf (pushedIn rnd csts m k theta amp cost x) c.elems y) := by
  obtain ⟨hkind, _⟩ := makeSlv_facts hs
  have hpr : ∀ (i : Nat) (e : FunElem), c.elems[i]? = some e →
      RoundedRows.valueOf rnd s cost (RoundedRows.decrease rnd m k c.elems theta) x (some amp) i e =
        if isNegative s.kind e then -pushedIn rnd csts m k theta amp cost x e.var
          else pushedIn rnd csts m k theta amp cost x e.var := by
    intro i e he
    have hneg : isNegative s.kind e = false := by
      have := hpos e (List.mem_of_getElem? he)
      unfold isNegative
      split <;> simp
      omega
    have hp : RoundedRows.pushed rnd s.kind cost x amp i e = rnd (amp * cost e.var x) := by
      unfold RoundedRows.pushed
      rw [hkind]
      rcases hidx with rfl | rfl | hi
      · rfl
      · rfl
      · rw [hi i e he]
        split <;> rfl
    have hv := RoundedRows.valueOf_none hs hk rnd theta cost x m i e
    unfold RoundedRows.valueOf at hv ⊢
    simp only [hneg, Bool.false_eq_true, if_false] at hv ⊢
    rw [hv, hp]
    rfl
  obtain ⟨y0, hy0⟩ := hsat
  exact ⟨(RoundedRows.update_opt hs ht hk hnd ho h _ hpr hy0).1,
    fun y hy => (RoundedRows.update_opt hs ht hk hnd ho h _ hpr hy).2⟩

/-- The hypotheses of `C70_push_rounded_partial` are met: a push on two of x0, x1 and x2, with the
costs 2 ^ -60, 0 and 2, takes x0 and x1. -/
example : ∃ x' m', RoundedRows.update (binary 53) .minimize (exOracle .minimize)
      ⟨1 / 4, 1, 1 / 2, some 5⟩ RoundedRows.rSlv RoundedRows.rCost 0 (fun _ => false) Mult.mem0 = .ok (x', m') ∧
    x' 0 = true ∧ x' 1 = true ∧
    ∀ y, Respects ⟨[⟨1, 0⟩, ⟨1, 1⟩, ⟨1, 2⟩], 2, 2, 0⟩ y → AtLeastAsGood .minimize
      (priceOf (pushedIn (binary 53) RoundedRows.rCsts Mult.mem0 0 (1 / 2) 5 RoundedRows.rCost fun _ => false)
        [⟨1, 0⟩, ⟨1, 1⟩, ⟨1, 2⟩] x')
      (priceOf (pushedIn (binary 53) RoundedRows.rCsts Mult.mem0 0 (1 / 2) 5 RoundedRows.rCost fun _ => false)
        [⟨1, 0⟩, ⟨1, 1⟩, ⟨1, 2⟩] y) := by
  have key : (RoundedRows.update (binary 53) .minimize (exOracle .minimize)
      ⟨1 / 4, 1, 1 / 2, some 5⟩ RoundedRows.rSlv RoundedRows.rCost 0 (fun _ => false) Mult.mem0).map
      (fun r => (r.1 0, r.1 1)) = .ok (true, true) := by decide +kernel
  cases h : RoundedRows.update (binary 53) .minimize (exOracle .minimize)
      ⟨1 / 4, 1, 1 / 2, some 5⟩ RoundedRows.rSlv RoundedRows.rCost 0 (fun _ => false) Mult.mem0 with
  | error f => rw [h] at key; cases key
  | ok r =>
    obtain ⟨x', m'⟩ := r
    rw [h] at key
    have := Except.ok.inj key
    simp only [Prod.mk.injEq] at this
    refine ⟨x', m', rfl, this.1, this.2, (C70_push_rounded_partial .equalities01 (by simp)
      RoundedRows.rCsts 3 _ RoundedRows.rSlv_ok 0 _ rfl (by decide)
      ⟨fun j => decide (j < 2), by unfold Respects; decide +kernel⟩ (by decide) (Or.inr (Or.inr ?_))
      _ _ _ (exOracle_ok _) _ _ _ _ _ _ _ _ _ h).2⟩
    intro i e he
    match i, he with
    | 0, he => simp at he; rw [← he]
    | 1, he => simp at he; rw [← he]
    | 2, he => simp at he; rw [← he]

/-! ## C120 -/

/-- C120, part: for constraints with coefficients 0 and 1 or -1, 0 and 1 that can each be respected
and hold no variable twice, `solve` in floating point never faults with the equality solvers, and with
the inequality solvers the only fault is the read beyond the array of the reduced costs (C25).  What
is missing: what `C84_solve_returns_partial` misses, and the numbers that are not finite. -/
theorem C120_solve_returns_partial (ht : t ≠ .equalitiesZ ∧ t ≠ .inequalitiesZ)
    (hw : w.Ok fun o => o.Ok mode) {s : Slv} (hs : makeSlv t csts n = .ok s)
    (hnd : ∀ c ∈ csts, (c.elems.map FunElem.var).Nodup) (hsat : ∀ c ∈ csts, ∃ y, Respects c y)
    (ho : cfg.order = .piSignChange → n ≤ csts.length) (cost : CostFun) :
    (∃ a st, functor t (engine w.rnd mode cost) w cfg mode o csts n = .ok (a, st)) ∨
    ((t = .inequalities01 ∨ t = .inequalities101) ∧
      functor t (engine w.rnd mode cost) w cfg mode o csts n = .error (.ub "R[i]")) := by
  have key := functor_ends (E := fun f => (t = .inequalities01 ∨ t = .inequalities101) ∧ f = .ub "R[i]")
    (upd := engine w.rnd mode cost) (cfg := cfg) (t := mode) (o := o)
    hs hw (by
      intro i j p k x m hk f hf
      have hck : csts[k]? = some csts[k] := List.getElem?_eq_getElem hk
      have hmem : csts[k] ∈ csts := List.getElem_mem hk
      unfold engine at hf
      rcases RoundedRows.C117_update_returns t ht csts n s hs k _ hck (hnd _ hmem) (hsat _ hmem) w.rnd
        mode _ (hw.oracle i j) p cost x m with ⟨x', m', h⟩ | ⟨h1, _, h⟩
      · rw [h] at hf
        cases hf
      · rw [h] at hf
        cases hf
        exact ⟨h1, rfl⟩) ho
  cases hres : functor t (engine w.rnd mode cost) w cfg mode o csts n with
  | ok r => exact Or.inl ⟨r.1, r.2, rfl⟩
  | error f =>
    obtain ⟨h1, h2⟩ := key f hres
    exact Or.inr ⟨h1, by rw [h2]⟩

/-- What one update of the row `k` does in a run: it goes from the vector and the memory `b` to `c`. -/
def GoodUpdate (rnd : Rat → Rat) (csts : List Merged) (mode : ObjType) (cost : CostFun) (theta : Rat)
    (push : Bool) (k : Nat) (b c : Assign × Mem) : Prop :=
  ∃ r, csts[k]? = some r ∧ Respects r c.1 ∧ (∀ j, (∀ e ∈ r.elems, e.var ≠ j) → c.1 j = b.1 j) ∧
    (push = false → ∀ y, Respects r y → AtLeastAsGood mode
      (priceOf (computedIn rnd csts b.2 k theta cost b.1) r.elems c.1)
      (priceOf (computedIn rnd csts b.2 k theta cost b.1) r.elems y))

theorem updates_imp {S : Type} {f g : Nat → Nat → S → S → Prop} (hfg : ∀ i k b c, f i k b c → g i k b c)
    {i : Nat} {l : List Nat} {b c : S} (h : Updates f i l b c) : Updates g i l b c := by
  induction h with
  | nil i a => exact .nil i a
  | cons h _ ih => exact .cons (hfg _ _ _ _ h) ih

theorem updates_last {S : Type} {f : Nat → Nat → S → S → Prop} {i : Nat} {l : List Nat} {b c : S}
    (h : Updates f i l b c) : ∀ k, l.getLast? = some k → ∃ j d, f j k d c := by
  induction h with
  | nil i a => simp
  | @cons i k ks a b c h h' ih =>
    intro q hq
    cases ks with
    | nil =>
      cases h'
      simp only [List.getLast?_singleton, Option.some.injEq] at hq
      subst hq
      exact ⟨_, _, h⟩
    | cons k' ks => exact ih q (by simpa using hq)

theorem engine_good (ht : t ≠ .equalitiesZ ∧ t ≠ .inequalitiesZ) {s : Slv}
    (hs : makeSlv t csts n = .ok s) (hnd : ∀ c ∈ csts, (c.elems.map FunElem.var).Nodup)
    (hsat : ∀ c ∈ csts, ∃ y, Respects c y) {rnd : Rat → Rat} {cost : CostFun} {q : Oracle}
    (hq : q.Ok mode) {kappa delta theta amp : Rat} {push : Bool} {k : Nat} {b c : Assign × Mem}
    (h : engine rnd mode cost s q ⟨kappa, delta, theta, if push then some amp else none⟩ k b.1 b.2 =
      .ok c) : GoodUpdate rnd csts mode cost theta push k b c := by
  obtain ⟨x', m'⟩ := c
  unfold engine at h
  obtain ⟨_, hrows, _⟩ := makeSlv_facts hs
  have hk : k < csts.length := by
    by_contra hk
    have : s.rows[k]? = none := by
      rw [hrows, List.getElem?_eq_none_iff]
      simpa using hk
    unfold RoundedRows.update rowOf at h
    rw [this] at h
    exact absurd h (by simp [bind, Except.bind])
  have hck : csts[k]? = some csts[k] := List.getElem?_eq_getElem hk
  have hmem : csts[k] ∈ csts := List.getElem_mem hk
  obtain ⟨y0, hy0⟩ := hsat _ hmem
  have hopt := fun y hy => RoundedRows.update_opt (y := y) hs ht hck (hnd _ hmem) hq h
    (fun j => RoundedRows.costsOf s csts[k].elems (RoundedRows.valueOf rnd s cost
      (RoundedRows.decrease rnd b.2 k csts[k].elems theta) b.1
      (if push then some amp else none)) j b.1) (by
      intro i e he
      unfold RoundedRows.costsOf
      rw [RoundedRows.find_nodup (hnd _ hmem) he]
      simp only
      cases isNegative s.kind e <;> simp) hy
  refine ⟨_, hck, (hopt y0 hy0).1, fun j hj => RoundedRows.update_frame hs hck (hnd _ hmem) h hj, ?_⟩
  intro hp
  subst hp
  exact (RoundedRows.C117_cheapest_as_computed t ht csts n s hs k _ hck (hnd _ hmem) ⟨y0, hy0⟩ rnd mode
    q hq kappa delta theta cost b.1 x' b.2 m' h).2.1

/-- C120, the passes: the run in floating point starts from the initial vector and from null
multipliers and preferences, each pass from what the one before left, and it makes its row updates one
after the other; each of them gives the variables of its row values that respect the constraint and
leaves the other variables, and, but in a push, no other respecting values are better for the reduced
costs as they are computed. -/
theorem C120_rows_of_the_run (ht : t ≠ .equalitiesZ ∧ t ≠ .inequalitiesZ)
    (hw : w.Ok fun o => o.Ok mode) (hnd : ∀ c ∈ csts, (c.elems.map FunElem.var).Nodup)
    (hsat : ∀ c ∈ csts, ∃ y, Respects c y) (cost : CostFun)
    (h : functor t (engine w.rnd mode cost) w cfg mode o csts n = .ok (a, st)) :
    st.log.map Visit.x' = a.final.trace ∧
    ∃ ms : List Mem, ms.length = st.log.length + 1 ∧
      ms[0]? = some ⟨fun _ => 0, fun _ _ => 0⟩ ∧ ∀ (i : Nat) v, st.log[i]? = some v →
      (w.x0 :: a.final.trace)[i]? = some v.x ∧ ms[i]? = some v.mem ∧ ∃ m', ms[i + 1]? = some m' ∧
        Updates (fun _ => GoodUpdate w.rnd csts mode cost cfg.theta v.push) 0 v.rows (v.x, v.mem)
          (v.x', m') := by
  obtain ⟨h1, s, hs, ms, h2, h3, h4⟩ := C83_log_is_the_run h
  refine ⟨h1, ms, h2, h3, fun i v hv => ?_⟩
  obtain ⟨g1, g2, m', g3, g4⟩ := h4 i v hv
  exact ⟨g1, g2, m', g3, updates_imp (fun j k b c hu => engine_good ht hs hnd hsat (hw.oracle i j) hu) g4⟩

/-- C120, a pass repairs the last constraint that it updates. -/
theorem C120_last_row_holds (ht : t ≠ .equalitiesZ ∧ t ≠ .inequalitiesZ)
    (hw : w.Ok fun o => o.Ok mode) (hnd : ∀ c ∈ csts, (c.elems.map FunElem.var).Nodup)
    (hsat : ∀ c ∈ csts, ∃ y, Respects c y) (cost : CostFun)
    (h : functor t (engine w.rnd mode cost) w cfg mode o csts n = .ok (a, st)) :
    ∀ v ∈ st.log, ∀ k, v.rows.getLast? = some k → ∃ c, csts[k]? = some c ∧ Respects c v.x' := by
  intro v hv k hk
  obtain ⟨i, hi⟩ := List.getElem?_of_mem hv
  obtain ⟨_, ms, _, _, h4⟩ := C120_rows_of_the_run ht hw hnd hsat cost h
  obtain ⟨_, _, m', _, hu⟩ := h4 i v hi
  obtain ⟨_, _, c, g1, g2, _⟩ := updates_last hu k hk
  exact ⟨c, g1, g2⟩

/-- C120, the answer: whatever the rounding, the run succeeds exactly when some pass ended on a vector
that respects every constraint; the solution is then such a vector, the best of them, with its
objective.  The main loop makes at most `limit` passes and the push phase at most `pushes-limit` times
`1 + pushing-iteration-limit`. -/
theorem C120_best_of_the_run (hw : w.Ok fun o => o.Ok mode) (cost : CostFun)
    (h : functor t (engine w.rnd mode cost) w cfg mode o csts n = .ok (a, st)) :
    (a.status = .success ↔ ∃ v ∈ st.log, Within v.x' csts) ∧
    (a.status = .success → ∃ v ∈ st.log, Within v.x' csts ∧
      a.solution = some ((List.range n).map v.x', some (objective o v.x')) ∧
      ∀ u ∈ st.log, Within u.x' csts → AtLeastAsGood mode (objective o v.x') (objective o u.x')) ∧
    (a.status ≠ .success → a.status = .limitReached) ∧
    a.mainPasses ≤ cfg.limit ∧
    st.log.length ≤ a.mainPasses + cfg.pushes * (1 + cfg.pushIter) := by
  obtain ⟨r, _, _, _, _, _, hA, _⟩ := functor_refines hw
    (fun s _ => any_sim (engine w.rnd mode cost) w s) h
  obtain ⟨h1, h2⟩ := C29_best_of_the_run r cfg.params mode o csts n a hA
  obtain ⟨h3, _, h4, _⟩ := C30_passes_are_bounded r cfg.params mode o csts n a hA
  obtain ⟨_, h5, _⟩ := C31_status_partial r cfg.params mode o csts n a hA
  have htr := (C83_log_is_the_run h).1
  rw [← htr] at h1 h2 h4
  simp only [List.mem_map, exists_exists_and_eq_and, forall_exists_index, and_imp,
    forall_apply_eq_imp_iff₂, List.length_map] at h1 h2 h4
  exact ⟨h1, h2, h5, h3, h4⟩

/-! ## Concrete runs -/

/-- The settings of the runs below. -/
def rCfg : Cfg := { limit := 16, w := 0, kappaStep := 1 / 8, kappaMax := 1 / 2, pushes := 2, pushIter := 1 }

/-- The objective 2 ^ -60 x0 + 2 x2. -/
def rObj : Objective := { elems := [⟨1 / 2 ^ 60, 0⟩, ⟨2, 2⟩] }

/-- The run in `double`. -/
theorem rRun_double : ∃ a st, functor .equalities01 (engine exDouble.rnd .minimize RoundedRows.rCost)
      exDouble rCfg .minimize rObj RoundedRows.rCsts 3 = .ok (a, st) ∧
    a.exit = .found ∧ a.mainPasses = 4 ∧ st.log.map glimpse =
      [⟨false, [0, 1], 0, [true, false, false]⟩, ⟨false, [0], 0, [true, true, false]⟩,
       ⟨false, [1], 1 / 8, [true, false, false]⟩, ⟨false, [0], 1 / 4, [true, false, true]⟩,
       ⟨true, [], 8106479329266893 / 2 ^ 55, [true, false, true]⟩, ⟨false, [], 1 / 4, [true, false, true]⟩,
       ⟨true, [], 8106479329266893 / 2 ^ 55, [true, false, true]⟩, ⟨false, [], 1 / 4, [true, false, true]⟩] :=
  look_ok (l := ⟨_, _, _⟩) (by decide +kernel)

theorem rCsts_nodup : ∀ c ∈ RoundedRows.rCsts, (c.elems.map FunElem.var).Nodup := by decide +kernel

theorem rCsts_sat : ∀ c ∈ RoundedRows.rCsts, ∃ y, Respects c y := by
  intro c hc
  simp only [RoundedRows.rCsts, List.mem_cons, List.not_mem_nil, or_false] at hc
  rcases hc with rfl | rfl
  · exact ⟨fun j => decide (j < 2), by unfold Respects; decide +kernel⟩
  · exact ⟨fun j => decide (j = 0), by unfold Respects; decide +kernel⟩

/-- The hypotheses of C120 are met by a run of eight passes, of which two are pushes. -/
example : ∃ a st, functor .equalities01 (engine exDouble.rnd .minimize RoundedRows.rCost)
      exDouble rCfg .minimize rObj RoundedRows.rCsts 3 = .ok (a, st) ∧
    a.status = .success ∧ st.log.length = 8 ∧
    (∀ v ∈ st.log, ∀ k, v.rows.getLast? = some k →
      ∃ c, RoundedRows.rCsts[k]? = some c ∧ Respects c v.x') ∧
    ∃ v ∈ st.log, Within v.x' RoundedRows.rCsts := by
  obtain ⟨a, st, h, he, hm, hl⟩ := rRun_double
  have hb := C120_best_of_the_run exDouble_ok _ h
  have hlen : st.log.length = 8 := by
    have := congrArg List.length hl
    simpa using this
  have hs : a.status = .success := by
    refine hb.1.mpr ?_
    have hmem : (⟨false, [0], (1 / 4 : Rat), [true, false, true]⟩ : Glimpse) ∈ st.log.map glimpse := by
      rw [hl]; simp
    obtain ⟨v, hv, hg⟩ := List.mem_map.mp hmem
    simp only [glimpse, Glimpse.mk.injEq, List.cons.injEq, and_true] at hg
    obtain ⟨_, _, _, g0, g1, g2⟩ := hg
    refine ⟨v, hv, ?_⟩
    intro c hc
    simp only [RoundedRows.rCsts, List.mem_cons, List.not_mem_nil, or_false] at hc
    rcases hc with rfl | rfl <;> simp [lhs, g0, g1, g2]
  exact ⟨a, st, h, hs, hlen, C120_last_row_holds (by simp) exDouble_ok rCsts_nodup rCsts_sat _ h,
    hb.1.mp hs⟩

/-- What is observed of an answer: its solution. -/
def found (r : Outcome (Answer × State)) : Option (List Bool × Option Rat) :=
  match r with
  | .ok (a, _) => if a.status = .success then a.solution else none
  | .error _ => none

/-- C120: the answer depends on the type of the numbers.  On two of x0, x1 and x2 and one of x0 and
x1, with the costs 2 ^ -60, 0 and 2, the run with exact numbers returns the best vector, x1 and x2,
and the run in `double` returns x0 and x2. -/
theorem C120_rounding_changes_the_answer :
    found (functor .equalities01 (engine exWorld.rnd .minimize RoundedRows.rCost) exWorld rCfg .minimize
      rObj RoundedRows.rCsts 3) = some ([false, true, true], some 2) ∧
    found (functor .equalities01 (engine exDouble.rnd .minimize RoundedRows.rCost) exDouble rCfg
      .minimize rObj RoundedRows.rCsts 3) = some ([true, false, true], some (2 + 1 / 2 ^ 60)) ∧
    (∀ y, Within y RoundedRows.rCsts → (2 : Rat) ≤ objective rObj y) := by
  refine ⟨by decide +kernel, by decide +kernel, fun y hy => ?_⟩
  have h1 := hy _ (List.mem_cons_self ..)
  have h2 := hy _ (List.mem_cons_of_mem _ (List.mem_cons_self ..))
  simp only [lhs] at h1 h2
  unfold objective rObj
  cases e0 : y 0 <;> cases e1 : y 1 <;> cases e2 : y 2 <;> simp [e0, e1, e2] at h1 h2 ⊢

end Bx.RoundedRun
