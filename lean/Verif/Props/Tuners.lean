import Verif.Model.Tuners
import Verif.Props.Branch
import Verif.Props.Dispatch
import Verif.Props.Manual

/-!
# C75: the tuned modes and the problems that are not preprocessed
-/

namespace Bx.Dispatch

open Spec Itm Merge

/-- The setting keeps the contracts of the sorts and of the draws in each run, and the hypothesis of C47
on the crossovers. -/
structure Setting.Ok {ρ : Type} (s : Setting ρ) : Prop where
  sorts : ∀ t k, (s.world t k).sorts.Ok
  choices : ∀ t k, Optimizer.ChoicesOk (s.world t k).choices
  clean : ∀ t k, Optimizer.Clean (s.world t k).choices

theorem manual_last {inner : Nat → Manual.Tuning → Outcome Result} {p : Manual.Tuning} {r : Result}
    (h : manual inner p = .ok r) : inner (5 ^ 5) (Manual.tuning p [4, 4, 4, 4, 4]) = .ok r := by
  obtain ⟨s, h1, h2, h3⟩ := Manual.last_state (fun k t => readResult (inner k t)) p
  unfold manual at h
  rw [h1] at h
  obtain ⟨_, _, h⟩ := bind_eq_ok.1 h
  rw [← h2, ← h3]
  exact h

theorem branch_never {inner : Nat → Problem → Outcome Result} {pb : Problem} {r : Result} :
    branch inner pb ≠ .ok r := by
  intro h
  unfold branch at h
  split at h
  · cases h
  · cases h
  · rename_i b hb
    exact Branch.C49_never_returns _ _ _ _ hb

/-- Whatever the mode, the result of `optimize` is that of one run of `itm::optimize` on the problem. -/
theorem optimize_run {ρ : Type} {upd : Engine → Slv → ρ → Nat → Assign → Outcome Assign}
    {s : Setting ρ} {c : Ctx} {raw : RawProblem} {res : Result}
    (h : optimize (execute upd s.untuned) (s.tuners upd c) (some c) raw = .ok res) :
    ∃ pb t k, prepared c.preprocessing raw = .ok pb ∧
      itm (execute upd (s.world t k)) c true pb = .ok res := by
  unfold optimize at h
  obtain ⟨pb, hpb, h⟩ := bind_eq_ok.mp h
  refine ⟨pb, ?_⟩
  have hman : ∀ {r}, manual (fun k t => itm (execute upd (s.world t k)) c true pb) s.first = .ok r →
      ∃ t k, prepared c.preprocessing raw = .ok pb ∧
        itm (execute upd (s.world t k)) c true pb = .ok r :=
    fun hr => ⟨_, _, hpb, manual_last hr⟩
  split at h
  · exact absurd h branch_never
  · split at h
    · unfold Setting.tuners at h
      simp only at h
      split at h
      · exact hman h
      · rename_i l _
        unfold nlopt at h
        split at h
        · cases h
        · cases h
        · rw [Option.getD_some] at h
          split at h
          · obtain ⟨t, _, h⟩ := bind_eq_ok.1 h
            exact ⟨_, _, hpb, h⟩
          · exact hman h
    · split at h
      · exact hman h
      · exact ⟨_, _, hpb, h⟩

/-- The bounds of no variable fix its value. -/
def Unfixed (raw : RawProblem) : Prop := ∀ v ∈ raw.values, v.min ≠ v.max

/-- C75, the result, in every mode, and without preprocessing too: whatever the solver, the method, the
mode of tuning and the run of each call, a success of `solve` or of `optimize` solves the raw problem.
Without preprocessing the problem must have a constraint (`C32_unconstrained_aborts`) and no variable
that its bounds fix, since the solver ignores the bounds; it is then not assumed to be feasible.  The
reported value is that of `compute_solution` without preprocessing or for a linear objective.  Missing:
the other cases. -/
theorem C75_tuned_success_solves_the_raw_problem_partial {ρ : Type}
    (upd : Engine → Slv → ρ → Nat → Assign → Outcome Assign) (st : Setting ρ) (hst : st.Ok) (c : Ctx)
    (raw : RawProblem) (wf : WellFormedRaw raw) (h0 : raw.names ≠ [])
    (hpre : if c.preprocessing then ∃ x, IsSolution raw x
      else raw.eqs ++ raw.ges ++ raw.les ≠ [] ∧ Unfixed raw)
    (hi : ∀ c ∈ raw.eqs ++ raw.ges ++ raw.les, ∀ x,
      -2147483648 ≤ lhs x c.elems ∧ lhs x c.elems ≤ 2147483647) (res : Result)
    (h : solve (execute upd st.untuned) (some c) raw = .ok res ∨
      optimize (execute upd st.untuned) (st.tuners upd c) (some c) raw = .ok res)
    (hok : res.status = .success) :
    ∃ s x, res.solutions = [s] ∧ Lpcore.isValidSolution raw res = .ok true ∧
      (c.preprocessing = false ∨ raw.objective.qelems = [] →
        Lpcore.computeSolution raw res = .ok s.value) ∧
      Names raw.names (Props.pairs res s) x ∧ IsSolution raw x := by
  have key : ∃ pb t k, prepared c.preprocessing raw = .ok pb ∧
      Shape (st.world t k).sorts (st.world t k).order pb res := by
    rcases h with h | h
    · unfold solve at h
      obtain ⟨pb, hpb, h⟩ := bind_eq_ok.mp h
      exact ⟨pb, _, _, hpb, itm_shape (hst.choices _ _) (hst.clean _ _) h hok⟩
    · obtain ⟨pb, t, k, hpb, h⟩ := optimize_run h
      exact ⟨pb, t, k, hpb, itm_shape (hst.choices _ _) (hst.clean _ _) h hok⟩
  obtain ⟨pb, t, k, hpb, hsh⟩ := key
  unfold prepared at hpb
  split at hpre
  · rename_i hp
    rw [if_pos hp] at hpb
    obtain ⟨s, x, g1, g2, g3, g4⟩ := hsh.solves (hst.sorts t k) wf h0 hi hpre hpb hok
    exact ⟨s, x, g1, g2, fun hq => g3 (hq.resolve_left (by rw [hp]; decide)), g4⟩
  · rename_i hp
    rw [if_neg hp] at hpb
    obtain rfl := Except.ok.inj hpb
    obtain ⟨s, x, g1, g2, g3, g4, g5⟩ := hsh.checks (hst.sorts t k) wf h0 hpre.1 hi hok
    exact ⟨s, x, g1, g2, fun _ => g3, g4, g5, fun i v hv he =>
      absurd he (hpre.2 v (List.mem_of_getElem? hv))⟩

/-! ## The mode manual -/

theorem forM_ok {α : Type} {f : α → Outcome Unit} : ∀ l : List α,
    l.forM f = .ok () ↔ ∀ a ∈ l, f a = .ok ()
  | [] => by simp [pure, Except.pure]
  | a :: l => by
    show (f a >>= fun _ => l.forM f) = .ok () ↔ _
    rw [bind_eq_ok]
    simp only [List.mem_cons, forall_eq_or_imp, ← forM_ok l]
    exact ⟨fun ⟨u, h1, h2⟩ => ⟨h1, h2⟩, fun ⟨h1, h2⟩ => ⟨(), h1, h2⟩⟩

/-- A call of the optimizer that returns. -/
def Returns (r : Outcome Result) : Prop := ∃ v, r = .ok v

/-- The combination number `k`: the digits of `k` in base 5, the first index being the most
significant. -/
def digits (k : Nat) : List Nat := [k / 625 % 5, k / 125 % 5, k / 25 % 5, k / 5 % 5, k % 5]

theorem manual_spec {inner : Nat → Manual.Tuning → Outcome Result} {p : Manual.Tuning} {r : Result} :
    manual inner p = .ok r ↔ (∀ k, k < 5 ^ 5 → Returns (inner k (Manual.tuning p (digits k)))) ∧
      inner (5 ^ 5) (Manual.tuning p [4, 4, 4, 4, 4]) = .ok r := by
  obtain ⟨s, h1, h2, h3, is, h4, h5, h6⟩ := Manual.loop_spec (inner := fun k t => readResult (inner k t))
    (p := p) (5 ^ 5) { iterators := [0, 0, 0, 0, 0], params := p }
    ⟨⟨rfl, Manual.zeros_lt⟩, by simp, rfl⟩ (Nat.sub_le _ _)
  obtain ⟨s', g1, g2, g3⟩ := Manual.last_state (fun k t => readResult (inner k t)) p
  have hss : s' = s := by
    unfold Manual.optimize at g1
    rw [h1] at g1
    exact (Prod.mk.inj (Option.some.inj g1)).2.symm
  subst hss
  have hget : ∀ k, k < 5 ^ 5 → s'.tried[k]? = some (digits k) := by
    intro k hk
    have hl : k < s'.tried.length := by rw [g2]; exact hk
    rw [List.getElem?_eq_getElem hl]
    have hr : Manual.rank 5 s'.tried[k] = k := by
      have : (s'.tried.map (Manual.rank 5))[k]? = some k := by rw [h3]; exact List.getElem?_range hk
      rw [List.getElem?_map, List.getElem?_eq_getElem hl] at this
      exact Option.some.inj this
    have hv := h2 _ (List.getElem_mem hl)
    have : s'.tried[k].reverse = (digits k).reverse := Manual.number_inj (l := 5) _ _
      (by simpa using hv.2)
      (by
        intro i hi
        simp only [digits, List.mem_reverse, List.mem_cons, List.not_mem_nil, or_false] at hi
        omega)
      (by rw [List.length_reverse, hv.1]; rfl)
      (by
        rw [show Manual.number 5 s'.tried[k].reverse = Manual.rank 5 s'.tried[k] from rfl, hr]
        simp only [digits, List.reverse_cons, List.reverse_nil, List.nil_append, List.cons_append,
          Manual.number]
        omega)
    rw [List.reverse_injective this]
  unfold manual
  rw [g1]
  simp only
  have hloop : (s'.tried.zipIdx.forM fun q => inner q.2 (Manual.tuning p q.1) >>= fun _ =>
      (.ok () : Outcome Unit)) = .ok () ↔
        ∀ k, k < 5 ^ 5 → Returns (inner k (Manual.tuning p (digits k))) := by
    rw [forM_ok]
    constructor
    · intro h k hk
      obtain ⟨v, hv, _⟩ := bind_eq_ok.mp (h (digits k, k) (List.mem_zipIdx_iff_getElem?.mpr (hget k hk)))
      exact ⟨v, hv⟩
    · rintro h ⟨is, k⟩ hq
      have hk := List.mem_zipIdx_iff_getElem?.mp hq
      simp only at hk
      have hlt : k < 5 ^ 5 := by
        rw [← g2]
        exact (List.getElem?_eq_some_iff.mp hk).1
      obtain rfl := Option.some.inj ((hget k hlt).symm.trans hk)
      obtain ⟨v, hv⟩ := h k hlt
      simp only [hv, ok_bind]
  rw [bind_eq_ok, g2, g3]
  exact ⟨fun ⟨_, a, b⟩ => ⟨hloop.mp a, b⟩, fun ⟨a, b⟩ => ⟨(), hloop.mpr a, b⟩⟩

/-- C50, for the function of the library: in the mode `manual`, `optimize` gives the result `res` when,
and only when, the calls number 0 to 3124 return, each with its own combination, and the call number
3125, with the last combination, gives `res`.  What the other calls found has no effect on the result. -/
theorem C50_manual_mode_partial {ρ : Type} (upd : Engine → Slv → ρ → Nat → Assign → Outcome Assign)
    (s : Setting ρ) (c : Ctx) (hc : c.mode = 1) (raw : RawProblem) (pb : Problem)
    (hp : prepared c.preprocessing raw = .ok pb) (res : Result) :
    optimize (execute upd s.untuned) (s.tuners upd c) (some c) raw = .ok res ↔
      (∀ k, k < 5 ^ 5 →
        Returns (itm (execute upd (s.world (Manual.tuning s.first (digits k)) k)) c true pb)) ∧
      itm (execute upd (s.world (Manual.tuning s.first [4, 4, 4, 4, 4]) (5 ^ 5))) c true pb =
        .ok res := by
  rw [(C75_first_mode_wins _ _ _ _).2.2.2.2 hc, hp, ok_bind]
  exact manual_spec

/-- The combinations of two calls are different, and every combination is that of a call. -/
theorem C50_one_call_per_combination :
    (∀ k l, k < 5 ^ 5 → l < 5 ^ 5 → digits k = digits l → k = l) ∧
    ∀ is : List Nat, is.length = 5 → (∀ i ∈ is, i < 5) → ∃ k, k < 5 ^ 5 ∧ digits k = is := by
  constructor
  · intro k l hk hl h
    simp only [digits, List.cons.injEq] at h
    omega
  · intro is hl hv
    match is, hl with
    | [a, b, c, d, e], _ =>
      simp only [List.mem_cons, List.not_mem_nil, or_false, forall_eq_or_imp, forall_eq] at hv
      refine ⟨625 * a + 125 * b + 25 * c + 5 * d + e, by omega, ?_⟩
      simp only [digits, List.cons.injEq, and_true]
      omega

/-- C76, for the function of the library: without nlopt, the mode `nlopt` gives the result of the mode
`manual`. -/
theorem C76_library_without_nlopt_partial {ρ : Type}
    (upd : Engine → Slv → ρ → Nat → Assign → Outcome Assign) (s : Setting ρ) (hs : s.library = none)
    (c : Ctx) (hc : c.mode = 2 ∨ c.mode = 3) (raw : RawProblem) :
    optimize (execute upd s.untuned) (s.tuners upd c) (some c) raw =
      optimize (execute upd s.untuned) (s.tuners upd { c with mode := 1 })
        (some { c with mode := 1 }) raw := by
  have h := C76_without_nlopt_is_manual_partial (execute upd s.untuned) (s.tuners upd c)
    (by unfold Setting.tuners; simp only [hs]) c hc raw
  rw [h]
  rfl

/-! ## The hypotheses are met -/

theorem manual_const {inner : Nat → Manual.Tuning → Outcome Result} {r : Result} (p : Manual.Tuning)
    (h : ∀ k t, inner k t = .ok r) : manual inner p = .ok r := by
  obtain ⟨s, h1, _⟩ := Manual.last_state (fun k t => readResult (inner k t)) p
  unfold manual
  rw [h1]
  simp only [h, ok_bind]
  have : ∀ l : List (List Nat × Nat),
      (l.forM fun _ => (Except.ok () : Outcome Unit)) = .ok () := by
    intro l
    induction l with
    | nil => rfl
    | cons a l ih => exact ih
  rw [this, ok_bind]

/-- The same choices in all the calls. -/
def exSetting : Setting Rand.Choice where
  world := fun _ _ => exWorld
  first := ⟨1/2, -1, 0, 1/1000, 1/2⟩
  value := fun _ => .ok none

theorem exSetting_ok : exSetting.Ok :=
  ⟨fun _ _ => stdSorts_ok, fun _ _ => exWorld_ok, fun _ _ => exWorld_clean⟩

theorem exSetting_call : itm (execute (fun _ => Rand.updRow) exWorld) { solver := .random, mode := 1 }
    true Preprocess.exRed = .ok (Optimizer.exResult [⟨[1, 0, 0, 1], 11⟩]) := by decide +kernel

/-- The mode `manual` runs the solver on the problem of the examples. -/
theorem exSetting_manual : optimize (execute (fun _ => Rand.updRow) exSetting.untuned)
    (exSetting.tuners (fun _ => Rand.updRow) { solver := .random, mode := 1 })
    (some { solver := .random, mode := 1 }) Preprocess.exRaw =
      .ok (Optimizer.exResult [⟨[1, 0, 0, 1], 11⟩]) := by
  rw [(C75_first_mode_wins _ _ _ _).2.2.2.2 rfl]
  change Preprocess.preprocess Preprocess.exRaw >>= _ = _
  rw [Preprocess.exRaw_runs, ok_bind]
  exact manual_const _ fun _ _ => exSetting_call

/-- The 3126 calls of the mode return, and the result is that of the last one. -/
example : (∀ k, k < 5 ^ 5 → Returns (itm (execute (fun _ => Rand.updRow)
      (exSetting.world (Manual.tuning exSetting.first (digits k)) k)) { solver := .random, mode := 1 }
      true Preprocess.exRed)) ∧
    itm (execute (fun _ => Rand.updRow) (exSetting.world (Manual.tuning exSetting.first [4, 4, 4, 4, 4])
      (5 ^ 5))) { solver := .random, mode := 1 } true Preprocess.exRed =
        .ok (Optimizer.exResult [⟨[1, 0, 0, 1], 11⟩]) :=
  (C50_manual_mode_partial (fun _ => Rand.updRow) exSetting { solver := .random, mode := 1 } rfl
    Preprocess.exRaw Preprocess.exRed Preprocess.exRaw_runs _).mp exSetting_manual

example : ∃ x, IsSolution Preprocess.exRaw x ∧ Lpcore.isValidSolution Preprocess.exRaw
    (Optimizer.exResult [⟨[1, 0, 0, 1], 11⟩]) = .ok true := by
  obtain ⟨s, x, _, h2, _, _, h5⟩ := C75_tuned_success_solves_the_raw_problem_partial
    (fun _ => Rand.updRow) exSetting exSetting_ok { solver := .random, mode := 1 }
    Preprocess.exRaw Preprocess.exRaw_wf (by decide) ⟨_, Preprocess.exRaw_solution⟩
    (ints_of_sums (by decide +kernel)) _ (Or.inr exSetting_manual) rfl
  exact ⟨x, h5, h2⟩

/-- `exLe`, without preprocessing. -/
example : ∃ res, solve (execute (fun _ => Rand.updRow) exSetting.untuned)
      (some { solver := .random, preprocessing := false }) exLe = .ok res ∧ res.status = .success ∧
    exLe.eqs ++ exLe.ges ++ exLe.les ≠ [] ∧ Unfixed exLe := by
  have h : ((solve (execute (fun _ => Rand.updRow) exSetting.untuned)
      (some { solver := .random, preprocessing := false }) exLe).toOption.any fun r =>
        r.status == .success) = true := by decide +kernel
  cases hh : solve (execute (fun _ => Rand.updRow) exSetting.untuned)
      (some { solver := .random, preprocessing := false }) exLe with
  | error e => rw [hh] at h; cases h
  | ok res =>
    rw [hh] at h
    refine ⟨res, rfl, ?_, by decide, ?_⟩
    · simpa [Except.toOption] using h
    · unfold Unfixed
      decide +kernel

end Bx.Dispatch
