import Verif.Proofs.Numeric
import Verif.Proofs.Rounding
import Verif.Spec.Orders
import Mathlib.Tactic.Positivity
import Mathlib.Tactic.Linarith

/-! Helper lemmas on the log of a run with its numbers: the weights, the orders, the absence of
faults. -/

namespace Bx.Num

open Merge SolverCtor Spec Itm Mult

variable {Ω : Type}

theorem ctor_le {t : SolverType} {c : Merged} {b : Bound} (h : ctor t c = .ok b) : c.min ≤ c.max := by
  unfold ctor at h
  cases t <;> simp only [equalities01, equalities101, inequalities01, inequalities101, inequalitiesZ] at h <;>
    obtain ⟨_, _, h⟩ := bind_eq_ok.mp h <;>
    obtain ⟨_, h1, h⟩ := bind_eq_ok.mp h <;>
    have h1 := check_eq_ok.mp h1 <;> simp only [decide_eq_true_eq] at h1
  case equalities01 => omega
  case equalities101 => omega
  all_goals
    by_cases he : c.min = c.max
    · omega
    · rw [if_neg he] at h1
      simp only at h1
      omega

theorem violations_le (csts : List Merged) (x : Assign) : violations csts x ≤ csts.length := by
  unfold violations
  exact (List.length_filter_le _ _).trans (by simp)

theorem pass_remaining {kind : SolverType} {csts : List Merged} {n : Nat} {s : Slv}
    (hs : makeSlv kind csts n = .ok s) {upd : Upd Ω} {w : World Ω} {p : Param} {t : Nat} {c : Compute}
    {x : Assign} {m : Mem} {rem : Nat} {c' : Compute} {x' : Assign} {m' : Mem}
    (h : pass s upd w p t c x m = .ok (rem, c', x', m')) : rem = violations csts x' := by
  unfold pass at h
  obtain ⟨⟨y, m1⟩, h1, h⟩ := bind_eq_ok.mp h
  have hv : ∀ (y : Assign) (r : List Nat), violated s y = .ok r → r.length = violations csts y := by
    intro y r hr
    have := Except.ok.inj ((violated_eq hs y).1.symm.trans hr)
    rw [← this]; rfl
  have hd : ∀ (y : Assign) (d : List (Nat × Int)), infeasibility s y = .ok d →
      d.length = violations csts y := by
    intro y d hr
    obtain ⟨d', g1, g2⟩ := (violated_eq hs y).2.2
    have := Except.ok.inj (g1.symm.trans hr)
    subst this
    have := congrArg List.length g2
    rw [List.length_map] at this
    exact this
  cases ho : c.order <;> simp only [ho] at h <;>
    obtain ⟨r, hr, h⟩ := bind_eq_ok.mp h <;>
    have h := Except.ok.inj h <;>
    simp only [Prod.mk.injEq] at h <;>
    obtain ⟨rfl, _, rfl, _⟩ := h
  case piSignChange => exact (Except.ok.inj ((violated_eq hs y).2.1.symm.trans hr)).symm
  case infeasibilityDecr => exact hd y r hr
  case infeasibilityIncr => exact hd y r hr
  all_goals exact hv y r hr

/-! ## The weights -/

/-- The weight does not leave its range by one step; the parameters are numbers of the type `Float`. -/
structure Range (w : World Ω) (cfg : Cfg) : Prop where
  kappa : cfg.kappaMin ≤ cfg.kappaMax
  step : 0 ≤ cfg.kappaStep
  warm : 0 ≤ cfg.w
  pow : ∀ q, 0 ≤ q → q ≤ 1 → 0 ≤ w.pow q ∧ w.pow q ≤ 1
  rnd : Rounding w.rnd
  rndMin : w.rnd cfg.kappaMin = cfg.kappaMin
  rndStep : w.rnd cfg.kappaStep = cfg.kappaStep

/-- A weight and the next one. -/
structure Step (w : World Ω) (cfg : Cfg) (kappa next : Rat) : Prop where
  ge : kappa ≤ next
  le : next ≤ w.rnd (kappa + cfg.kappaStep)
  kept : w.rnd next = next

theorem Step.refl {w : World Ω} {cfg : Cfg} (hr : Range w cfg) {kappa : Rat}
    (hk : w.rnd kappa = kappa) : Step w cfg kappa kappa := by
  refine ⟨le_refl _, ?_, hk⟩
  have := hr.rnd.mono (show kappa ≤ kappa + cfg.kappaStep by have := hr.step; linarith)
  rwa [hk] at this

theorem grow_bounds {w : World Ω} {cfg : Cfg} (hr : Range w cfg) {s : Slv} {late : Bool} {rem : Nat}
    (h : rem ≤ s.rows.length) {kappa : Rat} (hk : w.rnd kappa = kappa) :
    Step w cfg kappa (grow s w cfg late rem kappa) := by
  unfold grow
  cases late
  · exact Step.refl hr hk
  · simp only [if_true]
    have hq0 : (0 : Rat) ≤ (rem : Rat) / s.rows.length := by positivity
    have hq1 : (rem : Rat) / s.rows.length ≤ 1 := by
      apply div_le_one_of_le₀ _ (by positivity)
      exact_mod_cast h
    obtain ⟨h1, h2⟩ := hr.pow _ hq0 hq1
    have h3 := hr.rnd.nonneg (mul_nonneg hr.step h1)
    have h4 := hr.rnd.mono (mul_le_mul_of_nonneg_left h2 hr.step)
    rw [mul_one, hr.rndStep] at h4
    refine ⟨?_, hr.rnd.mono (by linarith), hr.rnd.idem _⟩
    have := hr.rnd.mono (show kappa ≤ kappa + w.rnd (cfg.kappaStep * w.pow (rem / s.rows.length)) by
      linarith)
    rwa [hk] at this

theorem nextMain_bounds {w : World Ω} {cfg : Cfg} (hr : Range w cfg) {s : Slv} {i rem : Nat}
    (h : rem ≤ s.rows.length) {kappa : Rat} (hk : w.rnd kappa = kappa) :
    Step w cfg kappa (nextMain s w cfg i rem kappa) := by
  unfold nextMain
  split
  · exact Step.refl hr hk
  · exact grow_bounds hr h hk

theorem nextInner_bounds {w : World Ω} {cfg : Cfg} (hr : Range w cfg) {s : Slv} {iter rem : Nat}
    (h : rem ≤ s.rows.length) {kappa : Rat} (hk : w.rnd kappa = kappa) :
    Step w cfg kappa (nextInner s w cfg iter rem kappa) := by
  unfold nextInner
  split
  · exact Step.refl hr hk
  · exact grow_bounds hr h hk

/-- What the log of the main loop holds. -/
structure MainLog (s : Slv) (w : World Ω) (cfg : Cfg) (csts : List Merged) (st : State) : Prop where
  len : st.log.length = st.base.passes
  trace : st.log.map Visit.x' = st.base.trace
  first : ∀ v, st.log[0]? = some v → v.kappa = cfg.kappaMin
  cur : st.kappa = match st.log.getLast? with
    | none => cfg.kappaMin
    | some v => v.next
  chain : ∀ (i : Nat) v v', st.log[i]? = some v → st.log[i + 1]? = some v' → v'.kappa = v.next
  rule : ∀ i v, st.log[i]? = some v → v.next = nextMain s w cfg i v.remaining v.kappa
  rem : ∀ v ∈ st.log, v.remaining = violations csts v.x'
  push : ∀ v ∈ st.log, v.push = false

/-- The head of the main loop: no pass found a solution or went over the maximum. -/
def Going (cfg : Cfg) (st : State) : Prop :=
  ∀ v ∈ st.log, v.remaining ≠ 0 ∧ v.next ≤ cfg.kappaMax

theorem MainLog.step {kind : SolverType} {csts : List Merged} {n : Nat} {s : Slv}
    (hs : makeSlv kind csts n = .ok s) {upd : Upd Ω} {w : World Ω} {cfg : Cfg} {st st1 : State} {v : Visit}
    {m : Mem} (h : MainLog s w cfg csts st) (hv : IsPass s upd w cfg false st v m)
    (hn : v.next = nextMain s w cfg st.base.passes v.remaining st.kappa)
    (hsame : Same st1 (st.after v m)) : MainLog s w cfg csts st1 := by
  have hlog : st1.log = st.log ++ [v] := hsame.log
  have hpass : st1.base.passes = st.base.passes + 1 := hsame.passes
  have hget : ∀ (i : Nat) u, (st.log ++ [v])[i]? = some u →
      (i < st.log.length ∧ st.log[i]? = some u) ∨ (i = st.log.length ∧ u = v) := by
    intro i u hu
    by_cases hi : i < st.log.length
    · rw [List.getElem?_append_left hi] at hu
      exact Or.inl ⟨hi, hu⟩
    · have := (List.getElem?_eq_some_iff.mp hu).1
      have hi2 : i = st.log.length := by simp at this; omega
      subst hi2
      rw [List.getElem?_append_right (Nat.le_refl _)] at hu
      simp at hu
      exact Or.inr ⟨rfl, hu.symm⟩
  have hkap : v.kappa = st.kappa := by have := hv.kappa; simpa using this
  refine ⟨by rw [hlog, hpass]; simp [h.len], ?_, ?_, ?_, ?_, ?_, ?_, ?_⟩
  · rw [hlog, hsame.trace, List.map_append, h.trace]; rfl
  · intro u hu
    rw [hlog] at hu
    rcases hget 0 u hu with ⟨_, hu⟩ | ⟨h0, rfl⟩
    · exact h.first u hu
    · have hnil : st.log = [] := List.length_eq_zero_iff.mp h0.symm
      rw [hkap, h.cur, hnil]; rfl
  · rw [hlog, hsame.kappa, List.getLast?_append]; rfl
  · intro i u u' hu hu'
    rw [hlog] at hu hu'
    rcases hget (i + 1) u' hu' with ⟨_, hu'⟩ | ⟨hi, rfl⟩
    · rcases hget i u hu with ⟨_, hu⟩ | ⟨hi, rfl⟩
      · exact h.chain i u u' hu hu'
      · omega
    · rcases hget i u hu with ⟨hi2, hu⟩ | ⟨hi2, _⟩
      · have hne : st.log.getLast? = some u := by
          rw [List.getLast?_eq_getElem?, show st.log.length - 1 = i by omega]; exact hu
        rw [hkap, h.cur, hne]
      · omega
  · intro i u hu
    rw [hlog] at hu
    rcases hget i u hu with ⟨_, hu⟩ | ⟨hi, rfl⟩
    · exact h.rule i u hu
    · rw [hn, hkap, hi, h.len]
  · intro u hu
    rw [hlog] at hu
    rcases List.mem_append.mp hu with hu | hu
    · exact h.rem u hu
    · rw [List.mem_singleton.mp hu]; exact pass_remaining hs hv.passEq
  · intro u hu
    rw [hlog] at hu
    rcases List.mem_append.mp hu with hu | hu
    · exact h.push u hu
    · rw [List.mem_singleton.mp hu]; exact hv.isPush

/-- The entries of the main loop: all but the last are of a loop that goes on. -/
def Went (cfg : Cfg) (st : State) : Prop :=
  ∀ (i : Nat) v v', st.log[i]? = some v → st.log[i + 1]? = some v' → v.remaining ≠ 0 ∧ v.next ≤ cfg.kappaMax

theorem mainLoop_log {kind : SolverType} {csts : List Merged} {n : Nat} {s : Slv}
    (hs : makeSlv kind csts n = .ok s) {upd : Upd Ω} {w : World Ω} {cfg : Cfg} {t : ObjType} {o : Objective}
    {c : Compute} {st : State} {e : Exit} {k : Nat}
    (h : mainLoop s upd w cfg t o k (start w cfg c) = .ok (st, e)) :
    MainLog s w cfg csts st ∧ Went cfg st := by
  refine mainLoop_inv (fun st => MainLog s w cfg csts st ∧ Going cfg st)
    (fun st => MainLog s w cfg csts st ∧ Went cfg st) ?_ _ _ _ _ h ?_ ?_
  · rintro st v m st1 ⟨h1, h2⟩ hv hn hsame
    have hlog : st1.log = st.log ++ [v] := hsame.log
    have h3 := h1.step hs hv hn hsame
    refine ⟨⟨h3, ?_⟩, fun hz hk => ⟨h3, ?_⟩⟩
    · intro i u u' hu hu'
      rw [hlog] at hu hu'
      have hi := (List.getElem?_eq_some_iff.mp hu').1
      rw [List.length_append, List.length_singleton] at hi
      rw [List.getElem?_append_left (by omega)] at hu
      exact h2 u (List.mem_of_getElem? hu)
    · intro u hu
      rw [hlog] at hu
      rcases List.mem_append.mp hu with hu | hu
      · exact h2 u hu
      · rw [List.mem_singleton.mp hu]; exact ⟨hz, not_lt.mp hk⟩
  · exact ⟨⟨rfl, rfl, by simp [start], rfl, by simp [start], by simp [start], by simp [start],
      by simp [start]⟩, by intro v hv; simp [start] at hv⟩
  · exact ⟨⟨rfl, rfl, by simp [start], rfl, by simp [start], by simp [start], by simp [start],
      by simp [start]⟩, by intro i v v' hv; simp [start] at hv⟩

/-- The weights of the main loop. -/
theorem MainLog.bounds {s : Slv} {w : World Ω} {cfg : Cfg} {csts : List Merged} {st : State}
    (hrows : s.rows.length = csts.length) (hr : Range w cfg) (h : MainLog s w cfg csts st)
    (hw : Went cfg st) : ∀ (i : Nat) (v : Visit), st.log[i]? = some v →
      cfg.kappaMin ≤ v.kappa ∧ v.kappa ≤ cfg.kappaMax ∧ w.rnd v.kappa = v.kappa ∧
        Step w cfg v.kappa v.next := by
  intro i
  induction i with
  | zero =>
    intro v hv
    rw [h.first v hv, h.rule 0 v hv, h.first v hv]
    have hrem : v.remaining ≤ s.rows.length := by
      rw [h.rem v (List.mem_of_getElem? hv), hrows]; exact violations_le _ _
    exact ⟨le_refl _, hr.kappa, hr.rndMin, nextMain_bounds hr (i := 0) hrem hr.rndMin⟩
  | succ i ih =>
    intro v hv
    have hlt := (List.getElem?_eq_some_iff.mp hv).1
    have hu : st.log[i]? = some st.log[i] := List.getElem?_eq_getElem (by omega)
    obtain ⟨f1, _, _, f3⟩ := ih _ hu
    have hc := h.chain i _ _ hu hv
    have hrem : v.remaining ≤ s.rows.length := by
      rw [h.rem v (List.mem_of_getElem? hv), hrows]; exact violations_le _ _
    have hk : w.rnd v.kappa = v.kappa := by rw [hc]; exact f3.kept
    rw [h.rule (i + 1) v hv]
    exact ⟨by rw [hc]; exact le_trans f1 f3.ge, by rw [hc]; exact (hw i _ _ hu hv).2, hk,
      nextMain_bounds hr (i := i + 1) hrem hk⟩

/-- The weights of the push phase. -/
def PushLog (w : World Ω) (cfg : Cfg) (l0 : List Visit) (st : State) : Prop :=
  (cfg.kappaMin ≤ st.kappa ∧ st.kappa ≤ w.rnd (cfg.kappaMax + cfg.kappaStep) ∧
    w.rnd st.kappa = st.kappa) ∧
  ∃ l, st.log = l0 ++ l ∧ ∀ v ∈ l, ∃ K, cfg.kappaMin ≤ K ∧
    K ≤ w.rnd (cfg.kappaMax + cfg.kappaStep) ∧
    v.kappa = if v.push then w.rnd (cfg.kFactor * K) else K

theorem PushLog.step {cfg : Cfg} {l0 : List Visit} {s : Slv} {upd : Upd Ω} {w : World Ω} {push : Bool}
    {st st1 : State} {v : Visit} {m : Mem} (h : PushLog w cfg l0 st) (hv : IsPass s upd w cfg push st v m)
    (hsame : Same st1 (st.after v m)) (h1 : st.kappa ≤ v.next)
    (h2 : v.next ≤ w.rnd (cfg.kappaMax + cfg.kappaStep)) (h3 : w.rnd v.next = v.next) :
    PushLog w cfg l0 st1 := by
  obtain ⟨⟨g1, g2, _⟩, l, g3, g4⟩ := h
  have hk : st1.kappa = v.next := hsame.kappa
  have hlog : st1.log = st.log ++ [v] := hsame.log
  refine ⟨⟨by rw [hk]; exact le_trans g1 h1, by rw [hk]; exact h2, by rw [hk]; exact h3⟩,
    l ++ [v], ?_, ?_⟩
  · rw [hlog, g3, List.append_assoc]
  · intro u hu
    rcases List.mem_append.mp hu with hu | hu
    · exact g4 u hu
    · rw [List.mem_singleton.mp hu]
      exact ⟨st.kappa, g1, g2, by rw [hv.kappa, hv.isPush]⟩

theorem pushLoop_log {kind : SolverType} {csts : List Merged} {n : Nat} {s : Slv}
    (hs : makeSlv kind csts n = .ok s) {upd : Upd Ω} {w : World Ω} {cfg : Cfg} (hr : Range w cfg)
    {t : ObjType} {o : Objective} {st st' : State} {k : Nat} (hlen : st.log.length = st.base.passes)
    (htr : st.log.map Visit.x' = st.base.trace)
    (h : pushLoop s upd w cfg t o k st = .ok st') (h1 : cfg.kappaMin ≤ st.kappa)
    (h2 : st.kappa ≤ w.rnd (cfg.kappaMax + cfg.kappaStep)) (h3 : w.rnd st.kappa = st.kappa) :
    PushLog w cfg st.log st' ∧ st'.log.map Visit.x' = st'.base.trace := by
  obtain ⟨_, hrows, _⟩ := makeSlv_facts hs
  have hrows : s.rows.length = csts.length := by rw [hrows]; simp
  have hrem : ∀ {push : Bool} {st : State} {v : Visit} {m : Mem}, IsPass s upd w cfg push st v m →
      v.remaining ≤ s.rows.length := by
    intro push st v m hv
    rw [pass_remaining hs hv.passEq, hrows]; exact violations_le _ _
  have htrace : ∀ {push : Bool} {st st1 : State} {v : Visit} {m : Mem},
      st.log.map Visit.x' = st.base.trace → IsPass s upd w cfg push st v m →
      Same st1 (st.after v m) → st1.log.map Visit.x' = st1.base.trace := by
    intro push st st1 v m ht hv hsame
    rw [hsame.log, hsame.trace]
    simp [State.after, ht]
  refine pushLoop_inv
    (fun iter st1 => (PushLog w cfg st.log st1 ∧ (iter ≠ 0 → st1.kappa ≤ cfg.kappaMax)) ∧
      st1.log.map Visit.x' = st1.base.trace)
    (fun st1 => PushLog w cfg st.log st1 ∧ st1.log.map Visit.x' = st1.base.trace) ?_ ?_ _ _ _ h
    ⟨⟨⟨h1, h2, h3⟩, [], by simp, by simp⟩, htr⟩
  · rintro st v m st1 ⟨hp, ht⟩ hv hn hsame
    have := hp.step hv hsame (by rw [hn]) (by rw [hn]; exact hp.1.2.1) (by rw [hn]; exact hp.1.2.2)
    exact ⟨⟨this, htrace ht hv hsame⟩, ⟨this, by simp⟩, htrace ht hv hsame⟩
  · rintro iter st v m st1 ⟨⟨hp, hi⟩, ht⟩ hv hn hsame
    have g := nextInner_bounds hr (iter := iter) (hrem hv) hp.1.2.2
    have hle : v.next ≤ w.rnd (cfg.kappaMax + cfg.kappaStep) := by
      rw [hn]
      by_cases h0 : iter = 0
      · have : nextInner s w cfg iter v.remaining st.kappa = st.kappa := by
          unfold nextInner grow
          rw [if_neg (show ¬ decide (cfg.w < (iter : Rat)) = true by
            rw [decide_eq_true_eq, h0]; have := hr.warm; push_cast; linarith)]
          split <;> rfl
        rw [this]; exact hp.1.2.1
      · exact g.le.trans (hr.rnd.mono (by have := hi h0; linarith))
    have := hp.step hv hsame (by rw [hn]; exact g.ge) hle (by rw [hn]; exact g.kept)
    exact ⟨⟨this, htrace ht hv hsame⟩, fun _ hk => ⟨⟨this, fun _ => by
      rw [hsame.kappa]; exact not_lt.mp hk⟩, htrace ht hv hsame⟩⟩

end Bx.Num

namespace Bx.Num

open Merge SolverCtor Spec Itm Mult

/-! ## How the main loop ends -/

theorem mainLoop_exit {s : Slv} {upd : Upd Ω} {w : World Ω} {cfg : Cfg} {t : ObjType} {o : Objective} :
    ∀ (n : Nat) (st st' : State) (e : Exit), mainLoop s upd w cfg t o n st = .ok (st', e) →
    (e = .kappa → st'.kappa > cfg.kappaMax) ∧ (e = .time → w.timeUp st'.base.passes = true) ∧
    (e = .limit → st'.base.passes = st.base.passes + n)
  | 0, st, st', e, h => by
    have h := Except.ok.inj h
    simp only [Prod.mk.injEq] at h
    obtain ⟨rfl, rfl⟩ := h
    simp
  | n + 1, st, st', e, h => by
    unfold mainLoop at h
    obtain ⟨⟨rem, c, x, m⟩, hp, h⟩ := bind_eq_ok.mp h
    simp only at h
    by_cases hz : rem = 0
    · rw [if_pos hz] at h
      have h := Except.ok.inj h
      simp only [Prod.mk.injEq] at h
      obtain ⟨_, rfl⟩ := h
      simp
    · rw [if_neg hz] at h
      generalize hst1 : (if ltInt rem _ = true then _ else _ : State) = st1 at h
      have hpass : st1.base.passes = st.base.passes + 1 := by
        rw [← hst1]
        split <;> rfl
      by_cases hk : st1.kappa > cfg.kappaMax
      · rw [if_pos hk] at h
        have h := Except.ok.inj h
        simp only [Prod.mk.injEq] at h
        obtain ⟨rfl, rfl⟩ := h
        simp [hk]
      · rw [if_neg hk] at h
        by_cases ht : w.timeUp st1.base.passes = true
        · rw [if_pos ht] at h
          have h := Except.ok.inj h
          simp only [Prod.mk.injEq] at h
          obtain ⟨rfl, rfl⟩ := h
          simp [ht]
        · rw [if_neg ht] at h
          obtain ⟨g1, g2, g3⟩ := mainLoop_exit n st1 st' e h
          exact ⟨g1, g2, fun he => by rw [g3 he]; omega⟩

/-- The weights grow by at least `d` at each pass after the first ones, when each addition does. -/
theorem MainLog.grows {s : Slv} {w : World Ω} {cfg : Cfg} {csts : List Merged} {st : State}
    (hrows : s.rows.length = csts.length) (hr : Range w cfg) (h : MainLog s w cfg csts st)
    (hw : Went cfg st) {d : Rat} (hd : ∀ kappa q, cfg.kappaMin ≤ kappa → kappa ≤ cfg.kappaMax →
      w.rnd kappa = kappa → 1 / (csts.length : Rat) ≤ q → q ≤ 1 →
      kappa + d ≤ w.rnd (kappa + w.rnd (cfg.kappaStep * w.pow q))) :
    ∀ (i : Nat) (v : Visit), st.log[i]? = some v →
      cfg.kappaMin + ((i - (cfg.w.floor.toNat + 1) : Nat) : Rat) * d ≤ v.kappa := by
  intro i
  induction i with
  | zero => intro v hv; rw [h.first v hv]; simp
  | succ i ih =>
    intro v hv
    have hlt := (List.getElem?_eq_some_iff.mp hv).1
    have hu : st.log[i]? = some st.log[i] := List.getElem?_eq_getElem (by omega)
    have hih := ih _ hu
    obtain ⟨hz, _⟩ := hw i _ _ hu hv
    obtain ⟨b1, b2, b3, _⟩ := h.bounds hrows hr hw i _ hu
    rw [h.chain i _ _ hu hv, h.rule i _ hu]
    generalize st.log[i] = u at *
    unfold nextMain
    rw [if_neg hz]
    unfold grow
    by_cases hF : cfg.w.floor < (i : Int)
    · have h0 : 0 ≤ cfg.w.floor := Rat.le_floor_iff.mpr (by simpa using hr.warm)
      rw [if_pos (by simpa using hF)]
      have hsub : i + 1 - (cfg.w.floor.toNat + 1) = (i - (cfg.w.floor.toNat + 1)) + 1 := by omega
      rw [hsub]
      have hrem : u.remaining ≤ csts.length := by
        rw [h.rem u (List.mem_of_getElem? hu)]; exact violations_le _ _
      have hm : (0 : Rat) < csts.length := by
        have : 0 < csts.length := by omega
        exact_mod_cast this
      have hcc := hd u.kappa ((u.remaining : Rat) / csts.length) b1 b2 b3
        (by
          apply div_le_div_of_nonneg_right _ hm.le
          have : 1 ≤ u.remaining := by omega
          exact_mod_cast this)
        (by
          apply div_le_one_of_le₀ _ hm.le
          exact_mod_cast hrem)
      rw [hrows]
      push_cast
      linarith
    · rw [if_neg (by simpa using hF)]
      have hsub : i + 1 - (cfg.w.floor.toNat + 1) = i - (cfg.w.floor.toNat + 1) := by omega
      rw [hsub]
      exact hih

/-! ## Any update is an update of `Verif.Model.Solve` -/

/-- The choices of an update: the oracle, the parameters and the memory. -/
def anyUpd (upd : Slv → Upd Ω) (s : Slv) (ch : Ω × Param × Mem) (k : Nat) (x : Assign) :
    Outcome Assign :=
  (upd s ch.1 ch.2.1 k x ch.2.2).map Prod.fst

theorem any_sim (upd : Slv → Upd Ω) (w : World Ω) (s : Slv) :
    Sim (upd s) w (anyUpd upd s) fun _ => True where
  dflt := ⟨(w.oracle 0 0, ⟨0, 0, 0, none⟩, mem0), trivial⟩
  step t i p k x m x' m' h := ⟨(w.oracle t i, p, m), trivial, by
    unfold anyUpd
    rw [h]
    rfl⟩

/-! ## The orders -/

/-- The constraints of the order are the violated ones, with their gaps. -/
structure Fresh2 (csts : List Merged) (ord : COrder) (c : Compute) (x : Assign) : Prop where
  order : c.order = ord
  inf : ord = .infeasibilityDecr ∨ ord = .infeasibilityIncr →
    c.mOrder = (vset csts x).map fun k => (k, gap csts x k)
  other : ord ≠ .infeasibilityDecr → ord ≠ .infeasibilityIncr → c.R = vset csts x

theorem infeasibility_eq {kind : SolverType} {csts : List Merged} {n : Nat} {s : Slv}
    (hs : makeSlv kind csts n = .ok s) {x : Assign} {d : List (Nat × Int)}
    (h : infeasibility s x = .ok d) : d = (vset csts x).map fun k => (k, gap csts x k) := by
  obtain ⟨_, hrows, _, _, _, _, hb⟩ := makeSlv_facts hs
  have hlen : s.rows.length = csts.length := by rw [hrows]; simp
  obtain ⟨l, g1, g2, g3⟩ := infeasibilityLoop_spec hs x (List.range csts.length)
    fun k hk => List.mem_range.mp hk
  have hl : d = l := by
    unfold infeasibility at h
    rw [hlen, g1] at h
    exact (Except.ok.inj h).symm
  subst hl
  have hd : d = (d.map Prod.fst).map fun k => (k, gap csts x k) := by
    rw [List.map_map]
    conv_lhs => rw [← List.map_id d]
    apply List.map_congr_left
    intro p hp
    obtain ⟨c, hc, hd, hpos⟩ := g3 p hp
    obtain ⟨b, _, _, hct⟩ := hb p.1 c hc
    have := ctor_le hct
    have hg : gap csts x p.1 = p.2 := by
      unfold gap
      rw [hc]
      simp only
      omega
    simp [hg]
  conv_lhs => rw [hd, g2]
  rfl

theorem pass_fresh {kind : SolverType} {csts : List Merged} {n : Nat} {s : Slv}
    (hs : makeSlv kind csts n = .ok s) {upd : Upd Ω} {w : World Ω} {p : Param} {t : Nat} {c : Compute}
    {x : Assign} {m : Mem} {rem : Nat} {c' : Compute} {x' : Assign} {m' : Mem} {ord : COrder}
    (ho : ord ≠ .piSignChange) (hf : Fresh2 csts ord c x)
    (h : pass s upd w p t c x m = .ok (rem, c', x', m')) :
    Fresh2 csts ord c' x' ∧ c'.useCycle = c.useCycle ∧
      ∃ m1, rows upd (w.oracle t) p 0 (visits w t m c) x m = .ok (x', m1) := by
  obtain ⟨h1, h2, h3⟩ := hf
  unfold pass at h
  obtain ⟨⟨y, m1⟩, hrow, h⟩ := bind_eq_ok.mp h
  have hv : ∀ (y : Assign) (r : List Nat), violated s y = .ok r → r = vset csts y := by
    intro y r hr
    exact (Except.ok.inj ((violated_eq hs y).1.symm.trans hr)).symm
  subst h1
  cases ho' : c.order <;> simp only [ho'] at h ho <;>
    first
    | exact absurd rfl ho
    | (obtain ⟨r, hr, h⟩ := bind_eq_ok.mp h
       have h := Except.ok.inj h
       simp only [Prod.mk.injEq] at h
       obtain ⟨_, rfl, rfl, rfl⟩ := h)
  case infeasibilityDecr =>
    exact ⟨⟨rfl, fun _ => infeasibility_eq hs hr, by simp⟩, rfl, m1, hrow⟩
  case infeasibilityIncr =>
    exact ⟨⟨rfl, fun _ => infeasibility_eq hs hr, by simp⟩, rfl, m1, hrow⟩
  all_goals exact ⟨⟨rfl, by simp, fun _ _ => hv y r hr⟩, rfl, m1, hrow⟩

theorem broken_eq (csts : List Merged) (x : Assign) : brokenRows csts x = vset csts x := by
  unfold brokenRows vset
  apply List.filter_congr
  intro k hk
  have hk := List.mem_range.mp hk
  rw [decide_eq_decide]
  unfold gap Violates
  rw [List.getElem?_eq_getElem hk]
  simp only [Option.some.injEq, exists_eq_left', satM]
  omega

theorem vset_sorted (csts : List Merged) (x : Assign) : (vset csts x).Pairwise (· < ·) :=
  List.Pairwise.filter _ List.pairwise_lt_range

theorem visits_follows {csts : List Merged} {w : World Ω} {ok : Ω → Prop} (hw : w.Ok ok)
    {ord : COrder} (ho : ord ≠ .piSignChange) {c : Compute} {x : Assign} (hf : Fresh2 csts ord c x)
    (t : Nat) (m : Mem) :
    (visits w t m c).Perm (vset csts x) ∧ Follows csts ord x m.pi (visits w t m c) := by
  obtain ⟨h1, h2, h3⟩ := hf
  subst h1
  have hinf : ∀ (key : Nat × Int → Int) (rel : Nat → Nat → Prop),
      c.mOrder = (vset csts x).map (fun k => (k, gap csts x k)) →
      (∀ a b, key (a, gap csts x a) ≤ key (b, gap csts x b) → rel a b) →
      ((w.sortO t key c.mOrder).map Prod.fst).Perm (vset csts x) ∧
      ((w.sortO t key c.mOrder).map Prod.fst).Pairwise rel := by
    intro key rel hm hrel
    obtain ⟨g1, g2⟩ := hw.sortO t key c.mOrder
    refine ⟨?_, ?_⟩
    · have := g1.map Prod.fst
      rw [hm] at this ⊢
      rw [List.map_map] at this
      have e : (Prod.fst ∘ fun k => (k, gap csts x k)) = id := rfl
      rw [e, List.map_id] at this
      exact this
    · rw [List.pairwise_map]
      refine List.Pairwise.imp_of_mem ?_ g2
      intro a b ha hb hab
      have ha := g1.mem_iff.mp ha
      have hb := g1.mem_iff.mp hb
      rw [hm, List.mem_map] at ha hb
      obtain ⟨a', _, rfl⟩ := ha
      obtain ⟨b', _, rfl⟩ := hb
      exact hrel _ _ hab
  unfold visits Follows
  cases ho' : c.order <;> simp only [ho'] at h2 h3 ho <;>
    simp only [ne_eq, reduceCtorEq, not_false_eq_true, not_true_eq_false, forall_const, true_or,
      or_true, false_or, or_false, IsEmpty.forall_iff] at h2 h3 ho <;> dsimp only
  case none => rw [h3]; exact ⟨List.Perm.refl _, vset_sorted csts x⟩
  case cycle => rw [h3]; exact ⟨List.Perm.refl _, vset_sorted csts x⟩
  case reversing =>
    rw [h3]
    exact ⟨List.reverse_perm _, List.pairwise_reverse.mpr (vset_sorted csts x)⟩
  case randomSorting => rw [← h3]; exact ⟨hw.shuffle t c.R, trivial⟩
  case infeasibilityDecr => exact hinf _ _ h2 fun a b hab => by simpa using hab
  case infeasibilityIncr => exact hinf _ _ h2 fun a b hab => hab
  case lagrangianDecr =>
    obtain ⟨g1, g2⟩ := hw.sortR t (fun k => -m.pi k) c.R
    rw [← h3]
    exact ⟨g1, g2.imp fun hab => by simpa using hab⟩
  case lagrangianIncr =>
    obtain ⟨g1, g2⟩ := hw.sortR t (fun k => m.pi k) c.R
    rw [← h3]
    exact ⟨g1, g2⟩

/-- The log is the run: the pass `i` started from the vector before it, updated the constraints
`v.rows` one after the other and left the vector after it. -/
structure Faithful (upd : Upd Ω) (w : World Ω) (cfg : Cfg) (st : State) : Prop where
  len : st.log.length = st.base.passes
  trace : st.log.map Visit.x' = st.base.trace
  cur : (w.x0 :: st.base.trace)[st.base.passes]? = some st.base.x
  before : ∀ (i : Nat) v, st.log[i]? = some v → (w.x0 :: st.base.trace)[i]? = some v.x
  did : ∀ (i : Nat) v, st.log[i]? = some v → ∃ m', (st.log.map Visit.mem ++ [st.mem])[i + 1]? = some m' ∧
    rows upd (w.oracle i) ⟨v.kappa, cfg.delta, cfg.theta, if v.push then some cfg.amplifier else none⟩ 0
      v.rows v.x v.mem = .ok (v.x', m')
  start : (st.log.map Visit.mem ++ [st.mem])[0]? = some mem0

theorem Faithful.step {s : Slv} {upd : Upd Ω} {w : World Ω} {cfg : Cfg} {push : Bool} {st st1 : State}
    {v : Visit} {m : Mem} (h : Faithful upd w cfg st) (hv : IsPass s upd w cfg push st v m)
    (hsame : Same st1 (st.after v m)) : Faithful upd w cfg st1 := by
  have hlog : st1.log = st.log ++ [v] := hsame.log
  have htr : st1.base.trace = st.base.trace ++ [v.x'] := hsame.trace
  have hps : st1.base.passes = st.base.passes + 1 := hsame.passes
  have hx : st1.base.x = v.x' := hsame.x
  have htl : st.base.trace.length = st.base.passes := by rw [← h.trace, List.length_map, h.len]
  have hsplit : ∀ (i : Nat) u, st1.log[i]? = some u →
      st.log[i]? = some u ∨ (i = st.base.passes ∧ u = v) := by
    intro i u hu
    rw [hlog] at hu
    rcases Nat.lt_or_ge i st.log.length with hi | hi
    · rw [List.getElem?_append_left hi] at hu; exact .inl hu
    · rw [List.getElem?_append_right hi] at hu
      have h0 : i - st.log.length = 0 := by
        have := (List.getElem?_eq_some_iff.mp hu).1
        simpa using this
      rw [h0] at hu
      exact .inr ⟨by have := h.len; omega, (Option.some.inj hu).symm⟩
  have hmems : st1.log.map Visit.mem ++ [st1.mem] = (st.log.map Visit.mem ++ [st.mem]) ++ [m] := by
    rw [hlog, List.map_append, hsame.mem]
    simp [State.after, hv.mem]
  refine ⟨?_, ?_, ?_, ?_, ?_, ?_⟩
  · rw [hlog, hps, List.length_append, h.len]; rfl
  · rw [hlog, htr, List.map_append, h.trace]; rfl
  · rw [hps, hx, htr, ← List.cons_append, List.getElem?_append_right (by simp; omega)]
    simp [htl]
  · intro i u hu
    rw [htr, ← List.cons_append]
    rcases hsplit i u hu with hu | ⟨rfl, rfl⟩
    · have := h.before i u hu
      rw [List.getElem?_append_left (List.getElem?_eq_some_iff.mp this).1]
      exact this
    · rw [List.getElem?_append_left (by simp; omega), hv.x]
      exact h.cur
  · intro i u hu
    rcases hsplit i u hu with hu | ⟨rfl, rfl⟩
    · obtain ⟨m', g1, g2⟩ := h.did i u hu
      refine ⟨m', ?_, g2⟩
      rw [hmems, List.getElem?_append_left (List.getElem?_eq_some_iff.mp g1).1]
      exact g1
    · have hp := hv.passEq
      unfold pass at hp
      obtain ⟨⟨y, m1⟩, hrow, hp⟩ := bind_eq_ok.mp hp
      refine ⟨m, ?_, ?_⟩
      · rw [hmems, List.getElem?_append_right (by simp [h.len])]
        simp [h.len]
      rw [hv.isPush, hv.rows, hv.mem, hrow]
      cases hov : u.compute.order <;> simp only [hov] at hp <;>
        (obtain ⟨r, _, hp⟩ := bind_eq_ok.mp hp
         have hp := Except.ok.inj hp
         simp only [Prod.mk.injEq] at hp
         rw [hp.2.2.1, hp.2.2.2])
  · rw [hmems, List.getElem?_append_left (by simp)]
    exact h.start

theorem rows_updates (upd : Upd Ω) (o : Nat → Ω) (p : Param) : ∀ (i : Nat) (l : List Nat) (x : Assign)
    (m : Mem) (x' : Assign) (m' : Mem), rows upd o p i l x m = .ok (x', m') →
    Updates (fun j k a b => upd (o j) p k a.1 a.2 = .ok b) i l (x, m) (x', m')
  | i, [], x, m, x', m', h => by
    rw [← Except.ok.inj h]
    exact .nil _ _
  | i, k :: ks, x, m, x', m', h => by
    unfold rows at h
    obtain ⟨⟨y, m1⟩, h1, h⟩ := bind_eq_ok.mp h
    exact .cons h1 (rows_updates upd o p (i + 1) ks y m1 x' m' h)

/-- The entries of the log follow an order. -/
def Ordered (csts : List Merged) (ord : COrder) (l : List Visit) : Prop :=
  ∀ v ∈ l, v.rows.Perm (vset csts v.x) ∧ Follows csts ord v.x v.mem.pi v.rows

/-- The invariant of the orders. -/
structure InOrder (csts : List Merged) (ord : COrder) (uc : Bool) (st : State) : Prop where
  fresh : Fresh2 csts ord st.base.compute st.base.x
  cycle : st.base.compute.useCycle = uc
  log : Ordered csts ord st.log

theorem InOrder.step {kind : SolverType} {csts : List Merged} {n : Nat} {s : Slv}
    (hs : makeSlv kind csts n = .ok s) {upd : Upd Ω} {w : World Ω} {ok : Ω → Prop} (hw : w.Ok ok)
    {cfg : Cfg} {push uc : Bool} {st st1 : State} {v : Visit} {m : Mem} {ord : COrder}
    (ho : ord ≠ .piSignChange) (h : InOrder csts ord uc st) (hv : IsPass s upd w cfg push st v m)
    (hpc : (push && uc) = false) (hsame : Same st1 (st.after v m)) : InOrder csts ord uc st1 := by
  have hc : v.compute = st.base.compute := by
    rw [hv.compute, h.cycle, hpc]
    rfl
  have hf : Fresh2 csts ord v.compute v.x := by rw [hc, hv.x]; exact h.fresh
  obtain ⟨g1, g2, _⟩ := pass_fresh hs ho hf hv.passEq
  have e1 : st1.base.compute = v.compute' := hsame.compute
  have e2 : st1.base.x = v.x' := hsame.x
  have e3 : st1.log = st.log ++ [v] := hsame.log
  refine ⟨by rw [e1, e2]; exact g1, by rw [e1, g2, hc]; exact h.cycle, ?_⟩
  intro u hu
  rw [e3] at hu
  rcases List.mem_append.mp hu with hu | hu
  · exact h.log u hu
  · rw [List.mem_singleton.mp hu, hv.rows, hv.mem]
    exact visits_follows hw ho hf _ _

theorem init_fresh2 {kind : SolverType} {csts : List Merged} {n : Nat} {s : Slv}
    (hs : makeSlv kind csts n = .ok s) {ord : COrder} (ho : ord ≠ .piSignChange) {x : Assign}
    {c : Compute} (h : (Compute.make ord n).init s x = .ok c) :
    Fresh2 csts (if ord = .cycle then .none else ord) c x ∧ c.useCycle = decide (ord = .cycle) := by
  have hv : ∀ r : List Nat, violated s x = .ok r → r = vset csts x := by
    intro r hr
    exact (Except.ok.inj ((violated_eq hs x).1.symm.trans hr)).symm
  unfold Compute.init Compute.make at h
  cases ord <;> simp only [reduceCtorEq, if_true, if_false, decide_true, decide_false] at h ho ⊢ <;>
    first
    | exact absurd rfl ho
    | (obtain ⟨r, hr, h⟩ := bind_eq_ok.mp h
       have h := Except.ok.inj h
       subst h)
  case infeasibilityDecr => exact ⟨⟨rfl, fun _ => infeasibility_eq hs hr, by simp⟩, rfl⟩
  case infeasibilityIncr => exact ⟨⟨rfl, fun _ => infeasibility_eq hs hr, by simp⟩, rfl⟩
  all_goals exact ⟨⟨rfl, by simp, fun _ _ => hv r hr⟩, rfl⟩

/-- The log of a whole run. -/
theorem functor_faithful {kind : SolverType} {upd : Slv → Upd Ω} {w : World Ω} {cfg : Cfg} {t : ObjType}
    {o : Objective} {csts : List Merged} {n : Nat} {a : Answer} {st : State}
    (h : functor kind upd w cfg t o csts n = .ok (a, st)) :
    ∃ s, makeSlv kind csts n = .ok s ∧ Faithful (upd s) w cfg st ∧ a.final = st.base ∧
      ∃ st1 l, st.log = st1.log ++ l ∧ st1.log.length = a.mainPasses ∧ MainLog s w cfg csts st1 ∧
        Went cfg st1 ∧ (a.exit ≠ .found → l = []) ∧
        (a.exit = .kappa → st1.kappa > cfg.kappaMax) ∧
        (a.exit = .time → w.timeUp a.mainPasses = true) ∧ (a.exit = .limit → a.mainPasses = cfg.limit) ∧
        (Range w cfg → PushLog w cfg st1.log st) := by
  obtain ⟨s, c, st1, e, hs, hc, hm, hp, rfl⟩ := functor_cases h
  obtain ⟨hml, hwent⟩ := mainLoop_log hs hm
  obtain ⟨g1, g2, g3⟩ := mainLoop_exit _ _ _ _ hm
  have hf0 : Faithful (upd s) w cfg (start w cfg c) :=
    ⟨rfl, rfl, rfl, by simp [start], by simp [start], rfl⟩
  have hf1 : Faithful (upd s) w cfg st1 := mainLoop_inv (Faithful (upd s) w cfg) _
    (fun st v m st1 hi hv _ hsame => ⟨hi.step hv hsame, fun _ _ => hi.step hv hsame⟩)
    _ _ _ _ hm hf0 hf0
  have hg3 : e = .limit → st1.base.passes = cfg.limit := fun he => by
    have := g3 he; simpa [start] using this
  have hrange : Range w cfg → cfg.kappaMin ≤ st1.kappa ∧
      st1.kappa ≤ w.rnd (cfg.kappaMax + cfg.kappaStep) ∧ w.rnd st1.kappa = st1.kappa := by
    intro hr
    obtain ⟨_, hrows, _⟩ := makeSlv_facts hs
    have hb := hml.bounds (by rw [hrows]; simp) hr hwent
    have hcur := hml.cur
    cases hl : st1.log.getLast? with
    | none =>
      rw [hl] at hcur
      rw [hcur]
      have h1 := hr.kappa
      have h2 := hr.step
      have h3 := hr.rnd.mono (show cfg.kappaMin ≤ cfg.kappaMax + cfg.kappaStep by linarith)
      rw [hr.rndMin] at h3
      exact ⟨le_refl _, h3, hr.rndMin⟩
    | some v =>
      rw [hl] at hcur
      have hcur : st1.kappa = v.next := hcur
      rw [List.getLast?_eq_getElem?] at hl
      obtain ⟨f1, f2, f3, f4⟩ := hb _ v hl
      rw [hcur]
      exact ⟨le_trans f1 f4.ge, f4.le.trans (hr.rnd.mono (by linarith)), f4.kept⟩
  by_cases he : e = .found
  · rw [if_pos he] at hp
    have hf : Faithful (upd s) w cfg st := pushLoop_inv (fun _ => Faithful (upd s) w cfg) _
      (fun st v m st1 hi hv _ hsame => ⟨hi.step hv hsame, hi.step hv hsame⟩)
      (fun _ st v m st1 hi hv _ hsame => ⟨hi.step hv hsame, fun _ _ => hi.step hv hsame⟩) _ _ _ hp hf1
    have hl : ∃ l, st.log = st1.log ++ l := by
      obtain ⟨⟨l, f1⟩, _⟩ := pushLoop_refines (updA := anyUpd upd s) _ _ _ hp hf1.len
      exact ⟨l, f1⟩
    obtain ⟨l, hl⟩ := hl
    exact ⟨s, hs, hf, rfl, st1, l, hl, hf1.len, hml, hwent, fun h => absurd he h, g1, g2, hg3,
      fun hr => (pushLoop_log hs hr hf1.len hf1.trace hp (hrange hr).1 (hrange hr).2.1
        (hrange hr).2.2).1⟩
  · rw [if_neg he] at hp
    have := Except.ok.inj hp
    subst this
    exact ⟨s, hs, hf1, rfl, st1, [], by simp, hf1.len, hml, hwent, fun _ => rfl, g1, g2, hg3,
      fun hr => ⟨hrange hr, [], by simp, by simp⟩⟩

/-- The orders of a whole run; with `cycle`, of the main loop. -/
theorem functor_ordered {kind : SolverType} {upd : Slv → Upd Ω} {w : World Ω} {cfg : Cfg} {t : ObjType}
    {o : Objective} {csts : List Merged} {n : Nat} {a : Answer} {st : State} {ok : Ω → Prop}
    (hw : w.Ok ok) (ho : cfg.order ≠ .piSignChange)
    (h : functor kind upd w cfg t o csts n = .ok (a, st)) :
    ∃ l l', st.log = l ++ l' ∧ l.length = a.mainPasses ∧ Ordered csts cfg.order l ∧
      (cfg.order ≠ .cycle → Ordered csts cfg.order l') := by
  obtain ⟨s, c, st1, e, hs, hc, hm, hp, rfl⟩ := functor_cases h
  obtain ⟨hf, hu⟩ := init_fresh2 hs ho hc
  generalize hord : (if cfg.order = .cycle then COrder.none else cfg.order) = ord at hf
  have ho' : ord ≠ .piSignChange := by
    rw [← hord]
    split
    · simp
    · exact ho
  have hfol : ∀ l, Ordered csts ord l → Ordered csts cfg.order l := by
    intro l hl v hv
    refine ⟨(hl v hv).1, ?_⟩
    have := (hl v hv).2
    rw [← hord] at this
    split at this
    · rename_i hcy
      rw [hcy]; exact this
    · exact this
  have hi0 : InOrder csts ord (decide (cfg.order = .cycle)) (start w cfg c) :=
    ⟨hf, hu, by intro v hv; simp [start] at hv⟩
  have hlen0 : (start w cfg c).log.length = (start w cfg c).base.passes := rfl
  have hi1 : InOrder csts ord (decide (cfg.order = .cycle)) st1 :=
    mainLoop_inv (InOrder csts ord (decide (cfg.order = .cycle))) _
      (fun st v m st1 hi hv _ hsame => ⟨hi.step hs hw ho' hv rfl hsame,
        fun _ _ => hi.step hs hw ho' hv rfl hsame⟩) _ _ _ _ hm hi0 hi0
  have hlen1 : st1.log.length = st1.base.passes := (mainLoop_log hs hm).1.len
  by_cases he : e = .found
  · rw [if_pos he] at hp
    obtain ⟨⟨l, hl⟩, _⟩ := pushLoop_refines (updA := anyUpd upd s) _ _ _ hp hlen1
    refine ⟨st1.log, l, hl, hlen1, hfol _ hi1.log, fun hcy => ?_⟩
    have hpc : ∀ push : Bool, (push && decide (cfg.order = .cycle)) = false := by
      intro push; simp [hcy]
    have := pushLoop_inv (fun _ => InOrder csts ord (decide (cfg.order = .cycle))) _
      (fun st v m st1 hi hv _ hsame => ⟨hi.step hs hw ho' hv (hpc _) hsame,
        hi.step hs hw ho' hv (hpc _) hsame⟩)
      (fun _ st v m st1 hi hv _ hsame => ⟨hi.step hs hw ho' hv (hpc _) hsame,
        fun _ _ => hi.step hs hw ho' hv (hpc _) hsame⟩) _ _ _ hp hi1
    exact hfol _ fun v hv => this.log v (by rw [hl]; exact List.mem_append_right _ hv)
  · rw [if_neg he] at hp
    have := Except.ok.inj hp
    subst this
    exact ⟨st1.log, [], by simp, hlen1, hfol _ hi1.log, fun _ v hv => by simp at hv⟩

/-! ## Faults -/

/-- The only faults are those of `E`. -/
def Ends {α : Type} (E : Fault → Prop) (o : Outcome α) : Prop := ∀ f, o = .error f → E f

theorem Ends.ok {α : Type} {E : Fault → Prop} (a : α) : Ends E (.ok a : Outcome α) := by
  intro f h; cases h

theorem Ends.bind {α β : Type} {E : Fault → Prop} {o : Outcome α} {f : α → Outcome β}
    (h : Ends E o) (hf : ∀ a, o = .ok a → Ends E (f a)) : Ends E (o >>= f) := by
  cases o with
  | error e => intro g hg; exact h g (by cases hg; rfl)
  | ok a => exact hf a rfl

theorem Ends.elim {α : Type} {o : Outcome α} (h : Ends (fun _ => False) o) : ∃ a, o = .ok a := by
  cases o with
  | error f => exact absurd rfl (fun hh => h f hh)
  | ok a => exact ⟨a, rfl⟩

/-- The indices of the order are constraints. -/
structure Valid (m : Nat) (c : Compute) : Prop where
  R : ∀ k ∈ c.R, k < m
  mOrder : ∀ p ∈ c.mOrder, p.1 < m

section Faults

variable {kind : SolverType} {csts : List Merged} {n : Nat} {s : Slv} {upd : Upd Ω} {w : World Ω}
  {ok : Ω → Prop}
  {cfg : Cfg} {t : ObjType} {o : Objective} {mode : ObjType} {E : Fault → Prop}

theorem vset_lt {x : Assign} : ∀ k ∈ vset csts x, k < csts.length := by
  intro k hk
  exact List.mem_range.mp (List.mem_filter.mp hk).1

theorem rows_ends (hu : ∀ t i p k x m, k < csts.length → Ends E (upd (w.oracle t i) p k x m)) (t : Nat)
    (p : Param) : ∀ (l : List Nat) (i : Nat) (x : Assign) (m : Mem), (∀ k ∈ l, k < csts.length) →
      Ends E (rows upd (w.oracle t) p i l x m)
  | [], _, _, _, _ => Ends.ok _
  | k :: l, i, x, m, hl => by
    unfold rows
    refine (hu t i p k x m (hl k (by simp))).bind ?_
    rintro ⟨y, m1⟩ _
    exact rows_ends hu t p l (i + 1) y m1 fun k hk => hl k (by simp [hk])

theorem visits_valid (hw : w.Ok ok) {c : Compute} (hc : Valid csts.length c) (t : Nat) (m : Mem) :
    ∀ k ∈ visits w t m c, k < csts.length := by
  intro k hk
  unfold visits at hk
  split at hk
  · exact hc.R k (List.mem_reverse.mp hk)
  · exact hc.R k ((hw.shuffle t c.R).mem_iff.mp hk)
  · exact hc.R k ((hw.shuffle t c.R).mem_iff.mp hk)
  · obtain ⟨p, hp, rfl⟩ := List.mem_map.mp hk
    exact hc.mOrder p ((hw.sortO t _ c.mOrder).1.mem_iff.mp hp)
  · obtain ⟨p, hp, rfl⟩ := List.mem_map.mp hk
    exact hc.mOrder p ((hw.sortO t _ c.mOrder).1.mem_iff.mp hp)
  · exact hc.R k ((hw.sortR t _ c.R).1.mem_iff.mp hk)
  · exact hc.R k ((hw.sortR t _ c.R).1.mem_iff.mp hk)
  · exact hc.R k hk
  · exact hc.R k hk

theorem pass_ends (hs : makeSlv kind csts n = .ok s) (hw : w.Ok ok)
    (hu : ∀ t i p k x m, k < csts.length → Ends E (upd (w.oracle t i) p k x m)) {c : Compute}
    (hc : Valid csts.length c) (p : Param) (t : Nat) (x : Assign) (m : Mem) :
    Ends E (pass s upd w p t c x m) ∧ ∀ rem c' x' m', pass s upd w p t c x m = .ok (rem, c', x', m') →
      Valid csts.length c' := by
  have hv : ∀ y, Ends E (violated s y) := fun y => by
    rw [(violated_eq hs y).1]; exact Ends.ok _
  have hd : ∀ y, Ends E (infeasibility s y) := fun y => by
    obtain ⟨d, g, _⟩ := (violated_eq hs y).2.2
    rw [g]; exact Ends.ok _
  have hl : ∀ y, Ends E (localViolated s y) := fun y => by
    rw [(violated_eq hs y).2.1]; exact Ends.ok _
  have hvv : ∀ y r, violated s y = .ok r → ∀ k ∈ r, k < csts.length := by
    intro y r hr
    rw [(violated_eq hs y).1] at hr
    rw [← Except.ok.inj hr]
    exact vset_lt
  have hdd : ∀ y d, infeasibility s y = .ok d → ∀ p ∈ d, p.1 < csts.length := by
    intro y d hr p hp
    rw [infeasibility_eq hs hr] at hp
    obtain ⟨k, hk, rfl⟩ := List.mem_map.mp hp
    exact vset_lt k hk
  unfold pass
  constructor
  · refine (rows_ends hu t p _ 0 x m (visits_valid hw hc t m)).bind ?_
    rintro ⟨y, m1⟩ _
    cases c.order <;> simp only
    case infeasibilityDecr => exact (hd y).bind fun _ _ => Ends.ok _
    case infeasibilityIncr => exact (hd y).bind fun _ _ => Ends.ok _
    case piSignChange => exact (hl y).bind fun _ _ => Ends.ok _
    all_goals exact (hv y).bind fun _ _ => Ends.ok _
  · intro rem c' x' m' h
    obtain ⟨⟨y, m1⟩, _, h⟩ := bind_eq_ok.mp h
    have hvis := visits_valid hw hc t m
    cases ho : c.order <;> simp only [ho] at h <;>
      obtain ⟨r, hr, h⟩ := bind_eq_ok.mp h <;>
      have h := Except.ok.inj h <;>
      simp only [Prod.mk.injEq] at h <;>
      obtain ⟨_, rfl, _, _⟩ := h
    case infeasibilityDecr => exact ⟨hc.R, hdd y r hr⟩
    case infeasibilityIncr => exact ⟨hc.R, hdd y r hr⟩
    case piSignChange => exact ⟨hvis, hc.mOrder⟩
    all_goals exact ⟨hvv y r hr, hc.mOrder⟩

theorem mainLoop_ends (hs : makeSlv kind csts n = .ok s) (hw : w.Ok ok)
    (hu : ∀ t i p k x m, k < csts.length → Ends E (upd (w.oracle t i) p k x m)) :
    ∀ (k : Nat) (st : State), Valid csts.length st.base.compute →
      Ends E (mainLoop s upd w cfg t o k st) ∧ ∀ st' e, mainLoop s upd w cfg t o k st = .ok (st', e) →
        Valid csts.length st'.base.compute
  | 0, st, hc => ⟨Ends.ok _, fun st' e h => by
      have h := Except.ok.inj h
      simp only [Prod.mk.injEq] at h
      rw [← h.1]; exact hc⟩
  | k + 1, st, hc => by
    obtain ⟨h1, h2⟩ := pass_ends hs hw hu hc ⟨st.kappa, cfg.delta, cfg.theta, none⟩ st.base.passes
      st.base.x st.mem
    constructor
    · unfold mainLoop
      refine h1.bind ?_
      rintro ⟨rem, c, x, m⟩ hp
      have hc' := h2 rem c x m hp
      dsimp only
      by_cases hz : rem = 0
      · rw [if_pos hz]; exact Ends.ok _
      · rw [if_neg hz]
        generalize hst1 : (if ltInt rem _ = true then _ else _ : State) = st1
        have hst1c : st1.base.compute = c := by
          rw [← hst1]
          split <;> rfl
        by_cases hk : st1.kappa > cfg.kappaMax
        · rw [if_pos hk]; exact Ends.ok _
        · rw [if_neg hk]
          by_cases ht : w.timeUp st1.base.passes = true
          · rw [if_pos ht]; exact Ends.ok _
          · rw [if_neg ht]
            exact (mainLoop_ends hs hw hu k st1 (by rw [hst1c]; exact hc')).1
    · intro st' e h
      exact mainLoop_inv (fun st => Valid csts.length st.base.compute) _
        (fun st v m st1 hi hv _ hsame => by
          have : Valid csts.length st1.base.compute := by
            rw [hsame.compute]
            have hc : v.compute = st.base.compute := by simpa using hv.compute
            exact (pass_ends hs hw hu (by rw [hc]; exact hi) _ _ _ _).2 _ _ _ _ hv.passEq
          exact ⟨this, fun _ _ => this⟩) _ _ _ _ h hc hc

theorem pushInner_ends (hs : makeSlv kind csts n = .ok s) (hw : w.Ok ok)
    (hu : ∀ t i p k x m, k < csts.length → Ends E (upd (w.oracle t i) p k x m)) :
    ∀ (k iter : Nat) (st : State), Valid csts.length st.base.compute →
      Ends E (pushInner s upd w cfg t o k iter st) ∧
      ∀ st', pushInner s upd w cfg t o k iter st = .ok st' → Valid csts.length st'.base.compute
  | 0, iter, st, hc => ⟨Ends.ok _, fun st' h => by
      have h := Except.ok.inj h
      rw [← h]; exact hc⟩
  | k + 1, iter, st, hc => by
    obtain ⟨h1, h2⟩ := pass_ends hs hw hu hc ⟨st.kappa, cfg.delta, cfg.theta, none⟩ st.base.passes
      st.base.x st.mem
    constructor
    · unfold pushInner
      refine h1.bind ?_
      rintro ⟨rem, c, x, m⟩ hp
      have hc' := h2 rem c x m hp
      dsimp only
      by_cases hz : rem = 0
      · rw [if_pos hz]; exact Ends.ok _
      · rw [if_neg hz]
        split
        · exact Ends.ok _
        · split
          · exact Ends.ok _
          · exact (pushInner_ends hs hw hu k (iter + 1) _ hc').1
    · intro st' h
      exact pushInner_inv (fun _ st => Valid csts.length st.base.compute) _
        (fun _ st v m st1 hi hv _ hsame => by
          have : Valid csts.length st1.base.compute := by
            rw [hsame.compute]
            have hc : v.compute = st.base.compute := by simpa using hv.compute
            exact (pass_ends hs hw hu (by rw [hc]; exact hi) _ _ _ _).2 _ _ _ _ hv.passEq
          exact ⟨this, fun _ _ => this⟩) _ _ _ _ h hc hc

theorem pushLoop_ends (hs : makeSlv kind csts n = .ok s) (hw : w.Ok ok)
    (hu : ∀ t i p k x m, k < csts.length → Ends E (upd (w.oracle t i) p k x m)) :
    ∀ (k : Nat) (st : State), Valid csts.length st.base.compute →
      Ends E (pushLoop s upd w cfg t o k st)
  | 0, st, hc => Ends.ok _
  | k + 1, st, hc => by
    unfold pushLoop
    dsimp only
    generalize hcmp : (if st.base.compute.useCycle = true then
      ({ st.base.compute with order := nextState st.base.compute.order } : Compute)
      else st.base.compute) = cmp
    have hcc : Valid csts.length cmp := by
      rw [← hcmp]
      split
      · exact ⟨hc.R, hc.mOrder⟩
      · exact hc
    obtain ⟨h1, h2⟩ := pass_ends hs hw hu hcc
      ⟨w.rnd (cfg.kFactor * st.kappa), cfg.delta, cfg.theta, some cfg.amplifier⟩ st.base.passes st.base.x st.mem
    refine h1.bind ?_
    rintro ⟨rem, c, x, m⟩ hp
    have hc' := h2 rem c x m hp
    dsimp only
    generalize hst1 : (if rem = 0 then _ else _ : State) = st1
    have hst1c : st1.base.compute = c := by
      rw [← hst1]
      split <;> rfl
    by_cases ht : w.timeUp st1.base.passes = true
    · rw [if_pos ht]; exact Ends.ok _
    · rw [if_neg ht]
      obtain ⟨g1, g2⟩ := pushInner_ends (cfg := cfg) (t := t) (o := o) hs hw hu cfg.pushIter 0 st1
        (by rw [hst1c]; exact hc')
      exact g1.bind fun st2 h2 => pushLoop_ends hs hw hu k st2 (g2 st2 h2)

theorem functor_ends {upd : Slv → Upd Ω} (hs : makeSlv kind csts n = .ok s) (hw : w.Ok ok)
    (hu : ∀ t i p k x m, k < csts.length → Ends E (upd s (w.oracle t i) p k x m))
    (ho : cfg.order = .piSignChange → n ≤ csts.length) :
    Ends E (functor kind upd w cfg t o csts n) := by
  have hne : 0 < csts.length := by
    obtain ⟨_, _, _, _, ⟨c, hc, _⟩, _⟩ := makeSlv_facts hs
    exact List.length_pos_of_mem hc
  have hdef : Valid csts.length (Compute.make cfg.order n) := by
    unfold Compute.make
    exact ⟨fun k hk => by rw [(List.mem_replicate.mp hk).2]; exact hne,
      fun p hp => by rw [(List.mem_replicate.mp hp).2]; exact hne⟩
  unfold functor
  rw [hs, ok_bind]
  have hinit : Ends E ((Compute.make cfg.order n).init s w.x0) ∧
      ∀ c, (Compute.make cfg.order n).init s w.x0 = .ok c → Valid csts.length c := by
    have hR : (Compute.make cfg.order n).R.length = n := by simp [Compute.make]
    have hmo : (Compute.make cfg.order n).order = .piSignChange → cfg.order = .piSignChange := by
      unfold Compute.make
      intro h
      simp only at h
      split at h
      · cases h
      · exact h
    generalize Compute.make cfg.order n = c0 at *
    unfold Compute.init
    cases ho' : c0.order <;> simp only
    case piSignChange =>
      refine ⟨Ends.ok _, fun c h => ?_⟩
      rw [← Except.ok.inj h]
      exact ⟨fun k hk => by
        have := List.mem_range.mp hk
        have := ho (hmo ho')
        omega, hdef.mOrder⟩
    case infeasibilityDecr =>
      obtain ⟨d, g, _⟩ := (violated_eq hs w.x0).2.2
      rw [g]
      refine ⟨Ends.ok _, fun c h => ?_⟩
      rw [← Except.ok.inj h]
      refine ⟨hdef.R, fun p hp => ?_⟩
      simp only [infeasibility_eq hs g] at hp
      obtain ⟨k, hk, rfl⟩ := List.mem_map.mp hp
      exact vset_lt k hk
    case infeasibilityIncr =>
      obtain ⟨d, g, _⟩ := (violated_eq hs w.x0).2.2
      rw [g]
      refine ⟨Ends.ok _, fun c h => ?_⟩
      rw [← Except.ok.inj h]
      refine ⟨hdef.R, fun p hp => ?_⟩
      simp only [infeasibility_eq hs g] at hp
      obtain ⟨k, hk, rfl⟩ := List.mem_map.mp hp
      exact vset_lt k hk
    all_goals
      rw [(violated_eq hs w.x0).1]
      refine ⟨Ends.ok _, fun c h => ?_⟩
      rw [← Except.ok.inj h]
      exact ⟨vset_lt, hdef.mOrder⟩
  refine hinit.1.bind fun c hc => ?_
  obtain ⟨g1, g2⟩ := mainLoop_ends (t := t) (o := o) (cfg := cfg) hs hw hu cfg.limit (start w cfg c)
    (hinit.2 c hc)
  refine g1.bind ?_
  rintro ⟨st, e⟩ hst
  dsimp only
  refine Ends.bind ?_ fun _ _ => Ends.ok _
  unfold pushPhase
  split
  · exact pushLoop_ends hs hw hu cfg.pushes st (g2 st e hst)
  · exact Ends.ok _

end Faults

end Bx.Num
