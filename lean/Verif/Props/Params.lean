import Mathlib.Algebra.Order.Ring.Rat
import Mathlib.Tactic.Linarith
import Verif.Spec.Params

/-!
# C43, C44: the parameters of a context

`setAll ps` are the parameters of a new context after the calls
`context_set_solver_parameters(ctx, p)` for each `p` of `ps`.
-/

namespace Bx.Params

/-! ## Doubles -/

theorem D.lt_irrefl (d : D) : d.lt d = false := by cases d <;> simp [D.lt]

theorem D.clamp_idem (v lo hi : D) (h : hi.lt lo = false) :
    (v.clamp lo hi).clamp lo hi = v.clamp lo hi := by
  unfold D.clamp
  split
  · simp [D.lt_irrefl, h]
  · split
    · simp [D.lt_irrefl, h]
    · rename_i h1 h2
      simp [h1, h2]

theorem le_zero {d : D} : D.le (.fin 0) d = true ↔ NonNeg d := by
  cases d with
  | nan => simp [D.le, D.lt, D.eq, NonNeg]
  | ninf => simp [D.le, D.lt, D.eq, NonNeg]
  | pinf => simp [D.le, D.lt, NonNeg]
  | fin q => simp [D.le, D.lt, D.eq, NonNeg, le_iff_lt_or_eq]

theorem unit_range {d : D} : (D.le (.fin 0) d && d.le (.fin 1)) = true ↔ Between 0 1 d := by
  cases d with
  | nan => simp [D.le, D.lt, D.eq, Between]
  | ninf => simp [D.le, D.lt, D.eq, Between]
  | pinf => simp [D.le, D.lt, D.eq, Between]
  | fin q =>
    simp only [D.le, D.lt, D.eq, Between, D.fin.injEq, Bool.and_eq_true, Bool.or_eq_true,
      decide_eq_true_eq, le_iff_lt_or_eq, exists_eq_left']

theorem clamp_fin (q : Rat) :
    D.clamp (.fin q) (.fin 0) (.fin 1) = .fin (if q < 0 then 0 else if 1 < q then 1 else q) := by
  unfold D.clamp
  simp only [D.lt, decide_eq_true_eq]
  split
  · rfl
  · split <;> rfl

theorem clamp_between {d : D} (h : d ≠ .nan) : Between 0 1 (d.clamp (.fin 0) (.fin 1)) := by
  cases d with
  | nan => exact absurd rfl h
  | ninf => exact ⟨0, by simp [D.clamp, D.lt], by norm_num, by norm_num⟩
  | pinf => exact ⟨1, by simp [D.clamp, D.lt], by norm_num, by norm_num⟩
  | fin q =>
    refine ⟨_, clamp_fin q, ?_, ?_⟩
    · split
      · exact le_refl _
      · split
        · norm_num
        · linarith
    · split
      · norm_num
      · split
        · exact le_refl _
        · linarith

theorem clamp_of_between {d : D} (h : Between 0 1 d) : d.clamp (.fin 0) (.fin 1) = d := by
  obtain ⟨q, rfl, h1, h2⟩ := h
  rw [clamp_fin, if_neg (not_lt.mpr h1), if_neg (not_lt.mpr h2)]

theorem unit_between {v s : D} (hs : Between 0 1 s) : Between 0 1 (unit v s) := by
  unfold unit keepUnless
  split
  · rename_i h
    apply clamp_between
    rintro rfl
    simp [D.isfinite] at h
  · exact hs

theorem unit_of_between {v : D} (s : D) (h : Between 0 1 v) : unit v s = v := by
  unfold unit keepUnless
  obtain ⟨q, rfl, h1, h2⟩ := h
  rw [if_pos (by rfl), clamp_of_between ⟨q, rfl, h1, h2⟩]

theorem kappaOk_iff (p : SolverParams) :
    kappaOk p = true ↔ KappaRange p.kappaMin p.kappaStep p.kappaMax := by
  unfold kappaOk KappaRange
  constructor
  · intro h
    simp only [Bool.and_eq_true] at h
    obtain ⟨⟨⟨⟨⟨h1, h2⟩, h3⟩, h4⟩, h5⟩, h6⟩ := h
    cases hb : p.kappaMax with
    | nan => rw [hb] at h4; simp [D.le, D.lt, D.eq] at h4
    | pinf => rw [hb] at h4; simp [D.le, D.lt, D.eq] at h4
    | ninf => rw [hb] at h1; cases hm : p.kappaMin <;> rw [hm] at h1 <;> simp [D.lt] at h1
    | fin b =>
      rw [hb] at h1 h4
      cases ha : p.kappaMin with
      | nan => rw [ha] at h1; simp [D.lt] at h1
      | pinf => rw [ha] at h1; simp [D.lt] at h1
      | ninf => rw [ha] at h2; simp [D.le, D.lt, D.eq] at h2
      | fin a =>
        rw [ha] at h1 h2
        cases hs : p.kappaStep with
        | nan => rw [hs] at h5; simp [D.le, D.lt, D.eq] at h5
        | pinf => rw [hs] at h6; simp [D.lt] at h6
        | ninf => rw [hs] at h5; simp [D.le, D.lt, D.eq] at h5
        | fin s =>
          rw [hs] at h5 h6
          simp only [D.le, D.lt, D.eq, D.fin.injEq, Bool.or_eq_true, decide_eq_true_eq,
            ← le_iff_lt_or_eq] at h1 h2 h4 h5 h6
          exact ⟨a, s, b, rfl, rfl, rfl, h2, h1, h4, h5, h6⟩
  · rintro ⟨a, s, b, ha, hs, hb, h1, h2, h3, h4, h5⟩
    rw [ha, hs, hb]
    simp only [D.le, D.lt, D.eq, D.fin.injEq, Bool.and_eq_true, Bool.or_eq_true, decide_eq_true_eq,
      ← le_iff_lt_or_eq]
    exact ⟨⟨⟨⟨⟨h2, h1⟩, by linarith⟩, h3⟩, h4⟩, h5⟩

theorem positive_iff {d : D} (hd : d ≠ .nan) : d.le (.fin 0) = false ↔ Positive d := by
  cases d with
  | nan => exact absurd rfl hd
  | ninf => simp [D.le, D.lt, D.eq, Positive]
  | pinf => simp [D.le, D.lt, D.eq, Positive]
  | fin q =>
    simp only [D.le, D.lt, D.eq, Positive, D.fin.injEq, Bool.or_eq_false_iff,
      decide_eq_false_iff_not, reduceCtorEq, exists_eq_left', false_or]
    constructor
    · rintro ⟨h1, h2⟩
      exact lt_of_le_of_ne (not_lt.mp h1) (Ne.symm h2)
    · intro h
      exact ⟨not_lt.mpr h.le, ne_of_gt h⟩

theorem delta_iff {d : D} :
    (d.eq (.fin (-1)) || D.le (.fin 0) d) = true ↔ d = .fin (-1) ∨ NonNeg d := by
  rw [Bool.or_eq_true, le_zero]
  cases d <;> simp [D.eq]

/-! ## The stored parameters -/

/-- The part of the ranges that does not depend on the last call. -/
structure Kept (p : SolverParams) : Prop where
  theta : Between 0 1 p.theta
  delta : p.delta = .fin (-1) ∨ NonNeg p.delta
  kappa : KappaRange p.kappaMin p.kappaStep p.kappaMax
  alpha : NonNeg p.alpha
  pushingKFactor : ∃ q, p.pushingKFactor = .fin q
  pushingObjectiveAmplifier : ∃ q, p.pushingObjectiveAmplifier = .fin q
  initPolicyRandom : Between 0 1 p.initPolicyRandom
  crossoverBastertInsertion : Between 0 1 p.crossoverBastertInsertion
  crossoverSelectionMean : Between 0 1 p.crossoverSelectionMean
  crossoverSelectionStddev : Between 0 1 p.crossoverSelectionStddev
  mutationVariableMean : Between 0 1 p.mutationVariableMean
  mutationVariableStddev : Between 0 1 p.mutationVariableStddev
  mutationValueMean : Between 0 1 p.mutationValueMean
  mutationValueStddev : Between 0 1 p.mutationValueStddev
  printLevel : 0 ≤ p.printLevel
  initPopulationSize : 5 ≤ p.initPopulationSize

theorem keepUnless_ind {α : Type} {P : α → Prop} {c : Bool} {a b : α} (ha : c = true → P a)
    (hb : P b) : P (keepUnless c a b) := by
  unfold keepUnless; split
  · exact ha ‹_›
  · exact hb

theorem kept_default : Kept {} := by
  have b : ∀ q : Rat, 0 ≤ q → q ≤ 1 → Between 0 1 (.fin q) := fun q h1 h2 => ⟨q, rfl, h1, h2⟩
  constructor
  case delta => exact Or.inl rfl
  case kappa =>
    exact ⟨0, 1 / 1000, 3 / 5, rfl, rfl, rfl, by norm_num, by norm_num, by norm_num, by norm_num,
      by norm_num⟩
  case alpha => exact Or.inr ⟨1, rfl, by norm_num⟩
  case pushingKFactor => exact ⟨_, rfl⟩
  case pushingObjectiveAmplifier => exact ⟨_, rfl⟩
  case printLevel => decide
  case initPopulationSize => decide
  all_goals exact b _ (by norm_num) (by norm_num)

theorem fin_of_isfinite {d : D} (h : d.isfinite = true) : ∃ q, d = .fin q := by
  cases d <;> simp [D.isfinite] at h ⊢

theorem Kept.set {s : SolverParams} (h : Kept s) (p : SolverParams) : Kept (set s p) := by
  constructor
  case theta => exact keepUnless_ind (fun h => unit_range.mp h) h.theta
  case delta =>
    exact keepUnless_ind (P := fun d => d = .fin (-1) ∨ NonNeg d) (fun h => delta_iff.mp h) h.delta
  case kappa =>
    show KappaRange (keepUnless _ _ _) (keepUnless _ _ _) (keepUnless _ _ _)
    unfold keepUnless
    split
    · exact (kappaOk_iff p).mp ‹_›
    · exact h.kappa
  case alpha => exact keepUnless_ind (fun h => le_zero.mp h) h.alpha
  case pushingKFactor =>
    exact keepUnless_ind (P := fun d : D => ∃ q, d = D.fin q) (fun h => fin_of_isfinite h) h.pushingKFactor
  case pushingObjectiveAmplifier =>
    exact keepUnless_ind (P := fun d : D => ∃ q, d = D.fin q) (fun h => fin_of_isfinite h) h.pushingObjectiveAmplifier
  case initPolicyRandom => exact keepUnless_ind (fun h => unit_range.mp h) h.initPolicyRandom
  case printLevel => exact keepUnless_ind (fun h => by simpa using h) h.printLevel
  case initPopulationSize => exact keepUnless_ind (fun h => by simpa using h) h.initPopulationSize
  case crossoverBastertInsertion => exact unit_between h.crossoverBastertInsertion
  case crossoverSelectionMean => exact unit_between h.crossoverSelectionMean
  case crossoverSelectionStddev => exact unit_between h.crossoverSelectionStddev
  case mutationVariableMean => exact unit_between h.mutationVariableMean
  case mutationVariableStddev => exact unit_between h.mutationVariableStddev
  case mutationValueMean => exact unit_between h.mutationValueMean
  case mutationValueStddev => exact unit_between h.mutationValueStddev

theorem kept_foldl (ps : List SolverParams) : ∀ s, Kept s → Kept (ps.foldl set s) := by
  induction ps with
  | nil => exact fun s h => h
  | cons p ps ih => exact fun s h => ih _ (h.set p)

theorem kept_setAll (ps : List SolverParams) : Kept (setAll ps) := kept_foldl ps _ kept_default

theorem setAll_last {ps : List SolverParams} (h : ps ≠ []) :
    ∃ p ∈ ps, ∃ qs, setAll ps = set (setAll qs) p := by
  refine ⟨ps.getLast h, List.getLast_mem h, ps.dropLast, ?_⟩
  unfold setAll
  conv_lhs => rw [← List.dropLast_concat_getLast h]
  simp

theorem storedW_nonNeg {limit : Int} {w : D} (hw : w ≠ .nan) : NonNeg (storedW limit w) := by
  unfold storedW
  cases w with
  | nan => exact absurd rfl hw
  | ninf => exact Or.inr ⟨0, by simp [D.lt], le_refl _⟩
  | pinf =>
    simp only [D.lt, Bool.false_eq_true, if_false]
    split
    · rename_i hl
      exact Or.inr ⟨limit, by simp [D.min, D.lt], by exact_mod_cast hl.le⟩
    · exact Or.inl rfl
  | fin q =>
    simp only [D.lt, decide_eq_true_eq]
    split
    · exact Or.inr ⟨0, rfl, le_refl _⟩
    · rename_i h0
      have h0 : 0 ≤ q := not_lt.mp h0
      split
      · rename_i hl
        have hl' : (0 : Rat) ≤ limit := by exact_mod_cast hl.le
        split
        · exact Or.inr ⟨limit * q, rfl, mul_nonneg hl' h0⟩
        · unfold D.min
          split
          · exact Or.inr ⟨q, rfl, h0⟩
          · exact Or.inr ⟨limit, rfl, hl'⟩
      · refine Or.inr ⟨_, rfl, ?_⟩
        exact_mod_cast Int.floor_nonneg.mpr h0

/-- C43 (partial): after any sequence of calls, the stored parameters are all in their
documented ranges, provided the values that the code stores without a test against NaN
are not NaN.  Missing: these NaN values, for which the claim is false
(`C43_nan_time_limit_stored`, `C43_nan_improve_start_stored`). -/
theorem C43_stored_in_range_partial (ps : List SolverParams) (hps : ps ≠ [])
    (hnan : ∀ p ∈ ps, NotNan p) : InRange (setAll ps) := by
  obtain ⟨p, hp, qs, he⟩ := setAll_last hps
  have hk := kept_setAll ps
  obtain ⟨n1, n2, n3, n4, n5⟩ := hnan p hp
  have htl : (setAll ps).timeLimit = if p.timeLimit.le (.fin 0) then .pinf else p.timeLimit := by
    rw [he]; rfl
  have hlim : (setAll ps).limit = if p.limit ≤ 0 then longMax else p.limit := by rw [he]; rfl
  have hpu : (setAll ps).pushesLimit = if p.pushesLimit ≤ 0 then 0 else p.pushesLimit := by
    rw [he]; rfl
  have hpi : (setAll ps).pushingIterationLimit =
      if p.pushingIterationLimit ≤ 0 then 0 else p.pushingIterationLimit := by rw [he]; rfl
  have hst : (setAll ps).kappaImproveStart = p.kappaImproveStart.clamp (.fin 0) (.fin 1) := by
    rw [he]; rfl
  have hin : (setAll ps).kappaImproveIncrease =
      p.kappaImproveIncrease.clamp (.fin 0) (.fin 1) := by rw [he]; rfl
  have hsp : (setAll ps).kappaImproveStop = p.kappaImproveStop.clamp
      (p.kappaImproveStart.clamp (.fin 0) (.fin 1)) (.fin 1) := by rw [he]; rfl
  have hw : (setAll ps).w = storedW p.limit p.w := by rw [he]; rfl
  exact
    { timeLimit := by
        rw [htl]
        split
        · exact Or.inl rfl
        · rename_i h
          exact (positive_iff n1).mp (by simpa using h)
      theta := hk.theta
      delta := hk.delta
      kappa := hk.kappa
      alpha := hk.alpha
      pushingKFactor := hk.pushingKFactor
      pushingObjectiveAmplifier := hk.pushingObjectiveAmplifier
      initPolicyRandom := hk.initPolicyRandom
      crossoverBastertInsertion := hk.crossoverBastertInsertion
      crossoverSelectionMean := hk.crossoverSelectionMean
      crossoverSelectionStddev := hk.crossoverSelectionStddev
      mutationVariableMean := hk.mutationVariableMean
      mutationVariableStddev := hk.mutationVariableStddev
      mutationValueMean := hk.mutationValueMean
      mutationValueStddev := hk.mutationValueStddev
      kappaImprove := by
        obtain ⟨a, ha, ha0, ha1⟩ := clamp_between n3
        rw [hst, hsp, ha]
        cases hd : p.kappaImproveStop with
        | nan => exact absurd hd n5
        | ninf => exact ⟨a, a, rfl, by simp [D.clamp, D.lt], ha0, le_refl _, ha1⟩
        | pinf => exact ⟨a, 1, rfl, by simp [D.clamp, D.lt], ha0, ha1, le_refl _⟩
        | fin q =>
          refine ⟨a, if q < a then a else if 1 < q then 1 else q, rfl, ?_, ha0, ?_, ?_⟩
          · unfold D.clamp
            simp only [D.lt, decide_eq_true_eq]
            split
            · rfl
            · split <;> rfl
          · split
            · exact le_refl _
            · split
              · exact ha1
              · linarith
          · split
            · exact ha1
            · split
              · exact le_refl _
              · linarith
      kappaImproveIncrease := by rw [hin]; exact clamp_between n4
      w := by rw [hw]; exact storedW_nonNeg n2
      limit := by
        rw [hlim]; split
        · decide
        · omega
      printLevel := hk.printLevel
      pushesLimit := by rw [hpu]; split <;> omega
      pushingIterationLimit := by rw [hpi]; split <;> omega
      initPopulationSize := hk.initPopulationSize }

/-- Refutation: a time limit that is not a number is stored. -/
theorem C43_nan_time_limit_stored : ¬ InRange (setAll [{ timeLimit := .nan }]) := by
  intro h
  rcases h.timeLimit with h | ⟨q, h, _⟩
  · exact absurd h (by decide)
  · have : (setAll [{ timeLimit := .nan }]).timeLimit = .nan := by decide
    rw [this] at h
    simp at h

/-- Refutation: so is the start of the improvement of kappa. -/
theorem C43_nan_improve_start_stored : ¬ InRange (setAll [{ kappaImproveStart := .nan }]) := by
  intro h
  obtain ⟨a, _, h, _⟩ := h.kappaImprove
  have : (setAll [{ kappaImproveStart := .nan }]).kappaImproveStart = .nan := by decide
  rw [this] at h
  simp at h

/-- C43: parameters that are in range are stored as they are, except `w`: under 1 it is
a fraction of the loop limit, otherwise it is the number of loops, at most the limit. -/
theorem C43_valid_parameters_are_stored (s p : SolverParams) (h : InRange p) (q : Rat)
    (hq : p.w = .fin q) :
    set s p = { p with w := .fin (if q < 1 then p.limit * q else min p.limit q) } := by
  have hw : storedW p.limit p.w = .fin (if q < 1 then p.limit * q else min p.limit q) := by
    have hq0 : 0 ≤ q := by
      rcases h.w with h | ⟨r, h, hr⟩
      · rw [hq] at h; simp at h
      · rw [hq] at h; rw [D.fin.inj h]; exact hr
    have := h.limit
    rw [hq]
    unfold storedW
    simp only [D.lt, decide_eq_true_eq, D.scale]
    rw [if_neg (not_lt.mpr hq0), if_pos (by omega)]
    split
    · rfl
    · unfold D.min
      simp only [D.lt, decide_eq_true_eq]
      split
      · rename_i h; rw [min_eq_right h.le]
      · rename_i h; rw [min_eq_left (not_lt.mp h)]
  obtain ⟨a, b, ha, hb, h0, hab, h1⟩ := h.kappaImprove
  have hst : p.kappaImproveStart.clamp (.fin 0) (.fin 1) = p.kappaImproveStart :=
    clamp_of_between ⟨a, ha, h0, le_trans hab h1⟩
  have hsp : p.kappaImproveStop.clamp (.fin a) (.fin 1) = p.kappaImproveStop := by
    rw [hb]
    unfold D.clamp
    simp only [D.lt, decide_eq_true_eq]
    rw [if_neg (not_lt.mpr hab), if_neg (not_lt.mpr h1)]
  have ht : p.timeLimit.le (.fin 0) = false := by
    refine (positive_iff ?_).mpr h.timeLimit
    intro hn
    rcases h.timeLimit with h | ⟨q, h, _⟩ <;> rw [hn] at h <;> simp at h
  have hfin : ∀ {d : D}, (∃ q, d = .fin q) → d.isfinite = true := by
    rintro _ ⟨q, rfl⟩; rfl
  have hl := h.limit
  have hp1 := h.pushesLimit
  have hp2 := h.pushingIterationLimit
  have h1' : (if p.pushesLimit ≤ 0 then 0 else p.pushesLimit) = p.pushesLimit := by
    split <;> omega
  have h2' : (if p.pushingIterationLimit ≤ 0 then 0 else p.pushingIterationLimit) =
      p.pushingIterationLimit := by split <;> omega
  have h3' : (if p.limit ≤ 0 then longMax else p.limit) = p.limit := by
    rw [if_neg (by omega)]
  unfold set
  rw [hw, hst, ha, hsp, ht, unit_range.mpr h.theta, delta_iff.mpr h.delta, (kappaOk_iff p).mpr h.kappa,
    le_zero.mpr h.alpha, hfin h.pushingKFactor, hfin h.pushingObjectiveAmplifier,
    unit_of_between _ h.crossoverBastertInsertion, unit_of_between _ h.crossoverSelectionMean,
    unit_of_between _ h.crossoverSelectionStddev, unit_of_between _ h.mutationVariableMean,
    unit_of_between _ h.mutationVariableStddev, unit_of_between _ h.mutationValueMean,
    unit_of_between _ h.mutationValueStddev, unit_range.mpr h.initPolicyRandom,
    clamp_of_between h.kappaImproveIncrease, h1', h2', h3', decide_eq_true h.printLevel,
    decide_eq_true h.initPopulationSize, ← ha]
  rfl

/-- C43: a value out of range does not replace the stored one, or is replaced by the
nearest value in range. -/
theorem C43_invalid_values_are_ignored (s p : SolverParams) :
    (¬ Between 0 1 p.theta → (set s p).theta = s.theta) ∧
    (¬ (p.delta = .fin (-1) ∨ NonNeg p.delta) → (set s p).delta = s.delta) ∧
    (¬ KappaRange p.kappaMin p.kappaStep p.kappaMax →
      (set s p).kappaMin = s.kappaMin ∧ (set s p).kappaStep = s.kappaStep ∧
      (set s p).kappaMax = s.kappaMax) ∧
    (¬ NonNeg p.alpha → (set s p).alpha = s.alpha) ∧
    ((∀ q, p.pushingKFactor ≠ .fin q) → (set s p).pushingKFactor = s.pushingKFactor) ∧
    ((∀ q, p.pushingObjectiveAmplifier ≠ .fin q) →
      (set s p).pushingObjectiveAmplifier = s.pushingObjectiveAmplifier) ∧
    (¬ Between 0 1 p.initPolicyRandom → (set s p).initPolicyRandom = s.initPolicyRandom) ∧
    (p.printLevel < 0 → (set s p).printLevel = s.printLevel) ∧
    (p.initPopulationSize < 5 → (set s p).initPopulationSize = s.initPopulationSize) ∧
    (p.limit ≤ 0 → (set s p).limit = longMax) ∧
    (p.pushesLimit < 0 → (set s p).pushesLimit = 0) ∧
    (p.pushingIterationLimit < 0 → (set s p).pushingIterationLimit = 0) ∧
    (∀ f ∈ probabilities, ∀ q, f p = .fin q → f (set s p) = .fin (max 0 (min 1 q))) ∧
    (∀ f ∈ probabilities, (∀ q, f p ≠ .fin q) → f (set s p) = f s) := by
  have keep : ∀ {α : Type} {c : Bool} {a b : α} {P : Prop}, (c = true ↔ P) → ¬ P →
      keepUnless c a b = b := by
    intro α c a b P hi hn
    unfold keepUnless
    rw [if_neg (fun h => hn (hi.mp h))]
  refine ⟨keep unit_range, keep delta_iff, fun h => ⟨keep (kappaOk_iff p) h, keep (kappaOk_iff p) h,
    keep (kappaOk_iff p) h⟩, keep le_zero, ?_, ?_, keep unit_range, ?_, ?_, ?_, ?_, ?_, ?_, ?_⟩
  · intro h
    exact keep (P := ∃ q, p.pushingKFactor = .fin q)
      ⟨fin_of_isfinite, fun ⟨q, hq⟩ => absurd hq (h q)⟩ (fun ⟨q, hq⟩ => h q hq)
  · intro h
    exact keep (P := ∃ q, p.pushingObjectiveAmplifier = .fin q)
      ⟨fin_of_isfinite, fun ⟨q, hq⟩ => absurd hq (h q)⟩ (fun ⟨q, hq⟩ => h q hq)
  · intro h
    exact keep (P := 0 ≤ p.printLevel) decide_eq_true_iff (by omega)
  · intro h
    exact keep (P := 5 ≤ p.initPopulationSize) decide_eq_true_iff (by omega)
  · intro h
    show (if _ then _ else _) = _
    rw [if_pos h]
  · intro h
    show (if _ then _ else _) = _
    rw [if_pos h.le]
  · intro h
    show (if _ then _ else _) = _
    rw [if_pos h.le]
  · intro f hf q hq
    have hu : f (set s p) = unit (f p) (f s) := by
      simp only [probabilities, List.mem_cons, List.not_mem_nil, or_false] at hf
      rcases hf with rfl | rfl | rfl | rfl | rfl | rfl | rfl <;> rfl
    rw [hu, hq]
    unfold unit keepUnless
    rw [if_pos (by rfl), clamp_fin]
    congr 1
    split
    · rename_i h; rw [max_eq_left (le_trans (min_le_right _ _) h.le)]
    · rename_i h
      split
      · rename_i h1; rw [min_eq_left h1.le, max_eq_right (by norm_num)]
      · rename_i h1; rw [min_eq_right (not_lt.mp h1), max_eq_right (not_lt.mp h)]
  · intro f hf hq
    have hu : f (set s p) = unit (f p) (f s) := by
      simp only [probabilities, List.mem_cons, List.not_mem_nil, or_false] at hf
      rcases hf with rfl | rfl | rfl | rfl | rfl | rfl | rfl <;> rfl
    rw [hu]
    exact keep (P := ∃ q, f p = .fin q)
      ⟨fin_of_isfinite, fun ⟨q, h⟩ => absurd h (hq q)⟩ (fun ⟨q, h⟩ => hq q h)

/-- The hypotheses are met: two calls, the second with several values out of range. -/
example : InRange (setAll [{ theta := .fin (1 / 4) },
    { theta := .fin 2, delta := .nan, timeLimit := .fin (-3), limit := 0, w := .fin (7 / 2),
      mutationValueMean := .pinf, kappaImproveStart := .fin (1 / 2) }]) :=
  C43_stored_in_range_partial _ (by simp) (by
    intro p hp
    simp only [List.mem_cons, List.not_mem_nil, or_false] at hp
    rcases hp with rfl | rfl <;> exact ⟨by decide, by decide, by decide, by decide, by decide⟩)

example : (setAll [{ theta := .fin (1 / 4) }, { theta := .fin 2 }]).theta = .fin (1 / 4) := by
  decide +kernel

/-! ## C44 -/

/-- C44 (partial): after any sequence of calls, reading the parameters and setting them
back changes none of them, except possibly `w`; and `w` does not change either when it
is 0, or is between 1 and the loop limit.

Missing: the other values of `w`, for which the claim is false
(`C44_set_back_changes_w`), and a context never set, whose `w` is still a fraction
(`C44_default_changes`). -/
theorem C44_set_back_partial (ps : List SolverParams) (hps : ps ≠ []) :
    (∃ w, set (setAll ps) (get (setAll ps)) = { setAll ps with w := w }) ∧
    ((setAll ps).w = .fin 0 ∨
      (∃ q, (setAll ps).w = .fin q ∧ 1 ≤ q ∧ q ≤ (setAll ps).limit) →
      set (setAll ps) (get (setAll ps)) = setAll ps) := by
  obtain ⟨p, hp, qs, he⟩ := setAll_last hps
  have hk := kept_setAll ps
  have key : set (setAll ps) (get (setAll ps)) =
      { setAll ps with w := storedW (setAll ps).limit (setAll ps).w } := by
    have htl : (setAll ps).timeLimit.le (.fin 0) = false := by
      have : (setAll ps).timeLimit = if p.timeLimit.le (.fin 0) then .pinf else p.timeLimit := by
        rw [he]; rfl
      rw [this]
      split
      · decide
      · rename_i h; simpa using h
    have hlim : ¬ (setAll ps).limit ≤ 0 := by
      have : (setAll ps).limit = if p.limit ≤ 0 then longMax else p.limit := by rw [he]; rfl
      rw [this]
      split
      · decide
      · omega
    have hpu : (if (setAll ps).pushesLimit ≤ 0 then 0 else (setAll ps).pushesLimit) =
        (setAll ps).pushesLimit := by
      have : (setAll ps).pushesLimit = if p.pushesLimit ≤ 0 then 0 else p.pushesLimit := by
        rw [he]; rfl
      rw [this]; split <;> (try split) <;> omega
    have hpi : (if (setAll ps).pushingIterationLimit ≤ 0 then 0
        else (setAll ps).pushingIterationLimit) = (setAll ps).pushingIterationLimit := by
      have : (setAll ps).pushingIterationLimit =
          if p.pushingIterationLimit ≤ 0 then 0 else p.pushingIterationLimit := by rw [he]; rfl
      rw [this]; split <;> (try split) <;> omega
    have hst' : (setAll ps).kappaImproveStart = p.kappaImproveStart.clamp (.fin 0) (.fin 1) := by
      rw [he]; rfl
    have hst : (setAll ps).kappaImproveStart.clamp (.fin 0) (.fin 1) =
        (setAll ps).kappaImproveStart := by
      rw [hst']; exact D.clamp_idem _ _ _ (by decide)
    have hin : (setAll ps).kappaImproveIncrease.clamp (.fin 0) (.fin 1) =
        (setAll ps).kappaImproveIncrease := by
      have : (setAll ps).kappaImproveIncrease =
        p.kappaImproveIncrease.clamp (.fin 0) (.fin 1) := by rw [he]; rfl
      rw [this]; exact D.clamp_idem _ _ _ (by decide)
    have hsp : (setAll ps).kappaImproveStop.clamp (setAll ps).kappaImproveStart (.fin 1) =
        (setAll ps).kappaImproveStop := by
      have : (setAll ps).kappaImproveStop = p.kappaImproveStop.clamp
        (setAll ps).kappaImproveStart (.fin 1) := by rw [hst', he]; rfl
      rw [this]
      apply D.clamp_idem
      rw [hst']
      by_cases hn : p.kappaImproveStart = .nan
      · rw [hn]; decide
      · obtain ⟨q, hq, _, h1⟩ := clamp_between hn
        rw [hq]
        simpa [D.lt] using h1
    have hkeep : ∀ {α : Type} (c : Bool) (a : α), keepUnless c a a = a := by
      intro α c a; unfold keepUnless; split <;> rfl
    unfold get set
    rw [hst, hsp, hin, htl, hpu, hpi, if_neg hlim]
    rw [unit_of_between _ hk.crossoverBastertInsertion, unit_of_between _ hk.crossoverSelectionMean,
      unit_of_between _ hk.crossoverSelectionStddev, unit_of_between _ hk.mutationVariableMean,
      unit_of_between _ hk.mutationVariableStddev, unit_of_between _ hk.mutationValueMean,
      unit_of_between _ hk.mutationValueStddev]
    simp only [hkeep, Bool.false_eq_true, if_false]
  refine ⟨⟨_, key⟩, fun hw => ?_⟩
  rw [key]
  have : storedW (setAll ps).limit (setAll ps).w = (setAll ps).w := by
    have hlim : 0 < (setAll ps).limit := by
      have : (setAll ps).limit = if p.limit ≤ 0 then longMax else p.limit := by rw [he]; rfl
      rw [this]
      split
      · decide
      · omega
    unfold storedW
    rcases hw with hw | ⟨q, hw, h1, h2⟩
    · rw [hw]
      simp [D.lt, D.scale, hlim]
    · rw [hw]
      simp only [D.lt, decide_eq_true_eq]
      rw [if_neg (by linarith), if_pos hlim, if_neg (by linarith)]
      unfold D.min
      simp only [D.lt, decide_eq_true_eq]
      split
      · rfl
      · rename_i h
        rw [le_antisymm h2 (not_lt.mp h)]
  rw [this]

/-- Refutation: with 1000 loops and `w = 0.0005`, half a loop is stored; set back, it
becomes 500 loops. -/
theorem C44_set_back_changes_w :
    (setAll [{ w := .fin (1 / 2000) }]).w = .fin (1 / 2) ∧
    (set (setAll [{ w := .fin (1 / 2000) }]) (get (setAll [{ w := .fin (1 / 2000) }]))).w =
      .fin 500 := by
  constructor <;> decide +kernel

/-- Refutation: setting back the parameters of a new context changes them. -/
theorem C44_default_changes :
    (setAll []).w = .fin (1 / 20) ∧ (set (setAll []) (get (setAll []))).w = .fin 50 ∧
    (setAll []).timeLimit = .fin (-1) ∧ (set (setAll []) (get (setAll []))).timeLimit = .pinf := by
  refine ⟨?_, ?_, ?_, ?_⟩ <;> decide +kernel

example : set (setAll [{ theta := .fin 3, limit := 0, w := .fin (7 / 2) }, {}])
    (get (setAll [{ theta := .fin 3, limit := 0, w := .fin (7 / 2) }, {}])) =
    setAll [{ theta := .fin 3, limit := 0, w := .fin (7 / 2) }, {}] :=
  (C44_set_back_partial _ (by simp)).2
    (Or.inr ⟨50, by decide +kernel, by norm_num, by
      have : (setAll [{ theta := .fin 3, limit := 0, w := .fin (7 / 2) }, {}]).limit = 1000 := by
        decide
      rw [this]; norm_num⟩)

end Bx.Params
