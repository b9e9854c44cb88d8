import Verif.Spec.CoreOut
import Verif.Props.CommandLine

/-!
# C104: the start message gives back the parameters
-/

namespace Bx.CoreOut

open Params CommandLine

theorem store_some {α : Type} (a : α) (q : SolverParams) (F : α → SolverParams) (e : CStatus) :
    store (some a) q F e = (F a, .success) := rfl

theorem word_back {spec l : List (String × Int)} {name : Int → String} {n : Int}
    (h : choice spec (.int n)) (hs : ∀ m ∈ spec.map Prod.snd, named (name m) l = some m) :
    named (name n) l = some n := hs n h

set_option hygiene false in
/-- One line of the message: the value of its parameter. -/
macro "line" T:term " from " t:term : tactic => `(tactic| (
  have key : $T := $t
  refine ⟨_, Eq.trans (by
    simp only [assignParameter, isEqual, isEqualShort, String.reduceEq, decide_false, decide_true,
      Bool.false_or, Bool.true_or, Bool.false_eq_true, if_true, if_false, String.reduceToList,
      List.length_cons, List.length_nil, Nat.reduceAdd, Nat.reduceEqDiff, Bool.false_and, key]
    rfl) (store_some _ _ _ _), ?_, ?_⟩
  · simp [documented]
  · rfl))

set_option maxHeartbeats 1000000 in
/-- C104 (partial): each line of the start message that has the name of a parameter, given back
as `--param name:value`, is accepted, sets this parameter to the value it had, and changes nothing
else.  Missing: the lines `auto-tune`, `observation` and `kappa`, and the step `delta` that is
computed, for which the claim is false (`C104_lines_refused`, `C104_mode_is_lost`,
`C104_computed_delta_refused`); the parameters that are not in the message
(`C104_not_in_the_message`); real numbers that ten digits do not give. -/
theorem C104_line_gives_back_partial (c : Conv) (f : Fmt) (p q : SolverParams)
    (hb : ReadBack c f p) (hr : AllInRange p) (hc : c.Ok) (name value : String)
    (hl : (name, value) ∈ started f p) (hn : name ∉ unnamed)
    (hd : name = "delta" → p.delta ≠ .fin (-1)) :
    ∃ q', assignParameter c q name value = (q', .success) ∧
      (∀ e ∈ documented, e.read q' = if e.name = name then e.read p else e.read q) ∧
      otherFields q' = otherFields q := by
  have hl' : (name, value) ∈ started f { p with solver := 0 } := by
    unfold started at hl ⊢
    rw [if_pos rfl]
    by_cases h : p.solver = 0
    · rwa [if_pos h] at hl
    · rw [if_neg h] at hl
      rcases List.mem_append.mp hl with h | h
      · exact List.mem_append_left _ h
      · obtain ⟨rfl, rfl⟩ := Prod.mk.inj (List.mem_singleton.mp h)
        exact absurd (by decide) hn
  clear hl
  simp only [AllInRange, documented, List.forall_mem_cons, List.not_mem_nil, false_imp_iff,
    implies_true, and_true] at hr
  obtain ⟨r1, r2, r3, r4, r5, r6, r7, r8, r9, r10, r11, r12, r13, r14, r15, r16, r17, r18, r19, r20,
    r21, r22, r23, r24, r25, r26, r27, r28, r29, r30, r31, r32, r33, r34, r35⟩ := hr
  have mem : ∀ {d}, d ∈ reals p → c.dbl (f.g10 d) = some d := fun h => hb.g10 _ h
  simp only [started, if_true, List.cons_append, List.nil_append, List.mem_cons, List.not_mem_nil,
    or_false, Prod.mk.injEq] at hl'
  rcases hl' with ⟨rfl, rfl⟩ | ⟨rfl, rfl⟩ | ⟨rfl, rfl⟩ | ⟨rfl, rfl⟩ | ⟨rfl, rfl⟩ | ⟨rfl, rfl⟩ |
    ⟨rfl, rfl⟩ | ⟨rfl, rfl⟩ | ⟨rfl, rfl⟩ | ⟨rfl, rfl⟩ | ⟨rfl, rfl⟩ | ⟨rfl, rfl⟩ | ⟨rfl, rfl⟩ |
    ⟨rfl, rfl⟩ | ⟨rfl, rfl⟩ | ⟨rfl, rfl⟩ | ⟨rfl, rfl⟩ | ⟨rfl, rfl⟩ | ⟨rfl, rfl⟩ | ⟨rfl, rfl⟩ |
    ⟨rfl, rfl⟩ | ⟨rfl, rfl⟩ | ⟨rfl, rfl⟩ | ⟨rfl, rfl⟩ | ⟨rfl, rfl⟩ | ⟨rfl, rfl⟩ | ⟨rfl, rfl⟩ |
    ⟨rfl, rfl⟩ | ⟨rfl, rfl⟩ | ⟨rfl, rfl⟩ | ⟨rfl, rfl⟩
  next => line assignI (c.long (f.int p.limit)) (-1) longMax = some p.limit
    from assignI_iff.mpr ⟨hb.long, r1, hc.long (hb.long)⟩
  next =>
    have r : (if p.timeLimit.le (.fin 0) then D.fin (-1) else p.timeLimit) = p.timeLimit := by
      rcases r2 with h | h
      · rw [Val.real.inj h]; rfl
      · rcases h with h | ⟨d, h, h'⟩
        · rw [h]; rfl
        · rw [h, if_neg]
          simp [D.le, D.lt, D.eq, h'.ne', not_lt.mpr h'.le]
    refine ⟨{ q with timeLimit := if p.timeLimit.le (.fin 0) then D.fin (-1) else p.timeLimit }, ?_,
      ?_, rfl⟩
    · simp only [assignParameter, isEqual, isEqualShort, String.reduceEq, decide_false, decide_true,
        Bool.false_or, Bool.false_eq_true, if_true, if_false, String.reduceToList,
        List.length_cons, List.length_nil, Nat.reduceAdd, Nat.reduceEqDiff, Bool.false_and, hb.g10s]
      rfl
    · rw [r]
      simp [documented]
  next => line named (floatTypeName p.floatType) [("float", 0), ("double", 1), ("longdouble", 2)] = some p.floatType
    from word_back r3 (by decide +kernel)
  next => line assignI (c.int (f.int p.printLevel)) 0 2 = some p.printLevel
    from assignI_iff.mpr ⟨hb.int _ (by simp), by
      simp only [List.mem_cons, Val.int.injEq, List.not_mem_nil, or_false] at r6
      omega⟩
  next => exact absurd (by decide) hn
  next => exact absurd (by decide) hn
  next => line named (preOrderName p.preOrder) [("none", 0), ("memory", 1), ("p1", 8), ("p2", 9), ("p3", 10), ("p4", 11),
        ("less-greater-equal", 2), ("less-equal-greater", 3), ("greater-less-equal", 4),
        ("greater-equal-less", 5), ("equal-less-greater", 6), ("equal-greater-less", 7)] = some p.preOrder
    from word_back r7 (by decide +kernel)
  next => line named (orderName p.order) [("none", 0), ("reversing", 1), ("random-sorting", 2), ("infeasibility-decr", 3),
      ("infeasibility-incr", 4), ("lagrangian-decr", 5), ("lagrangian-incr", 6),
      ("pi-sign-change", 7), ("cycle", 8)] = some p.order
    from word_back r8 (by decide +kernel)
  next => line assign01 c (f.g10 p.theta) = some p.theta
    from assignD_iff.mpr ⟨hb.g10 _ (by simp [reals]), r9⟩
  next =>
    have r : Positive p.delta := by
      rcases r10 with h | h
      · exact absurd (Val.real.inj h) (hd rfl)
      · exact h
    line assign0oo c (f.g10 p.delta) = some p.delta
      from assign0oo_iff.mpr ⟨hb.g10 _ (by simp [reals]), r⟩
  next => exact absurd (by decide) hn
  next =>
    have r : Between 0 2 p.alpha := by
      obtain ⟨d, h, h'⟩ := r14
      rwa [Val.real.inj h]
    line assignD c (f.g10 p.alpha) (.fin 0) (.fin 2) = some p.alpha
      from assignD_iff.mpr ⟨hb.g10 _ (by simp [reals]), r⟩
  next =>
    have r : Between 0 ((2 ^ 53 - 1) * 2 ^ 971) p.w := by
      obtain ⟨d, h, h'⟩ := r15
      have h := Val.real.inj h
      exact ⟨d, h, h', hc.dbl (h ▸ hb.g10 p.w (by simp [reals]))⟩
    line assignD c (f.g10 p.w) (.fin 0) doubleMax = some p.w
      from assignD_iff.mpr ⟨hb.g10 _ (by simp [reals]), r⟩
  next => line named (normName p.costNorm) [("none", 0), ("random", 1), ("l1", 2), ("l2", 3), ("loo", 4)] = some p.costNorm
    from word_back r16 (by decide +kernel)
  next => line assignI (c.int (f.int p.pushesLimit)) (0) intMax = some p.pushesLimit
    from assignI_iff.mpr ⟨hb.int _ (by simp), r17, hc.int (hb.int _ (by simp))⟩
  next => line assign0oo c (f.g10 p.pushingObjectiveAmplifier) = some p.pushingObjectiveAmplifier
    from assign0oo_iff.mpr ⟨hb.g10 _ (by simp [reals]), r18⟩
  next => line assignI (c.int (f.int p.pushingIterationLimit)) (0) intMax = some p.pushingIterationLimit
    from assignI_iff.mpr ⟨hb.int _ (by simp), r19, hc.int (hb.int _ (by simp))⟩
  next => line assign0oo c (f.g10 p.pushingKFactor) = some p.pushingKFactor
    from assign0oo_iff.mpr ⟨hb.g10 _ (by simp [reals]), r20⟩
  next => line named (initPolicyName p.initPolicy) [("bastert", 0), ("pessimistic-solve", 1), ("optimistic-solve", 2)] = some p.initPolicy
    from word_back r21 (by decide +kernel)
  next => line assign01 c (f.plain p.initPolicyRandom) = some p.initPolicyRandom
    from assignD_iff.mpr ⟨hb.plain _ (by simp [reals]), r22⟩
  next => line assignI (c.int (f.int p.initPopulationSize)) (5) intMax = some p.initPopulationSize
    from assignI_iff.mpr ⟨hb.int _ (by simp), r23, hc.int (hb.int _ (by simp))⟩
  next => line assign01 c (f.plain p.crossoverBastertInsertion) = some p.crossoverBastertInsertion
    from assignD_iff.mpr ⟨hb.plain _ (by simp [reals]), r24⟩
  next => line assign01 c (f.plain p.crossoverSelectionMean) = some p.crossoverSelectionMean
    from assignD_iff.mpr ⟨hb.plain _ (by simp [reals]), r25⟩
  next => line assign01 c (f.plain p.crossoverSelectionStddev) = some p.crossoverSelectionStddev
    from assignD_iff.mpr ⟨hb.plain _ (by simp [reals]), r26⟩
  next => line assign01 c (f.plain p.mutationVariableMean) = some p.mutationVariableMean
    from assignD_iff.mpr ⟨hb.plain _ (by simp [reals]), r27⟩
  next => line assign01 c (f.plain p.mutationVariableStddev) = some p.mutationVariableStddev
    from assignD_iff.mpr ⟨hb.plain _ (by simp [reals]), r28⟩
  next => line assign01 c (f.plain p.mutationValueMean) = some p.mutationValueMean
    from assignD_iff.mpr ⟨hb.plain _ (by simp [reals]), r29⟩
  next => line assign01 c (f.plain p.mutationValueStddev) = some p.mutationValueStddev
    from assignD_iff.mpr ⟨hb.plain _ (by simp [reals]), r30⟩
  next => line assign01 c (f.plain p.kappaImproveStart) = some p.kappaImproveStart
    from assignD_iff.mpr ⟨hb.plain _ (by simp [reals]), r31⟩
  next => line assign01 c (f.plain p.kappaImproveIncrease) = some p.kappaImproveIncrease
    from assignD_iff.mpr ⟨hb.plain _ (by simp [reals]), r32⟩
  next => line assign01 c (f.plain p.kappaImproveStop) = some p.kappaImproveStop
    from assignD_iff.mpr ⟨hb.plain _ (by simp [reals]), r33⟩

theorem giveBack_lines {c : Conv} {f : Fmt} {p : SolverParams} (hb : ReadBack c f p)
    (hr : AllInRange p) (hc : c.Ok) {e : Entry} (he : e ∈ documented) (l : List (String × String)) :
    (∀ x ∈ l, x ∈ started f p ∧ x.1 ∉ unnamed ∧ (x.1 = "delta" → p.delta ≠ .fin (-1))) →
    ∀ q, e.read (giveBack c q l) = if e.name ∈ l.map Prod.fst then e.read p else e.read q := by
  induction l with
  | nil => intro _ q; rfl
  | cons x l ih =>
    intro h q
    obtain ⟨h1, h2, h3⟩ := h x List.mem_cons_self
    obtain ⟨q', e1, e2, _⟩ := C104_line_gives_back_partial c f p q hb hr hc x.1 x.2 h1 h2 h3
    have := ih (fun y hy => h y (List.mem_cons_of_mem _ hy)) q'
    unfold giveBack at this ⊢
    rw [List.foldl_cons, e1, this, e2 e he, List.map_cons]
    by_cases ha : e.name ∈ l.map Prod.fst
    · rw [if_pos ha, if_pos (List.mem_cons_of_mem _ ha)]
    · by_cases hx : e.name = x.1
      · rw [if_neg ha, if_pos hx, if_pos (hx ▸ List.mem_cons_self)]
      · rw [if_neg ha, if_neg hx, if_neg (by simp [hx, ha])]

/-- C104 (partial): the lines of the message of a run, given back to another run, give it all the
parameters that the message tells. -/
theorem C104_message_gives_back_partial (c : Conv) (f : Fmt) (p q : SolverParams)
    (hb : ReadBack c f p) (hr : AllInRange p) (hc : c.Ok) (hs : p.solver = 0)
    (l : List (String × String))
    (hl : l = (started f p).filter fun x => decide (x.1 ∉ unnamed ∧ x.1 ≠ "delta"))
    (e : Entry) (he : e ∈ documented) :
    e.read (giveBack c q l) = if e.name ∈ told then e.read p else e.read q := by
  have h : l.map Prod.fst = told := by
    rw [hl]
    unfold started
    rw [if_pos hs]
    simp [unnamed, told]
  rw [giveBack_lines hb hr hc he l ?_ q, h]
  intro x hx
  rw [hl] at hx
  obtain ⟨h1, h2⟩ := List.mem_filter.mp hx
  simp only [decide_eq_true_eq] at h2
  exact ⟨h1, h2.1, fun h => absurd h h2.2⟩

/-- Refutation: the observer, the mode and the bounds of kappa are under names that the option
`--param` refuses, whatever their value. -/
theorem C104_lines_refused (c : Conv) (p : SolverParams) (value : String) :
    ∀ name ∈ unnamed, assignParameter c p name value = (p, .unknown) := by
  simp [unnamed, assignParameter, isEqual, isEqualShort]

/-- C104 (partial): the word of the line `observation`, given back under the name of its parameter,
gives the observer; that of the line `auto-tune`, given back with `--auto`, gives the mode when it
does not combine two of them. -/
theorem C104_words_give_back_partial (c : Conv) (f : Fmt) (p q : SolverParams) :
    (∀ value, ("observation", value) ∈ started f p → p.observer ∈ [0, 1, 2] →
      assignParameter c q "observer-type" value = ({ q with observer := p.observer }, .success)) ∧
    (∀ value, ("auto-tune", value) ∈ started f p → p.mode ∈ [0, 1, 2, 4] →
      (parse c ["--auto", value]).parameters.mode = p.mode ∧
      (parse c ["--auto", value]).status = .success) := by
  constructor
  · intro value h hp
    have hv : value = observerName p.observer := by
      unfold started at h
      split at h <;> simpa using h
    rw [hv]
    simp only [List.mem_cons, List.not_mem_nil, or_false] at hp
    rcases hp with e | e | e <;> rw [e] <;>
      simp [assignParameter, isEqual, isEqualShort, observerName, named, store]
  · intro value h hp
    have hv : value = modeName p.mode := by
      unfold started at h
      split at h <;> simpa using h
    rw [hv]
    simp only [List.mem_cons, List.not_mem_nil, or_false] at hp
    rcases hp with e | e | e | e <;> rw [e] <;> exact ⟨rfl, rfl⟩

example (c : Conv) (f : Fmt) :
    assignParameter c {} "observer-type" "file" = ({ observer := 2 }, .success) ∧
    (parse c ["--auto", "branch"]).parameters.mode = 4 :=
  ⟨(C104_words_give_back_partial c f { observer := 2, mode := 4 } {}).1 "file" (by simp [started,
      observerName]) (by decide),
    ((C104_words_give_back_partial c f { observer := 2, mode := 4 } {}).2 "branch" (by simp [started,
      modeName, hasBit]) (by decide)).1⟩

/-- Refutation: the names of the modes that combine two of them, given back with `--auto`, are
read as no mode at all, without an error. -/
theorem C104_mode_is_lost (c : Conv) (m : Int) (hm : m = 5 ∨ m = 6) :
    (parse c ["--auto", modeName m]).parameters.mode = 0 ∧
      (parse c ["--auto", modeName m]).status = .success := by
  rcases hm with rfl | rfl <;> exact ⟨rfl, rfl⟩

/-- Refutation: the default step, shown as -1, is refused. -/
theorem C104_computed_delta_refused (c : Conv) (f : Fmt) (q : SolverParams)
    (h : c.dbl (f.g10 (.fin (-1))) = some (.fin (-1))) :
    ("delta", f.g10 (.fin (-1))) ∈ started f {} ∧
      assignParameter c q "delta" (f.g10 (.fin (-1))) = (q, .deltaError) := by
  refine ⟨by simp [started], ?_⟩
  have h0 : assign0oo c (f.g10 (.fin (-1))) = none := by
    unfold assign0oo
    rw [h]
    rfl
  simp [assignParameter, isEqual, isEqualShort, h0, store]

/-- Refutation: runs with other seeds, numbers of threads, storages or preprocessing have the same
message; so have two runs of the random solver that differ in anything but the six first
parameters. -/
theorem C104_not_in_the_message (f : Fmt) (p : SolverParams) (seed thread storage pre : Int) :
    started f { p with seed := seed, thread := thread, storage := storage, preprocessor := pre } =
      started f p := rfl

/-- C61: a value made of blanks is read as 0 instead of being refused, when `sscanf` tells that
there is nothing to read. -/
theorem C61_blank_is_zero (c : Conv) (p : SolverParams) (scan : String → Scanned)
    (hd : c.dbl = toDouble scan) (hs : scan " " = .eof) :
    assignParameter c p "theta" " " = ({ p with theta := .fin 0 }, .success) := by
  have h : assign01 c " " = some (.fin 0) := by
    refine assignD_iff.mpr ⟨?_, 0, rfl, le_refl _, by decide⟩
    rw [hd]
    simp [toDouble, hs]
  simp [assignParameter, isEqual, isEqualShort, h, store]

/-! ### Example -/

/-- A format. -/
def exText : D → String
  | .fin q => toString q.num ++ "/" ++ toString q.den
  | .pinf => "inf"
  | .ninf => "-inf"
  | .nan => "nan"

def exFmt : Fmt := ⟨exText, exText, toString⟩

/-- A run with a step, a policy and an order that are not the default ones. -/
def exParams : SolverParams :=
  { delta := .fin (1 / 8), order := 6, initPolicy := 1, timeLimit := .fin 60, seed := 7 }

/-- The conversion of the texts of this run. -/
def exConv : Conv where
  dbl s := (reals exParams).find? fun d => s = exText d || s = exText d ++ "s"
  int s := [0, 50, 100].find? fun n : Int => s = toString n
  long s := [1000].find? fun n : Int => s = toString n

theorem exReadBack : ReadBack exConv exFmt exParams where
  int := by decide +kernel
  long := by decide +kernel
  g10 := by decide +kernel
  g10s := by decide +kernel
  plain := by decide +kernel

theorem exConv_ok : exConv.Ok where
  int := by
    intro s n h
    simp only [exConv] at h
    exact (by decide : ∀ n ∈ [0, 50, 100], (n : Int) ≤ intMax) n (List.mem_of_find?_eq_some h)
  long := by
    intro s n h
    simp only [exConv] at h
    exact (by decide : ∀ n ∈ [1000], (n : Int) ≤ longMax) n (List.mem_of_find?_eq_some h)
  dbl := by
    intro s q h
    have h := List.mem_of_find?_eq_some h
    have : ∀ d ∈ reals exParams, d.le (.fin 60) = true := by decide +kernel
    have := this _ h
    simp [D.le, D.lt, D.eq] at this
    refine le_trans (le_of_lt_or_eq this) (by decide +kernel)

/-- Non-trivial case: from the default parameters, the message gives back the order and the
policy, and not the seed. -/
example : AllInRange exParams ∧
    (giveBack exConv {} (started exFmt exParams)).order = 6 ∧
    (giveBack exConv {} (started exFmt exParams)).initPolicy = 1 ∧
    (giveBack exConv {} (started exFmt exParams)).delta = .fin (1 / 8) ∧
    (giveBack exConv {} (started exFmt exParams)).seed = 0 := by
  refine ⟨?_, by decide +kernel, by decide +kernel, by decide +kernel, by decide +kernel⟩
  intro f hf
  have b : ∀ q : Rat, 0 ≤ q → q ≤ 1 → Between 0 1 (.fin q) := fun q h1 h2 => ⟨q, rfl, h1, h2⟩
  have o : ∀ q : Rat, 0 < q → Positive (.fin q) := fun q h => Or.inr ⟨q, rfl, h⟩
  simp only [documented, List.mem_cons, List.not_mem_nil, or_false] at hf
  rcases hf with rfl | rfl | rfl | rfl | rfl | rfl | rfl | rfl | rfl | rfl | rfl | rfl | rfl |
    rfl | rfl | rfl | rfl | rfl | rfl | rfl | rfl | rfl | rfl | rfl | rfl | rfl | rfl | rfl |
    rfl | rfl | rfl | rfl | rfl | rfl | rfl <;>
  first
  | exact b _ (by norm_num) (by norm_num)
  | exact o _ (by norm_num)
  | exact Or.inl rfl
  | exact Or.inr (o _ (by norm_num))
  | exact ⟨_, rfl, 1, rfl, by norm_num, by norm_num⟩
  | exact ⟨_, rfl, by norm_num⟩
  | (simp only [atLeast]; decide)
  | (simp only [choice]; decide)

end Bx.CoreOut
