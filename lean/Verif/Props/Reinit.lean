import Verif.Props.Params
import Verif.Proofs.Reinit

/-!
# C109, C110: the start of a turn of the optimizer

C109: a turn starts from the vector of the turn before, or from a crossover of two different members
of the population, then from a mutation; with the parameters that the library accepts it always
starts.

C110: the weight kappa of a turn is between `kappa_min` and `kappa_max`; it grows by
`init_kappa_improve_increase` from turn to turn until `init_kappa_improve_stop`, then comes a
crossover.
-/

namespace Bx.Optimizer

open Spec Spec.Reinit
open Params (SolverParams D InRange)

variable {g : Setting} {t : Tuning} {n pop : Nat} {fuel : Nat} {w : Worker}

/-! ## C109 -/

/-- C109: the start of a turn is one of those for which the theorems about the optimizer are proved:
what they say of a run with arbitrary crossovers and mutations is true of the drawn ones. -/
theorem C109_is_a_start_of_the_optimizer {ρ : Type} {d : Draws} {a : Rat} {s : Start}
    (h : startTurn g t n d fuel a w = .ok s) :
    ∃ cross mutate, ∀ c : Call ρ,
      Optimizer.reinit g { c with cross := cross, mutate := mutate } w = .ok s.worker := by
  rcases startTurn_ok h with ⟨_, _, _, _, _, m, _, hw⟩ | ⟨_, _, _, _, c, x, st, m, _, hx, _, hw⟩
  · exact ⟨none, m, fun _ => by rw [hw]; rfl⟩
  · refine ⟨some c, m, fun _ => ?_⟩
    unfold Optimizer.reinit
    simp only []
    rw [hx, hw]
    rfl

/-- C109: a turn without a crossover starts from the vector of the turn before, mutated, and leaves
the population as it is. -/
theorem C109_improve {d : Draws} {a : Rat} {s : Start} (h : startTurn g t n d fuel a w = .ok s)
    (hs : s.crossed = false) :
    s.worker.storage = w.storage ∧ Mutated t d n w.x s.worker.x := by
  rcases startTurn_ok h with ⟨_, _, _, _, h1, m, hm, hw⟩ | ⟨_, hc, _⟩
  · refine ⟨h1, ?_⟩
    rw [hw]
    exact mutation_mutated hm w.x
  · rw [hs] at hc; cases hc

/-- C109: a turn with a crossover, except an insertion, mixes two different members of the
population, chosen by their ranks: each variable has the value that one of them, or the other, gives
to it; then the vector is mutated.  The population is left as it is. -/
theorem C109_two_different_members (hp : Population pop w.storage) {d : Draws} {a : Rat} {s : Start}
    (h : startTurn g t n d fuel a w = .ok s) (hs : s.crossed = true) (hi : d.insert = false) :
    ∃ (p q : Nat) (e f : Entry) (y : Nat → Bool), p ≠ q ∧ w.storage.data[p]? = some e ∧
      w.storage.data[q]? = some f ∧ Chosen pop w.storage d p ∧ Chosen pop w.storage d q ∧
      (∀ i, y i = if d.mask i then f.x i else e.x i) ∧
      Mutated t d n y s.worker.x ∧ s.worker.storage = w.storage := by
  rcases startTurn_ok h with ⟨_, hc, _⟩ | ⟨_, _, _, _, c, x, st, m, hd, hx, hm, hw⟩
  · rw [hs] at hc; cases hc
  · unfold drawCross at hd
    rw [if_neg (by rw [hi]; exact Bool.false_ne_true), hp.1] at hd
    obtain ⟨⟨i, k⟩, hi', hd⟩ := bind_eq_ok.1 hd
    obtain ⟨id, hid, hd⟩ := bind_eq_ok.1 hd
    obtain ⟨j, hj, hd⟩ := bind_eq_ok.1 hd
    cases hd
    obtain ⟨k1, _, hk0, hk1, rfl, _⟩ := choose_ok hi'
    obtain ⟨id', hid', hne, k2, hl0, hl1, rfl⟩ := chooseOther_ok hj
    have lt1 : id < pop :=
      List.mem_range.1 (hp.2.mem_iff.1 (List.mem_of_getElem? (index_ok hid)))
    have lt2 : id' < pop :=
      List.mem_range.1 (hp.2.mem_iff.1 (List.mem_of_getElem? (index_ok hid')))
    obtain ⟨e, he, he'⟩ := entry_lt hp lt1
    obtain ⟨f, hf, hf'⟩ := entry_lt hp lt2
    unfold crossover at hx
    simp only [hid, hid', he, hf, ok_bind] at hx
    cases hx
    refine ⟨id, id', e, f, mixture d.mask e.x f.x, hne, he', hf', chosen_of hk0 hk1 hid,
      chosen_of hl0 hl1 hid', fun _ => rfl, ?_, by rw [hw]⟩
    rw [hw]
    exact mutation_mutated hm _

/-- C109: an insertion chooses one member by its rank.  Either it is mixed with the vector that the
costs suggest, or with a random one, and the population is left as it is; or its vector is replaced
by one of these and the turn starts from the vector of the turn before.  Then comes the mutation. -/
theorem C109_insertion (hp : Population pop w.storage) {d : Draws} {a : Rat} {s : Start}
    (h : startTurn g t n d fuel a w = .ok s) (hs : s.crossed = true) (hi : d.insert = true) :
    ∃ (p : Nat) (e : Entry) (y other : Nat → Bool), w.storage.data[p]? = some e ∧
      Chosen pop w.storage d p ∧ (other = if d.coin1 then g.bastert else d.random) ∧
      Mutated t d n y s.worker.x ∧
      if d.coin2 then
        (∀ i, y i = if d.mask i then other i else e.x i) ∧ s.worker.storage = w.storage
      else y = w.x ∧ s.worker.storage.indices = w.storage.indices ∧
        s.worker.storage.data = w.storage.data.set p { e with x := other } := by
  rcases startTurn_ok h with ⟨_, hc, _⟩ | ⟨_, _, _, _, c, x, st, m, hd, hx, hm, hw⟩
  · rw [hs] at hc; cases hc
  · unfold drawCross at hd
    rw [if_pos hi, hp.1] at hd
    obtain ⟨⟨i, k⟩, hi', hd⟩ := bind_eq_ok.1 hd
    cases hd
    obtain ⟨k1, _, hk0, hk1, rfl, _⟩ := choose_ok hi'
    have hpos : ∃ id, w.storage.index ((pop : Rat) * d.sel k1).floor.toNat = .ok id := by
      cases hid : w.storage.index ((pop : Rat) * d.sel k1).floor.toNat with
      | ok id => exact ⟨id, rfl⟩
      | error e =>
        unfold crossover at hx
        cases h1 : d.coin1 <;> cases h2 : d.coin2 <;> rw [h1, h2] at hx <;> simp [hid] at hx
    obtain ⟨id, hid⟩ := hpos
    have lt : id < pop :=
      List.mem_range.1 (hp.2.mem_iff.1 (List.mem_of_getElem? (index_ok hid)))
    obtain ⟨e, he, he'⟩ := entry_lt hp lt
    have hr : ∀ e', w.storage.replace id e' =
        .ok { w.storage with data := w.storage.data.set id e' } := fun e' => by
      unfold Storage.replace; rw [if_pos (by rw [hp.1]; exact lt)]
    refine ⟨id, e, x, if d.coin1 then g.bastert else d.random, he', chosen_of hk0 hk1 hid, rfl,
      by rw [hw]; exact mutation_mutated hm _, ?_⟩
    unfold crossover at hx
    cases h1 : d.coin1 <;> cases h2 : d.coin2 <;> rw [h1, h2] at hx <;>
      simp only [hid, he, hr, ok_bind] at hx <;> cases hx <;> rw [hw] <;> simp [mixture]

/-- C109: with the mean and the deviation of the values at 0, nothing is mutated: the vector of a
turn without a crossover is the one of the turn before. -/
theorem C109_no_mutation (h0 : t.valMean = 0) (h1 : t.valDev = 0) {d : Draws} {a : Rat} {s : Start}
    (h : startTurn g t n d fuel a w = .ok s) (hs : s.crossed = false) : s.worker.x = w.x := by
  have := (C109_improve h hs).2
  unfold Mutated at this
  rwa [if_pos ⟨h0, h1⟩] at this

/-- C109: with the mean of the values at 1 and no deviation, a mutation only sets variables to 1. -/
theorem C109_values_all_one (h0 : t.valMean = 1) (h1 : t.valDev = 0) {d : Draws} (hd : DrawsOk t d)
    {a : Rat} {s : Start} (h : startTurn g t n d fuel a w = .ok s) (hs : s.crossed = false) (i : Nat) :
    s.worker.x i = w.x i ∨ s.worker.x i = true := by
  have := (C109_improve h hs).2
  unfold Mutated at this
  rw [if_neg (by rw [h0]; simp)] at this
  obtain ⟨p, q, _, _, _, _, _, ⟨k, hk⟩, hx⟩ := this
  rw [hx i]
  split
  · right
    rw [← hk, hd.val h1 k, h0]
    exact hd.set i
  · exact Or.inl rfl

/-- C109, in part: with usual draws a turn starts, whatever the loops are given from some bound on.
What is missing is that some accepted parameters have no usual draws, see the refutations below. -/
theorem C109_a_turn_starts_partial (hp : Population pop w.storage) (hn : 2 ≤ pop) {d : Draws}
    (hu : Usual pop d.sel)
    (hm : (t.valMean = 0 ∧ t.valDev = 0) ∨ UsualMutation d.var d.val) (a : Rat) :
    ∃ f0, ∀ fuel, f0 ≤ fuel → ∃ s, startTurn g t n d fuel a w = .ok s := by
  obtain ⟨f1, h1⟩ := mutation_of (t := t) n hm
  obtain ⟨f2, h2⟩ := cross_of (g := g) hp hn hu
  refine ⟨f1 + f2, fun fuel hf => ?_⟩
  obtain ⟨m, hm⟩ := h1 fuel (by omega)
  obtain ⟨c, ⟨x, st⟩, hc, hx⟩ := h2 fuel (by omega)
  unfold startTurn
  split
  · rw [hm]; exact ⟨_, rfl⟩
  · rw [hc]
    simp only [ok_bind]
    rw [hx]
    simp only [ok_bind]
    rw [hm]
    exact ⟨_, rfl⟩

/-- Refutation: a draw of exactly 1 reads after the end of the ranking. -/
theorem C109_draw_of_one_is_undefined (hp : Population pop w.storage) {d : Draws}
    (h1 : d.sel 0 = 1) {a : Rat} (ha : t.stop ≤ a) (hf : 1 ≤ fuel) :
    ∃ m, startTurn g t n d fuel a w = .error (.ub m) := by
  obtain ⟨f, rfl⟩ : ∃ f, fuel = f + 1 := ⟨fuel - 1, by omega⟩
  have hc : choose pop d.sel (f + 1) 0 = .ok (pop, 1) := by
    unfold choose draw
    rw [h1, if_neg (by decide)]
    simp only [ok_bind, mul_one]
    rw [show ((pop : Nat) : Rat).floor = (pop : Int) from Rat.floor_intCast pop]
    rfl
  have hx := index_ge hp (le_refl pop)
  refine ⟨"m_indices[i]", ?_⟩
  unfold startTurn
  rw [if_neg (not_lt.2 ha)]
  unfold drawCross
  by_cases hi : d.insert = true
  · rw [if_pos hi, hp.1, hc]
    simp only [ok_bind]
    unfold crossover
    cases d.coin1 <;> cases d.coin2 <;> simp only [hx, error_bind]
  · rw [if_neg hi, hp.1, hc]
    simp only [ok_bind]
    rw [hx]
    rfl

/-- Refutation: with a selection of mean 1 without deviation, every crossover does. -/
theorem C109_mean_one_is_undefined (hp : Population pop w.storage) (h0 : t.selMean = 1)
    (h1 : t.selDev = 0) {d : Draws} (hd : DrawsOk t d) {a : Rat} (ha : t.stop ≤ a)
    (hf : 1 ≤ fuel) : ∃ m, startTurn g t n d fuel a w = .error (.ub m) :=
  C109_draw_of_one_is_undefined hp ((hd.sel h1 0).trans h0) ha hf

/-- Refutation: with a selection without deviation and no insertion, the second member is never
different from the first: the first crossover never ends, and no turn starts after it. -/
theorem C109_no_deviation_never_returns (hp : Population pop w.storage) (hpop : 0 < pop)
    (after : Nat → Worker → Worker)
    (hafter : ∀ k w, Population pop w.storage → Population pop (after k w).storage)
    {d : Nat → Draws} (hd : ∀ k, DrawsOk t (d k)) (hins : t.insertion = 0) (hdev : t.selDev = 0)
    (h0 : 0 ≤ t.selMean) (h1 : t.selMean < 1) (K : Nat)
    (hK : t.stop ≤ K * t.increase) (k : Nat) (hk : K < k) :
    turns g t n d fuel after w k = .error .fuel := by
  have key : ∀ m, (turns g t n d fuel after w m = .error .fuel) ∨
      (m ≤ K ∧ ∃ l w', turns g t n d fuel after w m = .ok (l, m * t.increase, w') ∧
        Population pop w'.storage) := by
    intro m
    induction m with
    | zero => exact Or.inr ⟨Nat.zero_le _, [], w, by simp [turns], hp⟩
    | succ m ih =>
      rcases ih with h | ⟨hm, l, w', h, hp'⟩
      · left; unfold turns; rw [h]; rfl
      · unfold turns
        rw [h]
        simp only [ok_bind]
        unfold startTurn
        by_cases ha : (m : Rat) * t.increase < t.stop
        · have hmK : m + 1 ≤ K := by
            by_contra hc
            have : m = K := by omega
            subst this
            exact absurd hK (not_le.2 ha)
          rw [if_pos ha]
          cases hm' : mutation t (d m) n fuel with
          | error e => left; rw [mutation_error hm']; rfl
          | ok mm =>
            right
            refine ⟨hmK, l ++ [{ worker := { w' with x := mm w'.x }
                                 kappa := t.kappaMin + (t.kappaMax - t.kappaMin) *
                                   ((m : Rat) * t.increase + t.increase)
                                 append := (m : Rat) * t.increase + t.increase
                                 crossed := false }],
              after m { w' with x := mm w'.x }, ?_, hafter m { w' with x := mm w'.x } hp'⟩
            simp only [ok_bind]
            congr 3
            push_cast
            ring
        · left
          rw [if_neg ha, drawCross_never hp' ((hd m).sel hdev) h0 h1 hpop ((hd m).never hins)]
          rfl
  rcases key k with h | ⟨h, _⟩
  · exact h
  · omega

/-- Refutation: the documented way not to mutate, both parameters of the variables at 0: the
probability is drawn again for ever and no turn starts. -/
theorem C109_documented_no_mutation_never_starts (h0 : t.varMean = 0) (h1 : t.varDev = 0)
    (hv : ¬ (t.valMean = 0 ∧ t.valDev = 0)) {d : Draws} (hd : DrawsOk t d) (a : Rat) :
    (∀ s, startTurn g t n d fuel a w ≠ .ok s) ∧
      (a < t.stop → startTurn g t n d fuel a w = .error .fuel) := by
  have hm : mutation t d n fuel = .error .fuel := by
    unfold mutation
    rw [if_neg hv, draw_never fun k => by rw [hd.var h1 k, h0]; rfl]
    rfl
  constructor
  · intro s hs
    rcases startTurn_ok hs with ⟨_, _, _, _, _, m, hm', _⟩ | ⟨_, _, _, _, _, _, _, m, _, _, hm', _⟩ <;>
      (rw [hm] at hm'; cases hm')
  · intro ha
    unfold startTurn
    rw [if_pos ha, hm]
    rfl

/-- C109: accepted parameters always have numbers for the draws and for the weight, and these are the
ones of the parameters of the same names. -/
theorem C109_numbers_of_the_parameters {p : SolverParams} (hp : Params.InRange p) :
    ∃ t, Tuning.ofParams p = some t ∧ p.crossoverBastertInsertion = .fin t.insertion ∧
      p.crossoverSelectionMean = .fin t.selMean ∧ p.crossoverSelectionStddev = .fin t.selDev ∧
      p.mutationVariableMean = .fin t.varMean ∧ p.mutationVariableStddev = .fin t.varDev ∧
      p.mutationValueMean = .fin t.valMean ∧ p.mutationValueStddev = .fin t.valDev ∧
      p.kappaImproveStart = .fin t.start ∧ p.kappaImproveIncrease = .fin t.increase ∧
      p.kappaImproveStop = .fin t.stop ∧ p.kappaMin = .fin t.kappaMin ∧
      p.kappaMax = .fin t.kappaMax := by
  obtain ⟨q1, e1, _⟩ := hp.crossoverBastertInsertion
  obtain ⟨q2, e2, _⟩ := hp.crossoverSelectionMean
  obtain ⟨q3, e3, _⟩ := hp.crossoverSelectionStddev
  obtain ⟨q4, e4, _⟩ := hp.mutationVariableMean
  obtain ⟨q5, e5, _⟩ := hp.mutationVariableStddev
  obtain ⟨q6, e6, _⟩ := hp.mutationValueMean
  obtain ⟨q7, e7, _⟩ := hp.mutationValueStddev
  obtain ⟨x, y, e8, e9, _⟩ := hp.kappaImprove
  obtain ⟨z, e10, _⟩ := hp.kappaImproveIncrease
  obtain ⟨u, _, v, e11, _, e12, _⟩ := hp.kappa
  unfold Tuning.ofParams
  rw [e1, e2, e3, e4, e5, e6, e7, e8, e9, e10, e11, e12]
  exact ⟨_, rfl, rfl, rfl, rfl, rfl, rfl, rfl, rfl, rfl, rfl, rfl, rfl, rfl⟩

/-! ### Cases that meet the hypotheses -/

/-- The tuning of a context that was given the parameters `p`. -/
def tuningOf (p : SolverParams) : Option Tuning := Tuning.ofParams (Params.setAll [p])

/-- The parameters of the refutations are accepted, as they are. -/
example : (tuningOf { crossoverSelectionStddev := .fin 0, crossoverBastertInsertion := .fin 0 }).map
    (fun t => (t.selMean, t.selDev, t.insertion, t.increase, t.stop)) =
      some (0, 0, 0, 1 / 50, 1 / 5) ∧
    (tuningOf { mutationVariableMean := .fin 0, mutationVariableStddev := .fin 0 }).map
      (fun t => (t.varMean, t.varDev, t.valMean, t.valDev)) = some (0, 0, 1 / 2, 1 / 5) ∧
    (tuningOf { crossoverSelectionMean := .fin 1, crossoverSelectionStddev := .fin 0 }).map
      (fun t => (t.selMean, t.selDev)) = some (1, 0) ∧
    (tuningOf { mutationValueMean := .fin 0, mutationValueStddev := .fin 0 }).map
      (fun t => (t.valMean, t.valDev)) = some (0, 0) := by decide +kernel

/-- Ten turns before the first crossover with the default parameters: 10 times 0.02 is 0.2. -/
example : ((1 : Rat) / 5 ≤ (10 : Nat) * (1 / 50)) := by norm_num

/-- Usual draws for a population of five. -/
example : Usual 5 fun k => ((k % 5 : Nat) : Rat) / 5 := by
  refine ⟨fun k h => ?_, fun i hi k => ⟨5 * k + i, by omega, ?_, ?_⟩⟩
  · have h5 : ((k % 5 : Nat) : Rat) = 5 := by linarith [(div_eq_iff (by norm_num : (5 : Rat) ≠ 0)).1 h]
    have : k % 5 = 5 := by exact_mod_cast h5
    omega
  all_goals
    rw [show (5 * k + i) % 5 = i by omega]
    push_cast
    linarith [mul_div_cancel₀ (i : Rat) (by norm_num : (5 : Rat) ≠ 0)]

/-- A population of five, its ranking and a worker. -/
def fiveStorage : Storage :=
  { indices := [3, 1, 0, 4, 2]
    data := (List.range 5).map fun k =>
      { x := fun i => decide (i = k), value := k, hash := k, remaining := 0 } }

example : Population 5 fiveStorage := ⟨rfl, by decide⟩

/-- Draws that follow the laws for the default parameters. -/
def someDraws (insert : Bool) : Draws :=
  { sel := fun k => ((k % 5 : Nat) : Rat) / 5
    var := fun _ => 1 / 10
    val := fun _ => 1 / 2
    insert := insert
    coin1 := true
    coin2 := true
    mask := fun i => decide (i % 2 = 0)
    random := fun _ => true
    flip := fun p i => decide (0 < p) && decide (i = 3)
    value := fun q _ => decide (0 < q) }

example : (Option.any (fun t => decide (t.selDev ≠ 0 ∧ t.varDev ≠ 0 ∧ t.valDev ≠ 0 ∧
    t.insertion ≠ 0 ∧ t.insertion ≠ 1)) (tuningOf {})) = true := by decide +kernel

example {t : Tuning} (h1 : t.selDev ≠ 0) (h2 : t.varDev ≠ 0) (h3 : t.valDev ≠ 0)
    (h4 : t.insertion ≠ 0) (h5 : t.insertion ≠ 1) (b : Bool) : DrawsOk t (someDraws b) where
  sel h := absurd h h1
  var h := absurd h h2
  val h := absurd h h3
  never h := absurd h h4
  always h := absurd h h5
  unset _ := rfl
  set _ := rfl

/-- A worker with this population. -/
def someWorker : Worker :=
  { storage := fiveStorage, x := fun _ => false, compute := ⟨[], [], .none, false⟩ }

/-- A problem without constraints. -/
def someSetting : Setting :=
  { t := .minimize, o := ⟨[], [], 0⟩, csts := [], bastert := fun _ => true, hash := fun _ => 0 }

/-- The crossover of the default parameters with these draws: the members of ranks 0 and 1 are the
entries 3 and 1; variable 3 is mutated. -/
example :
    ((tuningOf {}).map fun t =>
      match startTurn someSetting t 5 (someDraws false) 10 (1 / 5) someWorker with
      | .ok s => some (s.crossed, (List.range 5).map s.worker.x)
      | .error _ => none) =
      some (some (true, [false, false, false, true, false])) := by decide +kernel

/-! ## C110 -/

section
variable {d : Nat → Draws} {after : Nat → Worker → Worker} {k : Nat} {l : List Start} {a : Rat}
  {w' : Worker}

/-- C110: in the first turns, as long as the increases do not reach the end, there is no crossover
and kappa grows by the same step from `kappa_min`.  They start from 0, and not from
`init_kappa_improve_start`. -/
theorem C110_first_turns (h : turns g t n d fuel after w k = .ok (l, a, w'))
    (hinc : 0 ≤ t.increase) : ∀ (m : Nat) (s : Start), l[m]? = some s → m * t.increase < t.stop →
      s.crossed = false ∧ s.append = (m + 1) * t.increase ∧
        s.kappa = t.kappaMin + (t.kappaMax - t.kappaMin) * ((m + 1) * t.increase) := by
  have hg := (turns_get h).2.2
  intro m
  induction m with
  | zero =>
    intro s hs hm
    obtain ⟨am, wm, h1, h2, _⟩ := hg 0 s hs
    rw [h2 rfl] at h1
    rcases startTurn_ok h1 with ⟨_, c1, c2, c3, _⟩ | ⟨hc, _⟩
    · refine ⟨c1, by rw [c2]; push_cast; ring, by rw [c3]; push_cast; ring⟩
    · exact absurd hc (not_le.2 (by simpa using hm))
  | succ m ih =>
    intro s hs hm
    obtain ⟨am, wm, h1, _, h3⟩ := hg (m + 1) s hs
    obtain ⟨s', hs', rfl⟩ := h3 m rfl
    push_cast at hm
    obtain ⟨_, ha, _⟩ := ih s' hs' (by nlinarith)
    rw [ha] at h1
    rcases startTurn_ok h1 with ⟨_, c1, c2, c3, _⟩ | ⟨hc, _⟩
    · refine ⟨c1, by rw [c2]; push_cast; ring, by rw [c3]; push_cast; ring⟩
    · exact absurd hc (not_le.2 hm)

/-- C110: the first crossover is the first turn for which the increases reach the end; kappa is then
`kappa_min`. -/
theorem C110_first_crossover (h : turns g t n d fuel after w k = .ok (l, a, w'))
    (hinc : 0 ≤ t.increase) (m : Nat) (s : Start) (hs : l[m]? = some s)
    (hm : t.stop ≤ m * t.increase) (hmin : ∀ p, m = p + 1 → p * t.increase < t.stop) :
    s.crossed = true ∧ s.kappa = t.kappaMin := by
  have hg := (turns_get h).2.2
  obtain ⟨am, wm, h1, h2, h3⟩ := hg m s hs
  have ham : am = m * t.increase := by
    cases m with
    | zero => rw [h2 rfl]; simp
    | succ p =>
      obtain ⟨s', hs', rfl⟩ := h3 p rfl
      rw [(C110_first_turns h hinc p s' hs' (hmin p rfl)).2.1]
      push_cast; ring
  rcases startTurn_ok h1 with ⟨hc, _⟩ | ⟨_, c1, _, c3, _⟩
  · rw [ham] at hc; exact absurd hm (not_le.2 hc)
  · exact ⟨c1, c3⟩

/-- C110: after a crossover the turn number `j`, from 0, improves when `j` increases from
`init_kappa_improve_start` do not reach the end: kappa then has one increase more.  The first one
that reaches it is the next crossover. -/
theorem C110_after_a_crossover (h : turns g t n d fuel after w k = .ok (l, a, w'))
    (hinc : 0 ≤ t.increase) {m : Nat} {s0 : Start} (h0 : l[m]? = some s0)
    (hc0 : s0.crossed = true) : ∀ (j : Nat) (s : Start), l[m + 1 + j]? = some s →
      (t.start + j * t.increase < t.stop →
        s.crossed = false ∧ s.append = t.start + (j + 1) * t.increase ∧
          s.kappa = t.kappaMin +
            (t.kappaMax - t.kappaMin) * (t.start + (j + 1) * t.increase)) ∧
      (t.stop ≤ t.start + j * t.increase →
        (∀ p, j = p + 1 → t.start + p * t.increase < t.stop) →
        s.crossed = true ∧ s.kappa = t.kappaMin) := by
  have hg := (turns_get h).2.2
  have hap : ∀ s1, l[m]? = some s1 → s1.append = t.start := by
    intro s1 hs1
    rw [h0] at hs1; cases hs1
    obtain ⟨am, wm, h1, _⟩ := hg m s0 h0
    rcases startTurn_ok h1 with ⟨_, c, _⟩ | ⟨_, _, c, _⟩
    · rw [hc0] at c; cases c
    · exact c
  have step : ∀ (j : Nat) (s : Start), l[m + 1 + j]? = some s →
      (∀ p, j = p + 1 → ∀ s', l[m + 1 + p]? = some s' → s'.append = t.start + j * t.increase) →
      (t.start + j * t.increase < t.stop →
        s.crossed = false ∧ s.append = t.start + (j + 1) * t.increase ∧
          s.kappa = t.kappaMin +
            (t.kappaMax - t.kappaMin) * (t.start + (j + 1) * t.increase)) ∧
      (t.stop ≤ t.start + j * t.increase → s.crossed = true ∧ s.kappa = t.kappaMin) := by
    intro j s hs hprev
    obtain ⟨am, wm, h1, _, h3⟩ := hg (m + 1 + j) s hs
    have ham : am = t.start + j * t.increase := by
      cases j with
      | zero =>
        obtain ⟨s', hs', rfl⟩ := h3 m rfl
        rw [hap s' hs']; simp
      | succ p =>
        obtain ⟨s', hs', rfl⟩ := h3 (m + 1 + p) rfl
        exact hprev p rfl s' hs'
    rw [ham] at h1
    rcases startTurn_ok h1 with ⟨hlt, c1, c2, c3, _⟩ | ⟨hge, c1, _, c3, _⟩
    · exact ⟨fun _ => ⟨c1, by rw [c2]; ring, by rw [c3]; ring⟩,
        fun hge => absurd hge (not_le.2 hlt)⟩
    · exact ⟨fun hlt => absurd hge (not_le.2 hlt), fun _ => ⟨c1, c3⟩⟩
  have below : ∀ (j : Nat) (s : Start), l[m + 1 + j]? = some s →
      t.start + j * t.increase < t.stop → s.append = t.start + (j + 1) * t.increase := by
    intro j
    induction j with
    | zero => exact fun s hs hlt => ((step 0 s hs fun p hp => by omega).1 hlt).2.1
    | succ p ih =>
      intro s hs hlt
      refine ((step (p + 1) s hs fun q hq s' hs' => ?_).1 hlt).2.1
      obtain rfl : p = q := by omega
      push_cast at hlt ⊢
      exact ih s' hs' (by nlinarith)
  intro j s hs
  refine ⟨fun hlt => (step j s hs fun p hp s' hs' => ?_).1 hlt,
    fun hge hmin => (step j s hs fun p hp s' hs' => ?_).2 hge⟩
  · subst hp
    push_cast at hlt ⊢
    exact below p s' hs' (by nlinarith)
  · have := below p s' hs' (hmin p hp)
    subst hp
    push_cast
    exact this

/-- The bounds of an accepted tuning. -/
theorem tuning_bounds {p : SolverParams} (hp : InRange p) (ht : Tuning.ofParams p = some t) :
    0 ≤ t.kappaMin ∧ t.kappaMin < t.kappaMax ∧ t.kappaMax ≤ 1 ∧ 0 ≤ t.start ∧ t.start ≤ t.stop ∧
      t.stop ≤ 1 ∧ 0 ≤ t.increase ∧ t.increase ≤ 1 := by
  obtain ⟨q1, e1, _⟩ := hp.crossoverBastertInsertion
  obtain ⟨q2, e2, _⟩ := hp.crossoverSelectionMean
  obtain ⟨q3, e3, _⟩ := hp.crossoverSelectionStddev
  obtain ⟨q4, e4, _⟩ := hp.mutationVariableMean
  obtain ⟨q5, e5, _⟩ := hp.mutationVariableStddev
  obtain ⟨q6, e6, _⟩ := hp.mutationValueMean
  obtain ⟨q7, e7, _⟩ := hp.mutationValueStddev
  obtain ⟨x, y, e8, e9, hx, hxy, hy⟩ := hp.kappaImprove
  obtain ⟨z, e10, hz0, hz1⟩ := hp.kappaImproveIncrease
  obtain ⟨u, _, v, e11, _, e12, hu, huv, hv, _⟩ := hp.kappa
  unfold Tuning.ofParams at ht
  rw [e1, e2, e3, e4, e5, e6, e7, e8, e9, e10, e11, e12] at ht
  cases ht
  exact ⟨hu, huv, hv, hx, hxy, hy, hz0, hz1⟩

/-- What `m_kappa_append` is before a turn: not negative; the turn improves only under the end. -/
theorem turns_append (h : turns g t n d fuel after w k = .ok (l, a, w')) (h0 : 0 ≤ t.start)
    (hinc : 0 ≤ t.increase) : ∀ (m : Nat) (s : Start), l[m]? = some s →
      0 ≤ s.append ∧ ((∃ am, 0 ≤ am ∧ am < t.stop ∧
        s.kappa = t.kappaMin + (t.kappaMax - t.kappaMin) * (am + t.increase)) ∨
        s.kappa = t.kappaMin) := by
  have hg := (turns_get h).2.2
  intro m
  induction m with
  | zero =>
    intro s hs
    obtain ⟨am, wm, h1, h2, _⟩ := hg 0 s hs
    rw [h2 rfl] at h1
    rcases startTurn_ok h1 with ⟨hlt, _, c2, c3, _⟩ | ⟨_, _, c2, c3, _⟩
    · exact ⟨by rw [c2]; linarith, Or.inl ⟨0, le_rfl, hlt, c3⟩⟩
    · exact ⟨by rw [c2]; exact h0, Or.inr c3⟩
  | succ m ih =>
    intro s hs
    obtain ⟨am, wm, h1, _, h3⟩ := hg (m + 1) s hs
    obtain ⟨s', hs', rfl⟩ := h3 m rfl
    have hnn := (ih s' hs').1
    rcases startTurn_ok h1 with ⟨hlt, _, c2, c3, _⟩ | ⟨_, _, c2, c3, _⟩
    · exact ⟨by rw [c2]; linarith, Or.inl ⟨_, hnn, hlt, c3⟩⟩
    · exact ⟨by rw [c2]; exact h0, Or.inr c3⟩

/-- C110: with accepted parameters, kappa is never under `kappa_min`. -/
theorem C110_at_least_min {p : SolverParams} (hp : InRange p) (ht : Tuning.ofParams p = some t)
    (h : turns g t n d fuel after w k = .ok (l, a, w')) (s : Start) (hs : s ∈ l) :
    t.kappaMin ≤ s.kappa := by
  obtain ⟨_, b2, _, b4, _, _, b7, _⟩ := tuning_bounds hp ht
  obtain ⟨m, hm⟩ := List.mem_iff_getElem?.1 hs
  rcases (turns_append h b4 b7 m s hm).2 with ⟨am, h0, _, hk⟩ | hk
  · rw [hk]; nlinarith
  · rw [hk]

/-- C110, in part: with accepted parameters, kappa is never over `kappa_max` when the end and one
increase make at most 1.  Without it that is false, see `C110_above_max`. -/
theorem C110_at_most_max_partial {p : SolverParams} (hp : InRange p)
    (ht : Tuning.ofParams p = some t) (h1 : t.stop + t.increase ≤ 1)
    (h : turns g t n d fuel after w k = .ok (l, a, w')) (s : Start) (hs : s ∈ l) :
    s.kappa ≤ t.kappaMax := by
  obtain ⟨_, b2, _, b4, _, _, b7, _⟩ := tuning_bounds hp ht
  obtain ⟨m, hm⟩ := List.mem_iff_getElem?.1 hs
  rcases (turns_append h b4 b7 m s hm).2 with ⟨am, h0, hlt, hk⟩ | hk
  · rw [hk]; nlinarith
  · rw [hk]; exact b2.le

/-- C110, in part: in any case it is under `kappa_max` and the width of the interval times the
increase. -/
theorem C110_bound_partial {p : SolverParams} (hp : InRange p) (ht : Tuning.ofParams p = some t)
    (h : turns g t n d fuel after w k = .ok (l, a, w')) (s : Start) (hs : s ∈ l) :
    s.kappa ≤ t.kappaMax + (t.kappaMax - t.kappaMin) * t.increase := by
  obtain ⟨_, b2, _, b4, _, b6, b7, _⟩ := tuning_bounds hp ht
  obtain ⟨m, hm⟩ := List.mem_iff_getElem?.1 hs
  rcases (turns_append h b4 b7 m s hm).2 with ⟨am, h0, hlt, hk⟩ | hk
  · rw [hk]; nlinarith
  · rw [hk]; nlinarith

/-- Refutation: the turn number `m`, from 0, of the first ones is over `kappa_max` when `m` increases
are under the end and one more is over 1. -/
theorem C110_above_max (h : turns g t n d fuel after w k = .ok (l, a, w'))
    (hinc : 0 ≤ t.increase) (hk : t.kappaMin < t.kappaMax) (m : Nat) (s : Start)
    (hs : l[m]? = some s) (hm : m * t.increase < t.stop) (ho : 1 < (m + 1) * t.increase) :
    t.kappaMax < s.kappa := by
  rw [(C110_first_turns h hinc m s hs hm).2.2]
  nlinarith

/-- Refutation: when the increase is 0 and the end is not, there is never a crossover and kappa stays
at `kappa_min`. -/
theorem C110_no_increase_never_crosses (h : turns g t n d fuel after w k = .ok (l, a, w'))
    (hinc : t.increase = 0) (hstop : 0 < t.stop) (s : Start) (hs : s ∈ l) :
    s.crossed = false ∧ s.kappa = t.kappaMin := by
  obtain ⟨m, hm⟩ := List.mem_iff_getElem?.1 hs
  obtain ⟨h1, _, h3⟩ := C110_first_turns h hinc.ge m s hm (by rw [hinc]; simpa using hstop)
  refine ⟨h1, ?_⟩
  rw [h3, hinc]
  ring

end

/-! ### Cases that meet the hypotheses -/

/-- Accepted parameters whose fourth turn is over `kappa_max`: 4 times 0.3 is 1.2. -/
example : (tuningOf { kappaImproveIncrease := .fin (3 / 10), kappaImproveStop := .fin 1 }).map
    (fun t => (t.increase, t.stop, t.kappaMin, t.kappaMax)) = some (3 / 10, 1, 0, 3 / 5) ∧
    (3 : Nat) * (3 / 10 : Rat) < 1 ∧ (1 : Rat) < ((3 : Nat) + 1) * (3 / 10) := by
  refine ⟨by decide +kernel, by norm_num, by norm_num⟩

/-- Accepted parameters without an increase. -/
example : (tuningOf { kappaImproveIncrease := .fin 0 }).map (fun t => (t.increase, t.stop)) =
    some (0, 1 / 5) := by decide +kernel

/-- The default parameters are in range, and the end and one increase make at most 1. -/
example : InRange (Params.setAll [{}]) ∧
    (tuningOf {}).any (fun t => decide (t.stop + t.increase ≤ 1)) = true := by
  refine ⟨Params.C43_stored_in_range_partial [{}] (by simp) ?_, by decide +kernel⟩
  intro p hp
  obtain rfl := List.mem_singleton.1 hp
  exact ⟨by decide, by decide, by decide, by decide, by decide⟩

/-- A run of seven turns with the increases 0.1 from 0.1 to 0.2: two turns improve, then a
crossover, then one turn improves before each crossover. -/
example :
    ((tuningOf { kappaImproveStart := .fin (1 / 10)
                 kappaImproveIncrease := .fin (1 / 10)
                 kappaMax := .fin 1 }).map fun t =>
      match turns someSetting t 5 (fun _ => someDraws false) 10 (fun _ w => w) someWorker 7 with
      | .ok (l, _, _) => some (l.map fun s => (s.crossed, s.kappa))
      | .error _ => none) =
      some (some [(false, 1 / 10), (false, 1 / 5), (true, 0), (false, 1 / 5), (true, 0),
        (false, 1 / 5), (true, 0)]) := by decide +kernel

end Bx.Optimizer
