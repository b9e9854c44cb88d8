import Verif.Model.Manual
import Mathlib.Data.List.Nodup

/-!
# C50: `optimize` in manual mode
-/

namespace Bx.Manual

/-! ## The iterators count -/

/-- The number whose digits in base `l`, from the least significant, are the list. -/
def number (l : Nat) : List Nat → Nat
  | [] => 0
  | i :: is => i + l * number l is

theorem number_lt {l : Nat} : ∀ (is : List Nat), (∀ i ∈ is, i < l) → number l is < l ^ is.length
  | [], _ => by simp [number]
  | i :: is, h => by
    have ih := number_lt is fun j hj => h j (List.mem_cons_of_mem _ hj)
    have hi := h i (List.mem_cons_self ..)
    rw [List.length_cons, Nat.pow_succ, number, Nat.mul_comm (l ^ is.length)]
    calc i + l * number l is < l + l * number l is := by omega
      _ = l * (number l is + 1) := by rw [Nat.mul_add, Nat.mul_one, Nat.add_comm]
      _ ≤ l * l ^ is.length := Nat.mul_le_mul_left _ ih

theorem number_inj {l : Nat} : ∀ (is js : List Nat), (∀ i ∈ is, i < l) → (∀ j ∈ js, j < l) →
    is.length = js.length → number l is = number l js → is = js
  | [], [], _, _, _, _ => rfl
  | [], _ :: _, _, _, h, _ => by simp at h
  | _ :: _, [], _, _, h, _ => by simp at h
  | i :: is, j :: js, hi, hj, hl, h => by
    have hi0 := hi i (List.mem_cons_self ..)
    have hj0 := hj j (List.mem_cons_self ..)
    unfold number at h
    have e1 : i = j := by
      have := congrArg (· % l) h
      simpa [Nat.add_mul_mod_self_left, Nat.mod_eq_of_lt hi0, Nat.mod_eq_of_lt hj0] using this
    subst e1
    have e2 : number l is = number l js := Nat.eq_of_mul_eq_mul_left (Nat.lt_of_le_of_lt
      (Nat.zero_le _) hi0) (by omega)
    rw [number_inj is js (fun k hk => hi k (List.mem_cons_of_mem _ hk))
      (fun k hk => hj k (List.mem_cons_of_mem _ hk)) (by simpa using hl) e2]

theorem nextRev_spec {l : Nat} : ∀ (is : List Nat), (∀ i ∈ is, i < l) →
    (nextRev l is).1.length = is.length ∧ (∀ i ∈ (nextRev l is).1, i < l) ∧
    ((nextRev l is).2 = true → number l (nextRev l is).1 = number l is + 1) ∧
    ((nextRev l is).2 = false → number l is + 1 = l ^ is.length)
  | [], _ => ⟨rfl, by simp [nextRev], by simp [nextRev], fun _ => rfl⟩
  | i :: is, h => by
    have hi := h i (List.mem_cons_self ..)
    obtain ⟨h1, h2, h3, h4⟩ := nextRev_spec is fun j hj => h j (List.mem_cons_of_mem _ hj)
    unfold nextRev
    by_cases hge : i + 1 ≥ l
    · rw [if_pos hge]
      simp only
      refine ⟨by simp [h1], ?_, fun hm => ?_, fun hm => ?_⟩
      · intro k hk
        rcases List.mem_cons.1 hk with rfl | hk
        · omega
        · exact h2 k hk
      · rw [number, number, h3 hm, Nat.mul_add]
        omega
      · rw [number, List.length_cons, Nat.pow_succ, ← h4 hm, Nat.add_mul, Nat.mul_comm l]
        omega
    · rw [if_neg hge]
      refine ⟨rfl, ?_, fun _ => ?_, fun hf => by cases hf⟩
      · intro k hk
        rcases List.mem_cons.1 hk with rfl | hk
        · omega
        · exact h k (List.mem_cons_of_mem _ hk)
      · simp only [number]
        omega

/-- The number of the iterators, the first being the most significant. -/
def rank (l : Nat) (is : List Nat) : Nat := number l is.reverse

theorem next_spec {l : Nat} (is : List Nat) (h : ∀ i ∈ is, i < l) :
    (next l is).1.length = is.length ∧ (∀ i ∈ (next l is).1, i < l) ∧
    ((next l is).2 = true → rank l (next l is).1 = rank l is + 1) ∧
    ((next l is).2 = false → rank l is + 1 = l ^ is.length) := by
  obtain ⟨h1, h2, h3, h4⟩ := nextRev_spec (l := l) is.reverse (by simpa using h)
  refine ⟨by simpa [next] using h1, by simpa [next] using h2, ?_, ?_⟩
  · intro hm
    unfold rank next
    simp only [List.reverse_reverse]
    exact h3 hm
  · intro hm
    have := h4 hm
    simpa [rank] using this

/-! ## The loop -/

/-- What the iterators must be: one per parameter, in the arrays. -/
def Valid (is : List Nat) : Prop := is.length = 5 ∧ ∀ i ∈ is, i < 5

/-- During the loop: the combinations tried are those before the iterators. -/
structure Inv (s : State) : Prop where
  valid : Valid s.iterators
  tried : ∀ is ∈ s.tried, Valid is
  ranks : s.tried.map (rank 5) = List.range (rank 5 s.iterators)

theorem body_fields (inner : Nat → Tuning → Inner) (p : Tuning) (s : State) :
    (body inner p s).iterators = s.iterators ∧ (body inner p s).params = tuning p s.iterators ∧
    (body inner p s).tried = s.tried ++ [s.iterators] := by
  unfold body
  simp only
  split <;> exact ⟨rfl, rfl, rfl⟩

theorem rank_lt {is : List Nat} (h : Valid is) : rank 5 is < 5 ^ 5 := by
  have := number_lt (l := 5) is.reverse (by simpa using h.2)
  rw [List.length_reverse, h.1] at this
  exact this

theorem loop_spec {inner : Nat → Tuning → Inner} {p : Tuning} : ∀ (steps : Nat) (s : State),
    Inv s → 5 ^ 5 - rank 5 s.iterators ≤ steps →
    ∃ s', loop inner p steps s = some s' ∧ (∀ is ∈ s'.tried, Valid is) ∧
      s'.tried.map (rank 5) = List.range (5 ^ 5) ∧
      ∃ is, s'.tried.getLast? = some is ∧ s'.params = tuning p is ∧ rank 5 is = 5 ^ 5 - 1
  | 0, s, h, hs => by
    have := rank_lt h.valid
    omega
  | steps + 1, s, h, hs => by
    obtain ⟨b1, b2, b3⟩ := body_fields inner p s
    obtain ⟨n1, n2, n3, n4⟩ := next_spec s.iterators h.valid.2
    rw [h.valid.1] at n1 n4
    unfold loop
    simp only [b1]
    have ht : ∀ is ∈ (body inner p s).tried, Valid is := by
      rw [b3]
      intro is his
      rcases List.mem_append.1 his with his | his
      · exact h.tried is his
      · rw [List.mem_singleton.1 his]
        exact h.valid
    have hr : (body inner p s).tried.map (rank 5) = List.range (rank 5 s.iterators + 1) := by
      rw [b3, List.map_append, h.ranks, List.range_succ]
      rfl
    cases hm : (next 5 s.iterators).2 with
    | true =>
      rw [if_pos rfl]
      have hn := n3 hm
      refine loop_spec steps _ ⟨⟨n1, n2⟩, ht, ?_⟩ ?_
      · show List.map (rank 5) (body inner p s).tried = List.range (rank 5 (next 5 s.iterators).1)
        rw [hr, hn]
      · show 5 ^ 5 - rank 5 (next 5 s.iterators).1 ≤ steps
        omega
    | false =>
      rw [if_neg (by simp)]
      have hn := n4 hm
      refine ⟨_, rfl, ht, by rw [← hn]; exact hr, s.iterators, ?_, b2, by omega⟩
      show (body inner p s).tried.getLast? = _
      rw [b3]
      simp

theorem zeros_lt : ∀ i ∈ [0, 0, 0, 0, 0], i < 5 := by decide

/-! ## C50 -/

/-- C50, first half: for every behaviour of the inner optimizer the loop ends after `5 ^ 5` turns,
and it tries each combination of five indices below five exactly once. -/
theorem C50_every_combination_once_partial (inner : Nat → Tuning → Inner) (p : Tuning) :
    ∃ r s, optimize inner p (5 ^ 5) = some (r, s) ∧ s.tried.length = 5 ^ 5 ∧ s.tried.Nodup ∧
      ∀ is : List Nat, is ∈ s.tried ↔ is.length = 5 ∧ ∀ i ∈ is, i < 5 := by
  obtain ⟨s, h1, h2, h3, _⟩ := loop_spec (inner := inner) (p := p) (5 ^ 5)
    { iterators := [0, 0, 0, 0, 0], params := p } ⟨⟨rfl, zeros_lt⟩, by simp, rfl⟩ (Nat.sub_le _ _)
  have hn : s.tried.Nodup := by
    have : (s.tried.map (rank 5)).Nodup := by rw [h3]; exact List.nodup_range
    exact List.Nodup.of_map _ this
  refine ⟨_, s, by unfold optimize; rw [h1], ?_, hn, fun is => ⟨fun his => h2 is his, fun hv => ?_⟩⟩
  · have := congrArg List.length h3
    simpa using this
  · have hm : rank 5 is ∈ s.tried.map (rank 5) := by
      rw [h3]; exact List.mem_range.2 (rank_lt hv)
    obtain ⟨js, hj, e⟩ := List.mem_map.1 hm
    have hjv := h2 js hj
    have : js.reverse = is.reverse := number_inj (l := 5) _ _ (by simpa using hjv.2)
      (by simpa using hv.2) (by simp [hjv.1, hv.1]) e
    rw [List.reverse_injective this] at hj
    exact hj

/-- The state at the end of the loop. -/
theorem last_state (inner : Nat → Tuning → Inner) (p : Tuning) :
    ∃ s, optimize inner p (5 ^ 5) = some (inner (5 ^ 5) (tuning p [4, 4, 4, 4, 4]), s) ∧
      s.tried.length = 5 ^ 5 ∧ s.params = tuning p [4, 4, 4, 4, 4] := by
  obtain ⟨s, h1, h2, h3, is, h4, h5, h6⟩ := loop_spec (inner := inner) (p := p) (5 ^ 5)
    { iterators := [0, 0, 0, 0, 0], params := p } ⟨⟨rfl, zeros_lt⟩, by simp, rfl⟩ (Nat.sub_le _ _)
  have hl : s.tried.length = 5 ^ 5 := by
    have := congrArg List.length h3
    simpa using this
  have hv := h2 is (List.mem_of_getLast? h4)
  have : is = [4, 4, 4, 4, 4] := by
    have : is.reverse = [4, 4, 4, 4, 4] := number_inj (l := 5) _ _ (by simpa using hv.2) (by decide)
      (by simp [hv.1]) (by rw [show number 5 is.reverse = rank 5 is from rfl, h6]; decide)
    rw [← List.reverse_reverse is, this]
    rfl
  refine ⟨s, ?_, hl, by rw [h5, this]⟩
  unfold optimize
  rw [h1]
  simp only [hl, h5, this]

/-- C50, second half, does not hold: for every behaviour of the inner optimizer, the result is
that of one more call, with the last combination, whatever the best one was. -/
theorem C50_returns_the_last_combination (inner : Nat → Tuning → Inner) (p : Tuning) :
    ∃ s, optimize inner p (5 ^ 5) =
      some (inner (5 ^ 5) (tuning p [4, 4, 4, 4, 4]), s) := by
  obtain ⟨s, h, _⟩ := last_state inner p
  exact ⟨s, h⟩

/-- The last combination is far from the parameters given: `theta` is then `4 / 5` whatever its
initial value, and `kappa_step`, whose values should be about `1e-7`, is above `3 / 5`. -/
theorem C50_last_combination (p : Tuning) :
    (tuning p [4, 4, 4, 4, 4]).theta = 4 / 5 ∧ (tuning p [4, 4, 4, 4, 4]).kappaStep > 3 / 5 := by
  constructor
  · show 1 / ((5 : Nat) : Rat) + 1 / (5 : Nat) + 1 / (5 : Nat) + 1 / (5 : Nat) = 4 / 5
    decide +kernel
  · show 1 / ((5 : Nat) : Rat) + 1 / (5 : Nat) + 1 / (5 : Nat) + 1 / 10000000 / (5 * 5) > 3 / 5
    decide +kernel

/-- The default parameters (`lib/include/baryonyx/core:411-419`). -/
def exTuning : Tuning := ⟨1/2, -1, 0, 1/1000, 1/2⟩

/-- An inner optimizer that finds a solution with the initial `theta` only. -/
def exInner : Nat → Tuning → Inner := fun _ t => ⟨decide (t.theta = 1/2), 3⟩

/-- C50 does not hold: combinations find a solution and `optimize` reports none. -/
theorem C50_solution_is_lost : (exInner 0 (tuning exTuning [0, 0, 0, 0, 0])).success = true ∧
    ∃ r s, optimize exInner exTuning (5 ^ 5) = some (r, s) ∧ r.success = false := by
  refine ⟨by decide +kernel, ?_⟩
  obtain ⟨s, h⟩ := C50_returns_the_last_combination exInner exTuning
  exact ⟨_, s, h, by decide +kernel⟩

/-! ## The best combination is known -/

/-- What is recorded is the least value of the successful calls, with its combination. -/
def Recorded (inner : Nat → Tuning → Inner) (p : Tuning) (s : State) : Prop :=
  (∀ (k : Nat) (is : List Nat), s.tried[k]? = some is → (inner k (tuning p is)).success = true →
    ∃ b, s.best = some b ∧ b ≤ (inner k (tuning p is)).last) ∧
  ∀ b, s.best = some b → ∃ k : Nat, s.tried[k]? = some s.bestParams ∧
    inner k (tuning p s.bestParams) = ⟨true, b⟩

theorem get_snoc {α : Type} {l : List α} {a x : α} {k : Nat} (h : (l ++ [a])[k]? = some x) :
    l[k]? = some x ∨ (k = l.length ∧ x = a) := by
  rw [List.getElem?_append] at h
  split at h
  · exact .inl h
  · rename_i hk
    obtain ⟨h1, h2⟩ := List.getElem?_eq_some_iff.1 h
    simp only [List.length_singleton] at h1
    refine .inr ⟨by omega, ?_⟩
    simp at h2
    exact h2.symm

theorem get_old {α : Type} {l : List α} {a x : α} {k : Nat} (h : l[k]? = some x) :
    (l ++ [a])[k]? = some x := by
  rw [List.getElem?_append_left (List.getElem?_eq_some_iff.1 h).1]
  exact h

theorem body_recorded {inner : Nat → Tuning → Inner} {p : Tuning} {s : State}
    (h : Recorded inner p s) : Recorded inner p (body inner p s) := by
  obtain ⟨h1, h2⟩ := h
  unfold body
  simp only
  split
  · rename_i hc
    simp only [Bool.and_eq_true] at hc
    obtain ⟨hs, hg⟩ := hc
    refine ⟨fun k is hk hsucc => ⟨_, rfl, ?_⟩, fun b hb => ?_⟩
    · rcases get_snoc hk with hk | ⟨rfl, rfl⟩
      · obtain ⟨b, hb, hle⟩ := h1 k is hk hsucc
        rw [hb] at hg
        simp only [greater, decide_eq_true_eq] at hg
        exact Rat.le_trans (Rat.le_of_lt hg) hle
      · exact Rat.le_refl
    · simp only [Option.some.injEq] at hb
      refine ⟨s.tried.length, by simp, ?_⟩
      rw [← hb, ← hs]
  · rename_i hc
    refine ⟨fun k is hk hsucc => ?_, fun b hb => ?_⟩
    · rcases get_snoc hk with hk | ⟨rfl, rfl⟩
      · exact h1 k is hk hsucc
      · simp only [hsucc, Bool.true_and, Bool.not_eq_true] at hc
        cases hb : s.best with
        | none => rw [hb] at hc; simp [greater] at hc
        | some b =>
          rw [hb] at hc
          simp only [greater, decide_eq_false_iff_not, gt_iff_lt] at hc
          exact ⟨b, rfl, Rat.not_lt.1 hc⟩
    · obtain ⟨k, hk, hi⟩ := h2 b hb
      exact ⟨k, get_old hk, hi⟩

theorem loop_recorded {inner : Nat → Tuning → Inner} {p : Tuning} : ∀ (steps : Nat) (s s' : State),
    Recorded inner p s → loop inner p steps s = some s' → Recorded inner p s'
  | 0, _, _, _, h => by cases h
  | steps + 1, s, s', hr, h => by
    have hb := body_recorded hr
    unfold loop at h
    simp only at h
    split at h
    · exact loop_recorded steps { body inner p s with
        iterators := (next 5 (body inner p s).iterators).1 } s' hb h
    · rw [← Option.some.inj h]
      exact hb

/-- C50: among the successful calls of the loop, the one with the least value is known at the end,
with its combination; nothing is recorded when no call succeeds.  The result of `optimize` does not
use it (`C50_returns_the_last_combination`). -/
theorem C50_least_value_is_recorded_partial (inner : Nat → Tuning → Inner) (p : Tuning)
    (steps : Nat) (r : Inner) (s : State) (h : optimize inner p steps = some (r, s)) :
    (∀ (k : Nat) (is : List Nat), s.tried[k]? = some is →
      (inner k (tuning p is)).success = true →
      ∃ b, s.best = some b ∧ b ≤ (inner k (tuning p is)).last) ∧
    ∀ b, s.best = some b → ∃ k : Nat, s.tried[k]? = some s.bestParams ∧
      inner k (tuning p s.bestParams) = ⟨true, b⟩ := by
  unfold optimize at h
  split at h
  · cases h
  · rename_i s1 hl
    obtain ⟨_, rfl⟩ := Prod.mk.inj (Option.some.inj h)
    exact loop_recorded steps _ _ ⟨by simp, by simp⟩ hl

/-- C50: each parameter is chosen by its own index, and by no other one. -/
theorem C50_one_index_per_parameter (p : Tuning) (is js : List Nat) :
    (is[0]? = js[0]? → (tuning p is).theta = (tuning p js).theta) ∧
    (is[1]? = js[1]? → (tuning p is).delta = (tuning p js).delta) ∧
    (is[2]? = js[2]? → (tuning p is).kappaMin = (tuning p js).kappaMin) ∧
    (is[3]? = js[3]? → (tuning p is).kappaStep = (tuning p js).kappaStep) ∧
    (is[4]? = js[4]? → (tuning p is).initPolicyRandom = (tuning p js).initPolicyRandom) := by
  refine ⟨?_, ?_, ?_, ?_, ?_⟩ <;> intro h <;> simp [tuning, List.getD_eq_getElem?_getD, h]

/-- C50: the first combination is made of the parameters given. -/
theorem C50_first_combination (p : Tuning) : tuning p [0, 0, 0, 0, 0] = p := rfl

/-- An inner optimizer that finds the value 7 with the initial `theta` and 9 otherwise. -/
def exValues : Nat → Tuning → Inner := fun _ t => ⟨true, if t.theta = 1/2 then 7 else 9⟩

/-- C50 does not hold for a maximization: with the values 7 and 9, found by different combinations,
the value recorded and announced is 7, whatever the direction. -/
theorem C50_maximization_keeps_the_least :
    (exValues 0 (tuning exTuning [0, 0, 0, 0, 0])).last = 7 ∧
    (∀ k, (exValues k (tuning exTuning [1, 0, 0, 0, 0])).last = 9) ∧
    ∃ r s, optimize exValues exTuning (5 ^ 5) = some (r, s) ∧ s.best = some 7 := by
  refine ⟨by decide +kernel, fun k => by
    show (if (tuning exTuning [1, 0, 0, 0, 0]).theta = 1/2 then (7 : Rat) else 9) = 9
    decide +kernel, ?_⟩
  obtain ⟨r, s, h, _, _, hm⟩ := C50_every_combination_once_partial exValues exTuning
  refine ⟨r, s, h, ?_⟩
  obtain ⟨h1, h2⟩ := C50_least_value_is_recorded_partial exValues exTuning _ r s h
  obtain ⟨k, hk⟩ := List.mem_iff_getElem?.1 ((hm [0, 0, 0, 0, 0]).2 ⟨rfl, zeros_lt⟩)
  obtain ⟨b, hb, hle⟩ := h1 k _ hk rfl
  have h7 : (exValues k (tuning exTuning [0, 0, 0, 0, 0])).last = 7 := by
    show (if (tuning exTuning [0, 0, 0, 0, 0]).theta = 1/2 then (7 : Rat) else 9) = 7
    decide +kernel
  rw [h7] at hle
  obtain ⟨k', _, hi⟩ := h2 b hb
  have hv : b = 7 ∨ b = 9 := by
    have := congrArg Inner.last hi
    simp only [exValues] at this
    split at this
    · exact .inl this.symm
    · exact .inr this.symm
  rcases hv with rfl | rfl
  · exact hb
  · exact absurd hle (by decide +kernel)

end Bx.Manual
