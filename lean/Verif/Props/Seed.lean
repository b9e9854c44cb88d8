import Verif.Proofs.Seed

/-!
# C132: the seed decides the random numbers
-/

namespace Bx.Seed

variable {g bits : Nat}

/-- C132, part: with a seed other than 0, the numbers that a run draws do not depend on the clock, nor on the
width of the numbers of the engine. -/
theorem C132_same_seed_same_numbers (bits' param : Nat) (hp : param ≠ 0) (hu : param < 2 ^ 32)
    (hb : 32 ≤ bits) (hb' : 32 ≤ bits') (epoch epoch' : Int) (k : Nat) :
    runNumber g bits param epoch k = runNumber g bits' param epoch' k := by
  have h1 : param < 2 ^ bits := lt_of_lt_of_le hu (Nat.pow_le_pow_right (by decide) hb)
  have h2 : param < 2 ^ bits' := lt_of_lt_of_le hu (Nat.pow_le_pow_right (by decide) hb')
  unfold runNumber initSeed
  rw [if_neg hp, if_neg hp, Nat.mod_eq_of_lt h1, Nat.mod_eq_of_lt h2]

/-- C132, part: whatever the seed and the clock, the engine never stops: its numbers are from 1 to 2147483646,
none comes twice in 2147483646 calls, and then they come again in the same order. -/
theorem C132_numbers_of_a_run (hg : Factor g) (param : Nat) (epoch : Int) :
    (∀ k, 1 ≤ runNumber g bits param epoch k ∧ runNumber g bits param epoch k ≤ 2147483646) ∧
    (∀ i j, i < 2147483646 → j < 2147483646 → i ≠ j →
      runNumber g bits param epoch i ≠ runNumber g bits param epoch j) ∧
    ∀ k, runNumber g bits param epoch (k + 2147483646) = runNumber g bits param epoch k := by
  refine ⟨fun k => ⟨number_pos hg _ _, ?_⟩, fun i j hi hj hij h => hij (number_inj hg hi hj h),
    fun k => number_period hg _ _⟩
  have := number_lt g (initSeed bits param epoch) k
  unfold runNumber
  unfold modulus at this
  omega

/-- The seeds that the engine does not tell apart: equal modulo 2147483647, where 0 and 1 count as equal. -/
def Confused (p p' : Nat) : Prop :=
  p % 2147483647 = p' % 2147483647 ∨ p % 2147483647 ≤ 1 ∧ p' % 2147483647 ≤ 1

theorem start_iff (p p' : Nat) : start p = start p' ↔ Confused p p' := by
  unfold start Confused modulus
  split <;> split <;> omega

/-- C132: two seeds give the same numbers exactly when the engine does not tell them apart; otherwise no call
gives the same number in the two runs. -/
theorem C132_when_seeds_agree (hg : Factor g) (hb : 32 ≤ bits) (p p' : Nat) (hp : p ≠ 0) (hp' : p' ≠ 0)
    (hu : p < 2 ^ 32) (hu' : p' < 2 ^ 32) (epoch epoch' : Int) :
    (Confused p p' → ∀ k, runNumber g bits p epoch k = runNumber g bits p' epoch' k) ∧
    (¬ Confused p p' → ∀ k, runNumber g bits p epoch k ≠ runNumber g bits p' epoch' k) := by
  have h1 : p < 2 ^ bits := lt_of_lt_of_le hu (Nat.pow_le_pow_right (by decide) hb)
  have h2 : p' < 2 ^ bits := lt_of_lt_of_le hu' (Nat.pow_le_pow_right (by decide) hb)
  unfold runNumber initSeed
  rw [if_neg hp, if_neg hp', Nat.mod_eq_of_lt h1, Nat.mod_eq_of_lt h2, ← start_iff]
  refine ⟨fun h k => ?_, fun h k hk => h (number_start hg hk)⟩
  unfold number
  rw [h]

/-- C132, part: two different seeds from 1 to 2147483646 give different numbers at each call.  What is missing:
the seeds above (`C132_seeds_that_agree`). -/
theorem C132_different_seeds_partial (hg : Factor g) (hb : 32 ≤ bits) (p p' : Nat) (hp : 1 ≤ p) (hp' : 1 ≤ p')
    (hu : p ≤ 2147483646) (hu' : p' ≤ 2147483646) (hne : p ≠ p') (epoch epoch' : Int) (k : Nat) :
    runNumber g bits p epoch k ≠ runNumber g bits p' epoch' k :=
  (C132_when_seeds_agree hg hb p p' (by omega) (by omega) (by omega) (by omega) epoch epoch').2
    (by unfold Confused; omega) k

/-- C132 does not hold: the seeds 1 and 2147483647, which the command line accepts, give the same run, and so
do a seed and the one 2147483647 above it. -/
theorem C132_seeds_that_agree (hg : Factor g) (hb : 32 ≤ bits) (epoch epoch' : Int) (k : Nat) :
    runNumber g bits 1 epoch k = runNumber g bits 2147483647 epoch' k ∧
    ∀ p, 1 ≤ p → p + 2147483647 < 2 ^ 32 →
      runNumber g bits p epoch k = runNumber g bits (p + 2147483647) epoch' k := by
  refine ⟨(C132_when_seeds_agree hg hb _ _ (by omega) (by omega) (by omega) (by omega) epoch epoch').1
    (by unfold Confused; omega) k, fun p hp hu => ?_⟩
  exact (C132_when_seeds_agree hg hb _ _ (by omega) (by omega) (by omega) hu epoch epoch').1
    (by unfold Confused; omega) k

/-- C132, what the seeds of the workers do: whatever the seeds of two engines, the numbers of the second are those
of the first from some call on. -/
theorem C132_one_sequence (hg : Factor g) (s s' : Nat) :
    ∃ d < 2147483646, ∀ k, number g s' k = number g s (k + d) := number_shift hg s s'

/-- Two engines with different seeds can give the same numbers. -/
theorem C132_workers_may_agree (g : Nat) : ∃ s s', s ≠ s' ∧ ∀ k, number g s k = number g s' k :=
  ⟨5, 2147483652, by decide, fun _ => rfl⟩

/-- The first numbers of `minstd_rand0` with the seed 1; the third line is the one of the standard library: the
call 10000 of an engine without seed gives 1043618065. -/
example : runNumber 16807 64 1 0 0 = 16807 ∧ runNumber 16807 64 1 0 1 = 282475249 ∧
    number 16807 1 9999 = 1043618065 := by
  refine ⟨by decide, by decide, by decide +kernel⟩

/-- The same call of `minstd_rand` gives 399268537. -/
example : number 48271 1 9999 = 399268537 := by decide +kernel

/-- The factors of the two libraries meet the hypotheses. -/
example : Factor 16807 ∧ Factor 48271 ∧ ∃ p p', Confused p p' ∧ p ≠ p' :=
  ⟨Or.inl rfl, Or.inr rfl, 1, 2147483647, Or.inr ⟨by decide, by decide⟩, by decide⟩

example : runNumber 48271 32 7 0 3 ≠ runNumber 48271 32 8 0 3 :=
  C132_different_seeds_partial (Or.inr rfl) (by decide) 7 8 (by decide) (by decide) (by decide) (by decide)
    (by decide) 0 0 3

end Bx.Seed
