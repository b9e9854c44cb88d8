import Verif.Spec.BitArray
import Verif.Proofs.Outcome
import Mathlib.Tactic.Common

/-! Helper lemmas for `Props/BitArray.lean`. -/

namespace Bx.BitArray

open Spec

/-- The number of blocks is right. -/
def WF (b : Bits) : Prop := b.data.length = b.size / 64 + 1

/-- Bit `i` of the storage, padding included. -/
def bit (b : Bits) (i : Nat) : Bool := (b.data.getD (i / 64) 0#64).getLsbD (i % 64)

theorem mask_bit (i k : Nat) (hk : k < 64) : (mask i).getLsbD k = decide (k = i % 64) := by
  unfold mask bOffset
  rw [BitVec.getLsbD_shiftLeft]
  simp only [hk, decide_true, Bool.true_and]
  by_cases h1 : k < i % 64
  · simp [h1]; omega
  · simp only [h1, decide_false, Bool.not_false, Bool.true_and]
    rw [BitVec.getLsbD_one]
    simp
    omega

theorem and_mask (w : Word) (i : Nat) :
    decide (w &&& mask i ≠ 0#64) = w.getLsbD (i % 64) := by
  have hi : i % 64 < 64 := Nat.mod_lt _ (by omega)
  by_cases h : w.getLsbD (i % 64) = true
  · rw [h, decide_eq_true_iff]
    intro h0
    have := congrArg (fun v => BitVec.getLsbD v (i % 64)) h0
    simp only [BitVec.getLsbD_and, mask_bit i _ hi, h] at this
    simp at this
  · have h' : w.getLsbD (i % 64) = false := by simpa using h
    rw [h', decide_eq_false_iff_not, not_not]
    apply BitVec.eq_of_getLsbD_eq
    intro k hk
    rw [BitVec.getLsbD_and, mask_bit i k hk]
    by_cases hki : k = i % 64
    · rw [hki, h']; simp
    · simp [hki]

theorem get_eq {b : Bits} (hb : WF b) {i : Nat} (hi : i < b.size) : get b i = .ok (bit b i) := by
  have hlt : i / 64 < b.data.length := by
    unfold WF at hb
    have := Nat.div_le_div_right (c := 64) (Nat.le_of_lt hi)
    omega
  unfold get bIndex bit
  rw [List.getElem?_eq_getElem hlt, List.getD_eq_getElem?_getD, List.getElem?_eq_getElem hlt]
  simp only [and_mask, Option.getD_some]

theorem index_lt {b : Bits} (hb : WF b) {i : Nat} (hi : i < b.size) : i / 64 < b.data.length := by
  unfold WF at hb
  have := Nat.div_le_div_right (c := 64) (Nat.le_of_lt hi)
  omega

theorem modify_spec {b : Bits} {j : Nat} (hj : j < b.data.length) (f : Word → Word) :
    ∃ b', modify b j f = .ok b' ∧ b'.size = b.size ∧ b'.data.length = b.data.length ∧
      ∀ i, bit b' i = if i / 64 = j then (f (b.data.getD j 0#64)).getLsbD (i % 64) else bit b i := by
  refine ⟨{ b with data := b.data.set j (f b.data[j]) }, ?_, rfl, by simp, ?_⟩
  · unfold modify
    rw [List.getElem?_eq_getElem hj]
  · intro i
    unfold bit
    simp only [List.getD_eq_getElem?_getD, List.getElem?_set]
    by_cases h : i / 64 = j
    · subst h
      simp [hj]
    · rw [if_neg (fun e => h e.symm), if_neg h]

/-- The words other than `j` are unchanged. -/
theorem modify_data {b b' : Bits} {j : Nat} {f : Word → Word} (h : modify b j f = .ok b') :
    b'.size = b.size ∧ b'.data.length = b.data.length ∧
      ∀ i, bit b' i = if i / 64 = j then (f (b.data.getD j 0#64)).getLsbD (i % 64) else bit b i := by
  by_cases hj : j < b.data.length
  · obtain ⟨b'', h1, h2⟩ := modify_spec hj f
    rw [h] at h1
    cases h1
    exact h2
  · unfold modify at h
    rw [List.getElem?_eq_none (by omega)] at h
    simp at h

theorem set_spec {b : Bits} (hb : WF b) {i : Nat} (hi : i < b.size) :
    ∃ b', set b i = .ok b' ∧ b'.size = b.size ∧ b'.data.length = b.data.length ∧
      ∀ j, bit b' j = if j = i then true else bit b j := by
  obtain ⟨b', h1, h2, h3, h4⟩ := modify_spec (index_lt hb hi) fun w => w ||| mask i
  refine ⟨b', ?_, h2, h3, ?_⟩
  · unfold set
    simp only [hi, decide_true, check_true, ok_bind]
    exact h1
  · intro j
    rw [h4]
    have hj : j % 64 < 64 := Nat.mod_lt _ (by omega)
    by_cases h : j / 64 = i / 64
    · rw [if_pos h, BitVec.getLsbD_or, mask_bit i _ hj]
      by_cases he : j = i
      · simp [he]
      · rw [if_neg he]
        have : j % 64 ≠ i % 64 := by omega
        simp only [this, decide_false, Bool.or_false]
        unfold bit; rw [h]
    · have : j ≠ i := by rintro rfl; exact h rfl
      rw [if_neg h, if_neg this]

theorem unset_spec {b : Bits} (hb : WF b) {i : Nat} (hi : i < b.size) :
    ∃ b', unset b i = .ok b' ∧ b'.size = b.size ∧ b'.data.length = b.data.length ∧
      ∀ j, bit b' j = if j = i then false else bit b j := by
  obtain ⟨b', h1, h2, h3, h4⟩ := modify_spec (index_lt hb hi) fun w => w &&& ~~~ (mask i)
  refine ⟨b', ?_, h2, h3, ?_⟩
  · unfold unset
    simp only [hi, decide_true, check_true, ok_bind]
    exact h1
  · intro j
    rw [h4]
    have hj : j % 64 < 64 := Nat.mod_lt _ (by omega)
    by_cases h : j / 64 = i / 64
    · rw [if_pos h, BitVec.getLsbD_and, BitVec.getLsbD_not, mask_bit i _ hj]
      by_cases he : j = i
      · simp [he]
      · rw [if_neg he]
        have : j % 64 ≠ i % 64 := by omega
        simp only [this, hj, decide_false, decide_true, Bool.not_false, Bool.and_true]
        unfold bit; rw [h]
    · have : j ≠ i := by rintro rfl; exact h rfl
      rw [if_neg h, if_neg this]

theorem invert_spec {b : Bits} (hb : WF b) {i : Nat} (hi : i < b.size) :
    ∃ b', invert b i = .ok b' ∧ b'.size = b.size ∧ b'.data.length = b.data.length ∧
      ∀ j, bit b' j = if j = i then !bit b j else bit b j := by
  obtain ⟨b', h1, h2, h3, h4⟩ := modify_spec (index_lt hb hi) fun w => w ^^^ mask i
  refine ⟨b', ?_, h2, h3, ?_⟩
  · unfold invert
    simp only [hi, decide_true, check_true, ok_bind]
    exact h1
  · intro j
    rw [h4]
    have hj : j % 64 < 64 := Nat.mod_lt _ (by omega)
    by_cases h : j / 64 = i / 64
    · rw [if_pos h, BitVec.getLsbD_xor, mask_bit i _ hj]
      by_cases he : j = i
      · simp [he, bit]
      · rw [if_neg he]
        have : j % 64 ≠ i % 64 := by omega
        simp only [this, decide_false, Bool.xor_false]
        unfold bit; rw [h]
    · have : j ≠ i := by rintro rfl; exact h rfl
      rw [if_neg h, if_neg this]

theorem setVal_spec {b : Bits} (hb : WF b) {i : Nat} (hi : i < b.size) (v : Bool) :
    ∃ b', setVal b i v = .ok b' ∧ b'.size = b.size ∧ b'.data.length = b.data.length ∧
      ∀ j, bit b' j = if j = i then (v && decide (i % 64 = 0)) else bit b j := by
  obtain ⟨b', h1, h2, h3, h4⟩ := modify_spec (index_lt hb hi)
    fun w => w ^^^ (((if v then 1#64 else 0#64) ^^^ w) &&& mask i)
  refine ⟨b', h1, h2, h3, ?_⟩
  · intro j
    rw [h4]
    have hj : j % 64 < 64 := Nat.mod_lt _ (by omega)
    have hv : (if v then 1#64 else 0#64).getLsbD (j % 64) = (v && decide (j % 64 = 0)) := by
      cases v
      · simp
      · simp [BitVec.getLsbD_one]
    by_cases h : j / 64 = i / 64
    · rw [if_pos h, BitVec.getLsbD_xor, BitVec.getLsbD_and, BitVec.getLsbD_xor, mask_bit i _ hj, hv]
      by_cases he : j = i
      · subst he
        simp only [decide_true, Bool.and_true, if_true]
        cases (b.data.getD (j / 64) 0#64).getLsbD (j % 64) <;>
          cases (v && decide (j % 64 = 0)) <;> rfl
      · rw [if_neg he]
        have : j % 64 ≠ i % 64 := by omega
        simp only [this, decide_false, Bool.and_false, Bool.xor_false]
        unfold bit; rw [h]
    · have : j ≠ i := by rintro rfl; exact h rfl
      rw [if_neg h, if_neg this]

theorem make_wf (n : Nat) : WF (make n) := by simp [WF, make]

theorem make_bit (n i : Nat) : bit (make n) i = false := by
  unfold bit make
  rw [List.getD_eq_getElem?_getD, List.getElem?_replicate]
  split <;> simp

theorem zeros_bit (b : Bits) (i : Nat) : bit (zeros b) i = false := by
  unfold bit zeros
  rw [List.getD_eq_getElem?_getD, List.getElem?_replicate]
  split <;> simp

theorem ones_bit (b : Bits) (i : Nat) : bit (ones b) i = decide (i / 64 < b.data.length) := by
  unfold bit ones
  rw [List.getD_eq_getElem?_getD, List.getElem?_replicate]
  have : i % 64 < 64 := Nat.mod_lt _ (by omega)
  split
  · simp only [Option.getD_some, BitVec.getLsbD_allOnes, *]
  · simp [*]

/-- One call: the storage is an image of the plain array, in range. -/
theorem step_spec {b : Bits} (hb : WF b) (op : Op) (ho : bitInRange b.size op) (a : Nat → Bool)
    (ha : ∀ i, i < b.size → bit b i = a i) :
    ∃ b', step b op = .ok b' ∧ b'.size = b.size ∧ WF b' ∧
      ∀ i, i < b.size → bit b' i = bitStep a op i := by
  cases op with
  | set i =>
    obtain ⟨b', h1, h2, h3, h4⟩ := set_spec hb (i := i) ho
    refine ⟨b', h1, h2, by unfold WF; rw [h3, h2]; exact hb, fun j hj => ?_⟩
    rw [h4, ha j hj]; rfl
  | unset i =>
    obtain ⟨b', h1, h2, h3, h4⟩ := unset_spec hb (i := i) ho
    refine ⟨b', h1, h2, by unfold WF; rw [h3, h2]; exact hb, fun j hj => ?_⟩
    rw [h4, ha j hj]; rfl
  | invert i =>
    obtain ⟨b', h1, h2, h3, h4⟩ := invert_spec hb (i := i) ho
    refine ⟨b', h1, h2, by unfold WF; rw [h3, h2]; exact hb, fun j hj => ?_⟩
    rw [h4, ha j hj]; rfl
  | zeros =>
    exact ⟨zeros b, rfl, rfl, by simpa [WF, zeros] using hb, fun j _ => zeros_bit b j⟩
  | ones =>
    refine ⟨ones b, rfl, rfl, by simpa [WF, ones] using hb, fun j hj => ?_⟩
    rw [ones_bit]
    simp [index_lt hb hj, bitStep]

theorem run_spec (ops : List Op) : ∀ {b : Bits}, WF b → (∀ o ∈ ops, bitInRange b.size o) →
    ∀ (a : Nat → Bool), (∀ i, i < b.size → bit b i = a i) →
    ∃ b', run b ops = .ok b' ∧ b'.size = b.size ∧ WF b' ∧
      ∀ i, i < b.size → bit b' i = bitRun a ops i := by
  induction ops with
  | nil => intro b hb _ a ha; exact ⟨b, rfl, rfl, hb, ha⟩
  | cons o ops ih =>
    intro b hb ho a ha
    obtain ⟨b', h1, h2, h3, h4⟩ := step_spec hb o (ho o (by simp)) a ha
    rw [← h2] at h4
    obtain ⟨b'', k1, k2, k3, k4⟩ := ih h3 (fun o' ho' => by rw [h2]; exact ho o' (by simp [ho']))
      (bitStep a o) h4
    refine ⟨b'', ?_, k2.trans h2, k3, by rw [← h2]; exact k4⟩
    unfold run
    rw [List.foldlM_cons, h1, ok_bind]
    exact k1

/-- No padding bit is set. -/
def Clean (b : Bits) : Prop := ∀ i, b.size ≤ i → bit b i = false

theorem step_clean {b b' : Bits} (hb : WF b) (hc : Clean b) (op : Op)
    (ho : bitInRange b.size op) (h1 : op ≠ .ones) (h : step b op = .ok b') : Clean b' := by
  cases op with
  | set i =>
    obtain ⟨b'', h1, h2, _, h4⟩ := set_spec hb (i := i) ho
    have : b'' = b' := Except.ok.inj (h1.symm.trans h)
    subst this
    intro j hj
    have : j ≠ i := by unfold bitInRange at ho; omega
    rw [h4, if_neg this]; exact hc j (by omega)
  | unset i =>
    obtain ⟨b'', h1, h2, _, h4⟩ := unset_spec hb (i := i) ho
    have : b'' = b' := Except.ok.inj (h1.symm.trans h)
    subst this
    intro j hj
    have : j ≠ i := by unfold bitInRange at ho; omega
    rw [h4, if_neg this]; exact hc j (by omega)
  | invert i =>
    obtain ⟨b'', h1, h2, _, h4⟩ := invert_spec hb (i := i) ho
    have : b'' = b' := Except.ok.inj (h1.symm.trans h)
    subst this
    intro j hj
    have : j ≠ i := by unfold bitInRange at ho; omega
    rw [h4, if_neg this]; exact hc j (by omega)
  | zeros => cases h; intro j _; exact zeros_bit b j
  | ones => exact absurd rfl h1

theorem run_clean (ops : List Op) : ∀ {b b' : Bits}, WF b → Clean b →
    (∀ o ∈ ops, bitInRange b.size o) → (.ones ∉ ops) → run b ops = .ok b' → Clean b' := by
  induction ops with
  | nil => intro b b' _ hc _ _ h; cases h; exact hc
  | cons o ops ih =>
    intro b b' hb hc ho h1 h
    obtain ⟨c, k1, k2, k3, _⟩ := step_spec hb o (ho o (by simp)) (bit b) (fun _ _ => rfl)
    unfold run at h
    rw [List.foldlM_cons, k1, ok_bind] at h
    exact ih k3 (step_clean hb hc o (ho o (by simp)) (fun e => h1 (by simp [e])) k1)
      (fun o' ho' => by rw [k2]; exact ho o' (by simp [ho'])) (fun e => h1 (by simp [e])) h

/-- Two clean arrays with the same size and bits are the same words. -/
theorem ext_clean {a b : Bits} (ha : WF a) (hb : WF b) (hac : Clean a) (hbc : Clean b)
    (hs : a.size = b.size) (h : ∀ i, i < a.size → bit a i = bit b i) : a = b := by
  have hall : ∀ i, bit a i = bit b i := by
    intro i
    by_cases hi : i < a.size
    · exact h i hi
    · rw [hac i (by omega), hbc i (by omega)]
  have hlen : a.data.length = b.data.length := by
    unfold WF at ha hb; omega
  have hd : a.data = b.data := by
    apply List.ext_getElem hlen
    intro j h1 h2
    apply BitVec.eq_of_getLsbD_eq
    intro k hk
    have := hall (64 * j + k)
    unfold bit at this
    have e1 : (64 * j + k) / 64 = j := by omega
    have e2 : (64 * j + k) % 64 = k := by omega
    rw [e1, e2, List.getD_eq_getElem?_getD, List.getD_eq_getElem?_getD,
      List.getElem?_eq_getElem h1, List.getElem?_eq_getElem h2] at this
    simpa using this
  cases a; cases b
  simp only at hs hd
  rw [hs, hd]

/-- The crossover loop. -/
theorem crossover_loop (r : Nat → Word) (first second : Bits) (n : Nat) :
    ∀ (x : Bits), n ≤ x.data.length → n ≤ first.data.length → n ≤ second.data.length →
    ∃ x', (List.range n).foldlM (fun x i => do
      let x1 ← block first i
      let x2 ← block second i
      setBlock x i (((x1 ^^^ x2) &&& r i) ^^^ x1)) x = Except.ok x' ∧
      x'.size = x.size ∧ x'.data.length = x.data.length ∧
      ∀ i, bit x' i = if i / 64 < n then
        (if (r (i / 64)).getLsbD (i % 64) then bit second i else bit first i) else bit x i := by
  induction n with
  | zero => intro x _ _ _; exact ⟨x, rfl, rfl, rfl, by simp⟩
  | succ n ih =>
    intro x hx hf hs
    obtain ⟨x', h1, h2, h3, h4⟩ := ih x (by omega) (by omega) (by omega)
    obtain ⟨x'', k1, k2, k3, k4⟩ := modify_spec (b := x') (j := n) (by omega)
      (fun _ => ((first.data[n] ^^^ second.data[n]) &&& r n) ^^^ first.data[n])
    refine ⟨x'', ?_, k2.trans h2, k3.trans h3, ?_⟩
    · rw [List.range_succ, List.foldlM_append, h1, ok_bind, List.foldlM_cons]
      unfold block
      rw [List.getElem?_eq_getElem (by omega : n < first.data.length),
        List.getElem?_eq_getElem (by omega : n < second.data.length)]
      simp only [ok_bind]
      unfold setBlock
      rw [k1, ok_bind, List.foldlM_nil]; rfl
    · intro i
      rw [k4]
      by_cases hi : i / 64 = n
      · rw [if_pos hi, if_pos (by omega), BitVec.getLsbD_xor, BitVec.getLsbD_and,
          BitVec.getLsbD_xor, hi]
        unfold bit
        rw [hi, List.getD_eq_getElem?_getD, List.getD_eq_getElem?_getD,
          List.getElem?_eq_getElem (by omega : n < first.data.length),
          List.getElem?_eq_getElem (by omega : n < second.data.length)]
        simp only [Option.getD_some]
        cases (r n).getLsbD (i % 64) <;> cases first.data[n].getLsbD (i % 64) <;>
          cases second.data[n].getLsbD (i % 64) <;> rfl
      · rw [if_neg hi, h4]
        by_cases hi2 : i / 64 < n
        · have : i / 64 < n + 1 := by omega
          simp only [hi2, this, if_true]
        · have : ¬ i / 64 < n + 1 := by omega
          simp only [hi2, this, if_false]

end Bx.BitArray
