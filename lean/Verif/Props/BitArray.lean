import Verif.Proofs.BitArray

/-!
# C18-C22: bit arrays
-/

namespace Bx.BitArray

open Spec

/-! ## C18 -/

/-- C18: a new array is all false, and after any history of in-range calls
(which never fails) every in-range read returns what the same history gives on
a plain array of booleans. -/
theorem C18_refines_plain_array (n : Nat) (ops : List Op) (ho : ∀ o ∈ ops, bitInRange n o) :
    ∃ b, run (make n) ops = .ok b ∧ BitsAre n b (bitRun (fun _ => false) ops) := by
  obtain ⟨b, h1, h2, h3, h4⟩ := run_spec ops (b := make n) (make_wf n) ho (fun _ => false)
    (fun i _ => make_bit n i)
  refine ⟨b, h1, h2, fun i hi => ?_⟩
  rw [get_eq h3 (by rw [h2]; exact hi), h4 i hi]

/-- C18: a call with an index out of range aborts. -/
theorem C18_out_of_range_aborts (n : Nat) (ops : List Op) (b : Bits)
    (h : run (make n) ops = .ok b) (i : Nat) (hi : n ≤ i) (ho : ∀ o ∈ ops, bitInRange n o) :
    (∃ w, set b i = .error (.contract w)) ∧ (∃ w, unset b i = .error (.contract w)) ∧
    ∃ w, invert b i = .error (.contract w) := by
  obtain ⟨b', h1, h2, _⟩ := C18_refines_plain_array n ops ho
  have : b' = b := Except.ok.inj (h1.symm.trans h)
  subst this
  have hd : decide (i < b'.size) = false := by simp; omega
  refine ⟨⟨"index >= 0 && index < m_size", ?_⟩, ⟨"index >= 0 && index < m_size", ?_⟩,
    ⟨"index >= 0 && index < m_size", ?_⟩⟩
  · unfold set; rw [hd]; rfl
  · unfold unset; rw [hd]; rfl
  · unfold invert; rw [hd]; rfl

example : ∃ b, run (make 100) [.set 64, .set 99, .ones, .unset 70, .invert 64, .invert 3] = .ok b ∧
    get b 99 = .ok true ∧ get b 70 = .ok false ∧ get b 64 = .ok false := by
  obtain ⟨b, h1, _, h3⟩ := C18_refines_plain_array 100
    [.set 64, .set 99, .ones, .unset 70, .invert 64, .invert 3] (by simp [bitInRange])
  exact ⟨b, h1, h3 99 (by omega), h3 70 (by omega), h3 64 (by omega)⟩

/-! ## C19 -/

/-- C19, partial: `set(i, false)` clears bit `i`, and `set(i, v)` stores `v` when
`i` is a multiple of 64; the other bits are unchanged.  Missing: `set(i, true)`
for the other indices, which is false, see `C19_set_true_clears`. -/
theorem C19_set_value_partial (n : Nat) (a : Nat → Bool) (ops : List Op) (b : Bits)
    (ho : ∀ o ∈ ops, bitInRange n o) (h : run (make n) ops = .ok b) (hb : BitsAre n b a)
    (i : Nat) (hi : i < n) (v : Bool) (hv : v = false ∨ i % 64 = 0) :
    ∃ b', setVal b i v = .ok b' ∧ BitsAre n b' (fun j => if j = i then v else a j) := by
  obtain ⟨c, h1, h2, h3, h4⟩ := run_spec ops (b := make n) (make_wf n) ho (fun _ => false)
    (fun i _ => make_bit n i)
  have hcb : c = b := Except.ok.inj (h1.symm.trans h)
  subst hcb
  have h2' : c.size = n := h2
  obtain ⟨b', k1, k2, k3, k4⟩ := setVal_spec h3 (i := i) (by omega) v
  have hw : WF b' := by unfold WF; rw [k3, k2]; exact h3
  refine ⟨b', k1, by omega, fun j hj => ?_⟩
  rw [get_eq hw (by omega), k4]
  have := hb.2 j hj
  rw [get_eq h3 (by omega)] at this
  rw [Except.ok.inj this]
  congr 2
  rcases hv with rfl | hv
  · simp
  · simp [hv]

/-- C19 is false: for every index that is not a multiple of 64, `set(i, true)`
*clears* the bit. -/
theorem C19_set_true_clears (n : Nat) (ops : List Op) (b : Bits)
    (ho : ∀ o ∈ ops, bitInRange n o) (h : run (make n) ops = .ok b)
    (i : Nat) (hi : i < n) (hm : i % 64 ≠ 0) :
    ∃ b', setVal b i true = .ok b' ∧ get b' i = .ok false := by
  obtain ⟨c, h1, h2, h3, h4⟩ := run_spec ops (b := make n) (make_wf n) ho (fun _ => false)
    (fun i _ => make_bit n i)
  have hcb : c = b := Except.ok.inj (h1.symm.trans h)
  subst hcb
  have h2' : c.size = n := h2
  obtain ⟨b', k1, k2, k3, k4⟩ := setVal_spec h3 (i := i) (by omega) true
  have hw : WF b' := by unfold WF; rw [k3, k2]; exact h3
  refine ⟨b', k1, ?_⟩
  rw [get_eq hw (by omega), k4]
  simp [hm]

example : ∃ b', setVal (make 10) 3 true = .ok b' ∧ get b' 3 = .ok false :=
  C19_set_true_clears 10 [] _ (by simp) rfl 3 (by omega) (by omega)

example : ∃ b', setVal (make 100) 64 true = .ok b' ∧
    BitsAre 100 b' (fun j => if j = 64 then true else false) :=
  C19_set_value_partial 100 (fun _ => false) [] _ (by simp) rfl
    ⟨rfl, fun i hi => by rw [get_eq (make_wf _) hi, make_bit]⟩ 64 (by omega) true (by simp)

/-! ## C20 -/

/-- C20: equal arrays have the same size, bits and hash; `!=` is the negation of
`==`. -/
theorem C20_equal_arrays_agree (a b : Bits) (h : eq a b = true) :
    a.size = b.size ∧ (∀ i, get a i = get b i) ∧ ∀ hw, hash hw a = hash hw b := by
  unfold eq at h
  simp only [Bool.and_eq_true, decide_eq_true_iff] at h
  have : a = b := by cases a; cases b; simp only at h; rw [h.1, h.2]
  subst this
  exact ⟨rfl, fun _ => rfl, fun _ => rfl⟩

theorem C20_ne_is_not_eq (a b : Bits) : ne a b = !eq a b := by
  unfold ne eq
  by_cases h1 : a.size = b.size <;> by_cases h2 : a.data = b.data <;> simp [h1, h2]

/-- C20, partial: for two histories without `ones()`, arrays of the same size
whose in-range bits agree are equal and hash equally, and so is the child of a
crossover.  Missing: histories with `ones()`, see `C20_ones_breaks_equality`. -/
theorem C20_agreeing_arrays_equal_partial (n : Nat) (ops ops' : List Op) (a b : Bits)
    (ho : ∀ o ∈ ops, bitInRange n o) (ho' : ∀ o ∈ ops', bitInRange n o)
    (h1 : Op.ones ∉ ops) (h1' : Op.ones ∉ ops')
    (ha : run (make n) ops = .ok a) (hb : run (make n) ops' = .ok b)
    (hab : ∀ i, i < n → get a i = get b i) :
    eq a b = true ∧ ∀ hw, hash hw a = hash hw b := by
  obtain ⟨c, k1, k2, k3, _⟩ := run_spec ops (b := make n) (make_wf n) ho (fun _ => false)
    (fun i _ => make_bit n i)
  obtain ⟨d, l1, l2, l3, _⟩ := run_spec ops' (b := make n) (make_wf n) ho' (fun _ => false)
    (fun i _ => make_bit n i)
  have hca : c = a := Except.ok.inj (k1.symm.trans ha)
  have hdb : d = b := Except.ok.inj (l1.symm.trans hb)
  subst hca hdb
  have k2' : c.size = n := k2
  have l2' : d.size = n := l2
  have hcl : Clean (make n) := fun i _ => make_bit n i
  have : c = d := by
    refine ext_clean k3 l3 (run_clean ops (make_wf n) hcl ho h1 ha)
      (run_clean ops' (make_wf n) hcl ho' h1' hb) (by omega) ?_
    intro i hi
    have := hab i (by omega)
    rw [get_eq k3 hi, get_eq l3 (by omega)] at this
    exact Except.ok.inj this
  subst this
  exact ⟨by simp [eq], fun _ => rfl⟩

/-- C20 is false with `ones()`: two arrays of one bit, both true, compare
different; `ones()` also sets the padding. -/
theorem C20_ones_breaks_equality :
    ∃ a b, run (make 1) [.ones] = .ok a ∧ run (make 1) [.set 0] = .ok b ∧
      get a 0 = .ok true ∧ get b 0 = .ok true ∧ eq a b = false ∧
      hash id a ≠ hash id b := by
  refine ⟨⟨1, [BitVec.allOnes 64]⟩, ⟨1, [1#64]⟩, ?_⟩
  decide +kernel

example : ∃ a b, run (make 70) [.set 3, .set 69] = .ok a ∧
    run (make 70) [.invert 69, .set 3, .set 4, .unset 4] = .ok b ∧ eq a b = true := by
  obtain ⟨a, ha, _, ga⟩ := C18_refines_plain_array 70 [.set 3, .set 69] (by simp [bitInRange])
  obtain ⟨b, hb, _, gb⟩ := C18_refines_plain_array 70 [.invert 69, .set 3, .set 4, .unset 4]
    (by simp [bitInRange])
  refine ⟨a, b, ha, hb, (C20_agreeing_arrays_equal_partial 70 _ _ a b (by simp [bitInRange])
    (by simp [bitInRange]) (by simp) (by simp) ha hb ?_).1⟩
  intro i hi
  rw [ga i hi, gb i hi]
  simp only [bitRun, List.foldl_cons, List.foldl_nil, bitStep]
  grind

/-! ## C21 -/

/-- C21, partial: when both ends of the range are multiples of 64, `assign`
copies exactly the range.  Missing: the other ranges, see
`C21_assign_copies_the_wrong_bits`. -/
theorem C21_assign_aligned_partial (n : Nat) (ops ops' : List Op) (x y : Bits)
    (ho : ∀ o ∈ ops, bitInRange n o) (ho' : ∀ o ∈ ops', bitInRange n o)
    (hx : run (make n) ops = .ok x) (hy : run (make n) ops' = .ok y)
    (start stop : Nat) (h1 : start < stop) (h2 : stop ≤ n) (m1 : start % 64 = 0)
    (m2 : stop % 64 = 0) :
    ∃ x', assign x y start stop = .ok x' ∧ x'.size = n ∧
      ∀ i, i < n → get x' i = if start ≤ i ∧ i < stop then get y i else get x i := by
  obtain ⟨c, k1, k2, k3, _⟩ := run_spec ops (b := make n) (make_wf n) ho (fun _ => false)
    (fun i _ => make_bit n i)
  obtain ⟨d, l1, l2, l3, _⟩ := run_spec ops' (b := make n) (make_wf n) ho' (fun _ => false)
    (fun i _ => make_bit n i)
  have hca : c = x := Except.ok.inj (k1.symm.trans hx)
  have hdb : d = y := Except.ok.inj (l1.symm.trans hy)
  subst hca hdb
  have k2' : c.size = n := k2
  have l2' : d.size = n := l2
  have lc : c.data.length = n / 64 + 1 := by unfold WF at k3; rw [k3, k2']
  have ld : d.data.length = n / 64 + 1 := by unfold WF at l3; rw [l3, l2']
  have hdiv : stop / 64 ≤ n / 64 := Nat.div_le_div_right h2
  refine ⟨{ c with data := c.data.take (start / 64) ++
      (d.data.drop (start / 64)).take (stop / 64 - start / 64) ++ c.data.drop (stop / 64) },
    ?_, k2', ?_⟩
  · unfold assign
    have e1 : decide (d.size = c.size) = true := by simp; omega
    have e2 : decide (start < stop ∧ start < c.size ∧ stop ≤ c.size) = true := by simp; omega
    rw [e1, e2]
    simp only [check_true, ok_bind, assignFrom, assignTo, bOffset, bIndex, m1, m2]
    simp only [gt_iff_lt, Nat.lt_irrefl, if_false, ok_bind]
    rw [if_pos (by omega), if_pos (by omega)]
    rfl
  · intro i hi
    have hidx : i / 64 ≤ n / 64 := Nat.div_le_div_right (Nat.le_of_lt hi)
    unfold get bIndex
    simp only
    by_cases hr : start ≤ i ∧ i < stop
    · rw [if_pos hr]
      have : (c.data.take (start / 64) ++ (d.data.drop (start / 64)).take
          (stop / 64 - start / 64) ++ c.data.drop (stop / 64))[i / 64]? = d.data[i / 64]? := by
        rw [List.getElem?_append_left (by simp; omega), List.getElem?_append_right (by simp; omega)]
        rw [List.getElem?_take, if_pos (by simp; omega), List.getElem?_drop]
        congr 1
        simp; omega
      rw [this]
    · rw [if_neg hr]
      have : (c.data.take (start / 64) ++ (d.data.drop (start / 64)).take
          (stop / 64 - start / 64) ++ c.data.drop (stop / 64))[i / 64]? = c.data[i / 64]? := by
        by_cases hlt : i < start
        · rw [List.getElem?_append_left (by simp; omega),
            List.getElem?_append_left (by simp; omega), List.getElem?_take, if_pos (by omega)]
        · rw [List.getElem?_append_right (by simp; omega), List.getElem?_drop]
          congr 1
          simp; omega
      rw [this]

/-- C21 is false: from an all-true array into an all-false array of 8 bits,
copying [1, 8) sets bit 0, outside the range, and copying [0, 1) leaves bit 0
false. -/
theorem C21_assign_copies_the_wrong_bits :
    ∃ y x1 x2, run (make 8) [.ones] = .ok y ∧ assign (make 8) y 1 8 = .ok x1 ∧
      assign (make 8) y 0 1 = .ok x2 ∧ get x1 0 = .ok true ∧ get x2 0 = .ok false := by
  refine ⟨⟨8, [BitVec.allOnes 64]⟩, ⟨8, [BitVec.allOnes 64]⟩, ⟨8, [0x8000000000000000#64]⟩, ?_⟩
  decide +kernel

example : ∃ y x', run (make 200) [.ones] = .ok y ∧ assign (make 200) y 64 128 = .ok x' ∧
    get x' 63 = .ok false ∧ get x' 64 = .ok true := by
  obtain ⟨y, hy, _, gy⟩ := C18_refines_plain_array 200 [.ones] (by simp [bitInRange])
  obtain ⟨x', h1, h2, h3⟩ := C21_assign_aligned_partial 200 [] [.ones] (make 200) y (by simp)
    (by simp [bitInRange]) rfl hy 64 128 (by omega) (by omega) (by omega) (by omega)
  refine ⟨y, x', hy, h1, ?_, ?_⟩
  · rw [h3 63 (by omega), if_neg (by omega), get_eq (make_wf _) (by simp [make]), make_bit]
  · rw [h3 64 (by omega), if_pos (by omega), gy 64 (by omega)]; rfl

/-! ## C22 -/

/-- C22: whatever the random words, the crossover of two arrays of the same
size returns a child each bit of which is that bit of one of the parents;
where the parents agree, so does the child. -/
theorem C22_child_mixes_parents (n : Nat) (ops ops1 ops2 : List Op) (x p1 p2 : Bits)
    (ho : ∀ o ∈ ops, bitInRange n o) (ho1 : ∀ o ∈ ops1, bitInRange n o)
    (ho2 : ∀ o ∈ ops2, bitInRange n o) (hx : run (make n) ops = .ok x)
    (h1 : run (make n) ops1 = .ok p1) (h2 : run (make n) ops2 = .ok p2) (r : Nat → Word) :
    ∃ c, crossover r x p1 p2 = .ok c ∧ c.size = n ∧
      (∀ i, i < n → get c i = get p1 i ∨ get c i = get p2 i) ∧
      (∀ i, i < n → get p1 i = get p2 i → get c i = get p1 i) ∧
      (∀ i, i < n → get c i = if (r (i / 64)).getLsbD (i % 64) then get p2 i else get p1 i) := by
  obtain ⟨c, k1, k2, k3, _⟩ := run_spec ops (b := make n) (make_wf n) ho (fun _ => false)
    (fun i _ => make_bit n i)
  obtain ⟨q1, l1, l2, l3, _⟩ := run_spec ops1 (b := make n) (make_wf n) ho1 (fun _ => false)
    (fun i _ => make_bit n i)
  obtain ⟨q2, m1, m2, m3, _⟩ := run_spec ops2 (b := make n) (make_wf n) ho2 (fun _ => false)
    (fun i _ => make_bit n i)
  have hcx : c = x := Except.ok.inj (k1.symm.trans hx)
  have hq1 : q1 = p1 := Except.ok.inj (l1.symm.trans h1)
  have hq2 : q2 = p2 := Except.ok.inj (m1.symm.trans h2)
  subst hcx hq1 hq2
  have k2' : c.size = n := k2
  have l2' : q1.size = n := l2
  have m2' : q2.size = n := m2
  have lc : c.data.length = n / 64 + 1 := by unfold WF at k3; rw [k3, k2']
  have lq1 : q1.data.length = n / 64 + 1 := by unfold WF at l3; rw [l3, l2']
  have lq2 : q2.data.length = n / 64 + 1 := by unfold WF at m3; rw [m3, m2']
  obtain ⟨x', n1, n2, n3, n4⟩ := crossover_loop r q1 q2 c.data.length c (Nat.le_refl _)
    (by omega) (by omega)
  have hw : WF x' := by unfold WF; rw [n3, n2]; exact k3
  have key : ∀ i, i < n →
      get x' i = if (r (i / 64)).getLsbD (i % 64) then get q2 i else get q1 i := by
    intro i hi
    have hidx : i / 64 ≤ n / 64 := Nat.div_le_div_right (Nat.le_of_lt hi)
    rw [get_eq hw (by omega), get_eq l3 (by omega), get_eq m3 (by omega), n4, if_pos (by omega)]
    split <;> rfl
  refine ⟨x', n1, by omega, ?_, ?_, key⟩
  · intro i hi
    rw [key i hi]
    split
    · exact Or.inr rfl
    · exact Or.inl rfl
  · intro i hi he
    rw [key i hi]
    split
    · exact he.symm
    · rfl

example : ∃ c p1, run (make 70) [.set 3, .set 69] = .ok p1 ∧
    crossover (fun _ => 0x20#64) (make 70) p1 (make 70) = .ok c ∧
    get c 3 = .ok true ∧ get c 5 = .ok false := by
  obtain ⟨p1, hp, _, gp⟩ := C18_refines_plain_array 70 [.set 3, .set 69] (by simp [bitInRange])
  obtain ⟨c, h1, _, _, _, h3⟩ := C22_child_mixes_parents 70 [] _ [] _ p1 _ (by simp)
    (by simp [bitInRange]) (by simp) rfl hp rfl (fun _ => 0x20#64)
  refine ⟨c, p1, hp, h1, ?_, ?_⟩
  · rw [h3 3 (by omega), if_neg (by decide), gp 3 (by omega)]; rfl
  · rw [h3 5 (by omega), if_pos (by decide), get_eq (make_wf _) (by simp [make]), make_bit]

end Bx.BitArray
