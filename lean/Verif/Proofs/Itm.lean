import Verif.Model.Itm
import Verif.Proofs.SolverCtor
import Verif.Proofs.Outcome
import Mathlib.Algebra.BigOperators.Group.List.Basic
import Mathlib.Data.List.Nodup

/-! Helper lemmas on the row updates. -/

namespace Bx.Itm

open Merge SolverCtor Spec

/-! ## Writing the variables of a row -/

/-- Value that a pass upward (`up`) or downward gives to an element. -/
def target (t : SolverType) (e : FunElem) (up : Bool) : Bool := xor (isNegative t e) up

theorem turn_spec {t : SolverType} {row : List FunElem} (hnd : (row.map FunElem.var).Nodup)
    (up : Bool) :
    ∀ (ids : List Nat) (x : Assign), (∀ i ∈ ids, i < row.length) →
    ∃ x', turn t row up x ids = .ok x' ∧
      (∀ j, (∀ (i : Nat) (e : FunElem), i ∈ ids → row[i]? = some e → e.var ≠ j) → x' j = x j) ∧
      (∀ (i : Nat) (e : FunElem), i ∈ ids → row[i]? = some e → x' e.var = target t e up)
  | [], x, _ => ⟨x, rfl, fun _ _ => rfl, by simp⟩
  | i :: is, x, h => by
    have hi : i < row.length := h i (by simp)
    have hr : row[i]? = some row[i] := List.getElem?_eq_getElem hi
    obtain ⟨x', h1, h2, h3⟩ := turn_spec (t := t) hnd up is
      (write x row[i].var (xor (isNegative t row[i]) up)) (fun j hj => h j (by simp [hj]))
    refine ⟨x', ?_, ?_, ?_⟩
    · simp only [turn, hr, h1]
    · intro j hj
      rw [h2 j (fun i' e hi' he => hj i' e (by simp [hi']) he)]
      have : j ≠ row[i].var := fun he => hj i row[i] (by simp) hr he.symm
      simp [write, this]
    · intro i' e hi' he
      by_cases hm : i' ∈ is
      · exact h3 i' e hm he
      · have : i' = i := by
          rcases List.mem_cons.mp hi' with h | h
          · exact h
          · exact absurd h hm
        subst this
        have he' : e = row[i'] := by rw [hr] at he; exact (Option.some.inj he).symm
        subst he'
        rw [h2]
        · simp [write, target]
        · intro i2 e2 hi2 he2 heq
          have hlt : i2 < row.length := h i2 (by simp [hi2])
          have e2' : e2 = row[i2] := by
            rw [List.getElem?_eq_getElem hlt] at he2; exact (Option.some.inj he2).symm
          subst e2'
          have hij : i2 = i' := by
            have := List.nodup_iff_injective_getElem.mp hnd
            have h4 := @this ⟨i2, by simpa using hlt⟩ ⟨i', by simpa using hi⟩ (by simpa using heq)
            exact congrArg Fin.val h4
          exact hm (hij ▸ hi2)

theorem rowValue_eq (t : SolverType) (x : Assign) (row : List FunElem) :
    rowValue t x row = (row.map fun e => factor t e * (if x e.var then 1 else 0)).sum := by
  induction row with
  | nil => rfl
  | cons e es ih => simp [rowValue, ih]

/-- The coefficients of the row are 1 or -1, and 1 for the 0/1 solvers. -/
def UnitRow (t : SolverType) (row : List FunElem) : Prop :=
  (∀ e ∈ row, factor t e = e.factor) ∧
  (∀ e ∈ row, factor t e = if isNegative t e then -1 else 1)

theorem contribution {t : SolverType} {e : FunElem} (h : factor t e = if isNegative t e then -1 else 1)
    (up : Bool) :
    factor t e * (if target t e up then 1 else 0) =
      (if up then 1 else 0) - (if isNegative t e then 1 else 0) := by
  rw [h]
  unfold target
  cases isNegative t e <;> cases up <;> rfl

theorem sum_const_sub {α : Type} (f : α → Bool) (c : Int) : ∀ l : List α,
    (l.map fun e => c - (if f e then 1 else 0)).sum = c * l.length - (l.filter f).length
  | [] => by simp
  | a :: l => by
    simp only [List.map_cons, List.sum_cons, sum_const_sub f c l, List.length_cons,
      List.filter_cons]
    cases f a <;> simp [Int.mul_add] <;> omega

/-- The left-hand side of a row where the positions of `ups` got the upward
value and those of `downs` the downward value. -/
theorem rowValue_split {t : SolverType} {row : List FunElem} (hu : UnitRow t row) {x : Assign}
    {ups downs : List Nat} (hp : (ups ++ downs).Perm (List.range row.length))
    (h1 : ∀ (i : Nat) (e : FunElem), i ∈ ups → row[i]? = some e → x e.var = target t e true)
    (h2 : ∀ (i : Nat) (e : FunElem), i ∈ downs → row[i]? = some e → x e.var = target t e false) :
    rowValue t x row = (ups.length : Int) - cSize t row := by
  have hlt : ∀ i ∈ ups ++ downs, i < row.length := by
    intro i hi; exact List.mem_range.mp (hp.mem_iff.mp hi)
  let get : Nat → FunElem := fun i => (row[i]?).getD ⟨0, 0⟩
  have hget : ∀ i, i < row.length → row[i]? = some (get i) := by
    intro i hi; simp [get, List.getElem?_eq_getElem hi]
  have hrow : row = (List.range row.length).map get := by
    apply List.ext_getElem?
    intro i
    by_cases hi : i < row.length
    · simp [hi, get]
    · simp [hi]
  have hF : ∀ F : FunElem → Int, (row.map F).sum = ((ups ++ downs).map fun i => F (get i)).sum := by
    intro F
    have : (row.map F) = (List.range row.length).map fun i => F (get i) := by
      conv_lhs => rw [hrow]
      simp
    rw [this]
    exact ((hp.map _).sum_eq).symm
  have hcount : ((row.filter fun e => isNegative t e).length : Int) =
      ((ups.filter fun i => isNegative t (get i)).length : Int) +
      ((downs.filter fun i => isNegative t (get i)).length : Int) := by
    have h := hF fun e => 0 - (if isNegative t e then 1 else 0)
    have h3 := sum_const_sub (fun e => isNegative t e) 0 row
    have h4 := sum_const_sub (fun i => isNegative t (get i)) 0 (ups ++ downs)
    rw [h3, h4] at h
    simp only [List.filter_append, List.length_append] at h
    omega
  rw [rowValue_eq, hF, List.map_append, List.sum_append]
  have hmem : ∀ i, i < row.length → get i ∈ row := fun i hi =>
    List.mem_of_getElem? (hget i hi)
  have e1 : (ups.map fun i => factor t (get i) * (if x (get i).var then 1 else 0)) =
      ups.map fun i => (1 : Int) - (if isNegative t (get i) then 1 else 0) := by
    apply List.map_congr_left
    intro i hi
    have hi' := hlt i (by simp [hi])
    rw [h1 i (get i) hi (hget i hi'), contribution (hu.2 _ (hmem i hi'))]
    simp
  have e2 : (downs.map fun i => factor t (get i) * (if x (get i).var then 1 else 0)) =
      downs.map fun i => (0 : Int) - (if isNegative t (get i) then 1 else 0) := by
    apply List.map_congr_left
    intro i hi
    have hi' := hlt i (by simp [hi])
    rw [h2 i (get i) hi (hget i hi'), contribution (hu.2 _ (hmem i hi'))]
    simp
  rw [e1, e2, sum_const_sub (fun i => isNegative t (get i)),
    sum_const_sub (fun i => isNegative t (get i))]
  unfold cSize
  omega

/-- The number of variables that `affect` turns upward. -/
def clamp (selected : Int) (r : Nat) : Nat := min (selected + 1).toNat r

theorem clamp_le (sel : Int) (r : Nat) : clamp sel r ≤ r := Nat.min_le_right _ _

theorem readR_ok {s : Slv} {i : Int} (h0 : 0 ≤ i) (h1 : i < s.cap) : readR s i = .ok () := by
  simp [readR, h0, h1]

/-- `affect` gives the row the value `clamp (selected) - negatives`, changes no
other variable, and stops the process exactly when this value is out of the
bounds. -/
theorem affect_spec {s : Slv} {k : Nat} {row : List FunElem} {b : Bound}
    (hrow : rowOf s k = .ok row) (hb : boundOf s k = .ok b)
    (hnd : (row.map FunElem.var).Nodup) (hu : UnitRow s.kind row)
    (hcap : row.length ≤ s.cap) (hcap0 : 0 < s.cap)
    {ids : List Nat} (hp : ids.Perm (List.range row.length)) (sel : Int)
    (hsel : sel < s.cap) (x : Assign) :
    ∃ x', (∀ j, (∀ e ∈ row, e.var ≠ j) → x' j = x j) ∧
      rowValue s.kind x' row = (clamp sel row.length : Int) - cSize s.kind row ∧
      affect s k row ids sel x =
        if b.min ≤ rowValue s.kind x' row ∧ rowValue s.kind x' row ≤ b.max then .ok x'
        else .error (.contract "is_valid_constraint(slv, k, x)") := by
  have hlt : ∀ i ∈ ids, i < row.length := fun i hi => List.mem_range.mp (hp.mem_iff.mp hi)
  have hlen : ids.length = row.length := by simpa using hp.length_eq
  have hout : ∀ (l : List Nat) (j : Nat), (∀ e ∈ row, e.var ≠ j) →
      ∀ (i : Nat) (e : FunElem), i ∈ l → row[i]? = some e → e.var ≠ j :=
    fun l j h i e _ he => h e (List.mem_of_getElem? he)
  -- the final test
  have fin : ∀ x' : Assign,
      (do let v ← isValidConstraint s k x'
          check v "is_valid_constraint(slv, k, x)"
          Except.ok x' : Outcome Assign) =
      if b.min ≤ rowValue s.kind x' row ∧ rowValue s.kind x' row ≤ b.max then .ok x'
      else .error (.contract "is_valid_constraint(slv, k, x)") := by
    intro x'
    simp only [isValidConstraint, hrow, hb, ok_bind]
    by_cases h1 : b.min ≤ rowValue s.kind x' row <;>
      by_cases h2 : rowValue s.kind x' row ≤ b.max <;> simp [h1, h2, check]
  unfold affect affectX
  by_cases hneg : sel < 0
  · obtain ⟨x', h1, h2, h3⟩ := turn_spec (t := s.kind) hnd false ids x hlt
    refine ⟨x', fun j hj => h2 j (hout _ j hj), ?_, ?_⟩
    · rw [rowValue_split hu (ups := []) (downs := ids) (by simpa using hp) (by simp) h3]
      have : clamp sel row.length = 0 := by unfold clamp; omega
      rw [this]; rfl
    · rw [if_pos hneg, readR_ok (Int.le_refl 0) (by omega)]
      simp only [ok_bind, h1, fin]
  · by_cases hbig : sel + 1 ≥ ids.length
    · obtain ⟨x', h1, h2, h3⟩ := turn_spec (t := s.kind) hnd true ids x hlt
      refine ⟨x', fun j hj => h2 j (hout _ j hj), ?_, ?_⟩
      · rw [rowValue_split hu (ups := ids) (downs := []) (by simpa using hp) h3 (by simp)]
        have : clamp sel row.length = ids.length := by unfold clamp; omega
        rw [this]
      · rw [if_neg hneg, if_pos hbig, readR_ok (by omega) hsel]
        simp only [ok_bind, h1, fin]
    · obtain ⟨x1, h1, h2, h3⟩ := turn_spec (t := s.kind) hnd true
        (ids.take (sel + 1).toNat) x (fun i hi => hlt i (List.mem_of_mem_take hi))
      obtain ⟨x', h4, h5, h6⟩ := turn_spec (t := s.kind) hnd false
        (ids.drop (sel + 1).toNat) x1 (fun i hi => hlt i (List.mem_of_mem_drop hi))
      have hids : ids.Nodup := hp.nodup_iff.mpr List.nodup_range
      have hdisj : ∀ i, i ∈ ids.take (sel + 1).toNat → i ∈ ids.drop (sel + 1).toNat → False := by
        intro i hi hj
        have := List.nodup_append.mp ((List.take_append_drop (sel + 1).toNat ids).symm ▸ hids)
        exact this.2.2 i hi i hj rfl
      refine ⟨x', ?_, ?_, ?_⟩
      · intro j hj
        rw [h5 j (hout _ j hj), h2 j (hout _ j hj)]
      · rw [rowValue_split hu (ups := ids.take (sel + 1).toNat) (downs := ids.drop (sel + 1).toNat)
          (by rw [List.take_append_drop]; exact hp) ?_ h6]
        · have : clamp sel row.length = (ids.take (sel + 1).toNat).length := by
            rw [List.length_take]; unfold clamp; omega
          rw [this]
        · intro i e hi he
          rw [h5]
          · exact h3 i e hi he
          · intro i' e' hi' he' heq
            have hl := hlt i (List.mem_of_mem_take hi)
            have hl' := hlt i' (List.mem_of_mem_drop hi')
            have hij : i' = i := by
              have := List.nodup_iff_injective_getElem.mp hnd
              rw [List.getElem?_eq_getElem hl] at he
              rw [List.getElem?_eq_getElem hl'] at he'
              have h7 := @this ⟨i', by simpa using hl'⟩ ⟨i, by simpa using hl⟩
                (by simp [Option.some.inj he, Option.some.inj he', heq])
              exact congrArg Fin.val h7
            subst hij
            exact hdisj _ hi hi'
      · rw [if_neg hneg, if_neg hbig, readR_ok (by omega) hsel, readR_ok (by omega) (by omega)]
        simp only [ok_bind, h1, h4, fin]

end Bx.Itm
