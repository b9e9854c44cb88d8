import Verif.Proofs.RandomSolver
import Verif.Proofs.Multipliers

/-!
# What an update writes in the preferences

The extreme rows of the four solvers with multipliers, and every row of the random solver.
-/

namespace Bx.Mult

open Merge SolverCtor Spec Itm

/-- An update whose row value is the least or the greatest one: what it adds to the preferences. -/
theorem update_extreme_P {t : SolverType} {csts : List Merged} {n : Nat} {s : Slv}
    (hs : makeSlv t csts n = .ok s) (ht : t ≠ .equalitiesZ ∧ t ≠ .inequalitiesZ)
    {k : Nat} {c : Merged} (hk : csts[k]? = some c) (hnd : (c.elems.map FunElem.var).Nodup)
    {mode : ObjType} {o : Oracle} (ho : o.Ok mode) {p : Param} {cost : CostFun} {x x' : Assign}
    {m m' : Mem} (h : update mode o p s cost k x m = .ok (x', m'))
    (hsat : ∃ y, Respects c y)
    (hext : (∀ y, lhs x' c.elems ≤ lhs y c.elems) ∨ (∀ y, lhs y c.elems ≤ lhs x' c.elems)) :
    ∃ (i : Nat) (q : Rat), (q = 1 / 2 ∨ q = 3 / 2) ∧
      (c.elems ≠ [] → i < c.elems.length) ∧
      (∀ (i j : Nat), (i ≠ k ∨ ∀ e ∈ c.elems, e.var ≠ j) → m'.P i j = m.P i j) ∧
      ∀ e ∈ c.elems, m'.P k e.var = m.P k e.var * p.theta + (if x' e.var then 1 else -1) *
        (p.delta + ratio p.kappa * (val s cost (decrease m k c.elems p.theta) x p.push c.elems i * q)) := by
  obtain ⟨hkind, _, _, _, _, _, hrows⟩ := makeSlv_facts hs
  obtain ⟨bd, hr, hb, hc⟩ := hrows k c hk
  obtain ⟨row, b', sel, h1, h2, h3, h4, h5⟩ := update_eq h
  rw [hr] at h1
  have := Except.ok.inj h1
  subst this
  rw [hb] at h2
  have := Except.ok.inj h2
  subst this
  have hu : UnitRow t c.elems := ctor_unit hc ht
  set m1 := decrease m k c.elems p.theta with hm1
  obtain ⟨hp, hR, hsorted⟩ := sorted_cells ho s cost m1 x p.push c.elems
  obtain ⟨M, hM, hselc, hMl, _, _, _, _, hM1, hM2, _, _⟩ := select_count hs ht hk hb hsat h3
  set R := o.sort (cells s cost m1 x p.push c.elems (List.range c.elems.length)) with hRdef
  set ids := R.map RC.id with hids
  set V := val s cost m1 x p.push c.elems with hVdef
  have hidlen : ids.length = c.elems.length := by simpa using hp.length_eq
  obtain ⟨g1, g2⟩ := affect_values hnd hp h4
  rw [← hM] at g1 g2
  have hlt : ∀ i ∈ ids, i < c.elems.length := fun i hi => List.mem_range.mp (hp.mem_iff.mp hi)
  have hidnd : ids.Nodup := hp.nodup_iff.mpr List.nodup_range
  have hpos : ∀ (i : Nat) (e : FunElem), c.elems[i]? = some e → i ∈ ids := by
    intro i e he
    exact hp.mem_iff.mpr (List.mem_range.mpr (List.getElem?_eq_some_iff.mp he).1)
  have hvx : lhs x' c.elems = (M : Int) - cSize t c.elems := by
    rw [← rowValue_lhs hc x']
    have e1 : ((ids.take M).length : Int) = M := by
      rw [List.length_take, hidlen, Nat.min_eq_left hMl]
    rw [← e1]
    apply rowValue_split hu (ups := ids.take M) (downs := ids.drop M)
      (by rw [List.take_append_drop]; exact hp)
    · intro i e hi he
      rw [g1 i e hi he, hkind]
      unfold target; cases isNegative t e <;> rfl
    · intro i e hi he
      rw [g2 i e hi he, hkind]
      unfold target; cases isNegative t e <;> rfl
  have hdec : ∀ e ∈ c.elems, m1.P k e.var = m.P k e.var * p.theta := by
    intro e he
    rw [hm1]
    unfold decrease
    simp only
    rw [if_pos ⟨trivial, List.mem_map.mpr ⟨e, he, rfl⟩⟩]
  have hkeep : ∀ i j, (i ≠ k ∨ ∀ e ∈ c.elems, e.var ≠ j) → m1.P i j = m.P i j := by
    intro i j hij
    rw [hm1]
    unfold decrease
    simp only
    rw [if_neg]
    rintro ⟨h1, h2⟩
    obtain ⟨e, he, hv⟩ := List.mem_map.mp h2
    rcases hij with h | h
    · exact h h1
    · exact h e he hv
  have hother : ∀ (up : Bool) (d : Rat) (i j : Nat), (i ≠ k ∨ ∀ e ∈ c.elems, e.var ≠ j) →
      turnP s.kind c.elems k up d m1.P ids i j = m.P i j := by
    intro up d i j hij
    rw [turnP_other, hkeep i j hij]
    rcases hij with h | h
    · exact Or.inl h
    · exact Or.inr fun i' e _ he => h e (List.mem_of_getElem? he)
  by_cases h0 : sel < 0
  · have hM0 := hM2 h0
    have hmem : m'.P = turnP s.kind c.elems k false (p.delta + ratio p.kappa * (valueAt o R 0 / 2))
        m1.P ids := by
      rw [h5]
      unfold affectMem
      simp only
      rw [if_pos h0]
    refine ⟨ids.head?.getD 0, 1 / 2, Or.inl rfl, ?_, ?_, ?_⟩
    · intro hne
      cases hi : ids with
      | nil =>
        rw [hi] at hidlen
        exact absurd (List.length_eq_zero_iff.mp hidlen.symm) hne
      | cons a as => exact hlt a (by simp [hi])
    · intro i j hij
      rw [hmem, hother _ _ i j hij]
    · intro e he
      obtain ⟨i, hie⟩ := List.getElem?_of_mem he
      have hi := hpos i e hie
      have va : valueAt o R 0 = V (ids.head?.getD 0) := by
        rw [hR]
        refine valueAt_eq (l := 0) ?_
        cases hid : ids with
        | nil => rw [hid] at hi; simp at hi
        | cons a as => rfl
      rw [hmem, turnP_at hnd _ _ hidnd hlt i e hi hie, hdec e he, va,
        g2 i e (by rw [hM0]; simpa using hi) hie]
      cases isNegative s.kind e <;>
        simp only [Bool.xor_false, if_true, Bool.false_eq_true, if_false] <;> ring
  · have hMs := hM1 (by omega)
    have hsl : sel + 1 ≥ ids.length := by
      by_contra hn
      obtain ⟨⟨y, hy⟩, ⟨z, hz⟩⟩ := exists_extreme hc ht hnd
      rcases hext with h | h
      · have := h y
        omega
      · have := h z
        omega
    obtain ⟨l, hl⟩ : ∃ l : Nat, sel = l := ⟨sel.toNat, by omega⟩
    subst hl
    have hll : l + 1 = ids.length := by omega
    have hmem : m'.P = turnP s.kind c.elems k true
        (p.delta + ratio p.kappa * (valueAt o R l * (3 / 2))) m1.P ids := by
      rw [h5]
      unfold affectMem
      simp only
      rw [if_neg h0, if_pos (by exact_mod_cast hsl)]
    have va : valueAt o R (l : Int) = V (ids[l]'(by omega)) := by
      rw [hR]; exact valueAt_eq (List.getElem?_eq_getElem (by omega))
    refine ⟨ids[l]'(by omega), 3 / 2, Or.inr rfl, ?_, ?_, ?_⟩
    · intro _
      exact hlt _ (List.getElem_mem _)
    · intro i j hij
      rw [hmem, hother _ _ i j hij]
    · intro e he
      obtain ⟨i, hie⟩ := List.getElem?_of_mem he
      have hi := hpos i e hie
      have hMM : M = ids.length := by omega
      rw [hmem, turnP_at hnd _ _ hidnd hlt i e hi hie, hdec e he, va,
        g1 i e (by rw [hMM, List.take_length]; exact hi) hie]
      cases isNegative s.kind e <;> simp

end Bx.Mult

namespace Bx.Rand

open Merge SolverCtor Spec Itm Mult

/-- The cells `A` have been visited: the preference of each of their variables has moved by its step,
upward for a variable that is set, and nothing else has changed. -/
structure Moved (e : Env) (A : List RC) (v v' : Vec) : Prop where
  at_ : ∀ r ∈ A, v'.P e.k (get e.row r).var = v.P e.k (get e.row r).var +
    (if v'.x (get e.row r).var then step e r else -step e r)
  P : ∀ i j, (i ≠ e.k ∨ ∀ r ∈ A, (get e.row r).var ≠ j) → v'.P i j = v.P i j
  x : ∀ j, (∀ r ∈ A, (get e.row r).var ≠ j) → v'.x j = v.x j

theorem Moved.nil (e : Env) (v : Vec) : Moved e [] v v :=
  ⟨by simp, fun _ _ _ => rfl, fun _ _ => rfl⟩

theorem Moved.give (e : Env) (r : RC) (v : Vec) (up : Bool) :
    Moved e [r] v (give e.k v (get e.row r).var up (step e r)) := by
  refine ⟨?_, ?_, ?_⟩
  · intro q hq
    rw [List.mem_singleton.mp hq]
    cases up <;> simp [Rand.give, Itm.write, sub_eq_add_neg]
  · intro i j h
    simp only [Rand.give]
    rw [if_neg]
    rintro ⟨h1, h2⟩
    rcases h with h | h
    · exact h h1
    · exact h r (by simp) h2.symm
  · intro j h
    have := h r (by simp)
    simp [Rand.give, Itm.write, Ne.symm this]

theorem Moved.append {e : Env} {A B : List RC} {v v1 v2 : Vec} (h1 : Moved e A v v1)
    (h2 : Moved e B v1 v2)
    (hd : ∀ a ∈ A, ∀ b ∈ B, (get e.row b).var ≠ (get e.row a).var) : Moved e (A ++ B) v v2 := by
  refine ⟨?_, ?_, ?_⟩
  · intro r hr
    rcases List.mem_append.mp hr with hr | hr
    · rw [h2.P _ _ (Or.inr fun b hb => hd r hr b hb), h1.at_ r hr, h2.x _ fun b hb => hd r hr b hb]
    · rw [h2.at_ r hr, h1.P _ _ (Or.inr fun a ha he => hd a ha r hr he.symm)]
  · intro i j h
    rw [h2.P i j (h.imp_right fun h r hr => h r (by simp [hr])),
      h1.P i j (h.imp_right fun h r hr => h r (by simp [hr]))]
  · intro j h
    rw [h2.x j fun r hr => h r (by simp [hr]), h1.x j fun r hr => h r (by simp [hr])]

/-- The variables of the cells are different. -/
def Apart (row : List FunElem) (R : List RC) : Prop :=
  R.Pairwise fun a b => (get row b).var ≠ (get row a).var

theorem elemOf_get {e : Env} {r : RC} {f : FunElem} (h : elemOf e r = .ok f) : f = get e.row r := by
  unfold elemOf at h
  unfold get
  split at h
  · cases h
  · rename_i he
    rw [he]
    exact (Except.ok.inj h).symm

theorem fill_moved {e : Env} : ∀ {R rs : List RC} {value value' : Int} {v v' : Vec},
    Apart e.row R → fill e R value v = .ok (rs, value', v') →
    ∃ A, R = A ++ rs ∧ Moved e A v v'
  | [], _, _, _, _, _, _, h => by cases h
  | r :: R, rs, value, value', v, v', ha, h => by
    unfold fill at h
    obtain ⟨f, hf, h⟩ := bind_eq_ok.mp h
    have := elemOf_get hf
    subst this
    simp only at h
    split at h
    · have := Except.ok.inj h
      simp only [Prod.mk.injEq] at this
      obtain ⟨rfl, _, rfl⟩ := this
      exact ⟨[r], rfl, Moved.give e r v true⟩
    · split at h
      · have := Except.ok.inj h
        simp only [Prod.mk.injEq] at this
        obtain ⟨rfl, _, rfl⟩ := this
        exact ⟨[r], rfl, Moved.give e r v true⟩
      · rename_i q qs _
        have ha' := List.pairwise_cons.mp ha
        obtain ⟨A, hA, hm⟩ := fill_moved ha'.2 h
        refine ⟨r :: A, by rw [hA]; rfl, ?_⟩
        refine (Moved.give e r v true).append hm ?_
        intro a ha b hb
        rw [List.mem_singleton.mp ha]
        exact ha'.1 b (by rw [hA]; simp [hb])

theorem extend_moved {e : Env} : ∀ {R rs : List RC} {value : Int} {v v' : Vec},
    Apart e.row R → extend e R value v = .ok (rs, v') →
    ∃ A, R = A ++ rs ∧ Moved e A v v'
  | [], _, _, v, _, _, h => by
    have := Except.ok.inj h
    simp only [Prod.mk.injEq] at this
    obtain ⟨rfl, rfl⟩ := this
    exact ⟨[], rfl, Moved.nil e v⟩
  | r :: R, rs, value, v, v', ha, h => by
    unfold extend at h
    obtain ⟨f, hf, h⟩ := bind_eq_ok.mp h
    have := elemOf_get hf
    subst this
    dsimp only at h
    have ha' := List.pairwise_cons.mp ha
    generalize (if (decide (e.b.min ≤ value + (get e.row r).factor) &&
      decide (value + (get e.row r).factor ≤ e.b.max)) = true then
        stopIterating e.mode r.value (e.coin r.id) else false) = valid at h
    cases valid with
    | true =>
      rw [if_pos rfl] at h
      obtain ⟨A, hA, hm⟩ := extend_moved ha'.2 h
      refine ⟨r :: A, by rw [hA]; rfl, ?_⟩
      refine (Moved.give e r v true).append hm ?_
      intro a ha b hb
      rw [List.mem_singleton.mp ha]
      exact ha'.1 b (by rw [hA]; simp [hb])
    | false =>
      rw [if_neg (by simp)] at h
      have := Except.ok.inj h
      simp only [Prod.mk.injEq] at this
      obtain ⟨rfl, rfl⟩ := this
      exact ⟨[r], rfl, Moved.give e r v false⟩

theorem rest_moved {e : Env} : ∀ {R : List RC} {v v' : Vec},
    Apart e.row R → rest e R v = .ok v' → Moved e R v v'
  | [], v, _, _, h => by
    rw [← Except.ok.inj h]
    exact Moved.nil e v
  | r :: R, v, v', ha, h => by
    unfold rest at h
    obtain ⟨f, hf, h⟩ := bind_eq_ok.mp h
    have := elemOf_get hf
    subst this
    have ha' := List.pairwise_cons.mp ha
    refine (Moved.give e r v false).append (rest_moved ha'.2 h) ?_
    intro a ha b hb
    rw [List.mem_singleton.mp ha]
    exact ha'.1 b hb

theorem Moved.concat {e : Env} {A B R : List RC} {v v1 v2 : Vec} (h1 : Moved e A v v1)
    (h2 : Moved e B v1 v2) (hR : R = A ++ B) (ha : Apart e.row R) : Moved e R v v2 := by
  subst hR
  exact h1.append h2 fun a h b h' => (List.pairwise_append.mp ha).2.2 a h b h'

theorem loops_moved {e : Env} {R : List RC} {v v' : Vec} (ha : Apart e.row R)
    (h : loops e R v = .ok v') : Moved e R v v' := by
  obtain ⟨rs, value, v1, k1, h⟩ : ∃ rs value v1, (∃ A, R = A ++ rs ∧ Moved e A v v1) ∧
      (do
        let (rs, v) ←
          if e.b.min ≤ value ∧ value ≤ e.b.max then extend e rs value v1 else .ok (rs, v1)
        rest e rs v) = .ok v' := by
    unfold loops at h
    by_cases h0 : e.b.min ≤ 0
    · simp only [if_pos h0] at h
      exact ⟨R, 0, v, ⟨[], rfl, Moved.nil e _⟩, h⟩
    · simp only [if_neg h0] at h
      obtain ⟨⟨rs, value, v1⟩, h1, h⟩ := bind_eq_ok.mp h
      exact ⟨rs, value, v1, fill_moved ha h1, h⟩
  obtain ⟨A, hA, mA⟩ := k1
  have hrs : Apart e.row rs := by
    rw [hA] at ha
    exact (List.pairwise_append.mp ha).2.1
  obtain ⟨rs', v2, k2, h⟩ : ∃ rs' v2, (∃ B, rs = B ++ rs' ∧ Moved e B v1 v2) ∧
      rest e rs' v2 = .ok v' := by
    by_cases h0 : e.b.min ≤ value ∧ value ≤ e.b.max
    · simp only [if_pos h0] at h
      obtain ⟨⟨rs', v2⟩, h2, h⟩ := bind_eq_ok.mp h
      exact ⟨rs', v2, extend_moved hrs h2, h⟩
    · simp only [if_neg h0] at h
      exact ⟨rs, v1, ⟨[], rfl, Moved.nil e _⟩, h⟩
  obtain ⟨B, hB, mB⟩ := k2
  have hrs' : Apart e.row rs' := by
    rw [hB] at hrs
    exact (List.pairwise_append.mp hrs).2.1
  exact mA.concat (mB.concat (rest_moved hrs' h) hB hrs) hA ha

theorem apart_of_perm {row : List FunElem} (hnd : (row.map FunElem.var).Nodup) {R : List RC}
    (hp : (R.map RC.id).Perm (List.range row.length)) : Apart row R := by
  have hI := mem_ids hp
  have hn : (R.map RC.id).Nodup := hp.nodup_iff.mpr List.nodup_range
  have := List.pairwise_map.mp hn
  refine (List.Pairwise.imp_of_mem (R := fun a b : RC => a.id ≠ b.id) ?_ this)
  intro a b ha hb hab hv
  exact hab (var_inj hnd hI hb ha hv).symm

end Bx.Rand
