import Verif.Model.Exhaustive
import Verif.Spec.Select
import Verif.Spec.Lp
import Verif.Proofs.Outcome
import Mathlib.Data.List.Nodup
import Mathlib.Algebra.BigOperators.Group.List.Basic
import Mathlib.Tactic.Ring
import Mathlib.Tactic.Linarith

/-! Lemmas on the exhaustive sub-solver. -/

namespace Bx.Exhaustive

open Spec

/-! ## The enumeration -/

/-- What remains of the loop after the last `m` walkers went through all their
values. -/
def rest (p : List Bool) (m fuel : Nat) : Outcome (List (List Bool)) :=
  if p = [] then .ok [] else walk fuel (p ++ List.replicate m false) (p.length - 1)

theorem get_mid (p s : List Bool) (b : Bool) : (p ++ b :: s)[p.length]? = some b := by
  simp

theorem set_mid (p s : List Bool) (b c : Bool) : (p ++ b :: s).set p.length c = p ++ c :: s := by
  simp

/-- A walker at 1 followed by zeros. -/
theorem walk_true (p : List Bool) (m fuel : Nat) :
    walk (fuel + 1) (p ++ true :: List.replicate m false) p.length =
      (do let r ← rest p (m + 1) fuel; .ok ((p ++ true :: List.replicate m false) :: r)) := by
  unfold walk rest
  rw [get_mid]
  simp only [set_mid]
  by_cases hp : p = []
  · subst hp; rfl
  · have : p.length ≠ 0 := by simpa using hp
    simp only [this, hp, if_false, List.replicate_succ]

theorem walk_false (p : List Bool) (m fuel : Nat) :
    walk (fuel + 1) (p ++ false :: List.replicate m false) p.length =
      (do let r ← walk fuel (p ++ true :: List.replicate m false) (p.length + m)
          .ok ((p ++ false :: List.replicate m false) :: r)) := by
  rw [walk, get_mid]
  simp only [set_mid]
  have : (p ++ false :: List.replicate m false).length - 1 = p.length + m := by
    simp
  rw [this]

theorem bind_cons {m : Outcome (List (List Bool))} (w : List Bool) (l : List (List Bool)) :
    (do let r ← (do let r ← m; Except.ok (l ++ r)); Except.ok (w :: r)) =
      (do let r ← m; (Except.ok ((w :: l) ++ r) : Outcome _)) := by
  cases m <;> rfl

theorem bind_app {m : Outcome (List (List Bool))} (k l : List (List Bool)) :
    (do let r ← (do let r ← m; Except.ok (l ++ r)); Except.ok (k ++ r)) =
      (do let r ← m; (Except.ok ((k ++ l) ++ r) : Outcome _)) := by
  cases m <;> simp

/-- From zeros on the last `m + 1` walkers the loop goes through all their values
and comes back to zeros. -/
theorem walk_block : ∀ (m : Nat) (p : List Bool), ∃ (c : Nat) (l : List (List Bool)),
    c + 2 = 2 ^ (m + 2) ∧
    (∀ w, w ∈ l ↔ ∃ s : List Bool, s.length = m + 1 ∧ w = p ++ s) ∧
    ∀ fuel, walk (c + fuel) (p ++ List.replicate (m + 1) false) (p.length + m) =
      (do let r ← rest p (m + 1) fuel; .ok (l ++ r))
  | 0, p => by
    refine ⟨2, [p ++ [false], p ++ [true]], rfl, ?_, ?_⟩
    · intro w
      simp only [List.mem_cons, List.not_mem_nil, or_false]
      constructor
      · rintro (h | h)
        · exact ⟨[false], rfl, h⟩
        · exact ⟨[true], rfl, h⟩
      · rintro ⟨s, hs, rfl⟩
        match s, hs with
        | [false], _ => simp
        | [true], _ => simp
    · intro fuel
      have h1 := walk_false p 0 (1 + fuel)
      have h2 := walk_true p 0 fuel
      rw [show 2 + fuel = (1 + fuel) + 1 by omega]
      simp only [List.replicate_zero, List.replicate_succ, Nat.add_zero] at h1 h2 ⊢
      rw [h1, show 1 + fuel = fuel + 1 by omega, h2]
      cases rest p (0 + 1) fuel <;> rfl
  | m + 1, p => by
    obtain ⟨c0, l0, hc0, hl0, hw0⟩ := walk_block m (p ++ [false])
    obtain ⟨c1, l1, hc1, hl1, hw1⟩ := walk_block m (p ++ [true])
    refine ⟨c0 + (1 + (c1 + 1)),
      l0 ++ (p ++ false :: List.replicate (m + 1) false) ::
        (l1 ++ [p ++ true :: List.replicate (m + 1) false]), ?_, ?_, ?_⟩
    · have : 2 ^ (m + 1 + 2) = 2 ^ (m + 2) + 2 ^ (m + 2) := by ring
      omega
    · intro w
      simp only [List.mem_append, List.mem_cons, List.not_mem_nil, or_false, hl0, hl1]
      constructor
      · rintro (⟨s, hs, rfl⟩ | rfl | ⟨s, hs, rfl⟩ | rfl)
        · exact ⟨false :: s, by simp [hs], by simp⟩
        · exact ⟨false :: List.replicate (m + 1) false, by simp, rfl⟩
        · exact ⟨true :: s, by simp [hs], by simp⟩
        · exact ⟨true :: List.replicate (m + 1) false, by simp, rfl⟩
      · rintro ⟨s, hs, rfl⟩
        match s, hs with
        | false :: s, hs => exact Or.inl ⟨s, by simpa using hs, by simp⟩
        | true :: s, hs => exact Or.inr (Or.inr (Or.inl ⟨s, by simpa using hs, by simp⟩))
    · intro fuel
      have e0 : p ++ List.replicate (m + 1 + 1) false =
          (p ++ [false]) ++ List.replicate (m + 1) false := by
        simp [List.replicate_succ]
      have e1 : p.length + (m + 1) = (p ++ [false]).length + m := by simp; omega
      rw [e0, e1, show c0 + (1 + (c1 + 1)) + fuel = c0 + (1 + (c1 + 1) + fuel) by omega, hw0]
      have r0 : rest (p ++ [false]) (m + 1) (1 + (c1 + 1) + fuel) =
          walk (1 + (c1 + 1) + fuel) (p ++ false :: List.replicate (m + 1) false) p.length := by
        unfold rest
        simp
      rw [r0, show 1 + (c1 + 1) + fuel = (c1 + (1 + fuel)) + 1 by omega, walk_false]
      have e2 : p ++ true :: List.replicate (m + 1) false =
          (p ++ [true]) ++ List.replicate (m + 1) false := by simp
      have e3 : p.length + (m + 1) = (p ++ [true]).length + m := by simp; omega
      rw [e2, e3, hw1]
      have r1 : rest (p ++ [true]) (m + 1) (1 + fuel) =
          walk (fuel + 1) (p ++ true :: List.replicate (m + 1) false) p.length := by
        unfold rest
        simp [Nat.add_comm]
      rw [r1, walk_true]
      cases rest p (m + 1 + 1) fuel with
      | error e => rfl
      | ok r => simp

theorem firstWalk_eq (m : Nat) : firstWalk (m + 1) = List.replicate m false ++ [true] := by
  unfold firstWalk
  rw [List.replicate_succ', Nat.add_sub_cancel]
  have := set_mid (List.replicate m false) [] false true
  rwa [List.length_replicate] at this

theorem walk_mono {f : Nat} : ∀ {w : List Bool} {i : Nat} {l : List (List Bool)} (g : Nat),
    walk f w i = .ok l → walk (f + g) w i = .ok l := by
  induction f with
  | zero => intro w i l g h; simp [walk] at h
  | succ f ih =>
    intro w i l g h
    rw [show f + 1 + g = (f + g) + 1 by omega]
    unfold walk at h ⊢
    cases hw : w[i]? with
    | none => rw [hw] at h; simp at h
    | some b =>
      rw [hw] at h
      cases b with
      | false =>
        simp only at h ⊢
        obtain ⟨r, hr, h⟩ := bind_eq_ok.mp h
        rw [ih g hr]; exact h
      | true =>
        simp only at h ⊢
        by_cases hi : i = 0
        · rwa [if_pos hi] at h ⊢
        · rw [if_neg hi] at h ⊢
          obtain ⟨r, hr, h⟩ := bind_eq_ok.mp h
          rw [ih g hr]; exact h

/-- The vectors seen by `build_constraints` on a row of at least two elements: all
of them. -/
theorem walk_all (m : Nat) : ∃ l, walk (2 ^ (m + 2 + 1)) (firstWalk (m + 2)) (m + 1) = .ok l ∧
    ∀ w, w ∈ l ↔ w.length = m + 2 := by
  obtain ⟨c, l, hc, hl, hw⟩ := walk_block (m + 1) []
  have hw := hw 0
  simp only [List.nil_append, List.length_nil, Nat.zero_add, Nat.add_zero, rest, if_true,
    ok_bind, List.append_nil] at hw
  -- the first turn of the run from zero
  have hc2 : 2 ≤ c := by
    have : 2 ^ (m + 1 + 2) = 8 * 2 ^ m := by ring
    have : 1 ≤ 2 ^ m := Nat.one_le_two_pow
    omega
  obtain ⟨d, rfl⟩ : ∃ d, c = d + 1 := ⟨c - 1, by omega⟩
  have hz : List.replicate (m + 1 + 1) false =
      List.replicate (m + 1) false ++ false :: List.replicate 0 false := by
    rw [List.replicate_succ']; rfl
  have hidx : m + 1 = (List.replicate (m + 1) false).length := by simp
  have h1 := walk_false (List.replicate (m + 1) false) 0 d
  rw [← hz, ← hidx] at h1
  rw [h1] at hw
  obtain ⟨l', hl', he⟩ := bind_eq_ok.mp hw
  have he := Except.ok.inj he
  have hf : firstWalk (m + 2) = List.replicate (m + 1) false ++ true :: List.replicate 0 false := by
    rw [firstWalk_eq]; rfl
  rw [← hf, Nat.add_zero] at hl'
  refine ⟨l', ?_, ?_⟩
  · have := walk_mono 3 hl'
    rwa [show d + 3 = 2 ^ (m + 2 + 1) by
      have : m + 1 + 2 = m + 2 + 1 := by omega
      rw [← this]; omega] at this
  · -- zeros are seen again at the second turn
    have hzero : List.replicate (m + 2) false ∈ l' := by
      obtain ⟨d', rfl⟩ : ∃ d', d = d' + 1 := ⟨d - 1, by omega⟩
      rw [hf] at hl'
      have h2 := walk_true (List.replicate (m + 1) false) 0 d'
      rw [← hidx] at h2
      rw [h2] at hl'
      obtain ⟨r, hr, h3⟩ := bind_eq_ok.mp hl'
      have h3 := Except.ok.inj h3
      unfold rest at hr
      rw [if_neg (by simp)] at hr
      simp only [List.length_replicate, Nat.add_sub_cancel] at hr
      have hhead : ∀ {f : Nat} {w : List Bool} {i : Nat} {l : List (List Bool)},
          walk f w i = .ok l → w ∈ l := by
        intro f w i l h
        cases f with
        | zero => simp [walk] at h
        | succ f =>
          unfold walk at h
          cases hg : w[i]? with
          | none => rw [hg] at h; simp at h
          | some b =>
            rw [hg] at h
            cases b with
            | false =>
              obtain ⟨r, _, h⟩ := bind_eq_ok.mp h
              rw [← Except.ok.inj h]; simp
            | true =>
              simp only at h
              split at h
              · rw [← Except.ok.inj h]; simp
              · obtain ⟨r, _, h⟩ := bind_eq_ok.mp h
                rw [← Except.ok.inj h]; simp
      have := hhead hr
      rw [← h3]
      refine List.mem_cons_of_mem _ ?_
      have e : List.replicate (m + 1) false ++ List.replicate (0 + 1) false =
          List.replicate (m + 2) false := by
        rw [← List.replicate_add]
      rwa [e] at this
    intro w
    have hlw := hl w
    simp only [List.nil_append] at hlw
    constructor
    · intro hwl
      have : w ∈ l := by rw [← he]; exact List.mem_cons_of_mem _ hwl
      obtain ⟨s, hs, rfl⟩ := hlw.mp this
      exact hs
    · intro hlen
      have : w ∈ l := hlw.mpr ⟨w, hlen, rfl⟩
      rw [← he] at this
      rcases List.mem_cons.mp this with h | h
      · rw [h]; exact hzero
      · exact h

theorem walk_one : walk (2 ^ (1 + 1)) (firstWalk 1) 0 = .ok [[true]] := by decide +kernel

/-- For every row, the vectors seen by `build_constraints`: all of them, but only
the vector 1 for one element. -/
theorem walk_spec (n : Nat) (hn : 0 < n) :
    ∃ l, walk (2 ^ (n + 1)) (firstWalk n) (n - 1) = .ok l ∧
      (∀ w ∈ l, w.length = n) ∧ (2 ≤ n → ∀ w : List Bool, w.length = n → w ∈ l) := by
  match n, hn with
  | 1, _ => exact ⟨[[true]], walk_one, by simp, by omega⟩
  | m + 2, _ =>
    obtain ⟨l, h1, h2⟩ := walk_all m
    exact ⟨l, h1, fun w hw => (h2 w).mp hw, fun _ w hw => (h2 w).mpr hw⟩

/-! ## Stored solutions -/

theorem flatOf_length {es : List FunElem} {w : List Bool} (h : w.length = es.length) :
    (flatOf es w).length = es.length := by
  induction es generalizing w with
  | nil => cases w <;> simp [flatOf]
  | cons e es ih =>
    cases w with
    | nil => simp at h
    | cons b w => simp [flatOf, ih (by simpa using h)]

/-- `row` is stored in `flat` from `start`. -/
def Chunk (flat : List Int) (start : Nat) (row : List Int) : Prop :=
  ∀ j v, row[j]? = some v → flat[start + j]? = some v

theorem Chunk.append {flat : List Int} {start : Nat} {row : List Int} (h : Chunk flat start row)
    (l : List Int) : Chunk (flat ++ l) start row := by
  intro j v hj
  have := h j v hj
  rw [List.getElem?_append_left (List.getElem?_eq_some_iff.mp this).1]
  exact this

/-- The rows of a flattened list of rows of length `n`. -/
theorem chunk_flatten (n : Nat) : ∀ (rows : List (List Int)) (pre : List Int),
    (∀ r ∈ rows, r.length = n) → ∀ i r, rows[i]? = some r →
    Chunk (pre ++ rows.flatten) (pre.length + i * n) r
  | [], _, _, i, r, h => by simp at h
  | r0 :: rows, pre, hl, i, r, h => by
    cases i with
    | zero =>
      simp only [List.getElem?_cons_zero, Option.some.injEq] at h
      subst h
      intro j v hj
      have hlt := (List.getElem?_eq_some_iff.mp hj).1
      rw [Nat.zero_mul, Nat.add_zero, List.getElem?_append_right (by omega),
        Nat.add_sub_cancel_left, List.flatten_cons, List.getElem?_append_left hlt]
      exact hj
    | succ i =>
      rw [List.getElem?_cons_succ] at h
      have := chunk_flatten n rows (pre ++ r0) (fun r hr => hl r (List.mem_cons_of_mem _ hr)) i r h
      rw [List.flatten_cons, ← List.append_assoc]
      rwa [List.length_append, hl r0 (by simp),
        show pre.length + n + i * n = pre.length + (i + 1) * n by ring] at this

/-- The constraint `k` is ready: its stored solutions are selections within the
bounds, all of them when the row has at least two elements. -/
def Ready (ex : Ex) (k : Nat) (es : List FunElem) (bmin bmax : Int) : Prop :=
  ∃ (start : Nat) (good : List (List Bool)),
    ex.entries.find? (fun e => decide (e.k = k)) = some ⟨k, start, good.length, bmin, bmax⟩ ∧
    good ≠ [] ∧
    (∀ w ∈ good, w.length = es.length ∧ keep es bmin bmax w = true) ∧
    (2 ≤ es.length → ∀ w : List Bool, w.length = es.length → keep es bmin bmax w = true → w ∈ good) ∧
    ∀ i w, good[i]? = some w → Chunk ex.flat (start + i * es.length) (flatOf es w)

theorem build_ready {ex ex' : Ex} {k : Nat} {es : List FunElem} {bmin bmax : Int}
    (h : build ex k es bmin bmax = .ok ex') (hk : ∀ e ∈ ex.entries, e.k ≠ k) :
    Ready ex' k es bmin bmax := by
  unfold build at h
  obtain ⟨_, h0, h⟩ := bind_eq_ok.mp h
  have h0 : 0 < es.length := by simpa using check_eq_ok.mp h0
  obtain ⟨ws, hws, h⟩ := bind_eq_ok.mp h
  obtain ⟨l, hl, hl1, hl2⟩ := walk_spec es.length h0
  have : l = ws := Except.ok.inj (hl.symm.trans hws)
  subst this
  simp only at h
  obtain ⟨_, h1, h⟩ := bind_eq_ok.mp h
  have h1 := check_eq_ok.mp h1
  have h1 : 0 < (l.filter (keep es bmin bmax)).length := by simpa using h1
  have h := Except.ok.inj h
  have hany : (ex.entries.any fun e => decide (e.k = k)) = false := by
    rw [List.any_eq_false]
    intro e he
    simpa using hk e he
  rw [hany] at h
  subst h
  refine ⟨ex.flat.length, l.filter (keep es bmin bmax), ?_, ?_, ?_, ?_, ?_⟩
  · simp only [Bool.false_eq_true, if_false, List.find?_append]
    have : ex.entries.find? (fun e => decide (e.k = k)) = none := by
      rw [List.find?_eq_none]
      intro e he
      simpa using hk e he
    rw [this]
    simp
  · intro hn; rw [hn] at h1; simp at h1
  · intro w hw
    rw [List.mem_filter] at hw
    exact ⟨hl1 w hw.1, hw.2⟩
  · intro h2 w hw hkp
    rw [List.mem_filter]
    exact ⟨hl2 h2 w hw, hkp⟩
  · intro i w hi
    refine chunk_flatten es.length _ ex.flat ?_ i _ (by rw [List.getElem?_map, hi]; rfl)
    intro r hr
    obtain ⟨w', hw', rfl⟩ := List.mem_map.mp hr
    exact flatOf_length (hl1 w' (List.mem_filter.mp hw').1)

theorem build_keeps {ex ex' : Ex} {k k' : Nat} {es es' : List FunElem} {bmin bmax a b : Int}
    (h : build ex k' es' a b = .ok ex') (hr : Ready ex k es bmin bmax) :
    Ready ex' k es bmin bmax := by
  unfold build at h
  obtain ⟨_, _, h⟩ := bind_eq_ok.mp h
  obtain ⟨ws, _, h⟩ := bind_eq_ok.mp h
  simp only at h
  obtain ⟨_, _, h⟩ := bind_eq_ok.mp h
  have h := Except.ok.inj h
  subst h
  obtain ⟨start, good, h1, h2, h3, h4, h5⟩ := hr
  refine ⟨start, good, ?_, h2, h3, h4, fun i w hi => (h5 i w hi).append _⟩
  simp only
  split
  · exact h1
  · rw [List.find?_append, h1]; rfl

theorem build_entries {ex ex' : Ex} {k : Nat} {es : List FunElem} {a b : Int}
    (h : build ex k es a b = .ok ex') : ∀ e ∈ ex'.entries, e ∈ ex.entries ∨ e.k = k := by
  unfold build at h
  obtain ⟨_, _, h⟩ := bind_eq_ok.mp h
  obtain ⟨ws, _, h⟩ := bind_eq_ok.mp h
  simp only at h
  obtain ⟨_, _, h⟩ := bind_eq_ok.mp h
  have h := Except.ok.inj h
  subst h
  intro e he
  simp only at he
  split at he
  · exact Or.inl he
  · rcases List.mem_append.mp he with he | he
    · exact Or.inl he
    · right; rw [List.mem_singleton.mp he]

theorem buildAll_keeps {js : List Job} : ∀ {ex ex' : Ex} {k : Nat} {es : List FunElem}
    {bmin bmax : Int}, buildAll ex js = .ok ex' → Ready ex k es bmin bmax →
    Ready ex' k es bmin bmax := by
  induction js with
  | nil => intro ex ex' k es bmin bmax h hr; rw [← Except.ok.inj h]; exact hr
  | cons j js ih =>
    intro ex ex' k es bmin bmax h hr
    unfold buildAll at h
    obtain ⟨e, he, h⟩ := bind_eq_ok.mp h
    exact ih h (build_keeps he hr)

theorem buildAll_ready {js : List Job} : ∀ {ex ex' : Ex}, buildAll ex js = .ok ex' →
    (js.map Job.k).Nodup → (∀ e ∈ ex.entries, ∀ j ∈ js, e.k ≠ j.k) →
    ∀ j ∈ js, Ready ex' j.k j.es j.bmin j.bmax := by
  induction js with
  | nil => intro ex ex' _ _ _ j hj; simp at hj
  | cons j0 js ih =>
    intro ex ex' h hn hd j hj
    unfold buildAll at h
    obtain ⟨e, he, h'⟩ := bind_eq_ok.mp h
    clear h
    rw [List.map_cons, List.nodup_cons] at hn
    rcases List.mem_cons.mp hj with rfl | hj
    · exact buildAll_keeps h' (build_ready he fun x hx => hd x hx j (by simp))
    · refine ih h' hn.2 (fun x hx j' hj' => ?_) j hj
      rcases build_entries he x hx with hx | hx
      · exact hd x hx j' (List.mem_cons_of_mem _ hj')
      · intro heq
        exact hn.1 (List.mem_map.mpr ⟨j', hj', (hx.symm.trans heq).symm⟩)

/-! ## The search -/

/-- Sum of the reduced costs selected by a vector, added to `z` one by one. -/
def csum (rnd : Rat → Rat) : Rat → List Rc → List Bool → Rat
  | z, c :: cs, b :: w => csum rnd (if b then rnd (z + c.value) else z) cs w
  | z, _, _ => z

theorem chunk_tail {flat : List Int} {start : Nat} {v : Int} {row : List Int}
    (h : Chunk flat start (v :: row)) : flat[start]? = some v ∧ Chunk flat (start + 1) row := by
  constructor
  · exact h 0 v rfl
  · intro j u hj
    have := h (j + 1) u (by rw [List.getElem?_cons_succ]; exact hj)
    rwa [show start + 1 + j = start + (j + 1) by omega]

theorem zOf_spec {rnd : Rat → Rat} {ex : Ex} : ∀ {es : List FunElem} {w : List Bool}
    {rc : List Rc} {start : Nat} {z : Rat},
    (∀ e ∈ es, e.factor ≠ 0) → w.length = es.length → rc.length = es.length →
    Chunk ex.flat start (flatOf es w) → zOf rnd ex start z rc = .ok (csum rnd z rc w)
  | [], w, rc, start, _, _, hw, hr, _ => by
    simp at hw hr; subst hw; subst hr; rfl
  | e :: es, [], rc, _, _, _, hw, _, _ => by simp at hw
  | e :: es, b :: w, [], _, _, _, _, hr, _ => by simp at hr
  | e :: es, b :: w, c :: rc, start, z, hf, hw, hr, hc => by
    obtain ⟨h1, h2⟩ := chunk_tail hc
    have hne := hf e (by simp)
    unfold zOf read
    rw [h1]
    simp only [ok_bind, csum]
    rw [zOf_spec (fun e he => hf e (List.mem_cons_of_mem _ he)) (by simpa using hw)
      (by simpa using hr) h2]
    cases b <;> simp [hne]

theorem marks_spec {ex : Ex} : ∀ {es : List FunElem} {w : List Bool} {rc : List Rc} {start : Nat},
    (∀ e ∈ es, e.factor ≠ 0) → w.length = es.length → rc.length = es.length →
    Chunk ex.flat start (flatOf es w) → marks ex start rc = .ok (rc.zip w)
  | [], w, rc, start, _, hw, hr, _ => by
    simp at hw hr; subst hw; subst hr; rfl
  | e :: es, [], rc, _, _, hw, _, _ => by simp at hw
  | e :: es, b :: w, [], _, _, _, hr, _ => by simp at hr
  | e :: es, b :: w, c :: rc, start, hf, hw, hr, hc => by
    obtain ⟨h1, h2⟩ := chunk_tail hc
    have ih := marks_spec (fun e he => hf e (List.mem_cons_of_mem _ he)) (by simpa using hw)
      (by simpa using hr) h2 (rc := rc)
    unfold marks read
    rw [h1]
    simp only [ok_bind, ih, List.zip_cons_cons]
    have hne := hf e (by simp)
    cases b <;> simp [hne]

theorem good_refl (t : ObjType) (a : Rat) : AtLeastAsGood t a a := by
  cases t <;> exact le_refl a

theorem good_trans {t : ObjType} {a b c : Rat} (h1 : AtLeastAsGood t a b)
    (h2 : AtLeastAsGood t b c) : AtLeastAsGood t a c := by
  cases t
  · exact le_trans h2 h1
  · exact le_trans h1 h2

theorem better_true {t : ObjType} {a b : Rat} (h : better t a b = true) : AtLeastAsGood t a b := by
  cases t <;> simp only [better, decide_eq_true_eq] at h <;> exact le_of_lt h

theorem better_false {t : ObjType} {a b : Rat} (h : better t a b = false) :
    AtLeastAsGood t b a := by
  cases t <;> simp only [better, decide_eq_false_iff_not, not_lt] at h <;> exact h

theorem search_spec {rnd : Rat → Rat} {t : ObjType} {ex : Ex} {es : List FunElem} {rc : List Rc} {start : Nat}
    {good : List (List Bool)} (hf : ∀ e ∈ es, e.factor ≠ 0) (hr : rc.length = es.length)
    (hg : ∀ w ∈ good, w.length = es.length)
    (hc : ∀ i w, good[i]? = some w → Chunk ex.flat (start + i * es.length) (flatOf es w)) :
    ∀ (m i best : Nat) (wb : List Bool), i + m = good.length → good[best]? = some wb →
    (∀ j w, j < i → good[j]? = some w → AtLeastAsGood t (csum rnd 0 rc wb) (csum rnd 0 rc w)) →
    ∃ b' w', search rnd t ex start rc m i best (csum rnd 0 rc wb) = .ok b' ∧ good[b']? = some w' ∧
      ∀ w ∈ good, AtLeastAsGood t (csum rnd 0 rc w') (csum rnd 0 rc w)
  | 0, i, best, wb, hi, hb, hopt => by
    refine ⟨best, wb, rfl, hb, fun w hw => ?_⟩
    obtain ⟨j, hj⟩ := List.getElem?_of_mem hw
    exact hopt j w (by have := (List.getElem?_eq_some_iff.mp hj).1; omega) hj
  | m + 1, i, best, wb, hi, hb, hopt => by
    have hlt : i < good.length := by omega
    have hgi : good[i]? = some good[i] := List.getElem?_eq_getElem hlt
    have hz := zOf_spec (rnd := rnd) (z := 0) (rc := rc) hf (hg _ (List.getElem_mem hlt)) hr (hc i _ hgi)
    unfold search
    rw [hr, hz]
    simp only [ok_bind]
    cases hbt : better t (csum rnd 0 rc good[i]) (csum rnd 0 rc wb) with
    | true =>
      simp only [if_true]
      refine search_spec hf hr hg hc m (i + 1) i good[i] (by omega) hgi ?_
      intro j w hj hw
      by_cases hji : j = i
      · subst hji
        rw [hgi] at hw
        rw [Option.some.inj hw]
        exact good_refl _ _
      · exact good_trans (better_true hbt) (hopt j w (by omega) hw)
    | false =>
      simp only [Bool.false_eq_true, if_false]
      refine search_spec hf hr hg hc m (i + 1) best wb (by omega) hb ?_
      intro j w hj hw
      by_cases hji : j = i
      · subst hji
        rw [hgi] at hw
        rw [← Option.some.inj hw]
        exact better_false hbt
      · exact hopt j w (by omega) hw

/-! ## The selected elements -/

/-- In a list where the marked elements come first, the returned index delimits
them. -/
theorem selectedOf_spec {l : List (Rc × Bool)} (hne : l ≠ [])
    (hs : l.Pairwise fun a b => ¬ (b.2 = true ∧ a.2 = false)) :
    ∃ sel : Int, selectedOf l = .ok sel ∧ -1 ≤ sel ∧ sel ≤ l.length ∧
      (sel = l.length ↔ ∀ p ∈ l, p.2 = true) ∧ sel ≠ (l.length : Int) - 1 ∧
      l.take (sel + 1).toNat = l.filter (fun p => p.2) := by
  have key : ∀ l : List (Rc × Bool), l.Pairwise (fun a b => ¬ (b.2 = true ∧ a.2 = false)) →
      match l.findIdx? (fun p => !p.2) with
      | some i => i < l.length ∧ l.take i = l.filter (fun p => p.2) ∧ ∃ p ∈ l, p.2 = false
      | none => l.filter (fun p => p.2) = l ∧ ∀ p ∈ l, p.2 = true := by
    intro l
    induction l with
    | nil => intro _; simp
    | cons p l ih =>
      intro hs
      rw [List.pairwise_cons] at hs
      obtain ⟨hp, hs⟩ := hs
      have ih := ih hs
      cases hb : p.2 with
      | false =>
        have : (p :: l).findIdx? (fun p => !p.2) = some 0 := by
          rw [List.findIdx?_cons]; simp [hb]
        rw [this]
        refine ⟨by simp, ?_, p, by simp, hb⟩
        rw [List.filter_cons, hb, List.take_zero]
        simp only [Bool.false_eq_true, if_false]
        symm
        rw [List.filter_eq_nil_iff]
        intro q hq hq2
        exact hp q hq ⟨hq2, hb⟩
      | true =>
        rw [List.findIdx?_cons]
        simp only [hb, Bool.not_true, Bool.false_eq_true, if_false]
        cases hf : l.findIdx? (fun p => !p.2) with
        | none =>
          rw [hf] at ih
          simp only at ih
          simp only [Option.map_none]
          refine ⟨?_, ?_⟩
          · rw [List.filter_cons, hb]; simp [ih.1]
          · intro q hq
            rcases List.mem_cons.mp hq with rfl | hq
            · exact hb
            · exact ih.2 q hq
        | some i =>
          rw [hf] at ih
          simp only at ih
          simp only [Option.map_some]
          obtain ⟨h1, h2, q, hq, hqf⟩ := ih
          refine ⟨by simp; omega, ?_, q, List.mem_cons_of_mem _ hq, hqf⟩
          rw [List.take_succ_cons, h2, List.filter_cons, hb]
          simp
  have k := key l hs
  unfold selectedOf
  cases hf : l.findIdx? (fun p => !p.2) with
  | some i =>
    rw [hf] at k
    simp only at k
    obtain ⟨h1, h2, q, hq, hqf⟩ := k
    refine ⟨(i : Int) - 1, rfl, by omega, by omega, ?_, by omega, ?_⟩
    · constructor
      · intro h; omega
      · intro h; rw [h q hq] at hqf; simp at hqf
    · rw [show ((i : Int) - 1 + 1).toNat = i by omega]; exact h2
  | none =>
    rw [hf] at k
    simp only at k
    cases l with
    | nil => exact absurd rfl hne
    | cons p l =>
      refine ⟨((p :: l).length : Int), ?_, by omega, by omega, ?_, by omega, ?_⟩
      · simp only [k.2 p (by simp), if_true]
      · simp only [true_iff]; exact k.2
      · rw [k.1, List.take_of_length_le (by omega)]

theorem sorted_first {t : ObjType} {sort : List (Rc × Bool) → List (Rc × Bool)}
    (hs : SortOk (before t) sort) (items : List (Rc × Bool)) :
    (sort items).Pairwise fun a b => ¬ (b.2 = true ∧ a.2 = false) := by
  refine (hs items).2.imp ?_
  rintro a b h ⟨h1, h2⟩
  unfold before at h
  rw [h1, h2] at h
  simp at h

/-- The selection a sub-solver returns from its marked elements. -/
theorem chosen_spec {items l : List (Rc × Bool)} (hp : l.Perm items)
    (hid : (items.map fun p => p.1.id).Nodup) {sel : Int}
    (ht : l.take (sel + 1).toNat = l.filter (fun p => p.2)) :
    ∀ p ∈ items, chosen (l.map Prod.fst, sel) p.1.id = p.2 := by
  intro p hpi
  unfold chosen
  simp only
  rw [← List.map_take, ht]
  cases hb : p.2 with
  | true =>
    rw [decide_eq_true_eq, List.map_map]
    exact List.mem_map.mpr ⟨p, List.mem_filter.mpr ⟨hp.mem_iff.mpr hpi, hb⟩, rfl⟩
  | false =>
    rw [decide_eq_false_iff_not, List.map_map]
    intro hm
    obtain ⟨q, hq, he⟩ := List.mem_map.mp hm
    rw [List.mem_filter] at hq
    have hqi := hp.mem_iff.mp hq.1
    have : q = p := List.inj_on_of_nodup_map hid hqi hpi he
    rw [this, hb] at hq
    simp at hq

theorem weight_perm {y : Nat → Bool} {a b : List Rc} (h : a.Perm b) : weight y a = weight y b :=
  (h.map _).sum_eq

theorem cost_perm {y : Nat → Bool} {a b : List Rc} (h : a.Perm b) : cost y a = cost y b :=
  (h.map _).sum_eq

theorem fold_zip {rnd : Rat → Rat} {y : Nat → Bool} : ∀ {rc : List Rc} {w : List Bool} {z : Rat},
    w.length = rc.length → (∀ p ∈ rc.zip w, y p.1.id = p.2) →
    (rc.filter fun c => y c.id).foldl (fun z c => rnd (z + c.value)) z = csum rnd z rc w
  | [], w, _, _, _ => by cases w <;> simp [csum]
  | c :: rc, [], _, h, _ => by simp at h
  | c :: rc, b :: w, z, h, hy => by
    have ih := fun z => fold_zip (rnd := rnd) (y := y) (rc := rc) (w := w) (z := z) (by simpa using h)
      fun p hp => hy p (by rw [List.zip_cons_cons]; exact List.mem_cons_of_mem _ hp)
    have h0 : y c.id = b := hy (c, b) (by simp)
    rw [csum, ← ih, List.filter_cons, h0]
    cases b <;> rfl

theorem cost_zip {rnd : Rat → Rat} {y : Nat → Bool} {rc : List Rc} {w : List Bool}
    (h : w.length = rc.length) (hy : ∀ p ∈ rc.zip w, y p.1.id = p.2) :
    summedCost rnd y rc = csum rnd 0 rc w :=
  fold_zip h hy

theorem fold_id {y : Nat → Bool} : ∀ {rc : List Rc} {z : Rat},
    (rc.filter fun c => y c.id).foldl (fun z c => id (z + c.value)) z = z + cost y rc
  | [], z => by simp [cost]
  | c :: rc, z => by
    have ih := fun z => fold_id (y := y) (rc := rc) (z := z)
    unfold cost at ih ⊢
    rw [List.filter_cons, List.map_cons, List.sum_cons]
    split
    · rw [List.foldl_cons, ih]
      simp only [id_eq]
      ring
    · rw [ih]
      ring

/-- Without rounding, the computed sum is the sum. -/
theorem summedCost_id (y : Nat → Bool) (rc : List Rc) : summedCost id y rc = cost y rc := by
  unfold summedCost
  rw [fold_id, zero_add]

theorem weight_zip {y : Nat → Bool} : ∀ {rc : List Rc} {es : List FunElem} {w : List Bool},
    rc.map Rc.f = es.map FunElem.factor → w.length = rc.length →
    (∀ p ∈ rc.zip w, y p.1.id = p.2) → weight y rc = sumOf es w
  | [], es, w, _, _, _ => by
    cases w <;> cases es <;> simp_all [weight, sumOf]
  | c :: rc, es, [], _, h, _ => by simp at h
  | c :: rc, [], b :: w, he, _, _ => by simp at he
  | c :: rc, e :: es, b :: w, he, h, hy => by
    simp only [List.map_cons, List.cons.injEq] at he
    have ih := weight_zip (y := y) he.2 (w := w) (by simpa using h)
      fun p hp => hy p (by rw [List.zip_cons_cons]; exact List.mem_cons_of_mem _ hp)
    have h0 : y c.id = b := hy (c, b) (by simp)
    unfold weight at ih ⊢
    rw [List.map_cons, List.sum_cons, ih, h0, he.1]
    rfl

/-- What `exhaustive_solver::solve` returns for a constraint that is ready. -/
theorem solve_spec {rnd : Rat → Rat} {t : ObjType} {sort : List (Rc × Bool) → List (Rc × Bool)}
    (hs : SortOk (before t) sort) {ex : Ex} {k : Nat} {es : List FunElem} {bmin bmax : Int}
    (hr : Ready ex k es bmin bmax) (hne : es ≠ []) (hf : ∀ e ∈ es, e.factor ≠ 0) {rc : List Rc}
    (hrc : rc.map Rc.f = es.map FunElem.factor) (hid : (rc.map Rc.id).Nodup) :
    ∃ out, solve rnd t sort ex k rc = .ok out ∧ out.1.Perm rc ∧
      -1 ≤ out.2 ∧ out.2 ≤ rc.length ∧ out.2 ≠ (rc.length : Int) - 1 ∧
      bmin ≤ weight (chosen out) rc ∧ weight (chosen out) rc ≤ bmax ∧
      (2 ≤ es.length → ∀ y, bmin ≤ weight y rc → weight y rc ≤ bmax →
        AtLeastAsGood t (summedCost rnd (chosen out) rc) (summedCost rnd y rc)) := by
  obtain ⟨start, good, h1, h2, h3, h4, h5⟩ := hr
  have hlen : rc.length = es.length := by
    have := congrArg List.length hrc
    simpa using this
  obtain ⟨w0, good', rfl⟩ : ∃ w0 g, good = w0 :: g := by
    cases good with
    | nil => exact absurd rfl h2
    | cons a g => exact ⟨a, g, rfl⟩
  have hg : ∀ w ∈ w0 :: good', w.length = es.length := fun w hw => (h3 w hw).1
  have hz := zOf_spec (rnd := rnd) (z := 0) (rc := rc) hf (hg w0 (by simp)) hlen (by simpa using h5 0 w0 rfl)
  obtain ⟨b', w', hb, hw', hopt⟩ := search_spec (rnd := rnd) (t := t) hf hlen hg h5 good'.length 1 0 w0
    (by simp [Nat.add_comm]) rfl (by
      intro j w hj hw
      have : j = 0 := by omega
      subst this
      simp only [List.getElem?_cons_zero, Option.some.injEq] at hw
      rw [hw]; exact good_refl _ _)
  have hwm := List.mem_of_getElem? hw'
  have hm := marks_spec (rc := rc) hf (hg w' hwm) hlen (h5 b' w' hw')
  have hwl : w'.length = rc.length := by rw [hg w' hwm, hlen]
  have hzl : (rc.zip w').length = rc.length := by simp [hwl]
  have hperm := (hs (rc.zip w')).1
  have hnn : sort (rc.zip w') ≠ [] := by
    intro h
    have := hperm.length_eq
    rw [h, hzl, hlen] at this
    exact hne (List.length_eq_zero_iff.mp this.symm)
  obtain ⟨sel, g1, g2, g3, _, g5, g6⟩ := selectedOf_spec hnn (sorted_first hs _)
  rw [hperm.length_eq, hzl] at g3 g5
  have hmf : (rc.zip w').map Prod.fst = rc := List.map_fst_zip (by omega)
  have hids : ((rc.zip w').map fun p => p.1.id).Nodup := by
    have : (rc.zip w').map (fun p => p.1.id) = rc.map Rc.id := by
      conv_rhs => rw [← hmf, List.map_map]
      rfl
    rw [this]; exact hid
  have hch := chosen_spec hperm hids g6
  have hkeep := (h3 w' hwm).2
  unfold keep at hkeep
  rw [Bool.and_eq_true, decide_eq_true_eq, decide_eq_true_eq] at hkeep
  have hwt := weight_zip hrc hwl hch
  have hct := cost_zip (rnd := rnd) hwl hch
  refine ⟨((sort (rc.zip w')).map Prod.fst, sel), ?_, ?_, g2, g3, g5, ?_, ?_, ?_⟩
  · unfold solve
    rw [h1]
    simp only [List.length_cons, Nat.add_sub_cancel, hz, ok_bind, hb, hlen, hm, g1]
  · have := hperm.map Prod.fst
    rwa [hmf] at this
  · rw [hwt]; exact hkeep.1
  · rw [hwt]; exact hkeep.2
  · intro hl2 y hy1 hy2
    have hyl : (rc.map fun c => y c.id).length = rc.length := by simp
    have hyz : ∀ p ∈ rc.zip (rc.map fun c => y c.id), y p.1.id = p.2 := by
      intro p hp
      rw [List.zip_map_right] at hp
      obtain ⟨q, hq, rfl⟩ := List.mem_map.mp hp
      obtain ⟨i, hi⟩ := List.mem_iff_getElem?.mp hq
      rw [List.getElem?_zip_eq_some] at hi
      have := hi.1.symm.trans hi.2
      simp only [Prod.map_fst, Prod.map_snd, id_eq]
      rw [Option.some.inj this]
    rw [hct, cost_zip hyl hyz]
    refine hopt _ (h4 hl2 _ (by rw [hyl, hlen]) ?_)
    unfold keep
    rw [← weight_zip hrc hyl hyz]
    simp [hy1, hy2]

/-- Without rounding: the costs are the sums themselves. -/
theorem solve_spec_id {t : ObjType} {sort : List (Rc × Bool) → List (Rc × Bool)}
    (hs : SortOk (before t) sort) {ex : Ex} {k : Nat} {es : List FunElem} {bmin bmax : Int}
    (hr : Ready ex k es bmin bmax) (hne : es ≠ []) (hf : ∀ e ∈ es, e.factor ≠ 0) {rc : List Rc}
    (hrc : rc.map Rc.f = es.map FunElem.factor) (hid : (rc.map Rc.id).Nodup) :
    ∃ out, solve id t sort ex k rc = .ok out ∧ out.1.Perm rc ∧
      -1 ≤ out.2 ∧ out.2 ≤ rc.length ∧ out.2 ≠ (rc.length : Int) - 1 ∧
      bmin ≤ weight (chosen out) rc ∧ weight (chosen out) rc ≤ bmax ∧
      (2 ≤ es.length → ∀ y, bmin ≤ weight y rc → weight y rc ≤ bmax →
        AtLeastAsGood t (cost (chosen out) rc) (cost y rc)) := by
  have := solve_spec (rnd := id) hs hr hne hf hrc hid
  simpa only [summedCost_id] using this

end Bx.Exhaustive
