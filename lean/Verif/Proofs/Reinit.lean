import Mathlib.Algebra.Order.Field.Rat
import Mathlib.Data.List.Nodup
import Mathlib.Tactic.Linarith
import Mathlib.Tactic.Ring
import Verif.Proofs.Outcome
import Verif.Spec.Reinit

/-! Lemmas about the start of a turn. -/

namespace Bx.Optimizer

open Spec Spec.Reinit

theorem draw_ok {bad : Rat → Bool} {s : Nat → Rat} : ∀ {fuel k : Nat} {v : Rat} {k' : Nat},
    draw bad s fuel k = .ok (v, k') → bad v = false ∧ ∃ j, k ≤ j ∧ v = s j ∧ k' = j + 1
  | 0, _, _, _, h => by simp [draw] at h
  | fuel + 1, k, v, k', h => by
    unfold draw at h
    by_cases hb : bad (s k) = true
    · rw [if_pos hb] at h
      obtain ⟨h1, j, hj, h2⟩ := draw_ok h
      exact ⟨h1, j, by omega, h2⟩
    · rw [if_neg hb] at h
      cases h
      exact ⟨by simpa using hb, k, le_rfl, rfl, rfl⟩

theorem draw_of {bad : Rat → Bool} {s : Nat → Rat} {j : Nat} (hj : bad (s j) = false) :
    ∀ {fuel k : Nat}, k ≤ j → j - k < fuel →
      ∃ i, k ≤ i ∧ i ≤ j ∧ bad (s i) = false ∧ draw bad s fuel k = .ok (s i, i + 1)
  | 0, _, _, h => by omega
  | fuel + 1, k, hk, h => by
    unfold draw
    by_cases hb : bad (s k) = true
    · rw [if_pos hb]
      have : k ≠ j := by rintro rfl; simp [hj] at hb
      obtain ⟨i, h1, h2, h3, h4⟩ := draw_of hj (fuel := fuel) (k := k + 1) (by omega) (by omega)
      exact ⟨i, by omega, h2, h3, h4⟩
    · rw [if_neg hb]
      exact ⟨k, le_rfl, hk, by simpa using hb, rfl⟩

theorem draw_never {bad : Rat → Bool} {s : Nat → Rat} (h : ∀ k, bad (s k) = true) :
    ∀ fuel k, draw bad s fuel k = .error .fuel
  | 0, _ => rfl
  | fuel + 1, k => by unfold draw; rw [if_pos (h k)]; exact draw_never h fuel _

theorem draw_mono {bad : Rat → Bool} {s : Nat → Rat} : ∀ {fuel fuel' k : Nat} {r : Rat × Nat},
    draw bad s fuel k = .ok r → fuel ≤ fuel' → draw bad s fuel' k = .ok r
  | 0, _, _, _, h, _ => by simp [draw] at h
  | fuel + 1, 0, _, _, _, hf => by omega
  | fuel + 1, fuel' + 1, k, r, h, hf => by
    unfold draw at h ⊢
    by_cases hb : bad (s k) = true
    · rw [if_pos hb] at h ⊢; exact draw_mono h (by omega)
    · rw [if_neg hb] at h ⊢; exact h

theorem choose_ok {n : Nat} {s : Nat → Rat} {fuel k i k' : Nat}
    (h : choose n s fuel k = .ok (i, k')) :
    ∃ j, k ≤ j ∧ 0 ≤ s j ∧ s j ≤ 1 ∧ i = ((n : Rat) * s j).floor.toNat ∧ k' = j + 1 := by
  unfold choose at h
  obtain ⟨⟨v, m⟩, hd, h⟩ := bind_eq_ok.1 h
  obtain ⟨hb, j, hj, rfl, rfl⟩ := draw_ok hd
  simp only [Bool.or_eq_false_iff, decide_eq_false_iff_not, not_lt] at hb
  cases h
  exact ⟨j, hj, hb.1, hb.2, rfl, rfl⟩

theorem choose_of {n : Nat} {s : Nat → Rat} {j fuel k : Nat} (h0 : 0 ≤ s j) (h1 : s j ≤ 1)
    (hk : k ≤ j) (hf : j - k < fuel) :
    ∃ i, k ≤ i ∧ i ≤ j ∧ 0 ≤ s i ∧ s i ≤ 1 ∧
      choose n s fuel k = .ok (((n : Rat) * s i).floor.toNat, i + 1) := by
  obtain ⟨i, h1, h2, h3, h4⟩ := draw_of (bad := fun v => decide (v < 0) || decide (1 < v))
    (s := s) (j := j) (by simp [h0, h1]) hk hf
  simp only [Bool.or_eq_false_iff, decide_eq_false_iff_not, not_lt] at h3
  refine ⟨i, h1, h2, h3.1, h3.2, ?_⟩
  unfold choose
  rw [h4]; rfl

theorem choose_const {n : Nat} {s : Nat → Rat} {v : Rat} (hs : ∀ k, s k = v) (h0 : 0 ≤ v)
    (h1 : v ≤ 1) (fuel k : Nat) :
    choose n s (fuel + 1) k = .ok (((n : Rat) * v).floor.toNat, k + 1) := by
  unfold choose draw
  rw [hs k, if_neg (by simp [h0, h1])]
  rfl

theorem floor_lt {n : Nat} {v : Rat} (h0 : 0 ≤ v) (h1 : v < 1) (hn : 0 < n) :
    ((n : Rat) * v).floor.toNat < n := by
  have hn' : (0 : Rat) < n := by exact_mod_cast hn
  have h2 : (n : Rat) * v < n := by nlinarith
  have h3 : ((n : Rat) * v).floor < (n : Int) := by
    rw [Rat.floor_lt_iff]; exact_mod_cast h2
  omega

theorem floor_eq {n i : Nat} {v : Rat} (h0 : (i : Rat) ≤ n * v) (h1 : n * v < i + 1) :
    ((n : Rat) * v).floor.toNat = i := by
  have h2 : ((n : Rat) * v).floor < (i : Int) + 1 := by
    rw [Rat.floor_lt_iff]; push_cast; exact h1
  have h3 : (i : Int) ≤ ((n : Rat) * v).floor := by
    rw [Rat.le_floor_iff]; exact_mod_cast h0
  omega

theorem index_ok {st : Storage} {i id : Nat} (h : st.index i = .ok id) :
    st.indices[i]? = some id := by
  unfold Storage.index at h
  cases hi : st.indices[i]? with
  | none => rw [hi] at h; cases h
  | some x => rw [hi] at h; cases h; rfl

theorem index_lt {n : Nat} {st : Storage} (hp : Population n st) {i : Nat} (hi : i < n) :
    ∃ id, st.index i = .ok id ∧ id < n ∧ st.indices[i]? = some id := by
  have hl : st.indices.length = n := by rw [hp.2.length_eq, List.length_range]
  have hi' : i < st.indices.length := by omega
  refine ⟨st.indices[i], ?_, ?_, ?_⟩
  · unfold Storage.index; rw [List.getElem?_eq_getElem hi']
  · exact List.mem_range.1 (hp.2.mem_iff.1 (List.getElem_mem hi'))
  · rw [List.getElem?_eq_getElem hi']

theorem index_ge {n : Nat} {st : Storage} (hp : Population n st) {i : Nat} (hi : n ≤ i) :
    st.index i = .error (.ub "m_indices[i]") := by
  have hl : st.indices.length = n := by rw [hp.2.length_eq, List.length_range]
  unfold Storage.index; rw [List.getElem?_eq_none (by omega)]

theorem index_inj {n : Nat} {st : Storage} (hp : Population n st) {i j id : Nat}
    (hi : st.indices[i]? = some id) (hj : st.indices[j]? = some id) : i = j := by
  have hnd : st.indices.Nodup := hp.2.nodup_iff.2 List.nodup_range
  have h1 := (List.getElem?_eq_some_iff.1 hi)
  have h2 := (List.getElem?_eq_some_iff.1 hj)
  obtain ⟨a, ha⟩ := h1
  obtain ⟨b, hb⟩ := h2
  exact (List.Nodup.getElem_inj_iff hnd).1 (ha.trans hb.symm)

theorem entry_lt {n : Nat} {st : Storage} (hp : Population n st) {id : Nat} (hi : id < n) :
    ∃ e, st.entry id = .ok e ∧ st.data[id]? = some e := by
  have : id < st.data.length := by rw [hp.1]; exact hi
  refine ⟨st.data[id], ?_, List.getElem?_eq_getElem this⟩
  unfold Storage.entry; rw [List.getElem?_eq_getElem this]

theorem floor_bounds {n : Nat} {v : Rat} (h0 : 0 ≤ v) :
    (((n : Rat) * v).floor.toNat : Rat) ≤ n * v ∧ n * v < ((n : Rat) * v).floor.toNat + 1 := by
  have hnn : (0 : Rat) ≤ n * v := mul_nonneg (by exact_mod_cast Nat.zero_le n) h0
  have h1 : (0 : Int) ≤ ((n : Rat) * v).floor := by
    rw [Rat.le_floor_iff]; exact_mod_cast hnn
  have h2 : ((((n : Rat) * v).floor.toNat : Int) : Rat) = (((n : Rat) * v).floor : Rat) := by
    rw [Int.toNat_of_nonneg h1]
  have h3 : (((n : Rat) * v).floor : Rat) ≤ n * v := Rat.le_floor_iff.1 le_rfl
  have h4 : (n : Rat) * v < ((((n : Rat) * v).floor + 1 : Int) : Rat) :=
    Rat.floor_lt_iff.1 (by omega)
  push_cast at h2 h4
  rw [h2]
  exact ⟨h3, h4⟩

theorem chosen_of {n : Nat} {st : Storage} {d : Draws} {m id : Nat} (h0 : 0 ≤ d.sel m)
    (h1 : d.sel m ≤ 1) (h : st.index ((n : Rat) * d.sel m).floor.toNat = .ok id) :
    Chosen n st d id :=
  ⟨m, _, h0, h1, (floor_bounds h0).1, (floor_bounds h0).2, index_ok h⟩

theorem chooseOther_ok {st : Storage} {n id : Nat} {s : Nat → Rat} {inner : Nat} :
    ∀ {fuel k j : Nat}, chooseOther st n id s inner fuel k = .ok j →
      ∃ id', st.index j = .ok id' ∧ id ≠ id' ∧
        ∃ m, 0 ≤ s m ∧ s m ≤ 1 ∧ j = ((n : Rat) * s m).floor.toNat
  | 0, _, _, h => by simp [chooseOther] at h
  | fuel + 1, k, j, h => by
    unfold chooseOther at h
    obtain ⟨⟨j', k'⟩, hc, h⟩ := bind_eq_ok.1 h
    obtain ⟨id', hi, h⟩ := bind_eq_ok.1 h
    by_cases he : id = id'
    · rw [if_pos he] at h; exact chooseOther_ok h
    · rw [if_neg he] at h
      cases h
      obtain ⟨m, _, h0, h1, hj, _⟩ := choose_ok hc
      exact ⟨id', hi, he, m, h0, h1, hj⟩

theorem chooseOther_of {st : Storage} {n : Nat} (hp : Population n st) {first id : Nat}
    (hid : st.indices[first]? = some id) {s : Nat → Rat}
    (hone : ∀ k, s k ≠ 1) {i j : Nat} (hi : i < n) (hif : i ≠ first) (h0 : (i : Rat) ≤ n * s j)
    (h1 : n * s j < i + 1) {inner : Nat} (hin : j < inner) :
    ∀ {fuel k : Nat}, k ≤ j → j - k < fuel →
      ∃ r, chooseOther st n id s inner fuel k = .ok r
  | 0, _, _, h => by omega
  | fuel + 1, k, hk, hf => by
    have hn : 0 < n := by omega
    have hn' : (0 : Rat) < n := by exact_mod_cast hn
    have hi1 : (i : Rat) + 1 ≤ n := by exact_mod_cast hi
    have hi0 : (0 : Rat) ≤ i := by exact_mod_cast Nat.zero_le i
    have hs0 : 0 ≤ s j := by
      by_contra hc; rw [not_le] at hc; nlinarith
    have hs1 : s j ≤ 1 := by
      by_contra hc; rw [not_le] at hc; nlinarith
    obtain ⟨m, hm1, hm2, hm3, hm4, hm5⟩ :=
      choose_of (n := n) (fuel := inner) hs0 hs1 hk (by omega)
    have hlt : ((n : Rat) * s m).floor.toNat < n :=
      floor_lt hm3 (lt_of_le_of_ne hm4 (hone m)) hn
    obtain ⟨id', hx, _, hx'⟩ := index_lt hp hlt
    unfold chooseOther
    rw [hm5]
    simp only [ok_bind]
    rw [hx]
    simp only [ok_bind]
    by_cases he : id = id'
    · rw [if_pos he]
      subst he
      have hfm : first = ((n : Rat) * s m).floor.toNat := index_inj hp hid hx'
      have hmj : m ≠ j := by
        rintro rfl
        rw [floor_eq h0 h1] at hfm
        exact hif hfm.symm
      exact chooseOther_of hp hid hone hi hif h0 h1 hin (by omega) (by omega)
    · rw [if_neg he]; exact ⟨_, rfl⟩

/-- The same place is drawn for ever. -/
theorem chooseOther_never {st : Storage} {n id : Nat} {s : Nat → Rat} {inner : Nat} {v : Rat}
    (hs : ∀ k, s k = v) (h0 : 0 ≤ v) (h1 : v ≤ 1)
    (hid : st.index ((n : Rat) * v).floor.toNat = .ok id) :
    ∀ fuel k, chooseOther st n id s inner fuel k = .error .fuel
  | 0, _ => rfl
  | fuel + 1, k => by
    unfold chooseOther
    cases inner with
    | zero => rfl
    | succ inner =>
      rw [choose_const hs h0 h1]
      simp only [ok_bind]
      rw [hid]
      simp only [ok_bind, if_pos]
      exact chooseOther_never hs h0 h1 hid fuel _

theorem drawCross_never {n : Nat} {st : Storage} (hp : Population n st) {d : Draws} {v : Rat}
    (hs : ∀ k, d.sel k = v) (h0 : 0 ≤ v) (h1 : v < 1) (hn : 0 < n) (hi : d.insert = false)
    (fuel : Nat) : drawCross st d fuel = .error .fuel := by
  unfold drawCross
  rw [if_neg (by rw [hi]; exact Bool.false_ne_true), hp.1]
  cases fuel with
  | zero => rfl
  | succ fuel =>
    rw [choose_const hs h0 h1.le]
    simp only [ok_bind]
    obtain ⟨id, hid, _⟩ := index_lt hp (floor_lt h0 h1 hn)
    rw [hid]
    simp only [ok_bind]
    rw [chooseOther_never hs h0 h1.le hid]
    rfl

theorem draw_error {bad : Rat → Bool} {s : Nat → Rat} : ∀ {fuel k : Nat} {e : Fault},
    draw bad s fuel k = .error e → e = .fuel
  | 0, _, _, h => by cases h; rfl
  | fuel + 1, k, e, h => by
    unfold draw at h
    by_cases hb : bad (s k) = true
    · rw [if_pos hb] at h; exact draw_error h
    · rw [if_neg hb] at h; cases h

theorem mutation_error {t : Tuning} {d : Draws} {n fuel : Nat} {e : Fault}
    (h : mutation t d n fuel = .error e) : e = .fuel := by
  unfold mutation at h
  by_cases hv : t.valMean = 0 ∧ t.valDev = 0
  · rw [if_pos hv] at h; cases h
  · rw [if_neg hv] at h
    cases h1 : draw (fun v => decide (v ≤ 0) || decide (1 ≤ v)) d.var fuel 0 with
    | error e' => rw [h1] at h; cases h; exact draw_error h1
    | ok r =>
      rw [h1] at h
      simp only [ok_bind] at h
      cases h2 : draw (fun v => decide (v < 0) || decide (1 < v)) d.val fuel 0 with
      | error e' => rw [h2] at h; cases h; exact draw_error h2
      | ok r => rw [h2] at h; cases h

theorem mutation_ok {t : Tuning} {d : Draws} {n fuel : Nat} {m : Assign → Assign}
    (h : mutation t d n fuel = .ok m) :
    ((t.valMean = 0 ∧ t.valDev = 0) ∧ m = id) ∨
      (¬ (t.valMean = 0 ∧ t.valDev = 0) ∧ ∀ x, MutationOf d n x (m x)) := by
  unfold mutation at h
  by_cases hv : t.valMean = 0 ∧ t.valDev = 0
  · rw [if_pos hv] at h; cases h; exact Or.inl ⟨hv, rfl⟩
  · rw [if_neg hv] at h
    obtain ⟨⟨p, k⟩, hp, h⟩ := bind_eq_ok.1 h
    obtain ⟨⟨q, k'⟩, hq, h⟩ := bind_eq_ok.1 h
    obtain ⟨hp1, j, _, hp2, _⟩ := draw_ok hp
    obtain ⟨hq1, j', _, hq2, _⟩ := draw_ok hq
    simp only [Bool.or_eq_false_iff, decide_eq_false_iff_not, not_lt, not_le] at hp1 hq1
    cases h
    refine Or.inr ⟨hv, fun x => ⟨p, q, hp1.1, hp1.2, hq1.1, hq1.2, ⟨j, hp2.symm⟩, ⟨j', hq2.symm⟩,
      fun i => ?_⟩⟩
    simp [Bool.and_eq_true]

theorem mutation_mutated {t : Tuning} {d : Draws} {n fuel : Nat} {m : Assign → Assign}
    (h : mutation t d n fuel = .ok m) (x : Assign) : Mutated t d n x (m x) := by
  unfold Mutated
  rcases mutation_ok h with ⟨hv, rfl⟩ | ⟨hv, hm⟩
  · rw [if_pos hv]; rfl
  · rw [if_neg hv]; exact hm x

theorem mutation_of {t : Tuning} {d : Draws} (n : Nat)
    (h : (t.valMean = 0 ∧ t.valDev = 0) ∨ UsualMutation d.var d.val) :
    ∃ f0, ∀ fuel, f0 ≤ fuel → ∃ m, mutation t d n fuel = .ok m := by
  by_cases hv : t.valMean = 0 ∧ t.valDev = 0
  · exact ⟨0, fun fuel _ => ⟨id, by unfold mutation; rw [if_pos hv]⟩⟩
  · obtain ⟨⟨j, hj1, hj2⟩, j', hj3, hj4⟩ := h.resolve_left hv
    refine ⟨j + j' + 1, fun fuel hf => ?_⟩
    obtain ⟨i, _, _, _, hi⟩ := draw_of (bad := fun v => decide (v ≤ 0) || decide (1 ≤ v))
      (s := d.var) (j := j) (fuel := fuel) (by simp [hj1, hj2]) (Nat.zero_le _) (by omega)
    obtain ⟨i', _, _, _, hi'⟩ := draw_of (bad := fun v => decide (v < 0) || decide (1 < v))
      (s := d.val) (j := j') (fuel := fuel) (by simp [hj3, hj4]) (Nat.zero_le _) (by omega)
    unfold mutation
    rw [if_neg hv, hi]
    simp only [ok_bind]
    rw [hi']
    exact ⟨_, rfl⟩

theorem startTurn_ok {g : Setting} {t : Tuning} {n : Nat} {d : Draws} {fuel : Nat} {a : Rat}
    {w : Worker} {s : Start} (h : startTurn g t n d fuel a w = .ok s) :
    (a < t.stop ∧ s.crossed = false ∧ s.append = a + t.increase ∧
        s.kappa = t.kappaMin + (t.kappaMax - t.kappaMin) * (a + t.increase) ∧
        s.worker.storage = w.storage ∧
        ∃ m, mutation t d n fuel = .ok m ∧ s.worker = { w with x := m w.x }) ∨
      (t.stop ≤ a ∧ s.crossed = true ∧ s.append = t.start ∧ s.kappa = t.kappaMin ∧
        ∃ c x st m, drawCross w.storage d fuel = .ok c ∧
          crossover g c w.x w.storage = .ok (x, st) ∧ mutation t d n fuel = .ok m ∧
          s.worker = { w with x := m x, storage := st }) := by
  unfold startTurn at h
  by_cases ha : a < t.stop
  · rw [if_pos ha] at h
    obtain ⟨m, hm, h⟩ := bind_eq_ok.1 h
    cases h
    exact Or.inl ⟨ha, rfl, rfl, rfl, rfl, m, hm, rfl⟩
  · rw [if_neg ha] at h
    obtain ⟨c, hc, h⟩ := bind_eq_ok.1 h
    obtain ⟨⟨x, st⟩, hx, h⟩ := bind_eq_ok.1 h
    obtain ⟨m, hm, h⟩ := bind_eq_ok.1 h
    cases h
    exact Or.inr ⟨not_lt.1 ha, rfl, rfl, rfl, c, x, st, m, hc, hx, hm, rfl⟩

theorem turns_length {g : Setting} {t : Tuning} {n : Nat} {d : Nat → Draws} {fuel : Nat}
    {after : Nat → Worker → Worker} {w : Worker} : ∀ {k : Nat} {l : List Start} {a : Rat}
    {w' : Worker}, turns g t n d fuel after w k = .ok (l, a, w') → l.length = k
  | 0, _, _, _, h => by cases h; rfl
  | k + 1, l, a, w', h => by
    unfold turns at h
    obtain ⟨⟨l', a', w1⟩, h1, h⟩ := bind_eq_ok.1 h
    obtain ⟨s, _, h⟩ := bind_eq_ok.1 h
    cases h
    simp [turns_length h1]

/-- Each turn starts from the state that the one before it left. -/
theorem turns_get {g : Setting} {t : Tuning} {n : Nat} {d : Nat → Draws} {fuel : Nat}
    {after : Nat → Worker → Worker} {w : Worker} : ∀ {k : Nat} {l : List Start} {a : Rat}
    {w' : Worker}, turns g t n d fuel after w k = .ok (l, a, w') →
    (∀ s, l.getLast? = some s → a = s.append) ∧ (l = [] → a = 0) ∧
    ∀ (m : Nat) (s : Start), l[m]? = some s → ∃ am wm, startTurn g t n (d m) fuel am wm = .ok s ∧
      (m = 0 → am = 0) ∧ ∀ p, m = p + 1 → ∃ s' : Start, l[p]? = some s' ∧ am = s'.append
  | 0, _, _, _, h => by cases h; simp
  | k + 1, l, a, w', h => by
    unfold turns at h
    obtain ⟨⟨l', a', w1⟩, h1, h⟩ := bind_eq_ok.1 h
    obtain ⟨s, hs, h⟩ := bind_eq_ok.1 h
    cases h
    obtain ⟨i1, i2, i3⟩ := turns_get h1
    have hlen := turns_length h1
    refine ⟨by simp, by simp, fun m s' hm => ?_⟩
    rcases Nat.lt_or_ge m l'.length with hlt | hge
    · rw [List.getElem?_append_left hlt] at hm
      obtain ⟨am, wm, j1, j2, j3⟩ := i3 m s' hm
      refine ⟨am, wm, j1, j2, fun p hp => ?_⟩
      obtain ⟨s2, j4, j5⟩ := j3 p hp
      exact ⟨s2, by rw [List.getElem?_append_left (by omega)]; exact j4, j5⟩
    · rw [List.getElem?_append_right hge] at hm
      have hmk : m = k := by
        have := (List.getElem?_eq_some_iff.1 hm).1
        simp at this
        omega
      subst hmk
      rw [show m - l'.length = 0 by omega] at hm
      cases hm
      refine ⟨a', w1, hs, fun h0 => ?_, fun p hp => ?_⟩
      · exact i2 (List.eq_nil_of_length_eq_zero (by omega))
      · have hne : l' ≠ [] := by rintro rfl; simp at hlen; omega
        have hl : l'.getLast? = some (l'.getLast hne) := List.getLast?_eq_some_getLast hne
        refine ⟨l'.getLast hne, ?_, i1 _ hl⟩
        rw [List.getElem?_append_left (by omega), ← hl, List.getLast?_eq_getElem?]
        congr 1
        omega

/-- The draws of a crossover, then the crossover. -/
theorem cross_of {g : Setting} {n : Nat} {w : Worker} (hp : Population n w.storage) (hn : 2 ≤ n)
    {d : Draws} (hu : Usual n d.sel) :
    ∃ f0, ∀ fuel, f0 ≤ fuel → ∃ c r, drawCross w.storage d fuel = .ok c ∧
      crossover g c w.x w.storage = .ok r := by
  have hn' : (0 : Rat) < n := by exact_mod_cast (by omega : 0 < n)
  obtain ⟨j, _, hj1, hj2⟩ := hu.again 0 (by omega) 0
  have hn2 : (2 : Rat) ≤ n := by exact_mod_cast hn
  have h0 : 0 ≤ d.sel j := by
    by_contra hc; rw [not_le] at hc; push_cast at hj1; nlinarith
  have h1 : d.sel j ≤ 1 := by
    by_contra hc; rw [not_le] at hc; push_cast at hj2; nlinarith
  by_cases hi : d.insert = true
  · refine ⟨j + 1, fun fuel hf => ?_⟩
    obtain ⟨i, _, _, hi0, hi1, hc⟩ := choose_of (n := n) (fuel := fuel) h0 h1 (Nat.zero_le _)
      (by omega)
    obtain ⟨id, hid, hlt, _⟩ := index_lt hp
      (floor_lt hi0 (lt_of_le_of_ne hi1 (hu.notOne i)) (by omega))
    obtain ⟨e, he, _⟩ := entry_lt hp hlt
    unfold drawCross
    rw [if_pos hi, hp.1, hc]
    simp only [ok_bind]
    have hr : ∀ e', w.storage.replace id e' =
        .ok { w.storage with data := w.storage.data.set id e' } := fun e' => by
      unfold Storage.replace; rw [if_pos (by rw [hp.1]; exact hlt)]
    cases d.coin1 <;> cases d.coin2 <;>
      exact ⟨_, _, rfl, by
        unfold crossover
        simp only []
        rw [hid]; simp only [ok_bind]; rw [he]; simp only [ok_bind]
        first | rfl | (rw [hr]; rfl)⟩
  · -- two different ranks below `n`, one of them is not the first
    obtain ⟨f, _, _, hf0, hf1, hcf⟩ := choose_of (n := n) (fuel := j + 1) h0 h1 (Nat.zero_le _)
      (by omega)
    have hflt : ((n : Rat) * d.sel f).floor.toNat < n :=
      floor_lt hf0 (lt_of_le_of_ne hf1 (hu.notOne f)) (by omega)
    obtain ⟨i, hin, hif⟩ : ∃ i, i < n ∧ i ≠ ((n : Rat) * d.sel f).floor.toNat := by
      by_cases h : ((n : Rat) * d.sel f).floor.toNat = 0
      · exact ⟨1, by omega, by omega⟩
      · exact ⟨0, by omega, by omega⟩
    obtain ⟨m, hm0, hm1, hm2⟩ := hu.again i hin (f + 1)
    refine ⟨j + m + 1, fun fuel hfu => ?_⟩
    have hc : choose n d.sel fuel 0 = .ok (((n : Rat) * d.sel f).floor.toNat, f + 1) := by
      unfold choose at hcf ⊢
      obtain ⟨⟨v, k⟩, hd, hh⟩ := bind_eq_ok.1 hcf
      rw [draw_mono hd (by omega)]
      exact hh
    obtain ⟨id, hid, hlt, hid'⟩ := index_lt hp hflt
    obtain ⟨e, he, _⟩ := entry_lt hp hlt
    obtain ⟨r, hr⟩ := chooseOther_of hp hid' hu.notOne hin hif hm1 hm2 (inner := fuel) (by omega)
      (fuel := fuel) (k := f + 1) hm0 (by omega)
    obtain ⟨id2, hid2, _⟩ := chooseOther_ok hr
    have hid2' := index_ok hid2
    have hlt2 : id2 < n := List.mem_range.1 (hp.2.mem_iff.1 (List.mem_of_getElem? hid2'))
    obtain ⟨e2, he2, _⟩ := entry_lt hp hlt2
    refine ⟨.mix ((n : Rat) * d.sel f).floor.toNat r d.mask, (mixture d.mask e.x e2.x, w.storage), ?_, ?_⟩
    · unfold drawCross
      rw [if_neg hi, hp.1, hc]
      simp only [ok_bind]
      rw [hid]
      simp only [ok_bind]
      rw [hr]
      rfl
    · unfold crossover
      simp only []
      rw [hid]; simp only [ok_bind]; rw [hid2]; simp only [ok_bind]; rw [he]; simp only [ok_bind]
      rw [he2]; rfl

end Bx.Optimizer
