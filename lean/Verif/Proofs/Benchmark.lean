import Verif.Spec.Benchmark
import Mathlib.Data.List.Basic

/-!
# Lemmas on the array and on the files of a benchmark
-/

namespace Bx.Benchmark

open Bx.Params Bx.Utils Bx.Spec.Benchmark

theorem bindOk {α β : Type} {x : BM α} {f : α → BM β} {b : β} :
    (x >>= f) = .ok b ↔ ∃ a, x = .ok a ∧ f a = .ok b := by
  cases x with
  | error e => simp [Bind.bind, Except.bind]
  | ok a => simp [Bind.bind, Except.bind]

theorem okBind {α β : Type} (a : α) (f : α → BM β) : ((Except.ok a : BM α) >>= f) = f a := rfl

theorem errBind {α β : Type} (s : Stop) (f : α → BM β) :
    ((Except.error s : BM α) >>= f) = .error s := rfl

/-! ## The array -/

/-- The array has lines of `L` cells, holds `n` lines and its first cells are `cells`. -/
structure Holds (a : Dyn) (L n : Nat) (cells : List D) : Prop where
  line : a.lineSize = L
  size : a.size = n
  length : a.data.length = a.capacity * L
  fits : n ≤ a.capacity
  level : ∃ k, a.capacity = full k ∧ (k = 0 ∨ full (k - 1) < n)
  prefix_ : a.data.take cells.length = cells
  inside : cells.length ≤ n * L

theorem full_ge (k : Nat) : 512 ≤ full k := by
  induction k with
  | zero => exact Nat.le_refl _
  | succ k ih => simp only [full]; omega

theorem full_lt (k : Nat) : full k < full (k + 1) := by
  have := full_ge k
  simp only [full]; omega

theorem full_mono {j k : Nat} (h : j < k) : full j < full k := by
  induction k with
  | zero => omega
  | succ k ih =>
    rcases Nat.lt_succ_iff_lt_or_eq.1 h with h | h
    · exact Nat.lt_trans (ih h) (full_lt k)
    · rw [h]; exact full_lt k

theorem full_inj {j k : Nat} (h : full j = full k) : j = k := by
  rcases Nat.lt_trichotomy j k with h' | h' | h'
  · have := full_mono h'; omega
  · exact h'
  · have := full_mono h'; omega

theorem holds_init (L : Nat) : Holds (Dyn.init {} L) L 0 [] where
  line := rfl
  size := rfl
  length := by simp [Dyn.init, resize]
  fits := Nat.zero_le _
  level := ⟨0, rfl, .inl rfl⟩
  prefix_ := rfl
  inside := Nat.zero_le _

theorem holds_push {a : Dyn} {L n : Nat} {cells : List D} (h : Holds a L n cells) :
    Holds a.pushLine L (n + 1) cells := by
  obtain ⟨h1, h2, h3, h4, ⟨k, hk, hk'⟩, h5, h6⟩ := h
  have hk5 := full_ge k
  have hin : cells.length ≤ (n + 1) * L := Nat.le_trans h6 (Nat.mul_le_mul_right _ (by omega))
  unfold Dyn.pushLine
  split
  · rename_i hc
    have hn : n = a.capacity := by omega
    have hlt := full_lt k
    have hcap : a.capacity * L ≤ a.capacity * 3 / 2 * L := Nat.mul_le_mul_right _ (by omega)
    refine ⟨h1, by simp [h2], ?_, by simp only; omega, ⟨k + 1, by simp [full, hk], ?_⟩, ?_, hin⟩
    · simp only [resize, h1, List.length_append, List.length_take, List.length_replicate, h3]
      omega
    · right; simp only [Nat.add_sub_cancel]; omega
    · have hle : cells.length ≤ a.data.length := by rw [h3, ← hn]; exact h6
      simp only [resize, h1]
      rw [List.take_append_of_le_length (by rw [List.length_take, h3]; omega), List.take_take,
        Nat.min_eq_left (by omega)]
      exact h5
  · rename_i hc
    refine ⟨h1, by simp [h2], h3, by simp only; omega, ⟨k, hk, ?_⟩, h5, hin⟩
    rcases hk' with h' | h'
    · exact .inl h'
    · exact .inr (by omega)

theorem holds_set {a : Dyn} {L n i : Nat} {cells : List D} (h : Holds a L (n + 1) cells)
    (hc : cells.length = n * L + i) (hi : i < L) (v : D) :
    ∃ a', a.set (a.size - 1) i v = .ok a' ∧ Holds a' L (n + 1) (cells ++ [v]) := by
  obtain ⟨h1, h2, h3, h4, h7, h5, h6⟩ := h
  have hs : n * L + L ≤ a.capacity * L := by
    have := Nat.mul_le_mul_right L h4
    rwa [Nat.succ_mul] at this
  have hidx : (a.size - 1) * a.lineSize + i = n * L + i := by rw [h2, h1]; rfl
  have hlt : n * L + i < a.data.length := by omega
  refine ⟨{ a with data := a.data.set (n * L + i) v },
    by unfold Dyn.set; rw [hidx, if_pos hlt], h1, h2, by simpa using h3, h4, h7, ?_, ?_⟩
  · simp only [List.length_append, List.length_singleton]
    rw [hc] at h5 ⊢
    rw [List.take_add_one, List.take_set_of_le (Nat.le_refl _), h5]
    simp [hlt]
  · simp only [List.length_append, List.length_singleton, Nat.succ_mul]; omega

theorem holds_get {a : Dyn} {L n : Nat} {cells : List D} (h : Holds a L n cells) {i j : Nat}
    {v : D} (hv : cells[i * L + j]? = some v) : a.get i j = .ok v := by
  have hlt : i * L + j < cells.length := (List.getElem?_eq_some_iff.1 hv).1
  unfold Dyn.get
  rw [h.line]
  have : a.data[i * L + j]? = some v := by
    rw [← hv]
    conv_rhs => rw [← h.prefix_]
    rw [List.getElem?_take_of_lt hlt]
  rw [this]

/-! ## The cells of a list of rows -/

theorem flatten_get : ∀ (rows : List (List D)) (L : Nat), (∀ r ∈ rows, r.length = L) →
    ∀ i j r, rows[i]? = some r → j < L → rows.flatten[i * L + j]? = r[j]?
  | [], _, _, i, j, r, hr, _ => by simp at hr
  | q :: rows, L, h, i, j, r, hr, hj => by
    have hq : q.length = L := h q (by simp)
    cases i with
    | zero =>
      simp only [List.getElem?_cons_zero, Option.some.injEq] at hr
      subst hr
      simp only [List.flatten_cons, Nat.zero_mul, Nat.zero_add]
      rw [List.getElem?_append_left (by omega)]
    | succ i =>
      simp only [List.getElem?_cons_succ] at hr
      have ih := flatten_get rows L (fun r hr => h r (by simp [hr])) i j r hr hj
      simp only [List.flatten_cons, Nat.succ_mul]
      rw [List.getElem?_append_right (by omega), ← ih]
      congr 1
      omega

theorem flatten_length : ∀ (rows : List (List D)) (L : Nat), (∀ r ∈ rows, r.length = L) →
    rows.flatten.length = rows.length * L
  | [], _, _ => by simp
  | q :: rows, L, h => by
    simp only [List.flatten_cons, List.length_append, List.length_cons, Nat.succ_mul,
      flatten_length rows L fun r hr => h r (by simp [hr]), h q (by simp)]
    omega

/-! ## Reading the lines -/

theorem readCells_ok (num : Text → Option D) (ln L n : Nat) :
    ∀ (m i : Nat) (a : Dyn) (cells : List D) (ws : List Text) (a' : Dyn) (rest : List Text),
      i + m = L → Holds a L (n + 1) cells → cells.length = n * L + i →
      readCells num ln m i a ws = .ok (a', rest) →
      ∃ vs, vs.length = m ∧ ws = vs ++ rest ∧
        Holds a' L (n + 1) (cells ++ vs.map (cellOf num))
  | 0, i, a, cells, ws, a', rest, _, h, _, hr => by
    simp only [readCells, Except.ok.injEq, Prod.mk.injEq] at hr
    obtain ⟨rfl, rfl⟩ := hr
    exact ⟨[], rfl, rfl, by simpa using h⟩
  | m + 1, i, a, cells, [], a', rest, _, _, _, hr => by simp [readCells] at hr
  | m + 1, i, a, cells, w :: ws, a', rest, hi, h, hc, hr => by
    obtain ⟨a1, g1, g2⟩ := holds_set h hc (by omega) (cellOf num w)
    rw [readCells, g1, okBind] at hr
    obtain ⟨vs, k1, k2, k3⟩ := readCells_ok num ln L n m (i + 1) a1 _ ws a' rest (by omega) g2
      (by simp [hc]; omega) hr
    exact ⟨w :: vs, by simp [k1], by simp [k2], by simpa using k3⟩

theorem readCells_total (num : Text → Option D) (ln L n : Nat) :
    ∀ (vs : List Text) (i : Nat) (a : Dyn) (cells : List D) (rest : List Text),
      i + vs.length = L → Holds a L (n + 1) cells → cells.length = n * L + i →
      ∃ a', readCells num ln vs.length i a (vs ++ rest) = .ok (a', rest)
  | [], i, a, cells, rest, _, _, _ => ⟨a, rfl⟩
  | w :: vs, i, a, cells, rest, hi, h, hc => by
    simp only [List.length_cons] at hi
    obtain ⟨a1, g1, g2⟩ := holds_set h hc (by omega) (cellOf num w)
    obtain ⟨a', k⟩ := readCells_total num ln L n vs (i + 1) a1 _ rest (by omega) g2
      (by simp [hc]; omega)
    refine ⟨a', ?_⟩
    simp only [List.length_cons, List.cons_append, readCells]
    rw [g1, okBind, k]

/-- What the array of a benchmark holds. -/
def Keeps (num : Text → Option D) (b : Bench) (rows : List (Text × List Text)) : Prop :=
  b.models = rows.map Prod.fst ∧ (∀ r ∈ rows, r.2.length = b.solvers.length) ∧
  (∀ r ∈ rows, nameOk r.1 = true) ∧
  if b.solvers = [] then b.array = {}
  else Holds b.array b.solvers.length rows.length (rows.map fun r => r.2.map (cellOf num)).flatten

theorem readLines_ok (num : Text → Option D) (touch : Bool) :
    ∀ (n ln : Nat) (b b' : Bench) (rows : List (Text × List Text)) (ws : List Text),
      ws.length ≤ n → Keeps num b rows → readLines num touch n ln b ws = .ok b' →
      ∃ more lost, Keeps num b' (rows ++ more) ∧ b'.solvers = b.solvers ∧
        ws = (more.flatMap fun r => r.1 :: r.2) ++ lost ∧
        (lost = [] ∨ touch = true ∧ ∃ w, lost = [w])
  | 0, ln, b, b', rows, ws, hn, h, hr => by
    obtain rfl : ws = [] := List.length_eq_zero_iff.1 (by omega)
    simp only [readLines, Except.ok.injEq] at hr
    subst hr
    exact ⟨[], [], by simpa using h, rfl, rfl, .inl rfl⟩
  | n + 1, ln, b, b', rows, [], hn, h, hr => by
    simp only [readLines, Except.ok.injEq] at hr
    subst hr
    exact ⟨[], [], by simpa using h, rfl, rfl, .inl rfl⟩
  | n + 1, ln, b, b', rows, w :: ws, hn, h, hr => by
    simp only [List.length_cons] at hn
    unfold readLines at hr
    split at hr
    · rename_i ht
      simp only [Bool.and_eq_true, List.isEmpty_iff] at ht
      obtain ⟨rfl, rfl⟩ := ht
      simp only [Except.ok.injEq] at hr
      subst hr
      exact ⟨[], [w], by simpa using h, rfl, rfl, .inr ⟨rfl, w, rfl⟩⟩
    · split at hr
      · cases hr
      · rename_i hw
        simp only [Bool.not_eq_true, Bool.not_eq_false'] at hw
        obtain ⟨h1, h2, h3, h4⟩ := h
        split at hr
        · rename_i hl
          have hne : b.solvers ≠ [] := by intro h0; simp [h0] at hl
          rw [if_neg hne] at h4
          obtain ⟨⟨a, rest⟩, g1, g2⟩ := bindOk.1 hr
          have hlen : ((rows.map fun r => r.2.map (cellOf num)).flatten).length =
              rows.length * b.solvers.length := by
            rw [flatten_length _ b.solvers.length, List.length_map]
            intro r hr
            obtain ⟨q, hq, rfl⟩ := List.mem_map.1 hr
            simpa using h2 q hq
          obtain ⟨vs, k1, k2, k3⟩ := readCells_ok num ln _ rows.length _ 0 _ _ ws a rest
            (Nat.zero_add _) (holds_push h4) (by simpa using hlen) g1
          have hK : Keeps num { b with models := b.models ++ [w], array := a }
              (rows ++ [(w, vs)]) := by
            refine ⟨by simp [h1], ?_, ?_, ?_⟩
            · intro r hr
              rcases List.mem_append.1 hr with hr | hr
              · exact h2 r hr
              · simp only [List.mem_singleton] at hr; subst hr; exact k1
            · intro r hr
              rcases List.mem_append.1 hr with hr | hr
              · exact h3 r hr
              · simp only [List.mem_singleton] at hr; subst hr; exact hw
            · simp only [if_neg hne]
              simpa using k3
          obtain ⟨more, lost, m1, m2, m3, m4⟩ := readLines_ok num touch n (ln + 1) _ b' _ rest
            (by have := congrArg List.length k2; simp at this; omega) hK g2
          refine ⟨(w, vs) :: more, lost, by simpa using m1, m2, ?_, m4⟩
          simp [k2, m3]
        · rename_i hl
          have he : b.solvers = [] := List.length_eq_zero_iff.1 (by omega)
          rw [if_pos he] at h4
          have hK : Keeps num { b with models := b.models ++ [w] } (rows ++ [(w, [])]) := by
            refine ⟨by simp [h1], ?_, ?_, by simpa [he] using h4⟩
            · intro r hr
              rcases List.mem_append.1 hr with hr | hr
              · exact h2 r hr
              · simp only [List.mem_singleton] at hr; subst hr; simp [he]
            · intro r hr
              rcases List.mem_append.1 hr with hr | hr
              · exact h3 r hr
              · simp only [List.mem_singleton] at hr; subst hr; exact hw
          obtain ⟨more, lost, m1, m2, m3, m4⟩ := readLines_ok num touch n (ln + 1) _ b' _ ws
            (by omega) hK hr
          refine ⟨(w, []) :: more, lost, by simpa using m1, m2, ?_, m4⟩
          simp [m3]

end Bx.Benchmark
