import Mathlib.Tactic.Linarith
import Mathlib.Tactic.Ring
import Mathlib.Tactic.FieldSimp
import Mathlib.Algebra.Order.Floor.Semiring
import Mathlib.Algebra.Order.Floor.Ring
import Verif.Model.Observer
import Verif.Spec.Observer
import Verif.Proofs.Outcome
import Verif.Proofs.SparseMatrix

/-! Lemmas for the observers. -/

namespace Bx.Observer

open Params (D longMax)
open Sparse (Matrix row RowValue)
open Spec

/-! ## Colours -/

def Rgb.triple (c : Rgb) : Colour := (c.red, c.green, c.blue)

theorem toByte_eq {q : Rat} (h0 : 0 ≤ q) (h1 : q ≤ 1) : toByte (q * 255) = .ok ⌊255 * q⌋₊ := by
  unfold toByte
  rw [if_pos ⟨by linarith, by linarith⟩, mul_comm]
  rfl

theorem channels_eq {q : Rat} (h0 : -1 ≤ q) (h1 : q ≤ 1) :
    channels (-1) 1 q = (max 0 (min 1 (2 * (q + 1) - 2)), min 1 (min (2 * (q + 1)) (4 - 2 * (q + 1))),
      max 0 (min 1 (2 - 2 * (q + 1)))) := by
  unfold channels
  dsimp only
  split
  · rw [min_eq_right (by linarith), max_eq_left (by linarith), min_eq_left (a := 2 * (q + 1)) (by linarith),
      min_eq_right (by linarith), min_eq_left (by linarith), max_eq_right (by linarith)]
    refine Prod.ext rfl (Prod.ext ?_ rfl)
    show _ = _
    ring
  split
  · rw [min_eq_right (by linarith), max_eq_left (by linarith),
      min_eq_left (a := (1 : Rat)) (b := min _ _) (le_min (by linarith) (by linarith)),
      min_eq_right (by linarith), max_eq_right (by linarith)]
    refine Prod.ext rfl (Prod.ext rfl ?_)
    show _ = _
    ring
  split
  · rw [min_eq_right (by linarith), max_eq_right (by linarith),
      min_eq_left (a := (1 : Rat)) (b := min _ _) (le_min (by linarith) (by linarith)),
      min_eq_right (by linarith), max_eq_left (by linarith)]
    refine Prod.ext ?_ (Prod.ext rfl rfl)
    show _ = _
    ring
  · rw [min_eq_left (by linarith), max_eq_right (by linarith),
      min_eq_right (a := 2 * (q + 1)) (by linarith), min_eq_right (by linarith),
      min_eq_right (by linarith), max_eq_left (by linarith)]
    refine Prod.ext rfl (Prod.ext ?_ rfl)
    show _ = _
    ring

def rgbOf (c : Colour) : Rgb := ⟨c.1, c.2.1, c.2.2⟩

theorem colormap_fin {q : Rat} (h0 : -1 ≤ q) (h1 : q ≤ 1) :
    colormap (-1) 1 (.fin q) = .ok (rgbOf (shade q)) := by
  unfold colormap
  have e1 : (D.fin q).lt (.fin (-1)) = false := by simp [D.lt, h0]
  have e2 : (D.fin 1).lt (.fin q) = false := by simp [D.lt, h1]
  simp only [e1, e2, Bool.false_eq_true, if_false, channels_eq h0 h1]
  rw [toByte_eq (by simp) (by simp), toByte_eq (le_min (by norm_num) (le_min (by linarith) (by linarith)))
    (min_le_left _ _), toByte_eq (by simp) (by simp)]
  rfl

theorem colormap_eq {v : D} {q : Rat} (h : nearest v = some q) :
    colormap (-1) 1 v = .ok (rgbOf (shade q)) := by
  have hc : ∀ w, (if (D.fin 1).lt (if v.lt (.fin (-1)) then .fin (-1) else v) then D.fin 1 else
      (if v.lt (.fin (-1)) then .fin (-1) else v)) = w → ∀ q, w = .fin q → -1 ≤ q → q ≤ 1 →
      colormap (-1) 1 v = .ok (rgbOf (shade q)) := by
    intro w hw q hq h0 h1
    rw [← colormap_fin h0 h1]
    subst hq
    have e1 : (D.fin q).lt (.fin (-1)) = false := by simp [D.lt, h0]
    have e2 : (D.fin 1).lt (.fin q) = false := by simp [D.lt, h1]
    unfold colormap
    simp only [hw, e1, e2, Bool.false_eq_true, if_false]
  cases v with
  | nan => cases h
  | ninf => cases h; exact hc _ rfl _ rfl (by norm_num) (by norm_num)
  | pinf => cases h; exact hc _ rfl _ rfl (by norm_num) (by norm_num)
  | fin p =>
    cases h
    refine hc _ rfl _ ?_ (le_max_left _ _) (max_le (by norm_num) (min_le_left _ _))
    by_cases h1 : p < -1
    · have e1 : (D.fin p).lt (.fin (-1)) = true := by simp [D.lt, h1]
      have e2 : (D.fin 1).lt (.fin (-1)) = false := by simp [D.lt]
      simp only [e1, e2, if_true, Bool.false_eq_true, if_false]
      rw [max_eq_left]
      rw [min_eq_right (by linarith)]; linarith
    · have e1 : (D.fin p).lt (.fin (-1)) = false := by simpa [D.lt] using h1
      simp only [e1, Bool.false_eq_true, if_false]
      by_cases h2 : 1 < p
      · have e2 : (D.fin 1).lt (.fin p) = true := by simp [D.lt, h2]
        rw [e2, if_pos rfl, min_eq_left (by linarith), max_eq_right (by norm_num)]
      · have e2 : (D.fin 1).lt (.fin p) = false := by simpa [D.lt] using h2
        rw [e2, if_neg (by simp), min_eq_right (by linarith), max_eq_right (by linarith)]

theorem nearest_range {v : D} {q : Rat} (h : nearest v = some q) : -1 ≤ q ∧ q ≤ 1 := by
  cases v with
  | nan => cases h
  | ninf => cases h; norm_num
  | pinf => cases h; norm_num
  | fin p =>
    cases h
    exact ⟨le_max_left _ _, max_le (by norm_num) (min_le_left _ _)⟩

theorem floor_gap {q : Rat} (h : 0 ≤ q) : ((⌊255 * q⌋₊ : Nat) : Rat) / 255 ≤ q ∧
    q < ((⌊255 * q⌋₊ : Nat) : Rat) / 255 + 1 / 255 := by
  have h1 := Nat.floor_le (a := 255 * q) (by linarith)
  have h2 := Nat.lt_floor_add_one (255 * q)
  constructor
  · rw [div_le_iff₀ (by norm_num)]; linarith
  · rw [← add_div, lt_div_iff₀ (by norm_num)]; linarith

theorem floor_full {q : Rat} (h : 1 ≤ q) (h' : q ≤ 1) : ⌊255 * q⌋₊ = 255 := by
  have : q = 1 := le_antisymm h' h
  subst this
  norm_num

theorem floor_lt_full {q : Rat} (h0 : 0 ≤ q) (h : q < 1) : ⌊255 * q⌋₊ ≠ 255 := by
  have h1 := Nat.floor_le (a := 255 * q) (by linarith)
  intro e
  rw [e] at h1
  norm_num at h1
  linarith

theorem floor_le_full {q : Rat} (h : q ≤ 1) : ⌊255 * q⌋₊ ≤ 255 := by
  rw [← Nat.floor_natCast (R := Rat) 255]
  exact Nat.floor_le_floor (by push_cast; linarith)

theorem told_shade {q : Rat} (h0 : -1 ≤ q) (h1 : q ≤ 1) : |told (shade q) - q| ≤ 1 / 510 := by
  obtain ⟨t, ht⟩ : ∃ t, t = 2 * (q + 1) := ⟨_, rfl⟩
  have hq : q = t / 2 - 1 := by rw [ht]; ring
  have t0 : 0 ≤ t := by rw [ht]; linarith
  have t1 : t ≤ 4 := by rw [ht]; linarith
  suffices h : ∀ s : Rat, told (shade q) = s / 2 - 1 → |s - t| ≤ 1 / 255 → |told (shade q) - q| ≤ 1 / 510 by
    unfold told shade at h ⊢
    dsimp only at h ⊢
    rw [← ht] at h ⊢
    refine h _ rfl ?_
    clear h hq ht
    by_cases a : t ≤ 1
    · rw [min_eq_left (a := t) (by linarith), min_eq_right (a := (1 : Rat)) (b := t) (by linarith)]
      have e : ⌊255 * max 0 (min 1 (2 - t))⌋₊ = 255 :=
        floor_full (le_max_of_le_right (le_min le_rfl (by linarith))) (by simp)
      rw [if_pos e]
      obtain ⟨x, y⟩ := floor_gap t0
      rw [abs_le]; constructor <;> linarith
    by_cases b : t < 2
    · have e : max 0 (min 1 (2 - t)) = 2 - t := by
        rw [min_eq_right (by linarith), max_eq_right (by linarith)]
      rw [e, if_neg (floor_lt_full (by linarith) (by linarith))]
      obtain ⟨x, y⟩ := floor_gap (q := 2 - t) (by linarith)
      split
      · rw [abs_le]; constructor <;> linarith
      · rename_i hb
        rw [not_not] at hb
        rw [hb] at x y
        have er : max 0 (min 1 (t - 2)) = 0 := by
          rw [min_eq_right (by linarith), max_eq_left (by linarith)]
        rw [er, if_pos (by norm_num)]
        norm_num at x y ⊢
        rw [abs_le]; constructor <;> linarith
    have e : max 0 (min 1 (2 - t)) = 0 := by
      rw [min_eq_right (by linarith), max_eq_left (by linarith)]
    rw [e, if_neg (by norm_num), if_neg (by norm_num)]
    by_cases c : t < 3
    · have er : max 0 (min 1 (t - 2)) = t - 2 := by
        rw [min_eq_right (by linarith), max_eq_right (by linarith)]
      rw [er, if_pos (floor_lt_full (by linarith) (by linarith))]
      obtain ⟨x, y⟩ := floor_gap (q := t - 2) (by linarith)
      rw [abs_le]; constructor <;> linarith
    · have er : max 0 (min 1 (t - 2)) = 1 := by
        rw [min_eq_left (by linarith), max_eq_right (by linarith)]
      rw [er, if_neg (by norm_num), min_eq_right (a := t) (by linarith), min_eq_right (by linarith)]
      obtain ⟨x, y⟩ := floor_gap (q := 4 - t) (by linarith)
      rw [abs_le]; constructor <;> linarith
  intro s hs h
  rw [hs, hq]
  rw [abs_le] at h ⊢
  constructor <;> linarith

theorem shade_range (q : Rat) : (shade q).1 ≤ 255 ∧ (shade q).2.1 ≤ 255 ∧ (shade q).2.2 ≤ 255 :=
  ⟨floor_le_full (by simp), floor_le_full (min_le_left _ _), floor_le_full (by simp)⟩

/-! ## Bytes of images -/

/-- The bytes of the pixels. -/
def flat (w h : Nat) (px : Nat → Nat → Colour) : List Nat :=
  (List.range h).flatMap fun k => (List.range w).flatMap fun j =>
    [(px k j).1, (px k j).2.1, (px k j).2.2]

theorem flatMap_range_get {α : Type} {f : Nat → List α} {L : Nat} (hf : ∀ i, (f i).length = L)
    {q r n : Nat} (hr : r < L) (hq : q < n) :
    ((List.range n).flatMap f)[q * L + r]? = (f q)[r]? := by
  induction n with
  | zero => omega
  | succ n ih =>
    have hl : ((List.range n).flatMap f).length = n * L := by
      rw [List.length_flatMap]
      simp [hf]
    rw [List.range_succ, List.flatMap_append, List.flatMap_singleton]
    by_cases h : q < n
    · have : q * L + r < n * L := by
        have : (q + 1) * L ≤ n * L := Nat.mul_le_mul_right _ h
        rw [Nat.add_mul] at this
        omega
      rw [List.getElem?_append_left (by omega), ih h]
    · have : q = n := by omega
      subst this
      rw [List.getElem?_append_right (by omega), hl]
      congr 1
      omega

theorem flat_length (w h : Nat) (px : Nat → Nat → Colour) : (flat w h px).length = h * (w * 3) := by
  unfold flat
  rw [List.length_flatMap]
  simp [List.length_flatMap]

theorem flat_get {w h : Nat} (px : Nat → Nat → Colour) {k j d : Nat} (hk : k < h) (hj : j < w)
    (hd : d < 3) : (flat w h px)[(k * w + j) * 3 + d]? =
      [(px k j).1, (px k j).2.1, (px k j).2.2][d]? := by
  have e : (k * w + j) * 3 + d = k * (w * 3) + (j * 3 + d) := by ring
  unfold flat
  rw [e, flatMap_range_get (L := w * 3) (by intro i; simp [List.length_flatMap]) (by omega) hk,
    flatMap_range_get (L := 3) (by intro i; rfl) hd hj]

theorem addr_eq {w a b k j : Nat} (hb : b < w) (hj : j < w) (h : a * w + b = k * w + j) :
    a = k ∧ b = j := by
  have h1 : (a * w + b) / w = a := by
    rw [Nat.mul_comm, Nat.mul_add_div (by omega), Nat.div_eq_of_lt hb, Nat.add_zero]
  have h2 : (k * w + j) / w = k := by
    rw [Nat.mul_comm, Nat.mul_add_div (by omega), Nat.div_eq_of_lt hj, Nat.add_zero]
  have : a = k := by rw [← h1, ← h2, h]
  subst this
  exact ⟨rfl, by omega⟩

theorem poke_flat {w h : Nat} {px : Nat → Nat → Colour} {k j : Nat} (hk : k < h) (hj : j < w)
    (c : Rgb) : poke (flat w h px) ((k * w + j) * 3) c =
      .ok (flat w h fun a b => if a = k ∧ b = j then c.triple else px a b) := by
  have hb : (k * w + j) * 3 + 2 < (flat w h px).length := by
    rw [flat_length]
    have : (k + 1) * w ≤ h * w := Nat.mul_le_mul_right _ hk
    rw [Nat.add_mul] at this
    have : h * (w * 3) = (h * w) * 3 := by ring
    omega
  unfold poke
  rw [if_pos hb]
  congr 1
  apply List.ext_getElem?
  intro i
  by_cases hi : i < h * (w * 3)
  · have hw : 0 < w := by omega
    obtain ⟨a, b, d, ha, hb', hd, rfl⟩ : ∃ a b d, a < h ∧ b < w ∧ d < 3 ∧ i = (a * w + b) * 3 + d := by
      refine ⟨i / 3 / w, i / 3 % w, i % 3, ?_, Nat.mod_lt _ hw, Nat.mod_lt _ (by omega), ?_⟩
      · rw [Nat.div_lt_iff_lt_mul hw, Nat.div_lt_iff_lt_mul (by omega)]
        calc i < h * (w * 3) := hi
          _ = h * w * 3 := by ring
      · have h1 := Nat.div_add_mod (i / 3) w
        have h2 := Nat.div_add_mod i 3
        rw [Nat.mul_comm (i / 3 / w) w]
        omega
    rw [flat_get _ ha hb' hd]
    by_cases e : a = k ∧ b = j
    · obtain ⟨rfl, rfl⟩ := e
      simp only [List.getElem?_set, List.length_set, and_self, if_true, Rgb.triple]
      have : d = 0 ∨ d = 1 ∨ d = 2 := by omega
      rcases this with rfl | rfl | rfl
      · rw [if_neg (by omega), if_neg (by omega), if_pos (by omega), if_pos (by omega)]; rfl
      · rw [if_neg (by omega), if_pos (by omega), if_pos (by omega)]; rfl
      · rw [if_pos (by omega), if_pos (by omega)]; rfl
    · have hne : a * w + b ≠ k * w + j := fun h => e (addr_eq hb' hj h)
      simp only [List.getElem?_set, List.length_set]
      rw [if_neg (by omega), if_neg (by omega), if_neg (by omega), if_neg e, flat_get px ha hb' hd]
  · rw [List.getElem?_eq_none (by simp only [List.length_set]; rw [flat_length]; omega),
      List.getElem?_eq_none (by rw [flat_length]; omega)]

theorem flat_congr {w h : Nat} {px qx : Nat → Nat → Colour}
    (e : ∀ k, k < h → ∀ j, j < w → px k j = qx k j) : flat w h px = flat w h qx := by
  unfold flat
  apply List.flatMap_congr
  intro k hk
  apply List.flatMap_congr
  intro j hj
  rw [e k (List.mem_range.mp hk) j (List.mem_range.mp hj)]

theorem flat_black (w h : Nat) : flat w h (fun _ _ => black) = List.replicate (h * (w * 3)) 0 := by
  rw [List.eq_replicate_iff]
  refine ⟨flat_length _ _ _, fun b hb => ?_⟩
  unfold flat at hb
  obtain ⟨k, _, hb⟩ := List.mem_flatMap.mp hb
  obtain ⟨j, _, hb⟩ := List.mem_flatMap.mp hb
  simpa [black] using hb

/-! ## Rows of an image -/

theorem readAt_eq {l : List D} {i : Nat} {v : D} (h : l[i]? = some v) : readAt l i = .ok v := by
  unfold readAt; rw [h]

theorem paintRow_eq {m n : Nat} {a : PnmArray} (hw : a.width = n) (hh : a.height = m) {P : List D}
    {k : Nat} (hk : k < m) {cell : Nat → Nat → Rgb} {px : Nat → Nat → Colour} :
    ∀ {es : List RowValue} {done : List RowValue},
      (∀ e ∈ es, e.column < n ∧ ∃ v, P[e.value]? = some v ∧
        colormap (-1) 1 v = .ok (cell k e.column)) →
      paintRow a P k es (flat n m fun i j =>
        if i = k ∧ ∃ e ∈ done, e.column = j then (cell k j).triple else px i j) =
      .ok (flat n m fun i j =>
        if i = k ∧ ∃ e ∈ done ++ es, e.column = j then (cell k j).triple else px i j) := by
  intro es
  induction es with
  | nil => intro done _; simp [paintRow]
  | cons e es ih =>
    intro done h
    obtain ⟨hc, v, hv, hcol⟩ := h e (by simp)
    unfold paintRow
    rw [check_of (by simpa [hh] using hk), ok_bind, check_of (by simpa [hw] using hc), ok_bind,
      readAt_eq hv, ok_bind, hcol, ok_bind, hw, poke_flat hk hc, ok_bind]
    have h' := ih (done := done ++ [e]) (fun e' he' => h e' (by simp [he']))
    rw [List.append_assoc, List.singleton_append] at h'
    rw [← h']
    congr 1
    apply flat_congr
    intro i _ j _
    by_cases e1 : i = k
    · subst e1
      by_cases e2 : j = e.column
      · subst e2
        rw [if_pos ⟨rfl, rfl⟩, if_pos ⟨rfl, e, by simp, rfl⟩]
      · rw [if_neg (fun x => e2 x.2)]
        have : (i = i ∧ ∃ e' ∈ done, e'.column = j) ↔ (i = i ∧ ∃ e' ∈ done ++ [e], e'.column = j) := by
          constructor
          · rintro ⟨_, e', he, hj⟩; exact ⟨rfl, e', by simp [he], hj⟩
          · rintro ⟨_, e', he, hj⟩
            rw [List.mem_append, List.mem_singleton] at he
            rcases he with he | rfl
            · exact ⟨rfl, e', he, hj⟩
            · exact absurd hj.symm e2
        exact if_congr this rfl rfl
    · rw [if_neg (fun x => e1 x.1), if_neg (fun x => e1 x.1), if_neg (fun x => e1 x.1)]

theorem paintRows_eq {m n : Nat} {a : PnmArray} (hw : a.width = n) (hh : a.height = m) {ap : Matrix}
    {P : List D} {cell : Nat → Nat → Rgb} {R : Nat → List RowValue}
    (hR : ∀ k, k < m → row ap k = .ok (R k))
    (hc : ∀ k, k < m → ∀ e ∈ R k, e.column < n ∧ ∃ v, P[e.value]? = some v ∧
      colormap (-1) 1 v = .ok (cell k e.column)) :
    ∀ {r k : Nat}, k + r = m →
      paintRows a ap P r k (flat n m fun i j =>
        if i < k ∧ ∃ e ∈ R i, e.column = j then (cell i j).triple else black) =
      .ok (flat n m fun i j =>
        if ∃ e ∈ R i, e.column = j then (cell i j).triple else black) := by
  intro r
  induction r with
  | zero =>
    intro k hk
    unfold paintRows
    congr 1
    apply flat_congr
    intro i hi j _
    have : i < k := by omega
    simp only [this, true_and]
  | succ r ih =>
    intro k hk
    unfold paintRows
    rw [hR k (by omega), ok_bind]
    have h1 := paintRow_eq (a := a) (P := P) hw hh (k := k) (by omega) (cell := cell) (es := R k) (done := [])
      (px := fun i j => if i < k ∧ ∃ e ∈ R i, e.column = j then (cell i j).triple else black)
      (hc k (by omega))
    simp only [List.not_mem_nil, false_and, exists_false, and_false, if_false, List.nil_append] at h1
    rw [h1, ok_bind, ← ih (k := k + 1) (by omega)]
    congr 1
    apply flat_congr
    intro i _ j _
    by_cases e : i = k
    · subst e
      simp only [true_and, lt_irrefl, false_and, if_false, Nat.lt_succ_self]
    · have h3 : (i < k + 1) = (i < k) := propext (by omega)
      simp only [e, false_and, if_false, h3]

/-! ## The image of the multipliers -/

/-- A row of the image: the first pixel has a colour, the others are black. -/
def line (m : Nat) (c : Colour) : List Nat :=
  flat m 1 fun _ j => if j = 0 then c else black

theorem poke_line {m : Nat} (hm : 0 < m) (c : Colour) (d : Rgb) :
    poke (line m c) 0 d = .ok (line m d.triple) := by
  have h := poke_flat (w := m) (h := 1) (px := fun _ j => if j = 0 then c else black)
    (k := 0) (j := 0) (by omega) hm d
  rw [Nat.zero_mul, Nat.zero_add, Nat.zero_mul] at h
  unfold line
  rw [h]
  congr 1
  apply flat_congr
  intro k hk j _
  have : k = 0 := by omega
  subst this
  by_cases e : j = 0 <;> simp [e]

theorem piLoop_line {m : Nat} (hm : 0 < m) {pi : List D} {col : Nat → Colour} :
    ∀ {n i : Nat} {c : Colour}, (∀ t, t < i + n → ∃ v, pi[t]? = some v ∧
      colormap (-1) 1 v = .ok (rgbOf (col t))) →
      piLoop pi n i (some (line m c)) =
        .ok (some (line m (if n = 0 then c else col (i + n - 1)))) := by
  intro n
  induction n with
  | zero => intro i c _; rfl
  | succ n ih =>
    intro i c h
    obtain ⟨v, hv, hc⟩ := h i (by omega)
    unfold piLoop
    rw [readAt_eq hv, ok_bind, hc, ok_bind]
    dsimp only
    rw [poke_line hm, ok_bind, ih (fun t ht => h t (by omega))]
    congr 3
    by_cases e : n = 0
    · subst e; simp [Rgb.triple, rgbOf]
    · rw [if_neg e, if_neg (by omega)]
      congr 1
      omega

/-- The image with some rows written. -/
def vec (m L : Nat) (head : List Nat) (cs : List Colour) : PnmVector :=
  ⟨some (line m (cs.getLast?.getD black)), some (head ++ (cs.take L).flatMap (line m)),
    (L - cs.length : Nat), m⟩

theorem piObserve_vec {m L : Nat} (hm : 0 < m) {head : List Nat} {cs : List Colour} {pi : List D}
    {col : Nat → Colour} (h : ∀ t, t < m → ∃ v, pi[t]? = some v ∧
      colormap (-1) 1 v = .ok (rgbOf (col t))) :
    piObserve m (vec m L head cs) pi = .ok (vec m L head (cs ++ [col (m - 1)])) := by
  unfold piObserve
  rw [check_of (by simp), ok_bind]
  show piLoop pi m 0 (some (line m (cs.getLast?.getD black))) >>= _ = _
  rw [piLoop_line hm (by simpa using h), ok_bind, if_neg (by omega)]
  unfold PnmVector.flush vec PnmVector.write
  by_cases e : L ≤ cs.length
  · have : ((L - cs.length : Nat) : Int) = 0 := by omega
    simp only [this, if_true, List.getLast?_append, List.getLast?_singleton, List.length_append,
      List.length_singleton]
    rw [List.take_append_of_le_length e]
    have : L - (cs.length + 1) = 0 := by omega
    simp [this]
  · have : ¬ ((L - cs.length : Nat) : Int) = 0 := by omega
    simp only [this, if_false, List.getLast?_append, List.getLast?_singleton, List.length_append,
      List.length_singleton]
    rw [List.take_of_length_le (by omega), List.take_of_length_le (by simp; omega)]
    have : ((L - (cs.length + 1) : Nat) : Int) = ((L - cs.length : Nat) : Int) - 1 := by omega
    simp [this]

theorem writes_file (n : Nat) (v : PnmVector) : (PnmVector.writes n v).file =
    v.file.map (· ++ (List.replicate n (v.buffer.getD [])).flatten) := by
  induction n generalizing v with
  | zero => unfold PnmVector.writes; cases v.file <;> simp
  | succ n ih =>
    unfold PnmVector.writes
    rw [ih]
    unfold PnmVector.write
    cases v.file <;> simp [List.replicate_succ]

theorem close_vec {m L : Nat} {head : List Nat} {cs : List Colour} :
    (vec m L head cs).close = some (head ++ flat m L fun r j =>
      if j = 0 then cs.getD (min r (cs.length - 1)) black else black) := by
  have h1 : (flat m L fun r j => if j = 0 then cs.getD (min r (cs.length - 1)) black else black) =
      ((List.range L).map fun r => cs.getD (min r (cs.length - 1)) black).flatMap (line m) := by
    rw [List.flatMap_map]
    unfold flat
    apply List.flatMap_congr
    intro r _
    unfold line flat
    simp
  have h2 : ((List.range L).map fun r => cs.getD (min r (cs.length - 1)) black) =
      cs.take L ++ List.replicate (L - cs.length) (cs.getLast?.getD black) := by
    apply List.ext_getElem?
    intro i
    by_cases hi : i < L
    · rw [List.getElem?_map, List.getElem?_range hi, Option.map_some]
      by_cases hc : i < cs.length
      · rw [List.getElem?_append_left (by simp; omega), List.getElem?_take, if_pos hi,
          Nat.min_eq_left (by omega), List.getD_eq_getElem?_getD, List.getElem?_eq_getElem hc]
        rfl
      · rw [List.getElem?_append_right (by simp; omega), List.getElem?_replicate, if_pos (by simp; omega),
          Nat.min_eq_right (by omega), List.getD_eq_getElem?_getD, List.getLast?_eq_getElem?]
    · rw [List.getElem?_eq_none (by simp; omega), List.getElem?_eq_none (by simp; omega)]
  unfold PnmVector.close
  rw [writes_file, h1, h2]
  show some (_ ++ (List.replicate (((L - cs.length : Nat) : Int)).toNat
    (line m (cs.getLast?.getD black))).flatten) = _
  rw [List.flatMap_append, List.append_assoc, Int.toNat_natCast]
  congr 3
  rw [List.flatMap_replicate]

/-! ## The places of elements -/

open Merge (Merged)
open Sparse (accessors)

theorem accessors_places (csts : List Merged) : accessors csts =
    (places csts).zipIdx.map fun p => ⟨p.1.1, p.1.2, p.2⟩ := rfl

/-- The elements of a row of the matrix. -/
def rowOf (csts : List Merged) (k : Nat) : List RowValue :=
  ((accessors csts).filter fun a => decide (a.row = k)).map fun a => ⟨a.id, a.col⟩

theorem mem_row {csts : List Merged} {k : Nat} {e : RowValue} :
    e ∈ rowOf csts k ↔ (places csts)[e.value]? = some (k, e.column) := by
  unfold rowOf
  rw [accessors_places]
  simp only [List.mem_map, List.mem_filter, decide_eq_true_eq]
  constructor
  · rintro ⟨a, ⟨⟨p, hp, rfl⟩, h1⟩, rfl⟩
    have := List.mk_mem_zipIdx_iff_getElem?.mp (show (p.1, p.2) ∈ _ from hp)
    rw [this, ← h1]
  · intro h
    exact ⟨⟨k, e.column, e.value⟩, ⟨⟨((k, e.column), e.value),
      List.mk_mem_zipIdx_iff_getElem?.mpr h, rfl⟩, rfl⟩, rfl⟩

theorem places_nodup {csts : List Merged} (h : ∀ c ∈ csts, (c.elems.map FunElem.var).Nodup) :
    (places csts).Nodup := by
  unfold places
  rw [List.nodup_flatMap]
  constructor
  · rintro ⟨c, k⟩ hc
    have := h c (List.fst_mem_of_mem_zipIdx hc)
    have e : (c.elems.map fun e => (k, e.var)) = (c.elems.map FunElem.var).map (Prod.mk k) := by
      rw [List.map_map]; rfl
    show (c.elems.map fun e => (k, e.var)).Nodup
    rw [e]
    exact this.map (fun a b hab => (Prod.mk.inj hab).2)
  · have hk : csts.zipIdx.Pairwise fun a b => a.2 < b.2 := by
      have : (csts.zipIdx.map Prod.snd).Pairwise (· < ·) := by
        rw [List.zipIdx_map_snd]; exact List.pairwise_lt_range'
      exact List.pairwise_map.mp this
    refine hk.imp ?_
    intro a b hab x hx hy
    obtain ⟨e, _, rfl⟩ := List.mem_map.mp hx
    obtain ⟨e', _, he'⟩ := List.mem_map.mp hy
    have := (Prod.mk.inj he').1
    omega

/-! ## A run -/

theorem colormap_colourOf {v : D} (h : v ≠ .nan) : colormap (-1) 1 v = .ok (rgbOf (colourOf v)) := by
  cases hv : nearest v with
  | none => cases v <;> simp_all [nearest]
  | some q =>
    rw [colormap_eq hv]
    unfold colourOf
    rw [hv]
    rfl

theorem triple_rgbOf (c : Colour) : (rgbOf c).triple = c := rfl

theorem mulU_eq {a b : Nat} (h : a * b < 2 ^ 32) : mulU a b = a * b := Nat.mod_eq_of_lt h

theorem make_array {m n : Nat} (hm : 0 < m) (hn : 0 < n) (hs : 3 * m * n < 2 ^ 32) :
    PnmArray.make m n = ⟨some (flat n m fun _ _ => black), n, m⟩ := by
  have h1 : 3 * m * n = 3 * (m * n) := Nat.mul_assoc _ _ _
  have h2 : 0 < m * n := Nat.mul_pos hm hn
  have h4 : 3 * m ≤ 3 * m * n := Nat.le_mul_of_pos_right _ hn
  have h3 : n * m = m * n := Nat.mul_comm _ _
  unfold PnmArray.make arraySize
  rw [mulU_eq (a := n) (by omega), mulU_eq (a := 3) (by omega), mulU_eq (by omega), if_pos (by omega),
    flat_black]
  congr 3
  ring

theorem row_rowOf {csts : List Merged} {n : Nat} {ap : Matrix} (hmk : Sparse.make csts n = .ok ap)
    (hv : ∀ c ∈ csts, ∀ e ∈ c.elems, e.var < n) (hne : ∃ c ∈ csts, c.elems ≠ []) :
    0 < csts.length ∧ 0 < n ∧ ∀ k, k < csts.length → row ap k = .ok (rowOf csts k) := by
  have hv' : ∀ e ∈ csts.flatMap Merged.elems, e.var < n := by
    intro e he
    obtain ⟨c, hc, hec⟩ := List.mem_flatMap.mp he
    exact hv c hc e hec
  obtain ⟨c, hc, hce⟩ := hne
  obtain ⟨e0, l, he0⟩ := List.exists_cons_of_ne_nil hce
  have hn : 0 < n := by have := hv c hc e0 (by simp [he0]); omega
  have hne' : csts.flatMap Merged.elems ≠ [] := by
    intro h0
    have : e0 ∈ csts.flatMap Merged.elems := List.mem_flatMap.mpr ⟨c, hc, by simp [he0]⟩
    rw [h0] at this
    simp at this
  rw [Sparse.make_eq csts n hv' hne'] at hmk
  cases hmk
  exact ⟨List.length_pos_of_mem hc, hn, fun k hk => Sparse.row_eq csts n k hk hn⟩

theorem place_lt {csts : List Merged} {n : Nat} (hv : ∀ c ∈ csts, ∀ e ∈ c.elems, e.var < n)
    {p k j : Nat} (h : (places csts)[p]? = some (k, j)) : j < n := by
  have := List.mem_of_getElem? h
  unfold places at this
  obtain ⟨⟨c, i⟩, hci, h⟩ := List.mem_flatMap.mp this
  obtain ⟨e, he, h⟩ := List.mem_map.mp h
  cases h
  have := List.mk_mem_zipIdx_iff_getElem?.mp hci
  exact hv c (List.mem_of_getElem? this) e he

theorem preference_place {csts : List Merged} (hu : ∀ c ∈ csts, (c.elems.map FunElem.var).Nodup)
    {P : List D} (hP : P.length = (places csts).length) {p k j : Nat}
    (h : (places csts)[p]? = some (k, j)) :
    ∃ v, P[p]? = some v ∧ preference csts P k j = some v := by
  obtain ⟨hp, h'⟩ := List.getElem?_eq_some_iff.mp h
  have hp' : p < P.length := by rw [hP]; exact hp
  refine ⟨_, List.getElem?_eq_getElem hp', ?_⟩
  unfold preference
  rw [if_pos (List.mem_of_getElem? h), ← h', (places_nodup hu).idxOf_getElem,
    List.getElem?_eq_getElem hp']

theorem preference_none {csts : List Merged} {P : List D} {k j : Nat}
    (h : ¬ ∃ e ∈ rowOf csts k, e.column = j) : preference csts P k j = none := by
  unfold preference
  rw [if_neg]
  intro hmem
  obtain ⟨p, hp⟩ := List.getElem?_of_mem hmem
  exact h ⟨⟨p, j⟩, mem_row.mpr hp, rfl⟩

theorem apObserve_eq {opens : String → Bool} {base : String} {csts : List Merged} {n : Nat}
    {ap : Matrix} (hmk : Sparse.make csts n = .ok ap)
    (hv : ∀ c ∈ csts, ∀ e ∈ c.elems, e.var < n) (hu : ∀ c ∈ csts, (c.elems.map FunElem.var).Nodup)
    (hne : ∃ c ∈ csts, c.elems ≠ []) (hs : 3 * csts.length * n < 2 ^ 32) {o : List D × List D}
    (ho : Seen csts o) (fs : Frames) :
    apObserve opens base csts.length n fs ap o.1 = .ok
      { frame := fs.frame + 1
        files := if opens s!"{base}-P-{fs.frame}.pnm" then
            fs.files ++ [⟨s!"{base}-P-{fs.frame}.pnm", image n csts.length (pixel csts o.1)⟩]
          else fs.files } := by
  obtain ⟨hm, hn, hR⟩ := row_rowOf hmk hv hne
  have hpaint := paintRows_eq (a := ⟨some (flat n csts.length fun _ _ => black), n, csts.length⟩)
    (m := csts.length) (n := n) rfl rfl (P := o.1)
    (cell := fun k j => rgbOf (pixel csts o.1 k j)) hR (by
      intro k hk e he
      rw [mem_row] at he
      obtain ⟨v, hv', hp⟩ := preference_place hu ho.1 he
      refine ⟨place_lt hv he, v, hv', ?_⟩
      rw [colormap_colourOf]
      · unfold pixel
        rw [hp]
        rfl
      · intro e
        exact ho.2.2.1 (e ▸ List.mem_of_getElem? hv')) (r := csts.length) (k := 0) (by omega)
  simp only [Nat.not_lt_zero, false_and, if_false, triple_rgbOf] at hpaint
  have hpx : (flat n csts.length fun i j =>
      if ∃ e ∈ rowOf csts i, e.column = j then pixel csts o.1 i j else black) =
      flat n csts.length (pixel csts o.1) := by
    apply flat_congr
    intro i _ j _
    split
    · rfl
    · rename_i hno
      unfold pixel
      rw [preference_none hno]
      rfl
  unfold apObserve
  rw [check_of (by simp), ok_bind, make_array hm hn hs]
  dsimp only
  rw [hpaint, ok_bind, hpx]
  rfl

theorem piObserve_seen {csts : List Merged} {o : List D × List D} (ho : Seen csts o)
    (hm : 0 < csts.length) {L : Nat} {head : List Nat} {cs : List Colour} :
    piObserve csts.length (vec csts.length L head cs) o.2 =
      .ok (vec csts.length L head (cs ++ [colourOf (o.2.getD (csts.length - 1) .nan)])) := by
  have := piObserve_vec (L := L) hm (head := head) (cs := cs) (pi := o.2)
    (col := fun t => colourOf (o.2.getD t .nan)) (by
      intro t ht
      have ht' : t < o.2.length := by rw [ho.2.1]; exact ht
      refine ⟨_, List.getElem?_eq_getElem ht', ?_⟩
      rw [List.getD_eq_getElem?_getD, List.getElem?_eq_getElem ht', Option.getD_some]
      apply colormap_colourOf
      intro e
      apply ho.2.2.2
      rw [← e]
      exact List.getElem_mem _)
  exact this

theorem pnmLoop_eq {opens : String → Bool} {base : String} {csts : List Merged} {n : Nat}
    {ap : Matrix} (hmk : Sparse.make csts n = .ok ap)
    (hv : ∀ c ∈ csts, ∀ e ∈ c.elems, e.var < n) (hu : ∀ c ∈ csts, (c.elems.map FunElem.var).Nodup)
    (hne : ∃ c ∈ csts, c.elems ≠ []) (hs : 3 * csts.length * n < 2 ^ 32) {L : Nat} {head : List Nat} :
    ∀ {os : List (List D × List D)}, (∀ o ∈ os, Seen csts o) → ∀ {cs : List Colour} {fs : Frames},
      pnmLoop opens base csts.length n ap os (vec csts.length L head cs) fs = .ok
        (vec csts.length L head (cs ++ os.map fun o => colourOf (o.2.getD (csts.length - 1) .nan)),
          { frame := fs.frame + os.length
            files := fs.files ++ (os.zipIdx fs.frame).flatMap fun o =>
              if opens s!"{base}-P-{o.2}.pnm" then
                [⟨s!"{base}-P-{o.2}.pnm", image n csts.length (pixel csts o.1.1)⟩] else [] }) := by
  have hm : 0 < csts.length := by
    obtain ⟨c, hc, _⟩ := hne
    exact List.length_pos_of_mem hc
  intro os
  induction os with
  | nil => intro _ cs fs; simp [pnmLoop]
  | cons o os ih =>
    intro h cs fs
    unfold pnmLoop
    rw [piObserve_seen (h o (by simp)) hm, ok_bind, apObserve_eq hmk hv hu hne hs (h o (by simp)),
      ok_bind, ih (fun o' ho' => h o' (by simp [ho']))]
    congr 2
    · simp
    · simp only [List.length_cons, List.zipIdx_cons, List.flatMap_cons]
      congr 1
      · omega
      · split <;> simp

theorem fillRow_eq {P : List D} {n : Nat} {val : Nat → D} {f : Nat → D} :
    ∀ {es done : List RowValue}, (∀ e ∈ es, e.column < n ∧ P[e.value]? = some (val e.column)) →
      fillRow P es ((List.range n).map fun j =>
        if ∃ e ∈ done, e.column = j then val j else f j) =
      .ok ((List.range n).map fun j => if ∃ e ∈ done ++ es, e.column = j then val j else f j) := by
  intro es
  induction es with
  | nil => intro done _; simp [fillRow]
  | cons e es ih =>
    intro done h
    obtain ⟨hc, hv⟩ := h e (by simp)
    unfold fillRow
    rw [readAt_eq hv, ok_bind, if_pos (by simpa using hc)]
    have h' := ih (done := done ++ [e]) (fun e' he' => h e' (by simp [he']))
    rw [List.append_assoc, List.singleton_append] at h'
    rw [← h']
    congr 1
    apply List.ext_getElem?
    intro j
    rw [List.getElem?_set]
    by_cases hj : j < n
    · by_cases e1 : e.column = j
      · subst e1
        rw [if_pos rfl, if_pos (by simpa using hc), List.getElem?_map, List.getElem?_range hc,
          Option.map_some, if_pos ⟨e, by simp, rfl⟩]
      · rw [if_neg e1, List.getElem?_map, List.getElem?_map, List.getElem?_range hj, Option.map_some,
          Option.map_some]
        congr 1
        apply if_congr _ rfl rfl
        constructor
        · rintro ⟨e', he, hj⟩; exact ⟨e', by simp [he], hj⟩
        · rintro ⟨e', he, hj⟩
          rw [List.mem_append, List.mem_singleton] at he
          rcases he with he | rfl
          · exact ⟨e', he, hj⟩
          · exact absurd hj e1
    · rw [if_neg (by omega), List.getElem?_eq_none (by simp; omega),
        List.getElem?_eq_none (by simp; omega)]

theorem textRows_eq {num : D → String} {n m : Nat} {ap : Matrix} {P : List D}
    {R : Nat → List RowValue} {val : Nat → Nat → D} (hR : ∀ k, k < m → row ap k = .ok (R k))
    (hc : ∀ k, k < m → ∀ e ∈ R k, e.column < n ∧ P[e.value]? = some (val k e.column)) :
    ∀ {r k : Nat}, k + r = m → textRows num n ap P r k =
      .ok ((List.range' k r).flatMap fun i => ((List.range n).flatMap fun j =>
        bytes s!"{num (if ∃ e ∈ R i, e.column = j then val i j else .fin 0)} ") ++ bytes "\n") := by
  intro r
  induction r with
  | zero => intro k _; rfl
  | succ r ih =>
    intro k hk
    unfold textRows
    have h1 := fillRow_eq (P := P) (n := n) (val := val k) (f := fun _ => .fin 0) (es := R k) (done := [])
      (hc k (by omega))
    simp only [List.not_mem_nil, false_and, exists_false, if_false, List.nil_append] at h1
    have h2 : (List.range n).map (fun _ => D.fin 0) = List.replicate n (D.fin 0) := by simp
    rw [hR k (by omega), ok_bind, ← h2, h1, ok_bind, ih (k := k + 1) (by omega), ok_bind,
      List.range'_succ, List.flatMap_cons, List.flatMap_map]

theorem apFileObserve_eq {opens : String → Bool} {num : D → String} {base : String}
    {csts : List Merged} {n : Nat} {ap : Matrix} (hmk : Sparse.make csts n = .ok ap)
    (hv : ∀ c ∈ csts, ∀ e ∈ c.elems, e.var < n) (hu : ∀ c ∈ csts, (c.elems.map FunElem.var).Nodup)
    (hne : ∃ c ∈ csts, c.elems ≠ []) {P : List D} (hP : P.length = (places csts).length)
    (fs : Frames) :
    apFileObserve opens num base csts.length n fs ap P = .ok
      { frame := fs.frame + 1
        files := if opens s!"{base}-P-{fs.frame}.txt" then
            fs.files ++ [⟨s!"{base}-P-{fs.frame}.txt", table num csts n P⟩]
          else fs.files } := by
  obtain ⟨hm, hn, hR⟩ := row_rowOf hmk hv hne
  have h := textRows_eq (num := num) (n := n) (P := P)
    (val := fun k j => (preference csts P k j).getD (.fin 0)) hR (by
      intro k hk e he
      rw [mem_row] at he
      obtain ⟨v, hv', hp⟩ := preference_place hu hP he
      refine ⟨place_lt hv he, ?_⟩
      rw [hp, hv']
      rfl) (r := csts.length) (k := 0) (by omega)
  have ht : ((List.range' 0 csts.length).flatMap fun i => ((List.range n).flatMap fun j =>
        bytes s!"{num (if ∃ e ∈ rowOf csts i, e.column = j then
          (preference csts P i j).getD (.fin 0) else .fin 0)} ") ++ bytes "\n") =
      table num csts n P := by
    rw [← List.range_eq_range']
    unfold table
    apply List.flatMap_congr
    intro k _
    congr 1
    apply List.flatMap_congr
    intro j _
    have : (if ∃ e ∈ rowOf csts k, e.column = j then (preference csts P k j).getD (.fin 0)
        else .fin 0) = (preference csts P k j).getD (.fin 0) := by
      split
      · rfl
      · rename_i hno
        rw [preference_none hno]
        rfl
    rw [this]
    rfl
  unfold apFileObserve
  dsimp only
  rw [h, ok_bind, ht]

theorem paintRow_bounds {a : PnmArray} {P : List D} {k : Nat} : ∀ {es : List RowValue}
    {buf buf' : List Nat}, paintRow a P k es buf = .ok buf' → buf'.length = buf.length ∧
      ∀ e ∈ es, (k * a.width + e.column) * 3 + 2 < buf.length := by
  intro es
  induction es with
  | nil => intro buf buf' h; cases h; simp
  | cons e es ih =>
    intro buf buf' h
    unfold paintRow at h
    obtain ⟨_, _, h⟩ := bind_eq_ok.mp h
    obtain ⟨_, _, h⟩ := bind_eq_ok.mp h
    obtain ⟨_, _, h⟩ := bind_eq_ok.mp h
    obtain ⟨_, _, h⟩ := bind_eq_ok.mp h
    obtain ⟨b, hb, h⟩ := bind_eq_ok.mp h
    unfold poke at hb
    split at hb
    · rename_i hlt
      cases hb
      obtain ⟨h1, h2⟩ := ih h
      simp only [List.length_set] at h1 h2
      refine ⟨h1, fun e' he' => ?_⟩
      rcases List.mem_cons.mp he' with rfl | he'
      · exact hlt
      · exact h2 e' he'
    · cases hb

theorem paintRows_bounds {a : PnmArray} {P : List D} {ap : Matrix} {R : Nat → List RowValue} {m : Nat}
    (hR : ∀ k, k < m → row ap k = .ok (R k)) : ∀ {r k : Nat} {buf buf' : List Nat}, k + r = m →
      paintRows a ap P r k buf = .ok buf' → buf'.length = buf.length ∧
      ∀ i, k ≤ i → i < m → ∀ e ∈ R i, (i * a.width + e.column) * 3 + 2 < buf.length := by
  intro r
  induction r with
  | zero => intro k buf buf' hk h; cases h; exact ⟨rfl, fun i _ _ => by omega⟩
  | succ r ih =>
    intro k buf buf' hk h
    unfold paintRows at h
    rw [hR k (by omega), ok_bind] at h
    obtain ⟨b, hb, h⟩ := bind_eq_ok.mp h
    obtain ⟨h1, h2⟩ := paintRow_bounds hb
    obtain ⟨h3, h4⟩ := ih (by omega) h
    refine ⟨h3.trans h1, fun i hi hm => ?_⟩
    by_cases e : i = k
    · subst e; exact h2
    · rw [← h1]; exact h4 i (by omega) hm

end Bx.Observer
